import Verif.Build.Fs
/-!
# Writing generated files: `gen/build/src/out.rs`, `gen/src/fs.rs`

Each system call is a step, so that several build scripts can run at the same time and a script can be killed between any
two calls.  Unix only.
-/
namespace Verif.Build

/-- How a system call ends: with an error, or well; reading and writing then move at most `n + 1` bytes. -/
inductive Ev
  | fail
  | go (n : Nat)
  deriving DecidableEq

/-- How far a call of `out::write` has come. -/
inductive Proc
  /-- out.rs:11: before `fs::exists` -/
  | start
  /-- out.rs:12: before `fs::read` opens the file -/
  | present
  /-- out.rs:12: the bytes read so far -/
  | reading (i : Nat) (acc : List Nat)
  /-- out.rs:18, 149: before `symlink_metadata` in `best_effort_remove` -/
  | removing
  /-- out.rs:151 -/
  | removingTree
  /-- out.rs:153 -/
  | unlinking
  /-- out.rs:20-21 -/
  | mkdirs
  /-- out.rs:24: before `fs::write` opens the file -/
  | opening
  /-- out.rs:24: bytes before the offset are written -/
  | writing (i off : Nat)
  | done (ok : Bool)
  deriving DecidableEq

/-- gen/build/src/out.rs:7-30 `write`, 124-156 `best_effort_remove`, gen/src/fs.rs:71-76 `exists`: the next system call.
Removing a directory with all that is in it is one step, and so is making the directories above a path; if one fails it has
changed nothing. -/
def writeStep (p : Place) (content : List Nat) (fs : Fs) : Proc → Ev → Fs × Proc
  | .start, .fail => (fs, .mkdirs)
  | .start, .go _ => if fs.node p = none then (fs, .mkdirs) else (fs, .present)
  | .present, .fail => (fs, .removing)
  | .present, .go _ => match fs.lookup p with
    | none => (fs, .removing)
    | some i => (fs, .reading i [])
  | .reading _ _, .fail => (fs, .removing)
  | .reading i acc, .go n =>
    let chunk := ((fs.data i).drop acc.length).take (n + 1)
    if chunk = [] then if acc = content then (fs, .done true) else (fs, .removing)
    else (fs, .reading i (acc ++ chunk))
  | .removing, .fail => (fs, .opening)
  | .removing, .go _ => match fs.node p with
    | none => (fs, .opening)
    | some .dir => (fs, .removingTree)
    | some _ => (fs, .unlinking)
  | .removingTree, .fail => (fs, .opening)
  | .removingTree, .go _ => (fs.removeTree p, .opening)
  | .unlinking, .fail => (fs, .opening)
  | .unlinking, .go _ => (fs.unlink p, .opening)
  | .mkdirs, .fail => (fs, .opening)
  | .mkdirs, .go _ => (fs.mkdirs p, .opening)
  | .opening, .fail => (fs, .done false)
  | .opening, .go _ => match fs.openTrunc p with
    | none => (fs, .done false)
    | some (fs', i) => (fs', .writing i 0)
  | .writing i off, ev =>
    if content.length ≤ off then (fs, .done true)
    else match ev with
      | .fail => (fs, .done false)
      | .go n =>
        let chunk := (content.drop off).take (n + 1)
        (fs.writeAt i off chunk, .writing i (off + chunk.length))
  | .done ok, _ => (fs, .done ok)

/-- How far a call of `relative_symlink_file` or `absolute_symlink_file` has come. -/
inductive LinkProc
  /-- out.rs:71: before `fs::exists` -/
  | start
  /-- out.rs:72, 149 -/
  | removing
  | removingTree
  | unlinking
  /-- out.rs:75-76 -/
  | mkdirs
  /-- out.rs:86 -/
  | linking
  | done (ok : Bool)
  deriving DecidableEq

/-- gen/build/src/out.rs:32-55, 70-106 `prepare_parent_directory_for_symlink`, `symlink_file`: the next system call.
`content` is what the link is to contain, as a place. -/
def linkStep (p content : Place) (fs : Fs) : LinkProc → Ev → Fs × LinkProc
  | .start, .fail => (fs, .mkdirs)
  | .start, .go _ => if fs.node p = none then (fs, .mkdirs) else (fs, .removing)
  | .removing, .fail => (fs, .linking)
  | .removing, .go _ => match fs.node p with
    | none => (fs, .linking)
    | some .dir => (fs, .removingTree)
    | some _ => (fs, .unlinking)
  | .removingTree, .fail => (fs, .linking)
  | .removingTree, .go _ => (fs.removeTree p, .linking)
  | .unlinking, .fail => (fs, .linking)
  | .unlinking, .go _ => (fs.unlink p, .linking)
  | .mkdirs, .fail => (fs, .linking)
  | .mkdirs, .go _ => (fs.mkdirs p, .linking)
  | .linking, .fail => (fs, .done false)
  | .linking, .go _ => match fs.symlink content p with
    | some fs' => (fs', .done true)
    -- out.rs:89-97: `ErrorKind::AlreadyExists` is taken for success
    | none => (fs, .done (fs.node p != none))
  | .done ok, _ => (fs, .done ok)

/-- A file system and the build scripts that are running on it. -/
structure Sys (π : Type) where
  fs : Fs
  proc : Nat → π

/-- One system call of one script. -/
def sysStep {π : Type} (step : Fs → π → Ev → Fs × π) (s : Sys π) (e : Nat × Ev) : Sys π :=
  let r := step s.fs (s.proc e.1) e.2
  ⟨r.1, upd s.proc e.1 r.2⟩

/-- A schedule: who makes the next call, and how it ends. -/
def runSys {π : Type} (step : Fs → π → Ev → Fs × π) (s : Sys π) (sched : List (Nat × Ev)) : Sys π :=
  sched.foldl (sysStep step) s

/-- One script alone. -/
def runAlone {π : Type} (step : Fs → π → Ev → Fs × π) (fs : Fs) (c : π) (evs : List Ev) : Fs × π :=
  evs.foldl (fun r e => step r.1 r.2 e) (fs, c)

end Verif.Build
