import Verif.Build.IncludeModel
/-!
# What a build does to a file system with links: `gen/build/src/out.rs`

`writeStep` and `linkStep` act on a place.  Here the calls of a build script are given paths: the kernel follows the links
among the directories of a path, each time it is used.  Unix only.  No name is `..` (C40 for the paths of source files).
-/
namespace Verif.Build

/-- The place that a path names: the links among its directories are followed, the last name is not; `none` if there are
too many. -/
def Fs.locate (fs : Fs) (p : Place) : Option Place :=
  (fs.walk [] p.dropLast).map (· ++ p.drop (p.length - 1))

/-- `std::fs::create_dir_all` of the directory above the path, from a directory on; at most as many directories are made
as `budget` says before one cannot be made. -/
def Fs.makeDirs (fs : Fs) (budget : Nat) (dir : Place) : List Name → Fs
  | n :: m :: ns => match fs.target 40 (dir ++ [n]) with
    | none => fs
    | some q => match fs.node q, budget with
      | some .dir, _ => fs.makeDirs budget q (m :: ns)
      | none, b + 1 =>
        -- a link that leads nowhere is in the way
        if q = dir ++ [n] ∧ fs.node dir = some .dir then
          Fs.makeDirs { fs with node := setNode fs.node q (some .dir) } b q (m :: ns)
        else fs
      | _, _ => fs
  | _ => fs

/-- gen/build/src/out.rs:7-30 `write`, 124-156 `best_effort_remove`: the next system call, on a path.  What has been opened
does not depend on the path any more. -/
def pathWriteStep (p : Place) (content : List Nat) (fs : Fs) : Proc → Ev → Fs × Proc
  | .mkdirs, .go n => (fs.makeDirs n [] p, .opening)
  | .reading i acc, ev => writeStep p content fs (.reading i acc) ev
  | .writing i off, ev => writeStep p content fs (.writing i off) ev
  | c, ev => match fs.locate p with
    | some q => writeStep q content fs c ev
    | none => writeStep p content fs c .fail

/-- gen/build/src/out.rs:32-122: the next system call when a symbolic link is made. -/
def pathLinkStep (p content : Place) (fs : Fs) : LinkProc → Ev → Fs × LinkProc
  | .mkdirs, .go n => (fs.makeDirs n [] p, .linking)
  | c, ev => match fs.locate p with
    | some q => linkStep q content fs c ev
    | none => linkStep p content fs c .fail

/-- One script alone, as far as it has come; `allowed` says how the calls may end. -/
inductive Goes {π : Type} (step : Fs → π → Ev → Fs × π) (allowed : π → Ev → Prop) : Fs → π → Fs → π → Prop
  | refl (fs : Fs) (c : π) : Goes step allowed fs c fs c
  | next {fs : Fs} {c : π} {f : Fs} {d : π} (e : Ev) (h : allowed c e)
      (rest : Goes step allowed (step fs c e).1 (step fs c e).2 f d) : Goes step allowed fs c f d

/-- One call into `out.rs` has come so far; the last component is the outcome if it has come to an end. -/
def Op.Goes (looks : Proc → Ev → Prop) (looksLink : LinkProc → Ev → Prop) : Op → Fs → Fs → Option Bool → Prop
  | .write p content, fs, f, out => ∃ d, Build.Goes (pathWriteStep p content) looks fs .start f d ∧
      out = (match d with | .done ok => some ok | _ => none)
  | .link p target, fs, f, out => ∃ d, Build.Goes (pathLinkStep p target) looksLink fs .start f d ∧
      out = (match d with | .done ok => some ok | _ => none)

/-- The file systems that a build script can leave behind, if it ends or is killed at any time: it makes its calls into
`out.rs` in order, and ends if one fails whose error is passed on. -/
inductive Reaches (looks : Proc → Ev → Prop) (looksLink : LinkProc → Ev → Prop) : Fs → List (Op × Bool) → Fs → Prop
  | stop (fs : Fs) (ops : List (Op × Bool)) : Reaches looks looksLink fs ops fs
  | within {fs f : Fs} {op : Op} {must : Bool} {ops : List (Op × Bool)} {out : Option Bool}
      (h : op.Goes looks looksLink fs f out) : Reaches looks looksLink fs ((op, must) :: ops) f
  | next {fs f f' : Fs} {op : Op} {must ok : Bool} {ops : List (Op × Bool)} (h : op.Goes looks looksLink fs f (some ok))
      (hmust : must = true → ok = true) (rest : Reaches looks looksLink f ops f') :
      Reaches looks looksLink fs ((op, must) :: ops) f'

end Verif.Build
