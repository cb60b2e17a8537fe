import Verif.Build.PathModel
import Verif.Common.Fn
/-!
# A file system

The system calls of a Unix file system, as far as `gen/build/src/out.rs` uses them.  This is an explicit model of something
outside /repo, and part of the trusted base.  A place is the list of names from the root, after the links among the
directories on the way have been followed; only the last name may be a symbolic link.  Every call can fail.
-/
namespace Verif.Build

abbrev Place := List Name

/-- What a directory lists under a name. -/
inductive Node
  | file (inode : Nat)
  | link (target : Place)
  | dir
  deriving DecidableEq

structure Fs where
  node : Place → Option Node
  /-- the bytes of a file -/
  data : Nat → List Nat
  /-- how often a file has been changed, in place of the time of its last change -/
  changes : Nat → Nat
  /-- the number of the next new file -/
  next : Nat

/-- Where symbolic links lead, after at most as many as the kernel follows. -/
def Fs.target (fs : Fs) : Nat → Place → Option Place
  | 0, _ => none
  | n + 1, p => match fs.node p with
    | some (.link q) => fs.target n q
    | _ => some p

/-- Where a path leads that starts in a directory; a symbolic link is followed wherever it lies on the way. -/
def Fs.walk (fs : Fs) (dir : Place) : List Name → Option Place
  | [] => some dir
  | n :: ns => match fs.target 40 (dir ++ [n]) with
    | some q => fs.walk q ns
    | none => none

/-- The file that opening a path gives. -/
def Fs.lookup (fs : Fs) (p : Place) : Option Nat :=
  match fs.target 40 p with
  | none => none
  | some q => match fs.node q with
    | some (.file i) => some i
    | _ => none

/-- The bytes that one finds by opening a path and reading to the end. -/
def Fs.contents (fs : Fs) (p : Place) : Option (List Nat) := (fs.lookup p).map fs.data

/-- A table of places with one entry changed. -/
def setNode (f : Place → Option Node) (p : Place) (v : Option Node) : Place → Option Node :=
  fun q => if q = p then v else f q

/-- `mkdir -p`: all missing directories above a place, unless something else is in the way. -/
def Fs.mkdirs (fs : Fs) (p : Place) : Fs :=
  if (List.range p.length).all fun n => fs.node (p.take n) == none || fs.node (p.take n) == some .dir then
    { fs with node := fun q => if q <+: p ∧ q ≠ p ∧ fs.node q = none then some .dir else fs.node q }
  else fs

/-- `unlink`: not for directories. -/
def Fs.unlink (fs : Fs) (p : Place) : Fs :=
  if fs.node p = some .dir then fs else { fs with node := setNode fs.node p none }

/-- `std::fs::remove_dir_all`: everything at and below a place; a symbolic link is removed itself, and a file is not. -/
def Fs.removeTree (fs : Fs) (p : Place) : Fs :=
  match fs.node p with
  | some (.file _) => fs
  | _ => { fs with node := fun q => if p <+: q then none else fs.node q }

/-- Opening for writing, creating or emptying the file. -/
def Fs.openTrunc (fs : Fs) (p : Place) : Option (Fs × Nat) :=
  match fs.target 40 p with
  | none => none
  | some q => match fs.node q with
    | some (.file i) => some ({ fs with data := upd fs.data i [], changes := upd fs.changes i (fs.changes i + 1) }, i)
    | some .dir => none
    | some (.link _) => none
    | none =>
      if fs.node q.dropLast = some .dir then
        some ({ node := setNode fs.node q (some (.file fs.next)), data := upd fs.data fs.next [],
                changes := upd fs.changes fs.next 1, next := fs.next + 1 }, fs.next)
      else none

/-- The bytes of a file after some have been written at an offset. -/
def patch (d : List Nat) (off : Nat) (chunk : List Nat) : List Nat :=
  (d ++ List.replicate (off - d.length) 0).take off ++ chunk ++ d.drop (off + chunk.length)

def Fs.writeAt (fs : Fs) (i off : Nat) (chunk : List Nat) : Fs :=
  { fs with data := upd fs.data i (patch (fs.data i) off chunk), changes := upd fs.changes i (fs.changes i + 1) }

/-- `symlink`: `none` if there is something already or no directory. -/
def Fs.symlink (fs : Fs) (content p : Place) : Option Fs :=
  if fs.node p = none ∧ fs.node p.dropLast = some .dir then
    some { fs with node := setNode fs.node p (some (.link content)) }
  else none

end Verif.Build
