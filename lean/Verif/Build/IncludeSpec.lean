import Verif.Build.IncludeModel
import Verif.Build.WriteSpec
/-!
# Searching for an included file
-/
namespace Verif.Build

/-- The bytes of the file that a path leads to from a directory. -/
def Fs.read (fs : Fs) (dir : Place) (path : List Name) : Option (List Nat) :=
  match fs.walk dir path with
  | some q => match fs.node q with
    | some (.file i) => some (fs.data i)
    | _ => none
  | none => none

/-- What `#include <path>` gives, with the directories of the `-I` options in order: the first of them that has such a file.
(`#include "path"` looks into the directory of the including file first.) -/
def Fs.include (fs : Fs) : List Place → List Name → Option (List Nat)
  | [], _ => none
  | d :: ds, path => match fs.read d path with
    | some bytes => some bytes
    | none => fs.include ds path

/-- What there is lies in directories, from the root on. -/
def Tree (fs : Fs) : Prop := ∀ q n, fs.node (q ++ [n]) ≠ none → fs.node q = some .dir

/-- A build script ran alone, no system call failed, and each call into `out.rs` whose error is passed on has succeeded.
The outcomes are listed. -/
inductive Ran : Fs → List (Op × Bool) → List Bool → Fs → Prop
  | nil (fs : Fs) : Ran fs [] [] fs
  | cons {fs fs1 fs' : Fs} {op : Op} {must ok : Bool} {ops : List (Op × Bool)} {oks : List Bool} (evs : List Ev)
      (smooth : Smooth evs) (run : op.run fs evs = (fs1, some ok)) (hmust : must = true → ok = true)
      (rest : Ran fs1 ops oks fs') : Ran fs ((op, must) :: ops) (ok :: oks) fs'

/-- The name of the header of a source file. -/
def HeaderOf (rel h : List Name) : Prop := ∃ dir name, rel = dir ++ [name] ∧ h = dir ++ [name ++ ".h".toList]

/-- No path of one pair is that of the other, or lies below it. -/
def Apart (p q : List Name) : Prop := ¬ p <+: q ∧ ¬ q <+: p

instance (p q : List Name) : Decidable (Apart p q) := by unfold Apart; infer_instance

/-- The paths that include something generated from a source file. -/
def Names (pre : List Name) (rel path : List Name) : Prop := path = pre ++ rel ∨ ∃ h, HeaderOf rel h ∧ path = pre ++ h

/-- The include paths of two source files do not meet: no source file is named like the header of another, or lies in a
directory that is named so. -/
def Separate (pre : List Name) (a b : SourceFile) : Prop :=
  ∀ p q, Names pre a.rel p → Names pre b.rel q → Apart p q

def runtimePath : List Name := ["rust".toList, "cxx.h".toList]

/-- A project as Cargo sets it up.  The shared directory does not lie in the output directory, nor the other way round, and
no source file would be included as something like `rust/cxx.h`. -/
structure Project.Usual (prj : Project) (sources : List SourceFile) : Prop where
  shared : Apart (prj.outDir ++ ["cxxbridge".toList]) prj.sharedDir
  separate : sources.Pairwise (Separate prj.includePrefix)
  runtime : ∀ s ∈ sources, ∀ p, Names prj.includePrefix s.rel p → Apart p runtimePath

/-- Neither in what the build script makes nor above it. -/
def Project.Outside (prj : Project) (q : Place) : Prop :=
  ¬ prj.outDir ++ ["cxxbridge".toList] <+: q ∧ ¬ prj.sharedDir <+: q

/-- The file system before the build: a tree, in which files have numbers that are in use. -/
structure Sound (fs : Fs) : Prop where
  tree : Tree fs
  numbered : Numbered fs

/-- Nothing has been built in the output directory. -/
def Project.Fresh (prj : Project) (fs : Fs) : Prop :=
  ∀ q, prj.outDir ++ ["cxxbridge".toList] <+: q → fs.node q = none

end Verif.Build
