import Verif.Build.TouchModel
import Verif.Build.IncludeSpec
/-!
# What a build may change
-/
namespace Verif.Build

/-- The directories that belong to a build: `$OUT_DIR/cxxbridge`, and the directory that it shares with others. -/
def Project.Owns (prj : Project) (q : Place) : Prop :=
  prj.outDir ++ ["cxxbridge".toList] <+: q ∨ prj.sharedDir <+: q

/-- The directories on the way to those of the build. -/
def Project.Above (prj : Project) (q : Place) : Prop :=
  q <+: prj.outDir ++ ["cxxbridge".toList] ∨ q <+: prj.sharedDir

/-- From `fs` to `f`, nothing but the directories of the build has changed: names lead to the same files and links, or are
missing directories that had to be made, and the files have the same bytes. -/
structure Project.Spares (prj : Project) (fs f : Fs) : Prop where
  nodes : ∀ q, ¬ prj.Owns q → f.node q = fs.node q ∨ (prj.Above q ∧ fs.node q = none ∧ f.node q = some .dir)
  data : ∀ q i, ¬ prj.Owns q → fs.node q = some (.file i) → f.data i = fs.data i ∧ f.changes i = fs.changes i

/-- A place among the generated files: not in the directory that has the link to the crate. -/
def Project.Generated (prj : Project) (q : Place) : Prop :=
  prj.outDir ++ ["cxxbridge".toList, "include".toList] <+: q ∨ prj.outDir ++ ["cxxbridge".toList, "sources".toList] <+: q ∨
    prj.sharedDir <+: q

/-- What a link among generated files may lead to: a generated file, or some file elsewhere. -/
def Project.Leads (prj : Project) (fs : Fs) (t : Place) : Prop :=
  prj.Generated t ∨ ¬ prj.Owns t ∧ ∃ i, fs.node t = some (.file i)

/-- A file system on which a build with this prefix is run. -/
structure Project.Clean (prj : Project) (fs : Fs) : Prop where
  sound : Sound fs
  /-- the paths of both directories are given without links -/
  above : ∀ q, prj.Above q → q ≠ prj.sharedDir → ∀ t, fs.node q ≠ some (.link t)
  /-- links among generated files lead to files -/
  links : ∀ q t, prj.Generated q → fs.node q = some (.link t) → prj.Leads fs t
  /-- the prefix does not go on below a link to the crate -/
  crate : ∀ q, q <+: prj.outDir ++ ["cxxbridge".toList, "crate".toList] ++ prj.includePrefix →
    q ≠ prj.outDir ++ ["cxxbridge".toList, "crate".toList] ++ prj.includePrefix → ∀ t, fs.node q ≠ some (.link t)

/-- A call to look for a file or to remove a link does not fail; any other may. -/
def looks : Proc → Ev → Prop
  | .start, e | .removing, e | .unlinking, e => e ≠ .fail
  | _, _ => True

def looksLink : LinkProc → Ev → Prop := fun _ _ => True

/-- Several builds of a crate, each with its own source files and variables, but with the same directories and prefix; each
may have been killed. -/
inductive Project.History (prj : Project) : Fs → Fs → Prop
  | none (fs : Fs) : prj.History fs fs
  | build {fs f f' : Fs} (dep : Option Place) (runtime : List Nat) (sources : List SourceFile) {ops : List (Op × Bool)}
      (hdep : ∀ d, dep = some d → prj.Leads fs d)
      (hops : Project.buildOps { prj with depHeader := dep } runtime sources = some ops)
      (h : Reaches looks looksLink fs ops f) (rest : prj.History f f') : prj.History fs f'

end Verif.Build
