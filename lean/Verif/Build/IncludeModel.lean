import Verif.Build.WriteModel
/-!
# The include directories that a build script fills: `gen/build/src/lib.rs`

All that one run of `cxx_build::bridges` writes, as the list of its calls into `gen/build/src/out.rs`.  Unix only.  Directories
are places, so nothing on the way to them is a symbolic link.  What a symbolic link contains is given as the place that it
leads to (C41).
-/
namespace Verif.Build

/-- A call into `gen/build/src/out.rs`. -/
inductive Op
  /-- gen/build/src/out.rs:7-30 `write` -/
  | write (p : Place) (content : List Nat)
  /-- gen/build/src/out.rs:32-68 `relative_symlink_file`, `absolute_symlink_file`, `relative_symlink_dir` -/
  | link (p target : Place)
  deriving DecidableEq

/-- gen/build/src/lib.rs:141-160 `Project`, with the variable `DEP_CXXBRIDGE1_HEADER`. -/
structure Project where
  includePrefix : List Name
  manifestDir : Place
  outDir : Place
  sharedDir : Place
  depHeader : Option Place

/-- A Rust source file: the result of `local_relative_path` on its path, and what is generated from it. -/
structure SourceFile where
  rel : List Name
  header : List Nat
  implementation : List Nat

/-- gen/build/src/lib.rs:361-378 `make_crate_dir`: the directory. -/
def Project.crateDir (prj : Project) : Place :=
  if prj.includePrefix = [] then prj.manifestDir else prj.outDir ++ ["cxxbridge".toList] ++ ["crate".toList]

/-- gen/build/src/lib.rs:361-378 `make_crate_dir`: the calls.  The second component says whether an error is passed on.
The copies that are made on other systems than Unix if there can be no link are left out. -/
def Project.crateOps (prj : Project) : List (Op × Bool) :=
  if prj.includePrefix = [] then []
  else [(.link (prj.crateDir ++ prj.includePrefix) prj.manifestDir, false)]

/-- gen/build/src/lib.rs:380-392 `make_include_dir`: the directory. -/
def Project.includeDir (prj : Project) : Place := prj.outDir ++ ["cxxbridge".toList] ++ ["include".toList]

/-- gen/build/src/lib.rs:380-392 `make_include_dir`: the calls.  `runtime` is `gen::include::HEADER`. -/
def Project.includeOps (prj : Project) (runtime : List Nat) : List (Op × Bool) :=
  let cxxH := prj.includeDir ++ ["rust".toList] ++ ["cxx.h".toList]
  let sharedCxxH := prj.sharedDir ++ ["rust".toList] ++ ["cxx.h".toList]
  match prj.depHeader with
  | some original => [(.link cxxH original, true), (.link sharedCxxH original, true)]
  | none => [(.write sharedCxxH runtime, true), (.link cxxH sharedCxxH, true)]

/-- gen/build/src/lib.rs:393-425 `generate_bridge`: the calls; `none` if it panics because the path has no file name. -/
def Project.bridgeOps (prj : Project) (s : SourceFile) : Option (List (Op × Bool)) :=
  let cxxbridge := prj.outDir ++ ["cxxbridge".toList]
  let includeDir := cxxbridge ++ ["include".toList] ++ prj.includePrefix
  let sourcesDir := cxxbridge ++ ["sources".toList] ++ prj.includePrefix
  (withAppendedExtension s.rel ".h".toList).bind fun h => (withAppendedExtension s.rel ".cc".toList).map fun cc =>
    [(.write (includeDir ++ h) s.header, true),
     (.link (includeDir ++ s.rel) (includeDir ++ h), false),
     (.write (sourcesDir ++ cc) s.implementation, true),
     (.link (prj.sharedDir ++ prj.includePrefix ++ h) (includeDir ++ h), false),
     (.link (prj.sharedDir ++ prj.includePrefix ++ cc) (sourcesDir ++ cc), false)]

/-- The loop over the source files in gen/build/src/lib.rs:217-219. -/
def Project.bridgesOps (prj : Project) : List SourceFile → Option (List (Op × Bool))
  | [] => some []
  | s :: ss => (prj.bridgeOps s).bind fun ops => (prj.bridgesOps ss).map fun more => ops ++ more

/-- gen/build/src/lib.rs:208-235 `build`: all calls. -/
def Project.buildOps (prj : Project) (runtime : List Nat) (sources : List SourceFile) : Option (List (Op × Bool)) :=
  (prj.bridgesOps sources).map fun ops => prj.crateOps ++ prj.includeOps runtime ++ ops

/-- gen/build/src/lib.rs:280-288, 222-224: the directories that the C++ compiler searches, in order: two of this crate, then
those of `make_this_crate` that exist anyway (C41's model has them all). -/
def Project.searchDirs (prj : Project) (others : List Place) : List Place := prj.includeDir :: prj.crateDir :: others

/-- One call, alone on the file system: the outcome, if it has come to an end. -/
def Op.run : Op → Fs → List Ev → Fs × Option Bool
  | .write p content, fs, evs =>
    let r := runAlone (writeStep p content) fs .start evs
    (r.1, match r.2 with | .done ok => some ok | _ => none)
  | .link p target, fs, evs =>
    let r := runAlone (linkStep p target) fs .start evs
    (r.1, match r.2 with | .done ok => some ok | _ => none)

end Verif.Build
