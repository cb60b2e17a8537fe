import Verif.Build.TouchModel
/-!
# The directory that crates share: `gen/build/src/target.rs`
-/
namespace Verif.Build

/-- gen/build/src/target.rs:5-8 `TargetDir`. -/
inductive TargetDir
  | path (p : List Comp)
  | unknown
  deriving DecidableEq

/-- `Path::file_name` on components. -/
def fileName (dir : List Comp) : Option Name :=
  match dir.getLast? with
  | some (.normal n) => some n
  | _ => none

/-- gen/build/src/target.rs:28-33: whether a directory is taken for the target directory.  `found` is `Path::exists` in the
present state of the file system. -/
def marked (found : List Comp → Bool) (dir : List Comp) : Bool :=
  found (join dir [.normal ".rustc_info.json".toList]) || found (join dir [.normal "CACHEDIR.TAG".toList]) ||
    (fileName dir == some "target".toList && match parent dir with
      | some p => found (join p [.normal "Cargo.toml".toList])
      | none => false)

/-- gen/build/src/target.rs:27-38: one path and those above it.  `PathBuf::pop` goes to the parent if there is one.  Each
round takes a component away, so that the given number of rounds is enough. -/
def ascend (found : List Comp → Bool) : Nat → List Comp → Option (List Comp)
  | 0, _ => none
  | n + 1, dir =>
    if marked found dir then some dir
    else match parent dir with
      | some p => ascend found n p
      | none => none

/-- gen/build/src/target.rs:10-49 `find_target_dir`.  `targetDirVar` is `CARGO_TARGET_DIR`, and `canonical` the result of
`Path::canonicalize` on `OUT_DIR`. -/
def findTargetDir (windows : Bool) (targetDirVar : Option (List Comp)) (found : List Comp → Bool)
    (canonical : Option (List Comp)) (outDir : List Comp) : TargetDir :=
  match targetDirVar with
  | some t => if isAbsolute t then .path t else .unknown
  | none => match ascend found (outDir.length + 1) outDir with
    | some d => .path d
    | none =>
      if windows then .unknown
      else match canonical with
        | none => .unknown
        | some c => match ascend found (c.length + 1) c with
          | some d => .path d
          | none => .unknown

/-- gen/build/src/lib.rs:173-176 in `Project::init`: the shared directory.  `scratch` is what `scratch::path` gives. -/
def sharedDirOf (scratch : List Comp) : TargetDir → List Comp
  | .path t => join t [.normal "cxxbridge".toList]
  | .unknown => scratch

/-- The name that a component has, if any. -/
def Comp.name? : Comp → Option Name
  | .normal n => some n
  | _ => none

/-- `Path::exists` on Unix, for a path that starts at the root and has no `..`: links are followed everywhere. -/
def Fs.exists (fs : Fs) : List Comp → Bool
  | .root :: cs => match fs.walk [] (cs.filterMap Comp.name?) with
    | some q => (fs.node q).isSome
    | none => false
  | _ => false

end Verif.Build
