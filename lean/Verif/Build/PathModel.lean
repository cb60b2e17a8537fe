/-!
# Paths of generated files: `gen/build/src/paths.rs`, `gen/build/src/lib.rs`, `gen/build/src/out.rs`

`std::path` is modelled on Unix, by the text of a path and by its components.  The components of a Windows path may
begin with a prefix; the functions on components below allow it.
-/
namespace Verif.Build

/-- The name of a file or directory. -/
abbrev Name := List Char

/-- `std::path::Component`. -/
inductive Comp
  | volume (text : Name)
  | root
  | cur
  | parent
  | normal (name : Name)
  deriving DecidableEq

/-- The pieces of a text between slashes. -/
def splitSlash : List Char → List (List Char)
  | [] => [[]]
  | c :: cs =>
    if c = '/' then [] :: splitSlash cs
    else match splitSlash cs with
      | [] => [[c]]
      | p :: ps => (c :: p) :: ps

/-- What a piece between slashes stands for. -/
def piece (p : List Char) : Option Comp :=
  if p = [] then none else if p = ['.'] then none else if p = ['.', '.'] then some .parent else some (.normal p)

/-- `Path::components` on Unix: repeated slashes, a slash at the end and `.` are left out, except that a `.` at the
beginning of a relative path is kept. -/
def components (text : List Char) : List Comp :=
  (match text with
    | '/' :: _ => [.root]
    | _ => if (splitSlash text).head? = some ['.'] then [.cur] else []) ++ (splitSlash text).filterMap piece

/-- The text of a relative path that was built by pushing names on an empty `PathBuf`. -/
def text : List Name → List Char
  | [] => []
  | [n] => n
  | n :: m :: ms => n ++ '/' :: text (m :: ms)

/-- gen/build/src/paths.rs:21-25: what one component of the source path does to the relative path.  `PathBuf::pop` does
nothing on an empty path. -/
def pushComp (rel : List Name) : Comp → List Name
  | .volume _ | .root | .cur => rel
  | .parent => rel.dropLast
  | .normal name => rel ++ [name]

/-- gen/build/src/paths.rs:18-28 `local_relative_path`, as the names that the result consists of. -/
def localRelative (path : List Comp) : List Name := path.foldl pushComp []

/-- gen/build/src/paths.rs:35-39 `with_appended_extension`; `none` if it panics because there is no file name. -/
def withAppendedExtension (rel : List Name) (suffix : List Char) : Option (List Name) :=
  match rel.getLast? with
  | none => none
  | some name => some (rel.dropLast ++ [name ++ suffix])

/-- `Path::join` on components: an absolute path replaces the first. -/
def join (a b : List Comp) : List Comp :=
  match b with
  | .volume _ :: _ => b
  | .root :: _ => b
  | _ => a ++ b

/-- The paths that `generate_bridge` writes. -/
structure Outputs where
  header : List Comp
  source : List Comp
  /-- a symbolic link to the header, named like the Rust source file -/
  link : List Comp
  sharedHeader : List Comp
  sharedSource : List Comp
  deriving DecidableEq

/-- gen/build/src/lib.rs:394-425 `generate_bridge`: the paths written. -/
def outputs (outDir sharedDir includePrefix sourceFile : List Comp) : Option Outputs :=
  let rel := localRelative sourceFile
  let cxxbridge := join outDir [.normal "cxxbridge".toList]
  let includeDir := join (join cxxbridge [.normal "include".toList]) includePrefix
  let sourcesDir := join (join cxxbridge [.normal "sources".toList]) includePrefix
  let shared := join sharedDir includePrefix
  (withAppendedExtension rel ".h".toList).bind fun h => (withAppendedExtension rel ".cc".toList).map fun cc =>
  { header := join includeDir (h.map .normal), source := join sourcesDir (cc.map .normal),
    link := join includeDir (rel.map .normal),
    sharedHeader := join shared (h.map .normal), sharedSource := join shared (cc.map .normal) }

/-! ### Symbolic links -/

/-- gen/build/src/out.rs:230-234 `path_contains_intermediate_components`. -/
def hasParent (path : List Comp) : Bool := path.any (· == .parent)

/-- gen/build/src/out.rs:243-248: the rest of both paths after what they have in common. -/
def restAfterCommon : List Comp → List Comp → List Comp × List Comp
  | a :: as, b :: bs => if a = b then restAfterCommon as bs else (a :: as, b :: bs)
  | as, bs => (as, bs)

/-- `Path::parent` on components. -/
def parent (path : List Comp) : Option (List Comp) :=
  match path.getLast? with
  | some (.normal _) | some .cur | some .parent => some path.dropLast
  | _ => none

/-- gen/build/src/out.rs:250-259: the parents of the whole path, one for each remaining component; the empty path if
there are not enough. -/
def climb : Nat → List Comp → List Comp
  | 0, path => path
  | n + 1, path => match parent path with
    | some p => climb n p
    | none => []

/-- The answers of `abstractly_relativize_symlink`. -/
inductive Relativized
  | unsuitable
  | panics
  | path (p : List Comp)
  deriving DecidableEq

/-- Whether a path is absolute: on Unix it starts at the root, on Windows it has a volume and a root. -/
def isAbsolute : List Comp → Bool
  | .root :: _ => true
  | .volume _ :: .root :: _ => true
  | _ => false

/-- gen/build/src/out.rs:180-228 `abstractly_relativize_symlink`.  `targetDirSet` says whether `CARGO_TARGET_DIR` is set. -/
def relativize (targetDirSet : Bool) (original link : List Comp) : Relativized :=
  if targetDirSet || !isAbsolute original || !isAbsolute link || hasParent original || hasParent link then .unsuitable
  else
    let rest := restAfterCommon original link
    let common := climb rest.1.length original
    if common = [] then .unsuitable
    else match rest.2 with
      | [] => .panics
      | _ :: dirs => .path (join (List.replicate dirs.length .parent) rest.1)

/-- gen/build/src/out.rs:156-178 `best_effort_relativize_symlink`: what the link will contain.  `canon` is
`Path::canonicalize` in the present state of the file system, `none` if it fails. -/
def bestEffort (canon : List Comp → Option (List Name)) (targetDirSet : Bool) (original link : List Comp) :
    Option (List Comp) :=
  match relativize targetDirSet original link with
  | .panics => none
  | .unsuitable => some original
  | .path p => match canon original, canon (join (link.dropLast) p) with
    | some a, some b => if a = b then some p else some original
    | _, _ => some original

end Verif.Build
