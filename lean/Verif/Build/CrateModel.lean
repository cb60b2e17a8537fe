import Verif.Build.DepsModel
/-!
# Header directories of a crate: `gen/build/src/lib.rs`
-/
namespace Verif.Build

/-- The settings of `cxx_build::CFG` that concern exported headers. -/
structure Exports where
  dirs : List Text
  prefixes : List Text
  links : List Text

/-- The errors of gen/build/src/error.rs that concern exported headers. -/
inductive ExportError
  | dirNotAbsolute (dir : Text)
  | emptyPrefix
  | dirsWithoutLinks
  | prefixesWithoutLinks
  | linksWithoutLinks
  | unusedLinks (name : Text)
  | unusedPrefix (name : Text)
  deriving DecidableEq

/-- gen/build/src/lib.rs:237-263 `validate_cfg`.  `links` is the `links` attribute of the crate. -/
def validateCfg (links : Option Text) (cfg : Exports) : Except ExportError Unit :=
  match cfg.dirs.find? fun d => !isAbsolute (components d) with
  | some d => .error (.dirNotAbsolute d)
  | none =>
    if cfg.prefixes.any (·.isEmpty) then .error .emptyPrefix
    else match links with
      | some _ => .ok ()
      | none =>
        if cfg.dirs ≠ [] then .error .dirsWithoutLinks
        else if cfg.prefixes ≠ [] then .error .prefixesWithoutLinks
        else if cfg.links ≠ [] then .error .linksWithoutLinks
        else .ok ()

/-- `Path::starts_with`, which compares components. -/
def startsWith (path pre : Text) : Bool := (components pre).isPrefixOf (components path)

/-- What the loop over the dependencies has found. -/
structure Loop where
  headerDirs : List HeaderDir
  /-- the places of directories in `headerDirs`; keys are compared as paths -/
  index : List (Text × Nat)
  usedLinks : List Text
  usedPrefixes : List Text

/-- gen/build/src/lib.rs:298-307: `any` stops at the first link that matches. -/
def linkHit (cfg : Exports) (krate : Crate) : Option Text :=
  match krate.links with
  | none => none
  | some l => cfg.links.find? fun exported => l == exported

/-- gen/build/src/lib.rs:311-318: `any` stops at the first prefix that matches. -/
def prefixHit (cfg : Exports) (krate : Crate) : Option Text :=
  match krate.includePrefix with
  | none => none
  | some p => cfg.prefixes.find? fun exported => startsWith p exported

/-- The place of a directory in the index. -/
def indexOf (dir : Text) : List (Text × Nat) → Option Nat
  | [] => none
  | (d, i) :: rest => if components d = components dir then some i else indexOf dir rest

/-- gen/build/src/lib.rs:324-337: one directory of a dependency. -/
def addDir (exported : Bool) (s : Loop) (dir : Text) : Loop :=
  match indexOf dir s.index with
  | none => { s with headerDirs := s.headerDirs ++ [⟨exported, dir⟩], index := (dir, s.headerDirs.length) :: s.index }
  | some i => { s with headerDirs := s.headerDirs.modify i fun h => { h with exported := h.exported || exported } }

/-- gen/build/src/lib.rs:297-339: one dependency.  `||` looks at prefixes only if no link has matched. -/
def addCrate (cfg : Exports) (s : Loop) (krate : Crate) : Loop :=
  match linkHit cfg krate with
  | some l => (krate.headerDirs.map (·.path)).foldl (addDir true) { s with usedLinks := l :: s.usedLinks }
  | none => match prefixHit cfg krate with
    | some p => (krate.headerDirs.map (·.path)).foldl (addDir true) { s with usedPrefixes := p :: s.usedPrefixes }
    | none => (krate.headerDirs.map (·.path)).foldl (addDir false) s

/-- gen/build/src/lib.rs:265-359 `make_this_crate`. -/
def makeThisCrate (includePrefix : Text) (links : Option Text) (includeDir crateDir : Text) (cfg : Exports)
    (deps : List Crate) : Except ExportError Crate :=
  let own := [⟨true, includeDir⟩, ⟨true, crateDir⟩] ++ cfg.dirs.map fun d => (⟨true, d⟩ : HeaderDir)
  let s := deps.foldl (addCrate cfg) ⟨own, [], [], []⟩
  match cfg.links.find? fun e => !s.usedLinks.contains e with
  | some e => .error (.unusedLinks e)
  | none => match cfg.prefixes.find? fun e => !s.usedPrefixes.contains e with
    | some e => .error (.unusedPrefix e)
    | none => .ok ⟨some includePrefix, links, s.headerDirs⟩

end Verif.Build
