import Verif.Build.PathModel
/-!
# Header directories of dependencies: `gen/build/src/deps.rs`

Texts are lists of characters, and so are paths here; `to_string_lossy` changes nothing in them.  For paths that are not
UTF-8 see `Verif/Build/CfgVarModel.lean`.
-/
namespace Verif.Build

abbrev Text := List Char

/-! ### `BTreeMap` -/

/-- The order of `str`: by code points, which is the order of the bytes in UTF-8. -/
def keyLt : Text → Text → Bool
  | [], [] => false
  | [], _ :: _ => true
  | _ :: _, [] => false
  | a :: as, b :: bs => a.toNat < b.toNat || (a == b && keyLt as bs)

/-- `*map.entry(key).or_default()` changed by `f`, in a map that is kept in the order of its keys. -/
def alter {β : Type} (dflt : β) (key : Text) (f : β → β) : List (Text × β) → List (Text × β)
  | [] => [(key, f dflt)]
  | (k, v) :: rest =>
    if k = key then (k, f v) :: rest
    else if keyLt key k then (key, f dflt) :: (k, v) :: rest
    else (k, v) :: alter dflt key f rest

/-! ### What a crate tells Cargo -/

/-- gen/build/src/deps.rs:13-16 `HeaderDir`. -/
structure HeaderDir where
  exported : Bool
  path : Text
  deriving DecidableEq

/-- gen/build/src/deps.rs:6-11 `Crate`. -/
structure Crate where
  includePrefix : Option Text
  links : Option Text
  headerDirs : List HeaderDir
  deriving DecidableEq

def Crate.default : Crate := ⟨none, none, []⟩

/-- Formatting a number in decimal. -/
def decimalFuel : Nat → Nat → Text
  | 0, _ => []
  | fuel + 1, n => (if n < 10 then [] else decimalFuel fuel (n / 10)) ++ [Char.ofNat (48 + n % 10)]

def decimal (n : Nat) : Text := decimalFuel (n + 1) n

/-- gen/build/src/deps.rs:19-38 `print_to_cargo`: the keys and values after `cargo:`. -/
def printToCargo (c : Crate) : List (Text × Text) :=
  (match c.includePrefix with
    | some p => [("CXXBRIDGE_PREFIX".toList, p)]
    | none => []) ++
  (match c.links with
    | some l => [("CXXBRIDGE_LINKS".toList, l)]
    | none => []) ++
  c.headerDirs.zipIdx.filterMap fun (dir, i) =>
    if dir.exported then some ("CXXBRIDGE_DIR".toList ++ decimal i, dir.path) else none

/-- gen/build/src/deps.rs:21-36: the lines that are printed. -/
def printed (c : Crate) : Text := (printToCargo c).flatMap fun kv => "cargo:".toList ++ kv.1 ++ '=' :: kv.2 ++ ['\n']

/-! ### What a crate learns from Cargo -/

/-- `str::ends_with`, with what is before the ending. -/
def stripEnd (ending k : Text) : Option Text :=
  if ending <:+ k then some (k.take (k.length - ending.length)) else none

def isDigit (c : Char) : Bool := 48 ≤ c.toNat && c.toNat ≤ 57

/-- `str::parse::<usize>` of digits, where a number that does not fit is replaced by `usize::MAX`. -/
def parseUsize (ds : Text) : Nat :=
  let n := ds.foldl (fun n c => 10 * n + (c.toNat - 48)) 0
  if n < 2 ^ 64 then n else 2 ^ 64 - 1

/-- What a variable of the environment is about. -/
inductive Slot
  | includePrefix
  | links
  | dir (sortKey : Nat)
  deriving DecidableEq

/-- gen/build/src/deps.rs:60-92: the dependency that a variable belongs to, and what it tells of it. -/
def classify (k : Text) : Option (Text × Slot) :=
  if !("DEP_".toList.isPrefixOf k) then none
  else match stripEnd "_CXXBRIDGE_PREFIX".toList k with
    | some key => some (key, .includePrefix)
    | none => match stripEnd "_CXXBRIDGE_LINKS".toList k with
      | some key => some (key, .links)
      | none =>
        let digits := (k.reverse.takeWhile isDigit).reverse
        let withoutCounter := k.take (k.length - digits.length)
        if digits = [] then none
        else match stripEnd "_CXXBRIDGE_DIR".toList withoutCounter with
          | some key => some (key, .dir (parseUsize digits))
          | none => none

/-- The two maps that the loop fills. -/
structure Gathered where
  crates : List (Text × Crate)
  dirs : List (Text × List (Nat × Text))

/-- gen/build/src/deps.rs:60-97: one variable. -/
def gather (g : Gathered) (kv : Text × Text) : Gathered :=
  match classify kv.1 with
  | none => g
  | some (key, .includePrefix) => { g with crates := alter .default key (fun c => { c with includePrefix := some kv.2 }) g.crates }
  | some (key, .links) => { g with crates := alter .default key (fun c => { c with links := some kv.2 }) g.crates }
  | some (key, .dir n) => { g with dirs := alter [] key (· ++ [(n, kv.2)]) g.dirs }

/-- `sort_by_key`, which keeps the order of equal keys. -/
def insertKey (x : Nat × Text) : List (Nat × Text) → List (Nat × Text)
  | [] => [x]
  | y :: ys => if y.1 ≤ x.1 then y :: insertKey x ys else x :: y :: ys

def sortByKey (l : List (Nat × Text)) : List (Nat × Text) := l.foldl (fun s x => insertKey x s) []

/-- gen/build/src/deps.rs:41-107 `direct_dependencies`; the result is kept together with the keys of the map. -/
def directDependencies (env : List (Text × Text)) : List (Text × Crate) :=
  let g := env.foldl gather ⟨[], []⟩
  g.dirs.foldl (fun crates kd => alter .default kd.1
    (fun c => { c with headerDirs := c.headerDirs ++ (sortByKey kd.2).map fun d => ⟨true, d.2⟩ }) crates) g.crates

end Verif.Build
