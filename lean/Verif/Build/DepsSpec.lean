import Verif.Build.DepsModel
/-!
# How Cargo passes on what a build script prints

Cargo gives the build script of a crate one variable `DEP_<LINKS>_<KEY>` for each `cargo:KEY=VALUE` line of each direct
dependency that has a `links` name; both are in upper case, with `-` replaced by `_`.  The variables come in no particular
order.
-/
namespace Verif.Build

/-- Upper case of ASCII letters; the others are left out of account. -/
def envChar (c : Char) : Char :=
  if c = '-' then '_' else if 97 ≤ c.toNat ∧ c.toNat ≤ 122 then Char.ofNat (c.toNat - 32) else c

/-- The name of a dependency in the names of variables. -/
def depName (links : Text) : Text := "DEP_".toList ++ links.map envChar

/-- White space of Unicode. -/
def blank (c : Char) : Bool :=
  [0x9, 0xA, 0xB, 0xC, 0xD, 0x20, 0x85, 0xA0, 0x1680, 0x2028, 0x2029, 0x202F, 0x205F, 0x3000].contains c.toNat ||
    (0x2000 ≤ c.toNat && c.toNat ≤ 0x200A)

/-- A text without the blanks at its end. -/
def trimEnd (t : Text) : Text := (t.reverse.dropWhile blank).reverse

/-- The lines of a text. -/
def linesOf : Text → List Text
  | [] => []
  | c :: cs => if c = '\n' then [] :: linesOf cs else match linesOf cs with
    | [] => [[c]]
    | l :: ls => (c :: l) :: ls

/-- What Cargo takes from a line `cargo:KEY=VALUE`: blanks around the line and at the end of the value do not count.  Left out:
the keys that Cargo has a use for itself, and the newer form `cargo::`. -/
def cargoLine (line : Text) : Option (Text × Text) :=
  let line := trimEnd (line.dropWhile blank)
  let rest := line.drop 6
  if "cargo:".toList <+: line ∧ '=' ∈ rest
  then some (rest.takeWhile (· ≠ '='), trimEnd ((rest.dropWhile (· ≠ '=')).drop 1)) else none

/-- What Cargo takes from all that a build script prints. -/
def cargoReads (output : Text) : List (Text × Text) := (linesOf output).filterMap cargoLine

/-- A direct dependency: its `links` name, and what its build script has printed. -/
structure Dep where
  name : Text
  exports : Crate

/-- The variables that Cargo sets for a dependency. -/
def Dep.vars (d : Dep) : List (Text × Text) :=
  (cargoReads (printed d.exports)).map fun kv => (depName d.name ++ '_' :: kv.1, kv.2)

/-- A text on one line, without blanks at its end. -/
def OneLine (t : Text) : Prop := '\n' ∉ t ∧ ∀ c, t.getLast? = some c → blank c = false

/-- What a crate exports can be told to Cargo in lines. -/
structure Tellable (c : Crate) : Prop where
  «prefix» : ∀ p, c.includePrefix = some p → OneLine p
  links : ∀ l, c.links = some l → OneLine l
  dirs : ∀ d ∈ c.headerDirs, d.exported = true → OneLine d.path

/-- A variable that has nothing to do with header directories. -/
def Unrelated (k : Text) : Prop :=
  ¬ "DEP_".toList <+: k ∨
  (¬ "_CXXBRIDGE_PREFIX".toList <:+ k ∧ ¬ "_CXXBRIDGE_LINKS".toList <:+ k ∧
    ∀ key ds, (∀ c ∈ ds, isDigit c = true) → k ≠ key ++ "_CXXBRIDGE_DIR".toList ++ ds)

/-- The environment of the build script: the variables of all dependencies, and unrelated ones, in any order. -/
def EnvOf (deps : List Dep) (env : List (Text × Text)) : Prop :=
  ∃ others, (∀ kv ∈ others, Unrelated kv.1) ∧ env.Perm (deps.flatMap Dep.vars ++ others)

/-- What should be known about a dependency: what it has exported, in its order. -/
def received (c : Crate) : Crate where
  includePrefix := c.includePrefix
  links := c.links
  headerDirs := c.headerDirs.filter (·.exported)

end Verif.Build
