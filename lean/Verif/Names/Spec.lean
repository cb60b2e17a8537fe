import Verif.Check.Rules
/-!
# Names without clashes, and what a name refers to
-/
namespace Verif.Names
open Verif.Syntax Verif.Types Verif.Check

/-- The name has two underscores in a row. -/
def Doubled (s : String) : Prop := ∃ before after, s.toList = before ++ '_' :: '_' :: after

/-- A name of a type as usual: no two underscores in a row, none at the start and none at the end. -/
structure Usual (s : String) : Prop where
  nonempty : s ≠ ""
  inside : ¬ Doubled s
  start : ∀ rest, s.toList ≠ '_' :: rest
  last : ∀ rest, s.toList ≠ rest ++ ['_']

/-- The language, the type of the receiver and the name of a method. -/
def methodOf : Api → Option (Lang × Ident × Ident)
  | .cxxFunction f => f.sig.receiver.map (fun r => (.cxx, r.ty.rust, f.name.rust))
  | .rustFunction f => f.sig.receiver.map (fun r => (.rust, r.ty.rust, f.name.rust))
  | _ => none

/-- A Rust function that is not a method. -/
def FreeRust (apis : List Api) (n : Ident) : Prop :=
  ∃ f, .rustFunction f ∈ apis ∧ f.sig.receiver = none ∧ f.name.rust = n

/-- What the author of a bridge has to see to; the code does not check it.  `outer n`: the module around the bridge has a function
or constructor called `n`. -/
structure Distinct (outer : Ident → Bool) (apis : List Api) : Prop where
  derives : ∀ s, .struct s ∈ apis → s.derives.Nodup
  variants : ∀ e, .enum e ∈ apis → (e.variants.map (·.rust)).Nodup
  aliases : ∀ n, ¬ (Rules.Alias apis n ∧ Rules.Shared apis n)
  methods : (apis.filterMap methodOf).Nodup
  imported : ∀ f t, .cxxFunction f ∈ apis → f.sig.receiver = none → .rustType t ∈ apis → outer t.name.rust = true →
    f.name.rust ≠ t.name.rust
  types : ∀ n, Rules.Declared apis n → Usual n
  functions : ∀ n, FreeRust apis n → ¬ Doubled n ∧ ∀ rest, n.toList ≠ "operator_".toList ++ rest

/-- Where a name is defined that is looked up from the innermost of some scopes. -/
def lookup {S D : Type} (defined : S → D → Prop) [∀ s d, Decidable (defined s d)] (scopes : List S) (d : D) : Option S :=
  scopes.find? (fun s => decide (defined s d))

/-- The types that generated code names without a path, other than those of the bridge (syntax/tokens.rs:10-40 and the
signatures in macro/src/expand.rs). -/
def bare : List Ident :=
  ["bool", "u8", "u16", "u32", "u64", "usize", "i8", "i16", "i32", "i64", "isize", "f32", "f64", "str"]

end Verif.Names
