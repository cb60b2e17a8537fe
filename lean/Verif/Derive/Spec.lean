import Verif.Derive.Model
/-!
# What derived traits should do
-/
namespace Verif.Derive
open Verif.Syntax

/-! ### Orders -/

/-- The laws of `Ord` together with `PartialEq`: a total order. -/
structure LawfulOrd {α : Type} (eq : α → α → Bool) (cmp : α → α → Ordering) : Prop where
  /-- `a < b` and `b > a` say the same -/
  swap : ∀ a b, cmp a b = (cmp b a).swap
  /-- `≤` is transitive -/
  trans : ∀ a b c, cmp a b ≠ .gt → cmp b c ≠ .gt → cmp a c ≠ .gt
  eq_iff : ∀ a b, cmp a b = .eq ↔ eq a b = true

/-- The laws of `PartialOrd` as Rust documents them. -/
structure LawfulPartialOrd {α : Type} (eq : α → α → Bool) (pcmp : α → α → Option Ordering) : Prop where
  swap : ∀ a b, pcmp a b = (pcmp b a).map Ordering.swap
  lt_trans : ∀ a b c, pcmp a b = some .lt → pcmp b c = some .lt → pcmp a c = some .lt
  eq_trans : ∀ a b c, eq a b = true → eq b c = true → eq a c = true
  eq_iff : ∀ a b, pcmp a b = some .eq ↔ eq a b = true

/-- Equal values compare alike. -/
def Congruent {α : Type} (eq : α → α → Bool) (pcmp : α → α → Option Ordering) : Prop :=
  ∀ a b c, eq a b = true → pcmp a c = pcmp b c

/-- The comparison is decided by the first field that differs. -/
def Lexicographic (fs : Fields) (a b : Val fs) (o : Ordering) : Prop :=
  (∃ i, (∀ j < i, (fs.get j).cmp (a j) (b j) = .eq) ∧ (fs.get i).cmp (a i) (b i) = o ∧ o ≠ .eq) ∨
    (∀ i, (fs.get i).cmp (a i) (b i) = .eq) ∧ o = .eq

/-- The same for `partial_cmp`. -/
def PartialLexicographic (fs : Fields) (a b : Val fs) (o : Option Ordering) : Prop :=
  (∃ i, (∀ j < i, (fs.get j).partialCmp (a j) (b j) = some .eq) ∧ (fs.get i).partialCmp (a i) (b i) = o ∧ o ≠ some .eq) ∨
    (∀ i, (fs.get i).partialCmp (a i) (b i) = some .eq) ∧ o = some .eq

/-! ### Operators -/

/-- The linker finds each exported function under its name. -/
def Linked {α : Type} (rust : Cmp → α → α → Bool) (exported : List (String × Fn)) (link : String → Option (α → α → Bool)) : Prop :=
  ∀ n o, (n, Fn.cmp o) ∈ exported → link n = some (rust o)

/-- The C++ operator returns this. -/
inductive Returns {α : Type} (defs : List (Cmp × Body)) (link : String → Option (α → α → Bool)) (a b : α) : Cmp → Bool → Prop
  | call {o n f} : (o, Body.call n) ∈ defs → link n = some f → Returns defs link a b o (f a b)
  | not {o o' r} : (o, Body.not o') ∈ defs → Returns defs link a b o' r → Returns defs link a b o (!r)

/-- The traits the operators come with. -/
def Provides (ds : List Trait) : Cmp → Prop
  | .eq | .ne => Trait.partialEq ∈ ds
  | _ => Trait.partialOrd ∈ ds

end Verif.Derive
