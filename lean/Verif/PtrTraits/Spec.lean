/-!
# The laws of the standard traits

As the documentation of `core::cmp` and `core::hash` states them.  Nothing here mentions the model.
-/
namespace Verif.PtrTraits.Spec

/-- `PartialEq`: symmetric and transitive. -/
structure PartialEqLaws (eq : α → α → Bool) : Prop where
  symm : eq a b = true → eq b a = true
  trans : eq a b = true → eq b c = true → eq a c = true

/-- `Eq`: reflexive as well. -/
structure EqLaws (eq : α → α → Bool) : Prop extends PartialEqLaws eq where
  refl : ∀ a, eq a a = true

/-- Which way round. -/
def Turned : Ordering → Ordering → Prop
  | .lt, .gt | .gt, .lt | .eq, .eq => True
  | _, _ => False

/-- `PartialOrd`: in step with `==`, dual and transitive. -/
structure PartialOrdLaws (eq : α → α → Bool) (partialCmp : α → α → Option Ordering) : Prop where
  equal : partialCmp a b = some .eq ↔ eq a b = true
  dual : partialCmp a b = some r → ∃ r', partialCmp b a = some r' ∧ Turned r r'
  less : partialCmp a b = some .lt → partialCmp b c = some .lt → partialCmp a c = some .lt
  greater : partialCmp a b = some .gt → partialCmp b c = some .gt → partialCmp a c = some .gt

/-- `Ord`: every two values are ordered, in step with `partial_cmp`. -/
structure OrdLaws (eq : α → α → Bool) (partialCmp : α → α → Option Ordering) (cmp : α → α → Ordering) : Prop
    extends EqLaws eq, PartialOrdLaws eq partialCmp where
  same : partialCmp a b = some (cmp a b)

/-- `Hash`: equal values are hashed alike. -/
structure HashLaws (eq : α → α → Bool) (hash : α → List β) : Prop where
  same : eq a b = true → hash a = hash b

/-- What two pointers are, given where they point: both null, or targets related by `R`. -/
def BothOr (R : α → α → Prop) (m : Nat → α) : Option Nat → Option Nat → Prop
  | none, none => True
  | some i, some j => R (m i) (m j)
  | _, _ => False

/-- The order of pointers: null first, then by targets. -/
def NullFirst (R : α → α → Ordering → Prop) (m : Nat → α) : Option Nat → Option Nat → Ordering → Prop
  | none, none, r => r = .eq
  | none, some _, r => r = .lt
  | some _, none, r => r = .gt
  | some i, some j, r => R (m i) (m j) r

end Verif.PtrTraits.Spec
