import Verif.UniquePtr.Model
import Verif.Common.Runs
/-!
# Specification of UniquePtr histories

A variable holds a value or is null; there are no pointers.
-/
namespace Verif.UniquePtr.Spec
open Verif

abbrev Vars := Nat → Option (Kind × Option Nat)

/-- `r` orders `x` against `y` when null is less than everything else. -/
def IsOrd : Option Nat → Option Nat → Ordering → Prop
  | none, none, r => r = .eq
  | none, some _, r => r = .lt
  | some _, none, r => r = .gt
  | some a, some b, r => (a < b ∧ r = .lt) ∨ (a = b ∧ r = .eq) ∨ (b < a ∧ r = .gt)

inductive Step (a : Vars) : Op → Vars → Obs → Prop
  | null : a o = none → Step a (.null o) (upd a o (some (.rust, none))) .done
  | new : a o = none → Step a (.new o v) (upd a o (some (.rust, some v))) .done
  | isNull : a o = some (.rust, x) → (b = true ↔ x = none) → Step a (.isNull o) a (.bool b)
  | asRef : a o = some (.rust, x) → Step a (.asRef o) a (.value x)
  | deref : a o = some (.rust, some v) → Step a (.deref o) a (.value (some v))
  | derefNull : a o = some (.rust, none) → Step a (.deref o) a .panicked
  | asMut : a o = some (.rust, some w) → Step a (.asMut o v) (upd a o (some (.rust, some v))) (.bool true)
  | asMutNull : a o = some (.rust, none) → Step a (.asMut o v) a (.bool false)
  | pinMut : a o = some (.rust, some w) → Step a (.pinMut o v) (upd a o (some (.rust, some v))) .done
  | pinMutNull : a o = some (.rust, none) → Step a (.pinMut o v) a .panicked
  | intoRaw : a o = some (.rust, x) → a h = none →
      Step a (.intoRaw o h) (upd (upd a h (some (.raw, x))) o none) .done
  | fromRaw : a o = none → a h = some (.raw, x) →
      Step a (.fromRaw o h) (upd (upd a o (some (.rust, x))) h none) .done
  | move : a o = none → a src = some (.rust, x) →
      Step a (.move o src) (upd (upd a o (some (.rust, x))) src none) .done
  | assign : a o = some (.rust, y) → a src = some (.rust, x) → o ≠ src →
      Step a (.assign o src) (upd (upd a o (some (.rust, x))) src none) .done
  | drop : a o = some (.rust, x) → Step a (.drop o) (upd a o none) .done
  | toCxx : a o = some (.rust, x) → a c = none → Step a (.toCxx o c) (upd (upd a c (some (.cxx, x))) o none) .done
  | toRust : a o = none → a c = some (.cxx, x) →
      Step a (.toRust o c) (upd (upd a o (some (.rust, x))) c (some (.cxx, none))) .done
  | cxxMake : a c = none → Step a (.cxxMake c v) (upd a c (some (.cxx, some v))) .done
  | cxxDestroy : a c = some (.cxx, x) → Step a (.cxxDestroy c) (upd a c none) .done
  | eq : a o = some (.rust, x) → a p = some (.rust, y) → (b = true ↔ x = y) → Step a (.eq o p) a (.bool b)
  | cmp : a o = some (.rust, x) → a p = some (.rust, y) → IsOrd x y r → Step a (.cmp o p) a (.ord r)

/-- What the languages ask of the program: variables have the right kind, and new ones are new. -/
def Legal (a : Vars) : Op → Prop
  | .null o | .new o _ | .cxxMake o _ => a o = none
  | .isNull o | .asRef o | .deref o | .asMut o _ | .pinMut o _ | .drop o => ∃ x, a o = some (.rust, x)
  | .intoRaw o h => (∃ x, a o = some (.rust, x)) ∧ a h = none
  | .fromRaw o h => a o = none ∧ ∃ x, a h = some (.raw, x)
  | .move o src => a o = none ∧ ∃ x, a src = some (.rust, x)
  | .assign o src => (∃ y, a o = some (.rust, y)) ∧ (∃ x, a src = some (.rust, x)) ∧ o ≠ src
  | .toCxx o c => (∃ x, a o = some (.rust, x)) ∧ a c = none
  | .toRust o c => a o = none ∧ ∃ x, a c = some (.cxx, x)
  | .cxxDestroy c => ∃ x, a c = some (.cxx, x)
  | .eq o p | .cmp o p => (∃ x, a o = some (.rust, x)) ∧ ∃ y, a p = some (.rust, y)

end Verif.UniquePtr.Spec
