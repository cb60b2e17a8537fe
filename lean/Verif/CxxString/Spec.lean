import Verif.CxxString.Model
import Verif.Common.Runs
import Verif.Utf8.Spec
import Verif.StrCmp.Props
/-!
# What C++ strings should show

A C++ string is a sequence of bytes.
-/
namespace Verif.CxxString.Spec
open Verif.CxxString

/-- The strings, or `none` after `std::terminate`. -/
abbrev Vars := Option (Nat → Option (List Nat))

def store (a : Nat → Option (List Nat)) (o : Nat) (v : Option (List Nat)) : Nat → Option (List Nat) :=
  fun p => if p = o then v else a p

/-- A sequence up to its first NUL. -/
def cut (m : List Nat) : List Nat := m.takeWhile (· ≠ 0)

/-- Lexicographic order of bytes as unsigned numbers. -/
abbrev Less (x y : List Nat) : Prop := StrCmp.Before (· < ·) x y

/-- `o` is the ordering of `x` against `y`. -/
def IsOrd (x y : List Nat) : Ordering → Prop
  | .lt => Less x y
  | .eq => x = y
  | .gt => Less y x

inductive Step (c : Config) : Vars → Op → Vars → Obs → Prop
  | make : a o = none → Step c (some a) (.make o bs j) (some (store a o (some bs))) .done
  | destroy : a o = some x → Step c (some a) (.destroy o) (some (store a o none)) .done
  | push : a o = some x → x.length + bs.length ≤ c.maxSize →
      Step c (some a) (.push o bs j) (some (store a o (some (x ++ bs)))) .done
  | pushTooLong : a o = some x → x.length + bs.length > c.maxSize →
      Step c (some a) (.push o bs j) none .terminated
  | clear : a o = some x → Step c (some a) (.clear o) (some (store a o (some []))) .done
  /-- Reserving changes no content. -/
  | reserve : a o = some x → x.length + n < c.usize → x.length + n ≤ c.maxSize →
      Step c (some a) (.reserve o n j) (some a) .done
  /-- Beyond `usize::MAX` it panics and changes nothing. -/
  | reservePanic : a o = some x → x.length + n ≥ c.usize → Step c (some a) (.reserve o n j) (some a) .panicked
  /-- Between `max_size()` and `usize::MAX` the process is terminated. -/
  | reserveTooLong : a o = some x → x.length + n < c.usize → x.length + n > c.maxSize →
      Step c (some a) (.reserve o n j) none .terminated
  | asBytes : a o = some x → Step c (some a) (.asBytes o) (some a) (.bytes x)
  | len : a o = some x → Step c (some a) (.len o) (some a) (.nat x.length)
  | isEmpty : a o = some x → (b = true ↔ x = []) → Step c (some a) (.isEmpty o) (some a) (.bool b)
  | asCStr : a o = some x → Step c (some a) (.asCStr o) (some a) (.bytes (cut x))
  | toStr : a o = some x → Utf8.Spec.WellFormed8 x → Step c (some a) (.toStr o) (some a) (.str (some x))
  | toStrErr : a o = some x → ¬ Utf8.Spec.WellFormed8 x → Step c (some a) (.toStr o) (some a) (.str none)
  /-- Every ill-formed piece becomes U+FFFD. -/
  | lossy : a o = some x → Utf8.Spec.Pieces x ps → Step c (some a) (.lossy o) (some a) (.bytes (Utf8.Spec.lossy ps))
  | eq : a o = some x → a p = some y → (b = true ↔ x = y) → Step c (some a) (.eq o p) (some a) (.bool b)
  | cmp : a o = some x → a p = some y → IsOrd x y r → Step c (some a) (.cmp o p) (some a) (.ord r)
  | partialCmp : a o = some x → a p = some y → IsOrd x y r →
      Step c (some a) (.partialCmp o p) (some a) (.optOrd (some r))
  /-- What is hashed is determined by the bytes. -/
  | hash : a o = some x → Step c (some a) (.hash o) (some a) (.bytes (x.length :: x))

/-- The operations a program may perform. -/
def Legal (c : Config) : Vars → Op → Prop
  | none, _ => False
  | some a, .make o _ _ => a o = none
  | some a, .reserve o n _ => n < c.usize ∧ ∃ x, a o = some x
  | some a, .destroy o | some a, .push o _ _ | some a, .clear o | some a, .asBytes o | some a, .len o
  | some a, .isEmpty o | some a, .asCStr o | some a, .toStr o | some a, .lossy o | some a, .hash o => ∃ x, a o = some x
  | some a, .eq o p | some a, .cmp o p | some a, .partialCmp o p => (∃ x, a o = some x) ∧ ∃ y, a p = some y

end Verif.CxxString.Spec
