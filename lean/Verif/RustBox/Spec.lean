import Verif.RustBox.Model
/-!
# Specification of rust::Box histories

A variable holds a value or is empty; there are no pointers.
-/
namespace Verif.RustBox.Spec
open Verif

/-- Variables: kind, and the value held, if any. -/
abbrev Vars := Nat → Option (Kind × Option Nat)

inductive Step (a : Vars) : Op → Vars → Obs → Prop
  | new {o v} : a o = none → Step a (.new o v false) (upd a o (some (.cxx, some v))) .done
  | newThrow {o v} : a o = none → Step a (.new o v true) a .threw
  | inPlace {o v} : a o = none → Step a (.inPlace o v false) (upd a o (some (.cxx, some v))) .done
  | inPlaceThrow {o v} : a o = none → Step a (.inPlace o v true) a .threw
  | moveCtor {o src x} : a o = none → a src = some (.cxx, x) →
      Step a (.moveCtor o src) (upd (upd a o (some (.cxx, x))) src (some (.cxx, none))) .done
  | moveAssign {o src x y} : a o = some (.cxx, y) → a src = some (.cxx, x) →
      Step a (.moveAssign o src) (upd (upd a o (some (.cxx, x))) src (some (.cxx, none))) .done
  | swap {o src x y} : a o = some (.cxx, x) → a src = some (.cxx, y) →
      Step a (.swap o src) (upd (upd a o (some (.cxx, y))) src (some (.cxx, x))) .done
  | intoRaw {o h x} : a o = some (.cxx, x) → a h = none →
      Step a (.intoRaw o h) (upd (upd a h (some (.raw, x))) o (some (.cxx, none))) .done
  | fromRaw {o h x} : a o = none → a h = some (.raw, x) →
      Step a (.fromRaw o h) (upd (upd a o (some (.cxx, x))) h none) .done
  | read {o v} : a o = some (.cxx, some v) → Step a (.read o) a (.value v)
  | write {o v w} : a o = some (.cxx, some w) → Step a (.write o v) (upd a o (some (.cxx, some v))) .done
  | destroy {o x} : a o = some (.cxx, x) → Step a (.destroy o) (upd a o none) .done
  | toRust {o b v} : a o = some (.cxx, some v) → a b = none →
      Step a (.toRust o b) (upd (upd a b (some (.rust, some v))) o (some (.cxx, none))) .done
  | toCxx {o b v} : a o = none → a b = some (.rust, some v) →
      Step a (.toCxx o b) (upd (upd a o (some (.cxx, some v))) b none) .done
  | rustNew {b v} : a b = none → Step a (.rustNew b v) (upd a b (some (.rust, some v))) .done
  | rustDrop {b v} : a b = some (.rust, some v) → Step a (.rustDrop b) (upd a b none) .done

/-- What the languages ask of the program: the variables have the right kind, new ones are new, and an
empty box is not dereferenced or handed to Rust. -/
def Legal (a : Vars) : Op → Prop
  | .new o _ _ | .inPlace o _ _ | .rustNew o _ => a o = none
  | .moveCtor o src => a o = none ∧ ∃ x, a src = some (.cxx, x)
  | .moveAssign o src | .swap o src => (∃ y, a o = some (.cxx, y)) ∧ ∃ x, a src = some (.cxx, x)
  | .intoRaw o h => (∃ x, a o = some (.cxx, x)) ∧ a h = none
  | .fromRaw o h => a o = none ∧ ∃ x, a h = some (.raw, x)
  | .read o | .write o _ => ∃ v, a o = some (.cxx, some v)
  | .destroy o => ∃ x, a o = some (.cxx, x)
  | .toRust o b => (∃ v, a o = some (.cxx, some v)) ∧ a b = none
  | .toCxx o b => a o = none ∧ ∃ v, a b = some (.rust, some v)
  | .rustDrop b => ∃ v, a b = some (.rust, some v)

inductive Run : Vars → List Op → Vars → List Obs → Prop
  | nil {a} : Run a [] a []
  | cons {a b c op ops x xs} : Step a op b x → Run b ops c xs → Run a (op :: ops) c (x :: xs)

end Verif.RustBox.Spec
