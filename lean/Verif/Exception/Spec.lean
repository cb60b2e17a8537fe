import Verif.Exception.Model
import Verif.Utf8.Spec
/-!
# What errors and exceptions should show

An error is its message, or "moved from"; an exception is its text.
-/
namespace Verif.Exception.Spec
open Verif.Exception

inductive Val
  | err (msg : Option (List Nat))
  | exc (text : List Nat)
  deriving DecidableEq

abbrev Vars := Nat → Option Val

/-- A text up to its first NUL. -/
def cut (m : List Nat) : List Nat := m.takeWhile (· ≠ 0)

/-- `t` is `bytes` with every ill-formed piece replaced by U+FFFD. -/
def IsLossy (bytes t : List Nat) : Prop := ∃ ps, Utf8.Spec.Pieces bytes ps ∧ t = Utf8.Spec.lossy ps

def store (a : Vars) (o : Nat) (v : Val) : Vars := fun p => if p = o then some v else a p
def unset (a : Vars) (o : Nat) : Vars := fun p => if p = o then none else a p

inductive Step : Vars → Op → Vars → Obs → Prop
  /-- `Ok`: the value is returned, nothing else happens. -/
  | rustOk : a o = none → Step a (.callRust o r (.ok v)) a (.returned v)
  /-- `Err`: an error with that message is thrown. -/
  | rustErr : a o = none → Step a (.callRust o r (.err m)) (store a o (.err (some m))) .threw
  | propagate : a o = none → a x = some (.exc t) →
      Step a (.propagate o x) (store (unset a x) o (.err (some t))) .threw
  | cxxRet : a x = none → Step a (.callCxx x r (.ret v)) a (.returned v)
  /-- The exception's text is the lossy form of the C string `what()`. -/
  | cxxThrow : a x = none → a o = some (.err (some m)) → IsLossy (cut m) t →
      Step a (.callCxx x r (.throwErr o)) (store a x (.exc t)) .threw
  | cxxThrowStd : a x = none → IsLossy (cut w) t →
      Step a (.callCxx x r (.throwStd w)) (store a x (.exc t)) .threw
  | copyCtor : a o = none → a src = some (.err m) → Step a (.copyCtor o src) (store a o (.err m)) .done
  | moveCtor : a o = none → a src = some (.err m) →
      Step a (.moveCtor o src) (store (store a o (.err m)) src (.err none)) .done
  | copyAssign : a o = some (.err m') → a src = some (.err m) → Step a (.copyAssign o src) (store a o (.err m)) .done
  /-- Also for `o = src`, which leaves a moved-from error. -/
  | moveAssign : a o = some (.err m') → a src = some (.err m) →
      Step a (.moveAssign o src) (store (store a o (.err m)) src (.err none)) .done
  | what : a o = some (.err (some m)) → Step a (.what o) a (.what (some (cut m)))
  | whatNull : a o = some (.err none) → Step a (.what o) a (.what none)
  | destroy : a o = some (.err m) → Step a (.destroy o) (unset a o) .done
  | excWhat : a x = some (.exc t) → Step a (.excWhat x) a (.text t)
  | excDrop : a x = some (.exc t) → Step a (.excDrop x) (unset a x) .done

/-- Which operations a program may perform. -/
def Legal (a : Vars) : Op → Prop
  | .callRust o r (.ok v) => a o = none ∧ (v.isSome ↔ r = true)
  | .callRust o _ (.err _) => a o = none
  | .propagate o x => a o = none ∧ ∃ t, a x = some (.exc t)
  | .callCxx x r (.ret v) => a x = none ∧ (v.isSome ↔ r = true)
  | .callCxx x _ (.throwErr o) => a x = none ∧ ∃ m, a o = some (.err m)
  | .callCxx x _ (.throwStd _) => a x = none
  | .copyCtor o src | .moveCtor o src => a o = none ∧ ∃ m, a src = some (.err m)
  | .copyAssign o src | .moveAssign o src => (∃ m, a o = some (.err m)) ∧ ∃ m, a src = some (.err m)
  | .what o | .destroy o => ∃ m, a o = some (.err m)
  | .excWhat x | .excDrop x => ∃ t, a x = some (.exc t)

/-- Not a throw of a moved-from `rust::Error`. -/
def Safe (a : Vars) : Op → Prop
  | .callCxx _ _ (.throwErr o) => a o ≠ some (.err none)
  | _ => True

inductive Run : Vars → List Op → Vars → List Obs → Prop
  | nil : Run a [] a []
  | cons : Step a op b x → Run b ops c xs → Run a (op :: ops) c (x :: xs)

end Verif.Exception.Spec
