import Verif.RustVec.Model
/-!
# Specification of rust::Vec histories

A vector is the list of its elements' values; a program's vectors are a table from addresses to such
lists.  Only the names of operations and observations come from the model.
-/
namespace Verif.RustVec.Spec
open Verif

abbrev Vecs := Nat → Option (List Nat)

/-- Copying a range throws: the index whose copy throws lies in the range. -/
def Throws (failAt : Option Nat) (vs : List Nat) : Prop := ∃ k, failAt = some k ∧ k < vs.length

inductive Step (a : Vecs) : Op → Vecs → Obs → Prop
  | ctor {o} : a o = none → Step a (.ctor o) (upd a o (some [])) .done
  | initList {o vs f c} : a o = none → ¬ Throws f vs → Step a (.initList o vs f c) (upd a o (some vs)) .done
  | initListThrow {o vs f c} : a o = none → Throws f vs → Step a (.initList o vs f c) a .threw
  | copyCtor {o src vs f c} : a o = none → a src = some vs → ¬ Throws f vs →
      Step a (.copyCtor o src f c) (upd a o (some vs)) .done
  | copyCtorThrow {o src vs f c} : a o = none → a src = some vs → Throws f vs → Step a (.copyCtor o src f c) a .threw
  | moveCtor {o src vs} : a o = none → a src = some vs →
      Step a (.moveCtor o src) (upd (upd a o (some vs)) src (some [])) .done
  | copyAssign {o src vs ws f c} : a o = some ws → a src = some vs → Step a (.copyAssign o src f c) (upd a o (some vs)) .done
  | moveAssign {o src vs ws} : a o = some ws → a src = some vs →
      Step a (.moveAssign o src) (upd (upd a o (some vs)) src (some [])) .done
  | push {o vs v c} : a o = some vs → Step a (.push o v c) (upd a o (some (vs ++ [v]))) .done
  | pushThrow {o vs c} : a o = some vs → Step a (.pushThrow o c) a .threw
  | pushFrom {o p vs ws k v c} : a o = some vs → a p = some ws → ws[k]? = some v →
      Step a (.pushFrom o p k c) (upd a o (some (vs ++ [v]))) .done
  | set {o vs k v} : a o = some vs → k < vs.length → Step a (.set o k v) (upd a o (some (vs.set k v))) .done
  | at {o vs k v} : a o = some vs → vs[k]? = some v → Step a (.at o k) a (.value v)
  | atThrow {o vs k} : a o = some vs → vs[k]? = none → Step a (.at o k) a .threw
  | reserve {o vs n c} : a o = some vs → Step a (.reserve o n c) a .done
  | truncate {o vs n} : a o = some vs → Step a (.truncate o n) (upd a o (some (vs.take n))) .done
  | clear {o vs} : a o = some vs → Step a (.clear o) (upd a o (some [])) .done
  | swap {o p vs ws} : a o = some vs → a p = some ws → Step a (.swap o p) (upd (upd a o (some ws)) p (some vs)) .done
  | read {o vs} : a o = some vs → Step a (.read o) a (.values vs)
  | destroy {o vs} : a o = some vs → Step a (.destroy o) (upd a o none) .done

/-- What the C++ language and the documented preconditions ask of the caller. -/
def Legal (a : Vecs) : Op → Prop
  | .ctor o | .initList o _ _ _ => a o = none
  | .copyCtor o src _ _ | .moveCtor o src => a o = none ∧ a src ≠ none
  | .copyAssign o src _ _ | .moveAssign o src | .swap o src => a o ≠ none ∧ a src ≠ none
  | .pushFrom o p k _ => a o ≠ none ∧ ∃ vs, a p = some vs ∧ k < vs.length
  | .set o k _ => ∃ vs, a o = some vs ∧ k < vs.length
  | .push o _ _ | .pushThrow o _ | .at o _ | .reserve o _ _ | .truncate o _ | .clear o | .read o | .destroy o => a o ≠ none

inductive Run : Vecs → List Op → Vecs → List Obs → Prop
  | nil {a} : Run a [] a []
  | cons {a b c op ops x xs} : Step a op b x → Run b ops c xs → Run a (op :: ops) c (x :: xs)

/-- The uses for which the claim is false of the code, excluded from the partial theorem:
copy-assignment whose element copy throws, and pushing a reference into the vector itself. -/
def Safe : Op → Prop
  | .copyAssign _ _ f _ => f = none
  | .pushFrom o p _ _ => o ≠ p
  | _ => True

end Verif.RustVec.Spec
