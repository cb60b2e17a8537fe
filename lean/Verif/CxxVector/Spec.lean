import Verif.CxxVector.Model
import Verif.Common.Runs
/-!
# Specification of CxxVector: lists of resources

No objects are moved from here, nothing is out of range, and there is no storage.
-/
namespace Verif.CxxVector.Spec
open Verif

structure World where
  vecs : Nat → Option (List Nat)
  vals : Nat → Option Nat
  /-- Resources made so far are those below. -/
  next : Nat
  /-- Resources released so far. -/
  released : List Nat

def start : World := ⟨fun _ => none, fun _ => none, 0, []⟩

def setVec (a : World) (v : Nat) (x : Option (List Nat)) : World := { a with vecs := fun p => if p = v then x else a.vecs p }
def setVal (a : World) (o : Nat) (x : Option Nat) : World := { a with vals := fun p => if p = o then x else a.vals p }
def release (a : World) (xs : List Nat) : World := { a with released := xs ++ a.released }

inductive Step (a : World) : Op → World → Obs → Prop
  | new : a.vecs v = none → Step a (.new v) (setVec a v (some [])) .done
  | len : a.vecs v = some xs → Step a (.len v) a (.size xs.length)
  | isEmpty : a.vecs v = some xs → (b = true ↔ xs = []) → Step a (.isEmpty v) a (.bool b)
  | get (h : a.vecs v = some xs) (hp : pos < xs.length) : Step a (.get v pos) a (.elem (some (some xs[pos])))
  | getOut : a.vecs v = some xs → xs.length ≤ pos → Step a (.get v pos) a (.elem none)
  | asSlice : a.vecs v = some xs → Step a (.asSlice v) a (.elems (xs.map some))
  | push : a.vecs v = some xs → a.vals o = some x → Step a (.push v o) (setVal (setVec a v (some (xs ++ [x]))) o none) .done
  | pop : a.vecs v = some (xs ++ [x]) → a.vals o = none →
      Step a (.pop v o) (setVal (setVec a v (some xs)) o (some x)) (.elem (some (some x)))
  | popEmpty : a.vecs v = some [] → a.vals o = none → Step a (.pop v o) a (.elem none)
  | swap (h : a.vecs v = some xs) (ho : a.vals o = some y) (hp : pos < xs.length) :
      Step a (.swap v pos o) (setVal (setVec a v (some (xs.set pos y))) o (some xs[pos])) (.elem (some (some xs[pos])))
  | swapOut : a.vecs v = some xs → a.vals o = some y → xs.length ≤ pos → Step a (.swap v pos o) a (.elem none)
  | make : a.vals o = none → Step a (.make o) { setVal a o (some a.next) with next := a.next + 1 } .done
  | dropVal : a.vals o = some x → Step a (.dropVal o) (release (setVal a o none) [x]) .done
  | dropVec : a.vecs v = some xs → Step a (.dropVec v) (release (setVec a v none) xs.reverse) .done
  | cxxPush : a.vecs v = some xs →
      Step a (.cxxPush v) { setVec a v (some (xs ++ [a.next])) with next := a.next + 1 } .done
  | cxxPop : a.vecs v = some (xs ++ [x]) → Step a (.cxxPop v) (release (setVec a v (some xs)) [x]) .done
  | cxxClear : a.vecs v = some xs → Step a (.cxxClear v) (release (setVec a v (some [])) xs.reverse) .done

def Legal (a : World) : Op → Prop
  | .new v => a.vecs v = none
  | .len v | .isEmpty v | .get v _ | .asSlice v | .dropVec v | .cxxPush v | .cxxClear v => ∃ xs, a.vecs v = some xs
  | .push v o => (∃ xs, a.vecs v = some xs) ∧ ∃ x, a.vals o = some x
  | .pop v o => (∃ xs, a.vecs v = some xs) ∧ a.vals o = none
  | .swap v _ o => (∃ xs, a.vecs v = some xs) ∧ ∃ x, a.vals o = some x
  | .make o => a.vals o = none
  | .dropVal o => ∃ x, a.vals o = some x
  | .cxxPop v => ∃ xs x, a.vecs v = some (xs ++ [x])

/-- Places a resource can be. -/
inductive Place
  | vec (v pos : Nat)
  | val (o : Nat)

def At (a : World) (i : Nat) : Place → Prop
  | .vec v pos => ∃ xs, a.vecs v = some xs ∧ xs[pos]? = some i
  | .val o => a.vals o = some i

end Verif.CxxVector.Spec
