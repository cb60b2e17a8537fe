import Verif.Shim.Model
import Verif.Pod.Spec
/-!
# Each argument is destroyed once
-/
namespace Verif.Shim
open Verif.Syntax Verif.Pod

/-- Destroying `v` has the effect `n`. -/
def Owns (v : Option Obj) (n : Nat) : Prop := ∃ o, v = some o ∧ o.owns = true ∧ o.id = n

/-- Moving `v` with its move constructor leaves something behind that must be destroyed as well. -/
def Leaves (v : Option Obj) (n : Nat) : Prop := ∃ o, v = some o ∧ o.residue = some n

/-- Types that the runtime of cxx moves itself: nothing is left behind. -/
def Runtime : Ty → Prop
  | .rustBox _ | .uniquePtr _ | .rustVec _ => True
  | .ident t => t.rust = "String"
  | _ => False

/-- An object that a value of the type can be. -/
structure Fits (apis : List Api) (ty : Ty) (v : Option Obj) : Prop where
  /-- only types that own something have destructors -/
  owns : ∀ n, Owns v n → Owning apis ty
  leaves : ∀ n, Leaves v n → Owning apis ty ∧ ¬ Runtime ty
  /-- a box is not null -/
  box : ∀ t, ty = .rustBox t → v ≠ none

/-- The objects of the arguments are distinct. -/
structure Distinct (as : List Arg) : Prop where
  apart : ∀ (i j : Nat) (a b : Arg) (n : Nat), as[i]? = some a → as[j]? = some b → Owns a.val n ∨ Leaves a.val n →
    Owns b.val n ∨ Leaves b.val n → i = j
  residue : ∀ a ∈ as, ∀ n, ¬ (Owns a.val n ∧ Leaves a.val n)

/-- The callee is handed the objects the caller passed.  Those it does not keep are destroyed once, those it keeps are not
destroyed, what moving leaves behind is destroyed once, and nothing else is destroyed. -/
structure Balanced (as : List Arg) (r : Result) : Prop where
  received : r.received = as.map (·.val)
  once : ∀ a ∈ as, ∀ n, Owns a.val n → a.keep = false → r.drops.count n = 1
  kept : ∀ a ∈ as, ∀ n, Owns a.val n → a.keep = true → r.drops.count n = 0
  leaves : ∀ a ∈ as, ∀ n, Leaves a.val n → r.drops.count n = 1
  only : ∀ n ∈ r.drops, ∃ a ∈ as, Owns a.val n ∨ Leaves a.val n

end Verif.Shim
