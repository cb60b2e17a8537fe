import Verif.SharedPtr.Model
import Verif.Common.Runs
/-!
# Specification of shared and weak pointers

Objects have identities and values; a variable refers to an object or is null.  There are no counts: an
object is alive exactly while some shared pointer refers to it.
-/
namespace Verif.SharedPtr.Spec
open Verif

structure World where
  vars : Nat → Option Var
  /-- The value of an object. -/
  val : Nat → Nat
  /-- Objects made so far are those below. -/
  next : Nat

def start : World := ⟨fun _ => none, fun _ => 0, 0⟩

/-- Some shared pointer refers to object `i`. -/
def Alive (a : World) (i : Nat) : Prop := ∃ p, a.vars p = some (.shared (some i))

/-- `o` is the only shared pointer to `i`. -/
def Last (a : World) (o i : Nat) : Prop :=
  a.vars o = some (.shared (some i)) ∧ ∀ p, a.vars p = some (.shared (some i)) → p = o

def setVar (a : World) (o : Nat) (v : Option Var) : World := { a with vars := fun p => if p = o then v else a.vars p }

/-- What dropping the variable `o` destroys. -/
def Destroys (a : World) (o : Nat) (d : Option Nat) : Prop := ∀ i, d = some i ↔ Last a o i

inductive Step (a : World) : Op → World → Obs → Prop
  | null : a.vars o = none → Step a (.null o) (setVar a o (some (.shared none))) .done
  | new : a.vars o = none →
      Step a (.new o v) { setVar a o (some (.shared (some a.next))) with
        val := fun i => if i = a.next then v else a.val i, next := a.next + 1 } .done
  | clone : a.vars o = none → a.vars src = some (.shared p) → Step a (.clone o src) (setVar a o (some (.shared p))) .done
  | downgrade : a.vars w = none → a.vars src = some (.shared p) →
      Step a (.downgrade w src) (setVar a w (some (.weak p))) .done
  /-- Upgrading gives the object exactly while it is alive. -/
  | upgrade : a.vars o = none → a.vars w = some (.weak (some i)) → Alive a i →
      Step a (.upgrade o w) (setVar a o (some (.shared (some i)))) .done
  | upgradeDead : a.vars o = none → a.vars w = some (.weak (some i)) → ¬ Alive a i →
      Step a (.upgrade o w) (setVar a o (some (.shared none))) .done
  | upgradeNull : a.vars o = none → a.vars w = some (.weak none) →
      Step a (.upgrade o w) (setVar a o (some (.shared none))) .done
  | weakNull : a.vars w = none → Step a (.weakNull w) (setVar a w (some (.weak none))) .done
  | weakClone : a.vars w = none → a.vars src = some (.weak p) → Step a (.weakClone w src) (setVar a w (some (.weak p))) .done
  /-- Dropping destroys the object exactly when this was the last shared pointer to it. -/
  | drop : a.vars o = some v → Destroys a o d → Step a (.drop o) (setVar a o none) (.dropped d)
  | isNull : a.vars o = some (.shared p) → (b = true ↔ p = none) → Step a (.isNull o) a (.bool b)
  | asRef : a.vars o = some (.shared p) → Step a (.asRef o) a (.value (p.map a.val))
  | deref : a.vars o = some (.shared (some i)) → Step a (.deref o) a (.value (some (a.val i)))
  | derefNull : a.vars o = some (.shared none) → Step a (.deref o) a .panicked
  | move : a.vars o = none → a.vars src = some v → Step a (.move o src) (setVar (setVar a o (some v)) src none) .done
  | assign : a.vars o = some u → a.vars src = some v → o ≠ src → Destroys a o d →
      Step a (.assign o src) (setVar (setVar a o (some v)) src none) (.dropped d)
  /-- Every pointer to the object sees the change. -/
  | write : a.vars o = some (.shared (some i)) →
      Step a (.write o v) { a with val := fun j => if j = i then v else a.val j } .done
  | eq : a.vars o = some (.shared p) → a.vars o' = some (.shared q) → (b = true ↔ p.map a.val = q.map a.val) →
      Step a (.eq o o') a (.bool b)

def Legal (a : World) : Op → Prop
  | .null o | .new o _ | .weakNull o => a.vars o = none
  | .clone o src | .downgrade o src => a.vars o = none ∧ ∃ p, a.vars src = some (.shared p)
  | .upgrade o src | .weakClone o src => a.vars o = none ∧ ∃ p, a.vars src = some (.weak p)
  | .drop o => ∃ v, a.vars o = some v
  | .isNull o | .asRef o | .deref o => ∃ p, a.vars o = some (.shared p)
  | .move o src => a.vars o = none ∧ ∃ v, a.vars src = some v
  | .assign o src => (∃ u, a.vars o = some u) ∧ (∃ v, a.vars src = some v) ∧ o ≠ src
  | .write o _ => ∃ i, a.vars o = some (.shared (some i))
  | .eq o p => (∃ x, a.vars o = some (.shared x)) ∧ ∃ y, a.vars p = some (.shared y)

end Verif.SharedPtr.Spec
