import Verif.RustString.Model
import Verif.Utf8.Spec
/-!
# Specification of rust::String histories

A string is the list of its bytes; a program's strings are a table from addresses to byte lists.
There is no heap, so nothing can be shared, freed or leaked here.  Only the operation and observation
names are taken from the model.
-/
namespace Verif.RustString.Spec
open Verif Utf8.Spec

abbrev Strings := Nat → Option (List Nat)

/-- What one operation does: `Step a op a' obs`.  Creating needs a free address, everything else
live objects. -/
inductive Step (a : Strings) : Op → Strings → Obs → Prop
  | ctor {o} : a o = none → Step a (.ctor o) (upd a o (some [])) .done
  | ctorBytes {o bs} : a o = none → WellFormed8 bs → Step a (.ctorBytes o bs) (upd a o (some bs)) .done
  | ctorBytesThrow {o bs} : a o = none → ¬ WellFormed8 bs → Step a (.ctorBytes o bs) a .threw
  | ctorUnits {o us} {cs : List Nat} : a o = none → (∀ c ∈ cs, IsScalar c) → us = cs.flatMap encode16 →
      Step a (.ctorUnits o us) (upd a o (some (cs.flatMap encode8))) .done
  | ctorUnitsThrow {o us} : a o = none → ¬ WellFormed16 us → Step a (.ctorUnits o us) a .threw
  | ctorLossy {o bs ps} : a o = none → Pieces bs ps → Step a (.ctorLossy o bs) (upd a o (some (lossy ps))) .done
  | ctorLossy16 {o us cs} : a o = none → Lossy16 us cs →
      Step a (.ctorLossy16 o us) (upd a o (some (cs.flatMap encode8))) .done
  | copyCtor {o src bs} : a o = none → a src = some bs → Step a (.copyCtor o src) (upd a o (some bs)) .done
  | moveCtor {o src bs} : a o = none → a src = some bs →
      Step a (.moveCtor o src) (upd (upd a o (some bs)) src (some [])) .done
  | copyAssign {o src bs b} : a o = some b → a src = some bs → Step a (.copyAssign o src) (upd a o (some bs)) .done
  | moveAssign {o src bs b} : a o = some b → a src = some bs →
      Step a (.moveAssign o src) (upd (upd a o (some bs)) src (some [])) .done
  | reserve {o bs n slack} : a o = some bs → Step a (.reserve o n slack) a .done
  | cStr {o bs slack} : a o = some bs → Step a (.cStr o slack) a (.bytes (bs ++ [0]))
  | swap {o p b c} : a o = some b → a p = some c → Step a (.swap o p) (upd (upd a o (some c)) p (some b)) .done
  | read {o bs} : a o = some bs → Step a (.read o) a (.bytes bs)
  | destroy {o bs} : a o = some bs → Step a (.destroy o) (upd a o none) .done

/-- The objects an operation needs to exist, and the address it needs to be free. -/
def Legal (a : Strings) : Op → Prop
  | .ctor o | .ctorBytes o _ | .ctorUnits o _ | .ctorLossy o _ | .ctorLossy16 o _ => a o = none
  | .copyCtor o src | .moveCtor o src => a o = none ∧ a src ≠ none
  | .copyAssign o src | .moveAssign o src | .swap o src => a o ≠ none ∧ a src ≠ none
  | .reserve o _ _ | .cStr o _ | .read o | .destroy o => a o ≠ none

/-- A history of operations with what was seen. -/
inductive Run : Strings → List Op → Strings → List Obs → Prop
  | nil {a} : Run a [] a []
  | cons {a b c op ops x xs} : Step a op b x → Run b ops c xs → Run a (op :: ops) c (x :: xs)

end Verif.RustString.Spec
