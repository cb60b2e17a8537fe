import Verif.Nested.Model
import Verif.Out.Spec
/-!
# What grouping has to keep
-/
namespace Verif.Nested
open Verif.Syntax

variable {α : Type}

/-- The items found by following a path through the groups; if two groups had one name, those of both. -/
def itemsAt : Entries α → List Ident → List α
  | .mk direct _, [] => direct
  | .mk _ nested, k :: path => nested.flatMap (fun e => if e.1 = k then itemsAt e.2 path else [])

/-- `Sub e' e`: `e'` is `e`, or a group nested in it at some depth. -/
inductive Sub : Entries α → Entries α → Prop
  | here (e : Entries α) : Sub e e
  | under {e e' : Entries α} {k : Ident} {direct : List α} {nested : List (Ident × Entries α)}
      (hm : (k, e) ∈ nested) (h : Sub e' e) : Sub e' (.mk direct nested)

/-- No group anywhere inside has two groups of one name, or a group without any item below it. -/
def Tidy (e : Entries α) : Prop :=
  ∀ direct nested, Sub (.mk direct nested) e →
    (nested.map (·.1)).Nodup ∧ ∀ g ∈ nested, ∃ path, itemsAt g.2 path ≠ []

end Verif.Nested
