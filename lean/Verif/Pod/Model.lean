import Verif.Types.Model
/-!
# `syntax/pod.rs`, `syntax/primitive.rs`
-/
namespace Verif.Pod
open Verif.Syntax Verif.Types

/-- syntax/primitive.rs:4-8 `enum PrimitiveKind`. -/
inductive PrimitiveKind
  | boolean
  | number
  | pointer
  deriving DecidableEq, Repr

/-- syntax/primitive.rs:12-18: the kind of a builtin. -/
def atomKind : Atom → Option PrimitiveKind
  | .bool => some .boolean
  | .cxxString | .rustString => none
  | _ => some .number

/-- syntax/primitive.rs:10-22 `kind`. -/
def kind : Ty → Option PrimitiveKind
  | .ident t => (Atom.fromStr t.rust).bind atomKind
  | .ptr .. => some .pointer
  | _ => none

/-- syntax/pod.rs:10-14: a builtin. -/
def atomPod : Atom → Bool
  | .cxxString | .rustString => false
  | _ => true

/-- syntax/pod.rs:16-18: `fields.iter().all(|field| kind(field).is_none() && is_guaranteed_pod(field))`,
with both short circuits; `f` is the recursive call. -/
def allFields (f : Ty → Option Bool) : List Ty → Option Bool
  | [] => some true
  | t :: ts =>
    if (kind t).isSome then some false
    else match f t with
      | none => none
      | some false => some false
      | some true => allFields f ts

/-- syntax/pod.rs:5-33 `is_guaranteed_pod`.  The first argument bounds the recursion depth; `none` means
that it was not enough. -/
def isPod (ts : Types) : Nat → Ty → Option Bool
  | 0, _ => none
  | depth + 1, ty =>
    match ty with
    | .ident t =>
      match Atom.fromStr t.rust with
      | some atom => some (atomPod atom)
      | none =>
        match mapGet ts.structs t.rust with
        | some s => allFields (isPod ts depth) (s.fields.map (·.ty))
        | none => some (mapHas ts.enums t.rust)
    | .rustBox _ | .rustVec _ | .uniquePtr _ | .sharedPtr _ | .weakPtr _ | .cxxVector _ | .void => some false
    | .ref .. | .str .. | .fn .. | .sliceRef .. | .ptr .. => some true
    | .array t _ => isPod ts depth t

end Verif.Pod
