import Verif.Words.Model
/-!
# What a program sees of its strings and vectors
-/
namespace Verif.Words

/-- The types of values. -/
inductive Kind
  | string
  | rustString
  | vec (e : Elem)
  | rustVec (e : Elem)
  deriving DecidableEq, Repr

/-- What a value is, whichever type it has. -/
inductive Val
  | string (bytes : List Nat) (capacity : Nat)
  | items (items : List (List Nat)) (capacity : Nat)
  | strings (strings : List (List Nat)) (capacity : Nat)
  deriving DecidableEq, Repr

/-- The type that a conversion gives. -/
def Kind.to : Kind → Conv → Option Kind
  | .string, .stringFrom => some .rustString
  | .rustString, .intoString => some .string
  | .vec e, .vecFrom => some (.rustVec e)
  | .rustVec e, .intoVec => some (.vec e)
  | .vec .string, .fromVecString => some (.rustVec .rustString)
  | .rustVec .rustString, .intoVecString => some (.vec .string)
  | _, _ => none

/-- What an operation does to the values: a conversion changes the type only. -/
def does (vs : List (Kind × Val)) : Op → List (Kind × Val)
  | .makeString bytes spare => vs ++ [(.string, .string bytes (bytes.length + spare))]
  | .makeVec items spare => vs ++ [(.vec .plain, .items items (items.length + spare))]
  | .makeStrings strings spare => vs ++ [(.vec .string, .strings strings (strings.length + spare))]
  | .convert i c =>
    match vs[i]? with
    | none => vs
    | some (k, v) =>
      match k.to c with
      | none => vs
      | some k' => vs.set i (k', v)
  | .drop i => vs.eraseIdx i

/-- The values of a program. -/
def values (ops : List Op) : List (Kind × Val) := ops.foldl does []

/-- A pointer, capacity and length with its elements, and the allocations that belong to it. -/
inductive Holds : Raw → List (List Nat) → List Block → Prop
  | nothing {ptr} : Holds ⟨ptr, 0, 0⟩ [] []
  | block {ptr cap slots} : 0 < cap → Holds ⟨ptr, cap, slots.length⟩ slots [⟨ptr, cap, slots⟩]

/-- A string with its bytes. -/
def HoldsString (r : Raw) (bytes : List Nat) (blocks : List Block) : Prop := Holds r (bytes.map ([·])) blocks

/-- Strings kept in a vector, each in the layout of `String`. -/
inductive HoldsStrings (L : Layouts) : List (List Nat) → List (List Nat) → List Block → Prop
  | nil : HoldsStrings L [] [] []
  | cons {ws slots bytes strings b bs} : HoldsString (L.string.read ws) bytes b → HoldsStrings L slots strings bs →
      HoldsStrings L (ws :: slots) (bytes :: strings) (b ++ bs)

/-- A vector with its value. -/
inductive HoldsVec (L : Layouts) : Elem → Raw → Val → List Block → Prop
  | items {r items b} : Holds r items b → HoldsVec L .plain r (.items items r.cap) b
  | strings {e r slots strings b bs} : e = .string ∨ e = .rustString → Holds r slots b → HoldsStrings L slots strings bs →
      HoldsVec L e r (.strings strings r.cap) (b ++ bs)

/-- A value of a program, and the allocations that belong to it. -/
inductive Owns (L : Layouts) : Owner → Kind × Val → List Block → Prop
  | string {r bytes b} : HoldsString r bytes b → Owns L (.string r) (.string, .string bytes r.cap) b
  | rustString {ws bytes b} : HoldsString (L.string.read ws) bytes b →
      Owns L (.rustString ws) (.rustString, .string bytes (L.string.read ws).cap) b
  | vec {e r v b} : HoldsVec L e r v b → Owns L (.vec e r) (.vec e, v) b
  | rustVec {e ws v b} : HoldsVec L e ((L.vec e).read ws) v b → Owns L (.rustVec e ws) (.rustVec e, v) b

/-- One owner of a program: its representation, what it is, and its allocations. -/
structure Owned where
  owner : Owner
  value : Kind × Val
  blocks : List Block

end Verif.Words
