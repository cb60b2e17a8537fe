import Verif.Thunk.Machine
/-!
# When the two declarations of a function fit
-/
namespace Verif.Thunk
open Verif.Syntax

/-- The lists have the same length and `R` holds position by position. -/
inductive Each {α β : Type} (R : α → β → Prop) : List α → List β → Prop
  | nil : Each R [] []
  | cons {a b as bs} : R a b → Each R as bs → Each R (a :: as) (b :: bs)

/-- The type `T` of the bridge can be handled by value: it is a struct, an
enum, or an alias of a type of another bridge. -/
def ByValueType (apis : List Api) (T : Ident) : Prop :=
  (∃ s, Api.struct s ∈ apis ∧ s.name.rust = T) ∨ (∃ e, Api.enum e ∈ apis ∧ e.name.rust = T) ∨
  ∃ a, Api.typeAlias a ∈ apis ∧ a.name.rust = T

/-- The pointee is the type with the names `p`. -/
def Is (p : Pair) (t : CTy) : Prop := t = .named ⟨p.ns, p.cxx⟩
/-- The pointee is a vector of the type with the names `p`. -/
def IsVector (p : Pair) (t : CTy) : Prop := t = .vector ⟨p.ns, p.cxx⟩

/-- An argument that Rust passes as the first type may be taken by C++ as the second: both are sizes, or
both are pointers to the same thing and what C++ may write through, Rust may write through. -/
inductive Passed (p : Pair) : RPTy → CPTy → Prop
  | size : Passed p .usize .size
  | repr {m t c} : Is p t ∨ IsVector p t → (m = true ∨ c = true) → Passed p (.repr m) (.unique t c)
  | shared {m t c} : Is p t → (m = true ∨ c = true) → Passed p (.opaque_ m) (.shared t c)
  | weak {m t c} : Is p t → (m = true ∨ c = true) → Passed p (.opaque_ m) (.weak t c)
  | obj {m t c} : Is p t → (m = true ∨ c = true) → Passed p (.opaque_ m) (.obj t c)
  | vector {m t c} : IsVector p t → (m = true ∨ c = true) → Passed p (.cxxVector p.rust m) (.obj t c)

/-- What C++ returns as the second type may be received by Rust as the first. -/
inductive Returned (p : Pair) : RPTy → CPTy → Prop
  | unit : Returned p .unit .void
  | size : Returned p .usize .size
  | obj {m t c} : Is p t → (m = true → c = false) → Returned p (.opaque_ m) (.obj t c)
  | vector {m t c} : IsVector p t → (m = true → c = false) → Returned p (.cxxVector p.rust m) (.obj t c)

/-- An argument that C++ passes as the first type may be taken by Rust as the second: both are sizes or
pointers to the same thing.  (The constructor of `rust::Vec` passes `this` as a pointer to const.) -/
inductive Given (p : Pair) : CPTy → RPTy → Prop
  | size : Given p .size .usize
  | obj {t c m} : Is p t → Given p (.obj t c) (.obj p.rust m)
  | box {c m} : Given p (.box ⟨p.ns, p.cxx⟩ c) (.box p.rust m)
  | vec {c m} : Given p (.vec ⟨p.ns, p.cxx⟩ c) (.vec p.rust m)

/-- What Rust returns as the second type may be received by C++ as the first. -/
inductive Received (p : Pair) : CPTy → RPTy → Prop
  | void : Received p .void .unit
  | size : Received p .size .usize
  | obj {t c m} : Is p t → (c = false → m = true) → Received p (.obj t c) (.obj p.rust m)

end Verif.Thunk
