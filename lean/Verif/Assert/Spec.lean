import Verif.Assert.Model
import Verif.Check.Spec
import Verif.Qualified.Spec
/-!
# When the generated code compiles, and what types are used for
-/
namespace Verif.Assert
open Verif.Syntax Verif.Types Verif.Check Verif.Qualified

/-- A Rust type, as far as the compiler has to know it. -/
structure RustTy where
  sized : Bool
  unpin : Bool
  drops : Bool
  ext : Option (List IdElem × TKind)

/-- What the names in the module of a bridge stand for. -/
abbrev Scope := Ident → RustTy

/-- An item compiles.  `notUnpin`: of the two implementations `__AmbiguousIfImpl<()>`, for all types, and
`__AmbiguousIfImpl<__Invalid>`, for those that are `Unpin`, exactly one applies.  `noDrop`: the implementation of the
marker trait does not overlap with the one for all types that implement `Drop`. -/
def Item.Compiles (s : Scope) : Item → Prop
  | .impl n i k => (s n).ext = some (i, k)
  | .unpin n => (s n).unpin = true
  | .sized n => (s n).sized = true
  | .notUnpin n => ([true, (s n).unpin].filter (fun b => b)).length = 1
  | .noDrop n => ([true, (s n).drops].filter (fun b => b)).length = 1
  | .id n i => ∃ k, (s n).ext = some (i, k)
  | .kind n k => ∃ i, (s n).ext = some (i, k)

/-- The generated code compiles. -/
def Compiles (s : Scope) (items : List Item) : Prop := ∀ i ∈ items, i.Compiles s

/-! ### C++ -/

/-- The type may be moved by copying bytes: the user says so, or the compiler knows. -/
inductive Relocatable : CxxTy → Prop
  | declared (m d : Bool) : Relocatable (.plain (some true) m d)
  | trivial : Relocatable (.plain none true true)

/-- Or is an array of such. -/
inductive RelocatableOrArray : CxxTy → Prop
  | self {t : CxxTy} (h : Relocatable t) : RelocatableOrArray t
  | elem {t : CxxTy} (h : RelocatableOrArray t) : RelocatableOrArray (.array t)

/-- The static assertion compiles, with the C++ types that the headers define. -/
def StaticAssert.Compiles (w : List Ident → CxxTy) (a : StaticAssert) : Prop :=
  (if a.orArray then isRelocatableOrArray (w a.name) else isRelocatable (w a.name)) = true

/-! ### Uses -/

/-- Rust code can get hold of a value of the type `n` and move it.  Arguments of function pointers are left out. -/
inductive Moved (apis : List Api) (n : Ident) : Prop
  | field (s : Struct) (f : Var) (g : List Ident) (hs : Api.struct s ∈ apis) (hf : f ∈ s.fields)
      (h : Holds f.ty (.ident ⟨n, g⟩))
  | arg (f : ExternFn) (a : Var) (g : List Ident) (hf : HasFn apis f) (ha : a ∈ f.sig.args)
      (h : Holds a.ty (.ident ⟨n, g⟩))
  | ret (f : ExternFn) (r : Ty) (g : List Ident) (hf : HasFn apis f) (hr : f.sig.ret = some r)
      (h : Holds r (.ident ⟨n, g⟩))
  | box (t : Ty) (g : List Ident) (h : Occurs apis (.rustBox t)) (ht : Holds t (.ident ⟨n, g⟩))
  | vec (t : Ty) (g : List Ident) (h : Occurs apis (.rustVec t)) (ht : Holds t (.ident ⟨n, g⟩))
  | slice (l : Option Ident) (m : Bool) (t : Ty) (g : List Ident) (h : Occurs apis (.sliceRef l m t))
      (ht : Holds t (.ident ⟨n, g⟩))
  | array (t : Ty) (k : Nat) (g : List Ident) (h : Occurs apis (.array t k)) (ht : Holds t (.ident ⟨n, g⟩))
  | mutRef (l : Option Ident) (g : List Ident) (h : Occurs apis (.ref false l true (.ident ⟨n, g⟩)))
  | receiver (f : ExternFn) (r : Receiver) (hf : HasFn apis f) (hr : f.sig.receiver = some r) (hn : r.ty.rust = n)
      (hm : r.mutable = true) (hp : r.pinned = false)

/-- A C++ array type cannot be used in this way: as argument or return type, as the target of `Box`, as element of a
slice, or behind a mutable reference. -/
inductive NoArray (apis : List Api) (n : Ident) : Prop
  | arg (f : ExternFn) (a : Var) (g : List Ident) (hf : HasFn apis f) (ha : a ∈ f.sig.args)
      (h : a.ty = .ident ⟨n, g⟩ ∨ ∃ l, a.ty = .ref false l true (.ident ⟨n, g⟩))
  | ret (f : ExternFn) (r : Ty) (g : List Ident) (hf : HasFn apis f) (hr : f.sig.ret = some r)
      (h : r = .ident ⟨n, g⟩ ∨ ∃ l, r = .ref false l true (.ident ⟨n, g⟩))
  | box (g : List Ident) (h : Occurs apis (.rustBox (.ident ⟨n, g⟩)))
  | slice (l : Option Ident) (m : Bool) (g : List Ident) (h : Occurs apis (.sliceRef l m (.ident ⟨n, g⟩)))
  | receiver (f : ExternFn) (r : Receiver) (hf : HasFn apis f) (hr : f.sig.receiver = some r) (hn : r.ty.rust = n)
      (hm : r.mutable = true) (hp : r.pinned = false)

end Verif.Assert
