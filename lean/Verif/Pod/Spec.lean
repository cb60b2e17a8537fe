import Verif.Types.Spec
/-!
# Plain data
-/
namespace Verif.Pod
open Verif.Syntax Verif.Types

/-- The builtin numeric types. -/
def numeric : List Ident :=
  ["bool", "c_char", "u8", "u16", "u32", "u64", "usize", "i8", "i16", "i32", "i64", "isize", "f32", "f64"]

/-- A field of builtin numeric or raw pointer type. -/
def Primitive : Ty → Prop
  | .ident t => t.rust ∈ numeric
  | .ptr .. => True
  | _ => False

/-- Values that may cross the boundary in registers: numbers, shared enums, references and pointers, arrays
of these and shared structs of these, except that a struct must have no field of primitive type. -/
inductive Plain (apis : List Api) : Ty → Prop
  | numeric (t : NamedType) (h : t.rust ∈ numeric) : Plain apis (.ident t)
  | enum (t : NamedType) (hb : Atom.fromStr t.rust = none) (e : Enum) (h : Api.enum e ∈ apis)
      (hn : e.name.rust = t.rust) (hs : ∀ s, Api.struct s ∈ apis → s.name.rust ≠ t.rust) : Plain apis (.ident t)
  | struct (t : NamedType) (hb : Atom.fromStr t.rust = none) (s : Struct) (h : Api.struct s ∈ apis)
      (hn : s.name.rust = t.rust) (hp : ∀ f ∈ s.fields, ¬ Primitive f.ty) (hf : ∀ f ∈ s.fields, Plain apis f.ty) :
      Plain apis (.ident t)
  | ref (p : Bool) (l : Option Ident) (m : Bool) (t : Ty) : Plain apis (.ref p l m t)
  | ptr (m : Bool) (t : Ty) : Plain apis (.ptr m t)
  | str (p : Bool) (l : Option Ident) (m : Bool) (t : Ty) : Plain apis (.str p l m t)
  | slice (l : Option Ident) (m : Bool) (t : Ty) : Plain apis (.sliceRef l m t)
  | fn (u : Bool) (as : List Ty) (r : Option Ty) (th : Bool) : Plain apis (.fn u as r th)
  | array (t : Ty) (n : Nat) (h : Plain apis t) : Plain apis (.array t n)

/-- Holding, at any depth inside its own storage, an object whose copying, moving or destruction runs code:
strings, boxes, vectors, smart pointers, and every C++ or Rust type the bridge knows only by name. -/
inductive Owning (apis : List Api) : Ty → Prop
  | string (t : NamedType) (h : t.rust = "String" ∨ t.rust = "CxxString") : Owning apis (.ident t)
  | extern (t : NamedType) (hb : Atom.fromStr t.rust = none) (hs : ∀ s, Api.struct s ∈ apis → s.name.rust ≠ t.rust)
      (he : ∀ e, Api.enum e ∈ apis → e.name.rust ≠ t.rust) : Owning apis (.ident t)
  | field (t : NamedType) (hb : Atom.fromStr t.rust = none) (s : Struct) (h : Api.struct s ∈ apis)
      (hn : s.name.rust = t.rust) (f : Var) (hf : f ∈ s.fields) (ho : Owning apis f.ty) : Owning apis (.ident t)
  | box (t : Ty) : Owning apis (.rustBox t)
  | vec (t : Ty) : Owning apis (.rustVec t)
  | uniquePtr (t : Ty) : Owning apis (.uniquePtr t)
  | sharedPtr (t : Ty) : Owning apis (.sharedPtr t)
  | weakPtr (t : Ty) : Owning apis (.weakPtr t)
  | cxxVector (t : Ty) : Owning apis (.cxxVector t)
  | array (t : Ty) (n : Nat) (h : Owning apis t) : Owning apis (.array t n)

end Verif.Pod
