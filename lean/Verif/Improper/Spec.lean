import Verif.Types.Spec
/-!
# What an improper C type is
-/
namespace Verif.Improper
open Verif.Syntax Verif.Types

/-- The types that a C compiler cannot be told about, in the sense of rustc's lint: those represented
differently in Rust, and whatever contains one in a field, behind a reference or pointer, or as array
element.  Builtin names take precedence over declarations, structs over the rest. -/
inductive Improper (apis : List Api) : Ty → Prop
  | string (g : List Ident) : Improper apis (.ident ⟨"String", g⟩)
  | rustType (t : NamedType) (hb : Atom.fromStr t.rust = none) (hs : ∀ s, Api.struct s ∈ apis → s.name.rust ≠ t.rust)
      (h : Kind.rust ∈ definitions apis t.rust) : Improper apis (.ident t)
  | alias (t : NamedType) (hb : Atom.fromStr t.rust = none) (hs : ∀ s, Api.struct s ∈ apis → s.name.rust ≠ t.rust)
      (h : Kind.alias ∈ definitions apis t.rust) : Improper apis (.ident t)
  | field (t : NamedType) (hb : Atom.fromStr t.rust = none) (s : Struct) (hs : Api.struct s ∈ apis)
      (hn : s.name.rust = t.rust) (f : Var) (hf : f ∈ s.fields) (h : Improper apis f.ty) : Improper apis (.ident t)
  | box (t : Ty) : Improper apis (.rustBox t)
  | vec (t : Ty) : Improper apis (.rustVec t)
  | str (p : Bool) (l : Option Ident) (m : Bool) (t : Ty) : Improper apis (.str p l m t)
  | fn (u : Bool) (as : List Ty) (r : Option Ty) (th : Bool) : Improper apis (.fn u as r th)
  | void : Improper apis .void
  | slice (l : Option Ident) (m : Bool) (t : Ty) : Improper apis (.sliceRef l m t)
  | ref (p : Bool) (l : Option Ident) (m : Bool) (t : Ty) (h : Improper apis t) : Improper apis (.ref p l m t)
  | ptr (m : Bool) (t : Ty) (h : Improper apis t) : Improper apis (.ptr m t)
  | array (t : Ty) (n : Nat) (h : Improper apis t) : Improper apis (.array t n)

end Verif.Improper
