import Verif.Types.Spec
/-!
# Vocabulary for what an accepted bridge may contain
-/
namespace Verif.Check
open Verif.Syntax Verif.Types

/-- `t` is declared `type t;` in an `extern "C++"` block and is not also a shared struct or enum. -/
def OpaqueCxx (apis : List Api) (t : Ident) : Prop :=
  Kind.cxx ∈ definitions apis t ∧ Kind.shared ∉ definitions apis t ∧ Kind.headerEnum ∉ definitions apis t

/-- `t` is declared in an `extern "Rust"` block. -/
def OpaqueRust (apis : List Api) (t : Ident) : Prop := Kind.rust ∈ definitions apis t

/-- `t` is declared `type t = path;` and is not also a shared struct or enum. -/
def Aliased (apis : List Api) (t : Ident) : Prop :=
  Kind.alias ∈ definitions apis t ∧ Kind.shared ∉ definitions apis t ∧ Kind.headerEnum ∉ definitions apis t

/-- A value of the first type contains a value of the second: itself, or an array element. -/
inductive Holds : Ty → Ty → Prop
  | self (t : Ty) : Holds t t
  | elem {t v : Ty} (n : Nat) (h : Holds t v) : Holds (.array t n) v

/-- Types without a size known to Rust, or that must not be moved. -/
inductive NotByValue (apis : List Api) : Ty → Prop
  | cxxString (g : List Ident) : NotByValue apis (.ident ⟨"CxxString", g⟩)
  | cxxVector (t : Ty) : NotByValue apis (.cxxVector t)
  | void : NotByValue apis .void
  | fn (u : Bool) (as : List Ty) (r : Option Ty) (th : Bool) : NotByValue apis (.fn u as r th)
  | opaqueCxx (t : NamedType) (h : OpaqueCxx apis t.rust) : NotByValue apis (.ident t)
  | opaqueRust (t : NamedType) (h : OpaqueRust apis t.rust) : NotByValue apis (.ident t)

/-- The function `f` is declared in the bridge. -/
def HasFn (apis : List Api) (f : ExternFn) : Prop :=
  Api.cxxFunction f ∈ apis ∨ Api.rustFunction f ∈ apis

/-- `t` occurs, at any depth, in a type written somewhere in the bridge. -/
def Occurs (apis : List Api) (t : Ty) : Prop :=
  ∃ a ∈ apis, ∃ w ∈ writtenTypes a, Within t w

/-- The type `t` may not be reached through an unpinned mutable reference. -/
def NeedsPin (apis : List Api) : Ty → Prop
  | .ident t => t.rust = "CxxString" ∨ OpaqueCxx apis t.rust
  | .cxxVector _ => True
  | _ => False

/-- Some declaration of the type name `t` has lifetime parameters. -/
def HasLifetimes (apis : List Api) (t : Ident) : Prop :=
  ∃ a ∈ apis, ∃ name generics, resolves a = some (name, generics) ∧ name.rust = t ∧ generics ≠ []

/-- A type through which a mutable borrow can be handed in: a mutable reference, a mutable slice,
or a named type with lifetime parameters, at any depth. -/
def CarriesBorrow (apis : List Api) (w : Ty) : Prop :=
  ∃ t, Within t w ∧ (
    (∃ p l i, t = .ref p l true i) ∨ (∃ l i, t = .sliceRef l true i) ∨
    (∃ n, t = .ident n ∧ HasLifetimes apis n.rust))

end Verif.Check
