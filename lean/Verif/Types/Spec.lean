import Verif.Syntax.Ast
/-!
# What counts as a duplicate definition
-/
namespace Verif.Types
open Verif.Syntax

/-- The ways in which an item can define a type name. -/
inductive Kind
  /-- a shared struct or enum -/
  | shared
  /-- an enum whose variants come from a C++ header (`#![variants_from_header]`) -/
  | headerEnum
  /-- `type T;` in `extern "C++"` -/
  | cxx
  /-- `type T;` in `extern "Rust"` -/
  | rust
  /-- `type T = path::to::T;` -/
  | alias
  deriving DecidableEq, Repr

/-- The type name an item defines. -/
def defines : Api → Option (Ident × Kind)
  | .struct s => some (s.name.rust, .shared)
  | .enum e => some (e.name.rust, if e.variantsFromHeader then .headerEnum else .shared)
  | .cxxType t => some (t.name.rust, .cxx)
  | .rustType t => some (t.name.rust, .rust)
  | .typeAlias a => some (a.name.rust, .alias)
  | _ => none

/-- The definitions of the name `n`, in source order. -/
def definitions (apis : List Api) (n : Ident) : List Kind :=
  ((apis.filterMap defines).filter (fun d => decide (d.1 = n))).map (·.2)

/-- The receiver (written type, pinning, lifetime, mutability) and the name of a function. -/
def signatureOf : Api → Option (Option (NamedType × Bool × Option Ident × Bool) × Ident)
  | .cxxFunction f | .rustFunction f =>
    some (f.sig.receiver.map (fun r => (r.ty, r.pinned, r.lifetime, r.mutable)), f.name.rust)
  | _ => none

/-- The definitions of one name are compatible: there is at most one, or there are two, one shared
and one an extern C++ type, in either order. -/
def Compatible (ks : List Kind) : Prop :=
  ks.length ≤ 1 ∨ ks = [.shared, .cxx] ∨ ks = [.cxx, .shared]

/-- What the code accepts in addition: a shared definition after an alias, and an enum from a header
after an extern C++ type or an alias. -/
def Tolerated (ks : List Kind) : Prop :=
  ks = [.alias, .shared] ∨ ks = [.cxx, .headerEnum] ∨ ks = [.alias, .headerEnum]

/-- The types written in an item (an enum contributes its representation type). -/
def writtenTypes : Api → List Ty
  | .struct s => s.fields.map (·.ty)
  | .enum e => [Ty.named e.repr.asRef]
  | .cxxFunction f | .rustFunction f => f.sig.args.map (·.ty) ++ f.sig.ret.toList
  | .impl i => [i.ty]
  | _ => []

/-- The name and lifetimes an item gives to a type. -/
def resolves : Api → Option (Pair × List Ident)
  | .struct s => some (s.name, s.generics)
  | .enum e => some (e.name, e.generics)
  | .cxxType t | .rustType t => some (t.name, t.generics)
  | .typeAlias a => some (a.name, a.generics)
  | _ => none

/-- The first type is written directly inside the second. -/
inductive Part : Ty → Ty → Prop
  | rustBox (t : Ty) : Part t (.rustBox t)
  | rustVec (t : Ty) : Part t (.rustVec t)
  | uniquePtr (t : Ty) : Part t (.uniquePtr t)
  | sharedPtr (t : Ty) : Part t (.sharedPtr t)
  | weakPtr (t : Ty) : Part t (.weakPtr t)
  | cxxVector (t : Ty) : Part t (.cxxVector t)
  | ref (p : Bool) (l : Option Ident) (m : Bool) (t : Ty) : Part t (.ref p l m t)
  | ptr (m : Bool) (t : Ty) : Part t (.ptr m t)
  | sliceRef (l : Option Ident) (m : Bool) (t : Ty) : Part t (.sliceRef l m t)
  | array (t : Ty) (n : Nat) : Part t (.array t n)
  | fnArg (u : Bool) (as : List Ty) (r : Option Ty) (th : Bool) {a : Ty} (h : a ∈ as) : Part a (.fn u as r th)
  | fnRet (u : Bool) (as : List Ty) (r : Ty) (th : Bool) : Part r (.fn u as (some r) th)

/-- The first type is the second or is written inside it at some depth. -/
inductive Within : Ty → Ty → Prop
  | self (t : Ty) : Within t t
  | part {t u w : Ty} (hp : Part u w) (h : Within t u) : Within t w

end Verif.Types
