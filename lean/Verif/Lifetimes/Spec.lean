import Verif.Lifetimes.Model
import Verif.Types.Spec
/-!
# Rust's rules for lifetimes in types
-/
namespace Verif.Lifetimes
open Verif.Syntax Verif.Parse Verif.Types

/-- A lifetime that may be written (Reference, "Lifetime elision"; E0261, E0106). -/
def Known (p : Place) (scope : List Ident) (l : Ident) : Prop :=
  l = "static" ∨ l ∈ scope ∨ (l = "_" ∧ p ≠ .exact)

/-- The lifetime of a reference. -/
def Borrow (p : Place) (scope : List Ident) : Option Ident → Prop
  | some l => Known p scope l
  | none => p ≠ .exact

/-- A type with `n` lifetimes has `k` of them written: all, or none where they can be left out (E0107, E0106, E0726). -/
def Count (p : Place) (n k : Nat) : Prop := k = n ∨ (k = 0 ∧ p = .free)

/-- What stands behind a name: nothing or lifetimes. -/
def Behind (args : PathArgs RTy) (ls : List Ident) : Prop :=
  (args = .none ∧ ls = []) ∨ args = .angle (ls.map .lifetime)

/-- The lifetimes in a type are as Rust demands.  `arity` says how many a type of the bridge has; the types that are named
from a crate's root, `Self`, and those with type arguments have none. -/
inductive Fine (arity : Ident → Nat) : Place → List Ident → RTy → Prop
  | reference {p scope l m t} : Borrow p scope l → Fine arity p scope t → Fine arity p scope (.reference l m t)
  | ptr {p scope m t} : Fine arity p scope t → Fine arity p scope (.ptr m t)
  | slice {p scope t} : Fine arity p scope t → Fine arity p scope (.slice t)
  | array {p scope t n} : Fine arity p scope t → Fine arity p scope (.array t n)
  | name {p scope before n args ls} : Behind args ls → Count p (arity n) ls.length → (∀ l ∈ ls, Known p scope l) →
      Fine arity p scope (.path false false before n args)
  | self {p scope} : Fine arity p scope (.path false false [] "Self" .none)
  | library {p scope before n} : Fine arity p scope (.path false true before n .none)
  | generic {p scope colon before n ts} : ts ≠ [] → (∀ t ∈ ts, Fine arity p scope t) →
      Fine arity p scope (.path false colon before n (.angle (ts.map .type)))
  /-- inside a function pointer lifetimes can be left out -/
  | fn {p scope u abi args out} : (∀ a ∈ args, Fine arity .free scope a.2) → (∀ t, out = some t → Fine arity .free scope t) →
      Fine arity p scope (.bareFn false u abi args false out)
  | unit {p scope} : Fine arity p scope (.tuple [])
  /-- `impl Display` -/
  | other {p scope} : Fine arity p scope .other

/-- Lifetime parameters: distinct (E0403), and neither `'static` nor `'_` (E0262, E0637). -/
def Parameters (ls : List Ident) : Prop := ls.Nodup ∧ "static" ∉ ls ∧ "_" ∉ ls

/-- A generated item that Rust does not complain about. -/
def Item.Fine (arity : Ident → Nat) (item : Item) : Prop :=
  Parameters item.params ∧ ∀ u ∈ item.uses, Lifetimes.Fine arity u.1 item.params u.2

/-! ### What the user wrote -/

/-- The lifetimes in a type of the bridge are as Rust demands. -/
inductive Right (arity : Ident → Nat) : Place → List Ident → Ty → Prop
  | ident {p scope n} : Count p (arity n.rust) n.generics.length → (∀ l ∈ n.generics, Known p scope l) →
      Right arity p scope (.ident n)
  | rustBox {p scope t} : Right arity p scope t → Right arity p scope (.rustBox t)
  | rustVec {p scope t} : Right arity p scope t → Right arity p scope (.rustVec t)
  | uniquePtr {p scope t} : Right arity p scope t → Right arity p scope (.uniquePtr t)
  | sharedPtr {p scope t} : Right arity p scope t → Right arity p scope (.sharedPtr t)
  | weakPtr {p scope t} : Right arity p scope t → Right arity p scope (.weakPtr t)
  | cxxVector {p scope t} : Right arity p scope t → Right arity p scope (.cxxVector t)
  | ref {p scope pin l m t} : Borrow p scope l → Right arity p scope t → Right arity p scope (.ref pin l m t)
  | str {p scope pin l m t} : Borrow p scope l → Right arity p scope t → Right arity p scope (.str pin l m t)
  | sliceRef {p scope l m t} : Borrow p scope l → Right arity p scope t → Right arity p scope (.sliceRef l m t)
  | ptr {p scope m t} : Right arity p scope t → Right arity p scope (.ptr m t)
  | array {p scope t n} : Right arity p scope t → Right arity p scope (.array t n)
  | fn {p scope u args ret throws} : (∀ a ∈ args, Right arity .free scope a) → (∀ t, ret = some t → Right arity .free scope t) →
      Right arity p scope (.fn u args ret throws)
  | void {p scope} : Right arity p scope .void

/-- `arity n` is the number of lifetimes of the type `n`, in all declarations of it in the bridge; the builtin types have
none. -/
def Arities (apis : List Api) (arity : Ident → Nat) : Prop :=
  (∀ a ∈ apis, ∀ d, resolves a = some d → d.2.length = arity d.1.rust) ∧
  ∀ n, Atom.fromStr n ≠ none → arity n = 0

/-- The lifetimes of a signature. -/
def SigRight (arity : Ident → Nat) (s : Sig) : Prop :=
  Parameters s.generics ∧
  (∀ r, s.receiver = some r → Borrow .free s.generics r.lifetime ∧ Right arity .free s.generics (.ident r.ty)) ∧
  (∀ a ∈ s.args, Right arity .free s.generics a.ty) ∧ ∀ t, s.ret = some t → Right arity .free s.generics t

/-- The lifetimes that the user wrote in an item of the bridge are as Rust demands.  (An enum has none; in `impl Box<T> {}`
all lifetimes have to be written.) -/
def Written (arity : Ident → Nat) : Api → Prop
  | .struct s => Parameters s.generics ∧ ∀ f ∈ s.fields, Right arity .exact s.generics f.ty
  | .enum e => e.generics = []
  | .cxxType t | .rustType t => Parameters t.generics
  | .typeAlias a => Parameters a.generics
  | .cxxFunction f | .rustFunction f => SigRight arity f.sig
  | .impl i => Parameters i.implGenerics ∧ Right arity .exact i.implGenerics i.ty
  | .include _ => True

end Verif.Lifetimes
