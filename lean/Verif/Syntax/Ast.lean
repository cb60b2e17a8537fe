import Verif.Syntax.Atom
/-!
# `syntax/mod.rs`: the syntax tree of a bridge

Spans, tokens, doc comments and attributes without meaning for the modelled code are left out.
Identifiers are strings: `proc_macro2::Ident` equality and hashing compare the text.
-/
namespace Verif.Syntax

/-- An identifier's text. -/
abbrev Ident := String

/-- syntax/namespace.rs:12-15 `struct Namespace { segments }`. -/
abbrev Namespace := List Ident

/-- syntax/mod.rs:332-336 `struct Pair`: a Rust name and its fully qualified C++ name. -/
structure Pair where
  ns : Namespace
  cxx : Ident
  rust : Ident
  deriving DecidableEq, Repr

/-- syntax/mod.rs:341-344 `struct NamedType`; `generics` is the list of lifetime names. -/
structure NamedType where
  rust : Ident
  generics : List Ident
  deriving DecidableEq, Repr

/-- syntax/mod.rs:264-279 `enum Type`.  `Ty1` (mod.rs:273-278) is reduced to `inner`: its `name` is
the constructor's own name, since the parser builds each variant from that name only
(syntax/parse.rs `parse_type_path`).  A function pointer (`Signature`, mod.rs:203-213) keeps
unsafety, argument types, return type and `throws`; its receiver and asyncness are always absent
(syntax/parse.rs `parse_type_fn`), and argument names play no part in the modelled code. -/
inductive Ty
  | ident (t : NamedType)
  | rustBox (inner : Ty)
  | rustVec (inner : Ty)
  | uniquePtr (inner : Ty)
  | sharedPtr (inner : Ty)
  | weakPtr (inner : Ty)
  | ref (pinned : Bool) (lifetime : Option Ident) (mutable : Bool) (inner : Ty)
  | ptr (mutable : Bool) (inner : Ty)
  | str (pinned : Bool) (lifetime : Option Ident) (mutable : Bool) (inner : Ty)
  | cxxVector (inner : Ty)
  | fn (unsafety : Bool) (args : List Ty) (ret : Option Ty) (throws : Bool)
  | void
  | sliceRef (lifetime : Option Ident) (mutable : Bool) (inner : Ty)
  | array (inner : Ty) (len : Nat)
  deriving Repr

/-- A plain named type without lifetime arguments. -/
def Ty.named (s : Ident) : Ty := .ident ⟨s, []⟩

/-- syntax/mod.rs:324-327 `enum Lang`. -/
inductive Lang
  | cxx
  | rust
  deriving DecidableEq, Repr

/-- syntax/derive.rs:10-24 `enum Trait`. -/
inductive Trait
  | clone | copy | debug | default | eq | externType | hash | ord | partialEq | partialOrd
  | serialize | deserialize
  deriving DecidableEq, Repr

/-- syntax/mod.rs:223-235 `struct Var`: a field or argument. -/
structure Var where
  name : Pair
  ty : Ty

/-- syntax/mod.rs:237-250 `struct Receiver`. -/
structure Receiver where
  pinned : Bool
  lifetime : Option Ident
  mutable : Bool
  ty : NamedType
  shorthand : Bool

/-- syntax/mod.rs:210-221 `struct Signature`; `generics` is the list of lifetime parameters. -/
structure Sig where
  unsafety : Bool
  generics : List Ident
  receiver : Option Receiver
  args : List Var
  ret : Option Ty
  throws : Bool

/-- syntax/mod.rs:105-119 `struct Struct`. -/
structure Struct where
  derives : List Trait
  name : Pair
  generics : List Ident
  fields : List Var

/-- syntax/mod.rs:121-140 `struct Enum` (native repr only); of each variant only
the name is kept here, its discriminant being the subject of `Verif/Discriminant`. -/
structure Enum where
  derives : List Trait
  name : Pair
  generics : List Ident
  variants : List Pair
  variantsFromHeader : Bool
  repr : Atom
  explicitRepr : Bool

/-- syntax/mod.rs:84-103 `struct ExternType`. -/
structure ExternType where
  lang : Lang
  derives : List Trait
  name : Pair
  generics : List Ident
  bounds : List Trait
  trusted : Bool

/-- syntax/mod.rs:153-166 `struct ExternFn`. -/
structure ExternFn where
  lang : Lang
  name : Pair
  sig : Sig
  trusted : Bool

/-- syntax/mod.rs:168-187 `struct TypeAlias`. -/
structure TypeAlias where
  derives : List Trait
  name : Pair
  generics : List Ident

/-- syntax/mod.rs:189-201 `struct Impl`. -/
structure Impl where
  implGenerics : List Ident
  negative : Bool
  ty : Ty

/-- syntax/mod.rs:52-63 `enum Api`; `Include` carries its path only. -/
inductive Api
  | include (path : String)
  | struct (s : Struct)
  | enum (e : Enum)
  | cxxType (t : ExternType)
  | cxxFunction (f : ExternFn)
  | rustType (t : ExternType)
  | rustFunction (f : ExternFn)
  | typeAlias (a : TypeAlias)
  | impl (i : Impl)

/-- Induction on types, with the function-pointer case given for all argument types. -/
theorem Ty.induct {P : Ty → Prop}
    (ident : ∀ t, P (.ident t)) (rustBox : ∀ t, P t → P (.rustBox t))
    (rustVec : ∀ t, P t → P (.rustVec t)) (uniquePtr : ∀ t, P t → P (.uniquePtr t))
    (sharedPtr : ∀ t, P t → P (.sharedPtr t)) (weakPtr : ∀ t, P t → P (.weakPtr t))
    (ref : ∀ p l m t, P t → P (.ref p l m t)) (ptr : ∀ m t, P t → P (.ptr m t))
    (str : ∀ p l m t, P t → P (.str p l m t)) (cxxVector : ∀ t, P t → P (.cxxVector t))
    (fn : ∀ u as r th, (∀ a ∈ as, P a) → (∀ t, r = some t → P t) → P (.fn u as r th))
    (void : P .void) (sliceRef : ∀ l m t, P t → P (.sliceRef l m t))
    (array : ∀ t n, P t → P (.array t n)) : ∀ t, P t :=
  Ty.rec (motive_1 := P) (motive_2 := fun as => ∀ a ∈ as, P a) (motive_3 := fun r => ∀ t, r = some t → P t)
    ident rustBox rustVec uniquePtr sharedPtr weakPtr ref ptr str cxxVector
    (fun u as r th h1 h2 => fn u as r th h1 h2) void sliceRef array
    (by simp) (fun a as ha has => by simpa using ⟨ha, has⟩)
    (by simp) (fun t h => by simpa using h)

end Verif.Syntax
