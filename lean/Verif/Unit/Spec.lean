import Verif.Unit.Model
import Verif.Abi.Spec
/-!
# What C++ demands of the order of declarations

A name has to be declared before it is mentioned, a type has to be complete before something holds a value of it, and
a function has to be declared before it is called.  A member function that is defined outside its class has to be
declared in the class, with the same signature, and there must be nothing else of that name.
-/
namespace Verif.Unit
open Verif.Syntax Verif.Types Verif.Abi Verif.Mangle

/-- `::ns::name`. -/
abbrev QName := Namespace × Ident

/-- The fully qualified C++ name. -/
def qname (p : Pair) : QName := (p.ns, p.cxx)

/-- The name is written somewhere in the type. -/
inductive Mentions : CTok → Pair → Prop
  | named (p : Pair) : Mentions (.named p) p
  | box {t : CTok} {p : Pair} (h : Mentions t p) : Mentions (.box t) p
  | vec {t : CTok} {p : Pair} (h : Mentions t p) : Mentions (.vec t) p
  | uniquePtr {t : CTok} {p : Pair} (h : Mentions t p) : Mentions (.uniquePtr t) p
  | sharedPtr {t : CTok} {p : Pair} (h : Mentions t p) : Mentions (.sharedPtr t) p
  | weakPtr {t : CTok} {p : Pair} (h : Mentions t p) : Mentions (.weakPtr t) p
  | vector {t : CTok} {p : Pair} (h : Mentions t p) : Mentions (.vector t) p
  | lref (m : Bool) {t : CTok} {p : Pair} (h : Mentions t p) : Mentions (.lref m t) p
  | star (m : Bool) {t : CTok} {p : Pair} (h : Mentions t p) : Mentions (.star m t) p
  | slice (m : Bool) {t : CTok} {p : Pair} (h : Mentions t p) : Mentions (.slice m t) p
  | array {t : CTok} {p : Pair} (n : Nat) (h : Mentions t p) : Mentions (.array t n) p
  | fnArg {args : List CTok} (ret : Option CTok) {t : CTok} {p : Pair} (ht : t ∈ args) (h : Mentions t p) :
      Mentions (.fn args ret) p
  | fnRet (args : List CTok) {t : CTok} {p : Pair} (h : Mentions t p) : Mentions (.fn args (some t)) p

/-- A value of the type has a value of the named type inside.  The smart pointers, vectors and slices, and `Fn`, hold
pointers only. -/
inductive Holds : CTok → Pair → Prop
  | named (p : Pair) : Holds (.named p) p
  | array {t : CTok} {p : Pair} (n : Nat) (h : Holds t p) : Holds (.array t n) p

/-- The types of a signature. -/
def FnSig.types (s : FnSig) : List CTok := s.params ++ s.ret.toList

/-- The types written in a declaration. -/
def written : Decl → List CTok
  | .struct _ | .enumeration .. | .enumDef .. | .layout .. => []
  | .using p | .checkEnum p | .hash p _ | .instance _ p => [.named p]
  | .classDef _ _ fields members _ => fields.map (·.2) ++ members.flatMap (·.sig.types)
  | .proto _ _ params ret => params ++ ret.toList
  | .shim params ret self _ sig => params ++ ret.toList ++ self.toList.map .named ++ sig.types
  | .function _ _ sig _ => sig.types
  | .member _ _ m _ => m.sig.types

/-- The types of which the declaration needs more than the name: those of the fields of a class, the parameters and
results of a function that is defined or called, the class whose member is called, and an enum that is looked into. -/
def byValue : Decl → List CTok
  | .classDef _ _ fields _ _ => fields.map (·.2)
  | .shim _ _ self _ sig => self.toList.map .named ++ sig.types
  | .function _ _ sig (some _) => sig.types
  | .member _ _ m _ => m.sig.types
  | .checkEnum p => [.named p]
  | _ => []

/-- The functions called, and the namespace they are looked up in. -/
def calls : Decl → List (Namespace × Symbol)
  | .function ns _ _ (some ss) => ss.map (ns, ·)
  | .member ns _ _ ss | .layout ns _ _ ss => ss.map (ns, ·)
  | .hash p ss => ss.map (p.ns, ·)
  | _ => []

/-- What the included headers of the user say about types. -/
structure Headers where
  declares : QName → Prop
  complete : QName → Prop

/-- The declaration introduces the type. -/
def Introduces : Decl → QName → Prop
  | .struct p, q | .enumeration p _, q | .classDef p _ _ _ _, q | .enumDef p _, q => qname p = q
  | _, _ => False

/-- The type is complete after the declaration.  That is so for an enum with an explicit representation even if it is
not defined yet. -/
def Completes : Decl → QName → Prop
  | .enumeration p _, q | .classDef p _ _ _ _, q | .enumDef p _, q => qname p = q
  | _, _ => False

/-- After the headers and these declarations the type is known. -/
def Known (H : Headers) (seen : List Decl) (q : QName) : Prop := H.declares q ∨ ∃ d ∈ seen, Introduces d q

/-- After the headers and these declarations the type is complete. -/
def Complete (H : Headers) (seen : List Decl) (q : QName) : Prop := H.complete q ∨ ∃ d ∈ seen, Completes d q

/-- The function is declared in the namespace. -/
def Declared (seen : List Decl) (f : Namespace × Symbol) : Prop :=
  ∃ params ret, Decl.proto f.1 f.2 params ret ∈ seen

/-! ### What is left to the headers -/

/-- The bridge says that the type comes from C++: `type n;` in `extern "C++"`, an alias, or an enum with variants from a
header. -/
def FromCxx (apis : List Api) (n : Ident) : Prop :=
  Kind.cxx ∈ definitions apis n ∨ Kind.alias ∈ definitions apis n ∨ Kind.headerEnum ∈ definitions apis n

/-- A value of the Rust type has a value of the named type inside. -/
inductive Stores : Ty → Ident → Prop
  | ident (t : NamedType) : Stores (.ident t) t.rust
  | array {t : Ty} {n : Ident} (k : Nat) (h : Stores t n) : Stores (.array t k) n

/-- The bridge needs the definition of the type: something holds or passes a value of it, it is an enum whose variants
are compared, or it has a C++ method. -/
inductive NeedsDefinition (apis : List Api) (n : Ident) : Prop
  | field (s : Struct) (hs : Api.struct s ∈ apis) (f : Var) (hf : f ∈ s.fields) (h : Stores f.ty n)
  | arg (f : ExternFn) (hf : Api.cxxFunction f ∈ apis ∨ Api.rustFunction f ∈ apis) (a : Var) (ha : a ∈ f.sig.args)
      (h : Stores a.ty n)
  | ret (f : ExternFn) (hf : Api.cxxFunction f ∈ apis ∨ Api.rustFunction f ∈ apis) (t : Ty) (ht : f.sig.ret = some t)
      (h : Stores t n)
  | callbackArg (f : ExternFn) (hf : Api.cxxFunction f ∈ apis) (a : Var) (ha : a ∈ f.sig.args) (u : Bool)
      (args : List Ty) (r : Option Ty) (th : Bool) (hty : a.ty = .fn u args r th) (t : Ty) (ht : t ∈ args)
      (h : Stores t n)
  | callbackRet (f : ExternFn) (hf : Api.cxxFunction f ∈ apis) (a : Var) (ha : a ∈ f.sig.args) (u : Bool)
      (args : List Ty) (t : Ty) (th : Bool) (hty : a.ty = .fn u args (some t) th) (h : Stores t n)
  | enum (e : Enum) (he : Api.enum e ∈ apis) (hn : e.name.rust = n)
  | receiver (f : ExternFn) (hf : Api.cxxFunction f ∈ apis) (r : Receiver) (hr : f.sig.receiver = some r)
      (hn : r.ty.rust = n)

/-- The headers declare the types that come from C++, and define them where a definition is needed. -/
structure Provides (H : Headers) (apis : List Api) : Prop where
  declares : ∀ n p, FromCxx apis n → Names apis n p → H.declares (qname p)
  complete : ∀ n p, FromCxx apis n → Names apis n p → NeedsDefinition apis n → H.complete (qname p)

/-- No struct has an array of shared structs that the generator defines. -/
def NoArrayOfStructs (apis : List Api) : Prop :=
  ∀ s, Api.struct s ∈ apis → ∀ f ∈ s.fields, ∀ t k, f.ty = .array t k → ∀ s', Api.struct s' ∈ apis →
    Stores t s'.name.rust → FromCxx apis s'.name.rust

/-! ### Members -/

/-- The same type of function, but for `noexcept`. -/
def FnSig.Same (a b : FnSig) : Prop := a.params = b.params ∧ a.ret = b.ret ∧ a.const = b.const

/-- C++ takes the two for one member: overloads have to differ in the types of the parameters or in `const`. -/
def Member.Clashes (a b : Member) : Prop := a.name = b.name ∧ a.sig.params = b.sig.params ∧ a.sig.const = b.sig.const

/-- In these declarations there is one definition of the class, and it has the member function `m`, once; no field or
inner class is called like it, nor is the class. -/
def DeclaredOnce (seen : List Decl) (cls : QName) (m : Member) : Prop :=
  ∃ pre post p base fields members inner, seen = pre ++ .classDef p base fields members inner :: post ∧ qname p = cls ∧
    (∀ d ∈ pre ++ post, ∀ p' b' f' m' i', d = .classDef p' b' f' m' i' → qname p' ≠ cls) ∧
    (∃ l r, members = l ++ m :: r ∧ ∀ x ∈ l ++ r, ¬ x.Clashes m) ∧
    (∀ f ∈ fields, f.1 ≠ m.name) ∧ m.name ∉ inner ∧ m.name ≠ p.cxx

/-- Nothing else in the file defines this member. -/
def DefinedOnce (others : List Decl) (ns : Namespace) (cls : Ident) (m : Member) : Prop :=
  ∀ d ∈ others, ∀ m' calls, d = .member ns cls m' calls → ¬ m'.Clashes m

/-- A header of the user defines this class. -/
def HeaderClass (apis : List Api) (cls : QName) : Prop := ∃ n p, FromCxx apis n ∧ Names apis n p ∧ qname p = cls

/-- Two methods of one type with one C++ name differ in the C++ types of their arguments or in `const`. -/
def MethodsDistinct (apis : List Api) : Prop :=
  ∀ (i j : Nat) (x y : Api) (f f' : ExternFn) (r r' : Receiver), i ≠ j → apis[i]? = some x → apis[j]? = some y →
    (x = .cxxFunction f ∨ x = .rustFunction f) → (y = .cxxFunction f' ∨ y = .rustFunction f') →
    f.sig.receiver = some r → f'.sig.receiver = some r' → r.ty.rust = r'.ty.rust → f.name.cxx = f'.name.cxx →
    writeTypes (collect apis) (f.sig.args.map (·.ty)) ≠ writeTypes (collect apis) (f'.sig.args.map (·.ty)) ∨
      r.mutable ≠ r'.mutable

/-- No method is called like its type, a field of it, or a class the generator puts into it. -/
def MethodNamesFree (apis : List Api) : Prop :=
  ∀ (f : ExternFn) (r : Receiver), (Api.cxxFunction f ∈ apis ∨ Api.rustFunction f ∈ apis) → f.sig.receiver = some r →
    (∀ p, Names apis r.ty.rust p → f.name.cxx ≠ p.cxx) ∧
    (∀ s, Api.struct s ∈ apis → s.name.rust = r.ty.rust →
      (∀ v ∈ s.fields, v.name.cxx ≠ f.name.cxx) ∧ f.name.cxx ≠ "IsRelocatable") ∧
    (∀ t, Api.rustType t ∈ apis → t.name.rust = r.ty.rust → f.name.cxx ≠ "layout")

/-- Not an operator. -/
def Word (n : Ident) : Prop := ∀ c ∈ n.toList, c ≠ '=' ∧ c ≠ '<' ∧ c ≠ '>'

/-- What the parser ensures: names are identifiers (syntax/names.rs:38-50). -/
structure Words (apis : List Api) : Prop where
  struct : ∀ s, Api.struct s ∈ apis → Word s.name.cxx ∧ ∀ v ∈ s.fields, Word v.name.cxx
  fn : ∀ f, Api.cxxFunction f ∈ apis ∨ Api.rustFunction f ∈ apis → Word f.name.cxx

/-! ### What the header offers -/

/-- The C++ type for a Rust type, as documented. -/
inductive Spells (apis : List Api) : Ty → CTok → Prop
  | atom (t : NamedType) (a : Atom) (h : Atom.fromStr t.rust = some a) : Spells apis (.ident t) (.atom a)
  | named (t : NamedType) (p : Pair) (ha : Atom.fromStr t.rust = none) (h : Names apis t.rust p) :
      Spells apis (.ident t) (.named p)
  | box {t : Ty} {c : CTok} (h : Spells apis t c) : Spells apis (.rustBox t) (.box c)
  | vec {t : Ty} {c : CTok} (h : Spells apis t c) : Spells apis (.rustVec t) (.vec c)
  | uniquePtr {t : Ty} {c : CTok} (h : Spells apis t c) : Spells apis (.uniquePtr t) (.uniquePtr c)
  | sharedPtr {t : Ty} {c : CTok} (h : Spells apis t c) : Spells apis (.sharedPtr t) (.sharedPtr c)
  | weakPtr {t : Ty} {c : CTok} (h : Spells apis t c) : Spells apis (.weakPtr t) (.weakPtr c)
  | cxxVector {t : Ty} {c : CTok} (h : Spells apis t c) : Spells apis (.cxxVector t) (.vector c)
  /-- `&T` is `T const &`, `&mut T` and `Pin<&mut T>` are `T &`. -/
  | ref (pinned : Bool) (l : Option Ident) (mutable : Bool) {t : Ty} {c : CTok} (h : Spells apis t c) :
      Spells apis (.ref pinned l mutable t) (.lref mutable c)
  | ptr (mutable : Bool) {t : Ty} {c : CTok} (h : Spells apis t c) : Spells apis (.ptr mutable t) (.star mutable c)
  | str (pinned : Bool) (l : Option Ident) (mutable : Bool) (t : Ty) : Spells apis (.str pinned l mutable t) .str
  | slice (l : Option Ident) (mutable : Bool) {t : Ty} {c : CTok} (h : Spells apis t c) :
      Spells apis (.sliceRef l mutable t) (.slice mutable c)
  | array {t : Ty} {c : CTok} (n : Nat) (h : Spells apis t c) : Spells apis (.array t n) (.array c n)
  | fn (u : Bool) (args : List Ty) (ret : Option Ty) (throws : Bool) (cs : List CTok) (r : Option CTok)
      (hl : cs.length = args.length) (ha : ∀ (i : Nat) t c, args[i]? = some t → cs[i]? = some c → Spells apis t c)
      (hn : r = none ↔ ret = none) (hr : ∀ t c, ret = some t → r = some c → Spells apis t c) :
      Spells apis (.fn u args ret throws) (.fn cs r)

/-- The C++ signature is that of the function: each parameter and the result in C++, and `const` if the receiver is not
mutable. -/
structure FnSig.Of (apis : List Api) (s : FnSig) (f : ExternFn) : Prop where
  count : s.params.length = f.sig.args.length
  params : ∀ (i : Nat) (a : Var) (c : CTok), f.sig.args[i]? = some a → s.params[i]? = some c → Spells apis a.ty c
  void : s.ret = none ↔ f.sig.ret = none
  ret : ∀ t c, f.sig.ret = some t → s.ret = some c → Spells apis t c
  const : s.const = true ↔ ∃ r, f.sig.receiver = some r ∧ r.mutable = false

/-- `noexcept`, unless the function returns a `Result`. -/
def FnSig.NoexceptFor (s : FnSig) (f : ExternFn) : Prop := s.noexcept = true ↔ f.sig.throws = false

/-- The operators that a struct has by its `#[derive]`. -/
inductive Derives (s : Struct) : Ident → Prop
  | eq (h : Trait.partialEq ∈ s.derives) : Derives s "operator=="
  | ne (h : Trait.partialEq ∈ s.derives) : Derives s "operator!="
  | lt (h : Trait.partialOrd ∈ s.derives) : Derives s "operator<"
  | le (h : Trait.partialOrd ∈ s.derives) : Derives s "operator<="
  | gt (h : Trait.partialOrd ∈ s.derives) : Derives s "operator>"
  | ge (h : Trait.partialOrd ∈ s.derives) : Derives s "operator>="

/-- `bool op(T const &) const noexcept`. -/
def Compares (p : Pair) (op : Ident) (m : Member) : Prop :=
  m.name = op ∧ m.sig.params = [.lref false (.named p)] ∧ m.sig.ret = some (.atom .bool) ∧ m.sig.const = true ∧
    m.sig.noexcept = true

/-- The declarations that are about types. -/
def aboutTypes : Decl → Bool
  | .struct _ | .using _ | .enumeration .. | .classDef .. | .enumDef .. | .checkEnum _ => true
  | _ => false

end Verif.Unit
