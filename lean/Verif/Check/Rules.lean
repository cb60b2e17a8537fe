import Verif.Check.Spec
import Verif.Check.Model
/-!
# The rules for bridges

When a bridge is accepted, said without any tables: a rule for each form of type and for each kind of item.
-/
namespace Verif.Check.Rules
open Verif.Syntax Verif.Types

/-! ### What names stand for -/

/-- The types that need no declaration. -/
def builtins : List Ident :=
  ["bool", "c_char", "u8", "u16", "u32", "u64", "usize", "i8", "i16", "i32", "i64", "isize", "f32", "f64", "CxxString", "String"]

/-- The names that types cannot have. -/
def reserved : List Ident := ["Box", "UniquePtr", "SharedPtr", "WeakPtr", "Vec", "CxxVector", "str"] ++ builtins

def Declared (apis : List Api) (n : Ident) : Prop := definitions apis n ≠ []

/-- A struct or enum of the bridge. -/
def Shared (apis : List Api) (n : Ident) : Prop := ∃ k ∈ definitions apis n, k = .shared ∨ k = .headerEnum

/-- A type of C++: declared `type T;` or `type T = ...;`, or an enum whose variants come from a header. -/
def Cxx (apis : List Api) (n : Ident) : Prop := ∃ k ∈ definitions apis n, k = .cxx ∨ k = .alias ∨ k = .headerEnum

def Rust (apis : List Api) (n : Ident) : Prop := Kind.rust ∈ definitions apis n

def Alias (apis : List Api) (n : Ident) : Prop := Kind.alias ∈ definitions apis n

/-- Declared `type T;` in a block of C++, and not as a struct or enum. -/
def Plain (apis : List Api) (n : Ident) : Prop := Cxx apis n ∧ ¬ Alias apis n ∧ ¬ Shared apis n

/-- The uses that move a value: fields, arguments and results; mutable references without `Pin`; and as what a `Box`, a `Vec` or
a slice contains. -/
inductive Moved (apis : List Api) (n : Ident) : Prop
  | field {s f g} : .struct s ∈ apis → f ∈ s.fields → f.ty = .ident ⟨n, g⟩ → Moved apis n
  | argument {f a g} : HasFn apis f → a ∈ f.sig.args → a.ty = .ident ⟨n, g⟩ → Moved apis n
  | result {f g} : HasFn apis f → f.sig.ret = some (.ident ⟨n, g⟩) → Moved apis n
  | mutArgument {f a l g} : HasFn apis f → a ∈ f.sig.args → a.ty = .ref false l true (.ident ⟨n, g⟩) → Moved apis n
  | mutResult {f l g} : HasFn apis f → f.sig.ret = some (.ref false l true (.ident ⟨n, g⟩)) → Moved apis n
  | mutSelf {f r} : HasFn apis f → f.sig.receiver = some r → r.ty.rust = n → r.mutable = true → r.pinned = false → Moved apis n
  | box {g} : Occurs apis (.rustBox (.ident ⟨n, g⟩)) → Moved apis n
  | vec {g} : Occurs apis (.rustVec (.ident ⟨n, g⟩)) → Moved apis n
  | slice {l m g} : Occurs apis (.sliceRef l m (.ident ⟨n, g⟩)) → Moved apis n

/-- A C++ type whose values Rust cannot move: one that is not a struct or enum of the bridge.  An alias that is moved
somewhere is not opaque (the generated code then asserts that it is trivial). -/
def Opaque (apis : List Api) (n : Ident) : Prop := Cxx apis n ∧ ¬ Shared apis n ∧ ¬ (Alias apis n ∧ Moved apis n)

/-- Types that cannot be fields, arguments or results. -/
inductive Unsized (apis : List Api) : Ty → Prop
  | cxxString {g} : Unsized apis (.ident ⟨"CxxString", g⟩)
  | cxx {t} : Opaque apis t.rust → Unsized apis (.ident t)
  | rust {t} : Rust apis t.rust → Unsized apis (.ident t)
  | cxxVector {t} : Unsized apis (.cxxVector t)
  | fn {u as r th} : Unsized apis (.fn u as r th)
  | void : Unsized apis .void
  | array {t n} : Unsized apis t → Unsized apis (.array t n)

/-- Types whose mutable references are pinned. -/
inductive Pinned (apis : List Api) : Ty → Prop
  | cxxString {g} : Pinned apis (.ident ⟨"CxxString", g⟩)
  | cxx {t} : Opaque apis t.rust → Pinned apis (.ident t)
  | cxxVector {t} : Pinned apis (.cxxVector t)

/-- What references and pointers cannot refer to. -/
inductive NoTarget : Ty → Prop
  | fn {u as r th} : NoTarget (.fn u as r th)
  | void : NoTarget .void
  | ref {p l m t} : NoTarget (.ref p l m t)

/-! ### Types -/

/-- The types that may occur in a bridge. -/
inductive TypeOk (apis : List Api) : Ty → Prop
  | builtin {t} : t.rust ∈ builtins → TypeOk apis (.ident t)
  | declared {t} : Declared apis t.rust → TypeOk apis (.ident t)
  | box {t} : t.rust ∉ builtins → ¬ Plain apis t.rust → TypeOk apis (.rustBox (.ident t))
  | vec {t} : t.rust ≠ "CxxString" → ¬ Plain apis t.rust → TypeOk apis (.rustVec (.ident t))
  | vecOfStr {p l m t} : TypeOk apis (.rustVec (.str p l m t))
  | uniquePtr {t} : t.rust ∉ builtins ∨ t.rust = "CxxString" → ¬ Rust apis t.rust → TypeOk apis (.uniquePtr (.ident t))
  | uniqueVector {t} : TypeOk apis (.uniquePtr (.cxxVector t))
  | sharedPtr {t} : t.rust ∉ ["c_char", "String"] → ¬ Rust apis t.rust → TypeOk apis (.sharedPtr (.ident t))
  | weakPtr {t} : t.rust ∉ ["c_char", "String"] → ¬ Rust apis t.rust → TypeOk apis (.weakPtr (.ident t))
  | cxxVector {t} : t.rust ∉ ["c_char", "bool", "String"] → ¬ Rust apis t.rust → TypeOk apis (.cxxVector (.ident t))
  | ref {p l m t} : ¬ NoTarget t → (m = true → p = false → ¬ Pinned apis t) → TypeOk apis (.ref p l m t)
  | ptr {m t} : ¬ NoTarget t → TypeOk apis (.ptr m t)
  | slice {l m t} : ¬ Unsized apis t → TypeOk apis (.sliceRef l m t)
  | sliceOf {l m t} : Rust apis t.rust ∨ Alias apis t.rust → TypeOk apis (.sliceRef l m (.ident t))
  | array {t n} : ¬ Unsized apis t → TypeOk apis (.array t n)
  | fn {u as r} : (∀ m t, .ptr m t ∈ as → u = true) → TypeOk apis (.fn u as r false)
  | str {p l m t} : TypeOk apis (.str p l m t)
  | void : TypeOk apis .void

/-! ### Names -/

/-- A name in C++ code. -/
def CxxName (s : Ident) : Prop :=
  (¬ ∃ rest, s.toList = "cxxbridge".toList ++ rest) ∧ ¬ ∃ before after, s.toList = before ++ '_' :: '_' :: after

/-- A name in Rust code. -/
def RustName (s : Ident) : Prop := ¬ ∃ rest, s.toList = "cxxbridge".toList ++ rest

def NameOk (p : Pair) : Prop := (∀ s ∈ p.ns, CxxName s) ∧ CxxName p.cxx ∧ RustName p.rust

/-- The names that an item introduces. -/
def names : Api → List Pair
  | .include _ | .impl _ => []
  | .struct s => s.name :: s.fields.map (·.name)
  | .enum e => e.name :: e.variants
  | .cxxType t | .rustType t => [t.name]
  | .cxxFunction f | .rustFunction f => f.name :: f.sig.args.map (·.name)
  | .typeAlias a => [a.name]

/-! ### Items -/

/-- The macro leaves `'static` to the compiler. -/
def LifetimesOk (g : Generator) (ls : List Ident) : Prop := g = .build → "static" ∉ ls

/-- The last declaration of the type has lifetimes. -/
def Borrowing (apis : List Api) (n : Ident) : Prop :=
  ∃ before api after p ls, apis = before ++ api :: after ∧ resolves api = some (p, ls) ∧ p.rust = n ∧ ls ≠ [] ∧
    ∀ b ∈ after, ∀ p ls, resolves b = some (p, ls) → p.rust ≠ n

/-- A mutable reference can come out of this type. -/
inductive Lends (apis : List Api) : Ty → Prop
  | ref {p l t} : Lends apis (.ref p l true t)
  | slice {l t} : Lends apis (.sliceRef l true t)
  | named {t} : t.rust ∉ builtins → Borrowing apis t.rust → Lends apis (.ident t)

/-- The function takes something out of which its result can be borrowed mutably. -/
def Justified (apis : List Api) (f : ExternFn) : Prop :=
  (∃ r, f.sig.receiver = some r ∧ (r.mutable = true ∨ Borrowing apis r.ty.rust)) ∨
  ∃ a ∈ f.sig.args, ∃ t, Within t a.ty ∧ Lends apis t

def ReceiverOk (apis : List Api) (r : Receiver) : Prop :=
  r.ty.rust ≠ "Self" ∧ Declared apis r.ty.rust ∧ (∀ e, .enum e ∈ apis → e.name.rust ≠ r.ty.rust) ∧
  (r.mutable = true → r.pinned = false → ¬ Opaque apis r.ty.rust)

/-- The arguments that `f` may have. -/
inductive ArgOk (apis : List Api) (f : ExternFn) : Ty → Prop
  | fn {u as r th} : f.lang = .cxx → ArgOk apis f (.fn u as r th)
  | ptr {m t} : f.sig.unsafety = true → ArgOk apis f (.ptr m t)
  | value {t} : (∀ m i, t ≠ .ptr m i) → ¬ Unsized apis t → ArgOk apis f t

structure FnOk (g : Generator) (apis : List Api) (f : ExternFn) : Prop where
  cxxLifetimes : f.lang = .cxx → f.sig.generics ≠ [] → f.trusted = true
  rustLifetimes : f.lang = .rust → f.sig.generics ≠ [] → f.sig.unsafety = true
  lifetimes : LifetimesOk g f.sig.generics
  receiver : ∀ r, f.sig.receiver = some r → ReceiverOk apis r
  args : ∀ a ∈ f.sig.args, ArgOk apis f a.ty
  ret : ∀ t, f.sig.ret = some t → ¬ Unsized apis t
  mutReturn : f.lang = .cxx → f.sig.unsafety = false →
    (∃ p l t, f.sig.ret = some (.ref p l true t)) ∨ (∃ l t, f.sig.ret = some (.sliceRef l true t)) → Justified apis f

structure StructOk (g : Generator) (apis : List Api) (s : Struct) : Prop where
  name : s.name.rust ∉ reserved
  lifetimes : LifetimesOk g s.generics
  fields : s.fields ≠ []
  /-- the struct is also declared in a block of C++, which must be `unsafe` -/
  trusted : ∀ t, .cxxType t ∈ apis → t.name.rust = s.name.rust → t.trusted = true
  derives : .externType ∉ s.derives
  sized : ∀ f ∈ s.fields, ¬ Unsized apis f.ty

structure EnumOk (g : Generator) (e : Enum) : Prop where
  name : e.name.rust ∉ reserved
  lifetimes : LifetimesOk g e.generics
  variants : e.variants ≠ [] ∨ e.explicitRepr = true ∨ e.variantsFromHeader = true
  derives : .default ∉ e.derives ∧ .externType ∉ e.derives

structure ExternTypeOk (g : Generator) (apis : List Api) (t : ExternType) : Prop where
  name : t.name.rust ∉ reserved
  lifetimes : LifetimesOk g t.generics
  derives : ∀ d ∈ t.derives, d = .externType ∧ t.lang = .rust
  bounds : t.bounds = []
  opaque' : ¬ (Cxx apis t.name.rust ∧ ¬ Shared apis t.name.rust ∧ Moved apis t.name.rust)

structure AliasOk (g : Generator) (a : TypeAlias) : Prop where
  lifetimes : LifetimesOk g a.generics
  derives : a.derives = []

/-- What can be instantiated explicitly. -/
inductive Instance (n : NamedType) : Ty → Prop
  | box : Instance n (.rustBox (.ident n))
  | vec : Instance n (.rustVec (.ident n))
  | uniquePtr : Instance n (.uniquePtr (.ident n))
  | sharedPtr : Instance n (.sharedPtr (.ident n))
  | weakPtr : Instance n (.weakPtr (.ident n))
  | cxxVector : Instance n (.cxxVector (.ident n))

structure ImplOk (g : Generator) (i : Impl) : Prop where
  lifetimes : LifetimesOk g i.implGenerics
  positive : i.negative = false
  ty : ∃ n, Instance n i.ty ∧ n.rust ∉ builtins

/-- The rule for an item. -/
def ItemOk (g : Generator) (apis : List Api) : Api → Prop
  | .include _ => True
  | .struct s => StructOk g apis s
  | .enum e => EnumOk g e
  | .cxxType t | .rustType t => ExternTypeOk g apis t
  | .cxxFunction f | .rustFunction f => FnOk g apis f
  | .typeAlias a => AliasOk g a
  | .impl i => ImplOk g i

/-- All rules. -/
structure Follows (g : Generator) (apis : List Api) : Prop where
  /-- C37 -/
  definedOnce : ∀ n, Compatible (definitions apis n) ∨ Tolerated (definitions apis n)
  functionsOnce : (apis.filterMap signatureOf).Nodup
  names : ∀ a ∈ apis, ∀ p ∈ names a, NameOk p
  types : ∀ t, Occurs apis t → TypeOk apis t
  items : ∀ a ∈ apis, ItemOk g apis a

end Verif.Check.Rules
