import Verif.Types.Spec
/-!
# The entities of a bridge that have linker symbols
-/
namespace Verif.Mangle
open Verif.Syntax Verif.Types

/-- What the lexer guarantees of an identifier: it is not empty, has no `$`, and does not start with
a digit. -/
def Lexical (s : Ident) : Prop :=
  s ≠ "" ∧ '$' ∉ s.toList ∧ ∀ c ∈ s.toList.head?, c.isDigit = false

/-- A pair of names as the parser builds it. -/
def LexicalPair (p : Pair) : Prop := (∀ s ∈ p.ns, Lexical s) ∧ Lexical p.cxx ∧ Lexical p.rust

/-- The names of an item: its own and those of its arguments. -/
def namesOf : Api → List Pair
  | .struct s => [s.name]
  | .enum e => [e.name]
  | .cxxType t | .rustType t => [t.name]
  | .cxxFunction f | .rustFunction f => f.name :: f.sig.args.map (·.name)
  | .typeAlias a => [a.name]
  | .include _ | .impl _ => []

/-- Every name in the bridge is an identifier. -/
def LexicalBridge (apis : List Api) : Prop := ∀ a ∈ apis, ∀ p ∈ namesOf a, LexicalPair p

/-- The operators generated for a struct or an opaque Rust type. -/
inductive Op
  | eq | ne | lt | le | gt | ge | hash | sizeof | alignof
  deriving DecidableEq, Repr

/-- The two halves of a function pointer trampoline. -/
inductive Half
  | c | rust
  deriving DecidableEq, Repr

/-- The generic types that are instantiated for the types of a bridge. -/
inductive Wrapper
  | box | vec | uniquePtr | sharedPtr | weakPtr | vector | uniquePtrVector
  deriving DecidableEq, Repr

/-- The members an instantiation of a wrapper can have. -/
def members : Wrapper → List String
  | .box => ["alloc", "dealloc", "drop"]
  | .vec => ["new", "drop", "len", "capacity", "data", "reserve_total", "set_len", "truncate"]
  | .uniquePtr => ["null", "uninit", "raw", "get", "release", "drop"]
  | .sharedPtr => ["null", "uninit", "clone", "get", "drop"]
  | .weakPtr => ["null", "clone", "downgrade", "upgrade", "drop"]
  | .vector => ["new", "size", "get_unchecked", "push_back", "pop_back"]
  | .uniquePtrVector => ["null", "raw", "get", "release", "drop"]

/-- A bridge-level entity with a linker symbol. -/
inductive Entity
  /-- a function or method -/
  | fn (f : ExternFn)
  /-- an argument of function pointer type -/
  | trampoline (f : ExternFn) (arg : Pair) (h : Half)
  /-- a derived operator, or the size or alignment of an opaque type -/
  | op (type : Pair) (o : Op)
  /-- one member of an instantiation of a wrapper for a type -/
  | member (w : Wrapper) (type : Pair) (member : String)

/-- The function `f` is declared in the bridge. -/
def DeclaresFn (apis : List Api) (f : ExternFn) : Prop :=
  Api.cxxFunction f ∈ apis ∨ Api.rustFunction f ∈ apis

/-- The type `p` is declared in the bridge. -/
def DeclaresType (apis : List Api) (p : Pair) : Prop :=
  ∃ a ∈ apis, ∃ g, resolves a = some (p, g)

/-- The entity belongs to the bridge. -/
def Entity.In (apis : List Api) : Entity → Prop
  | .fn f => DeclaresFn apis f
  | .trampoline f arg _ => DeclaresFn apis f ∧ ∃ v ∈ f.sig.args, v.name = arg
  | .op p _ => DeclaresType apis p
  | .member w p m => DeclaresType apis p ∧ m ∈ members w

/-- The two types have the same fully qualified C++ name. -/
def SameType (p q : Pair) : Prop := p.ns = q.ns ∧ p.cxx = q.cxx

/-- The two functions have the same namespace and Rust name, and either both are free functions or both
are methods, of types with the same unqualified C++ name. -/
def SameFn (apis : List Api) (f g : ExternFn) : Prop :=
  f.name.ns = g.name.ns ∧ f.name.rust = g.name.rust ∧
  ((f.sig.receiver = none ∧ g.sig.receiver = none) ∨
   ∃ r s p q, f.sig.receiver = some r ∧ g.sig.receiver = some s ∧
     DeclaresType apis p ∧ p.rust = r.ty.rust ∧ DeclaresType apis q ∧ q.rust = s.ty.rust ∧ p.cxx = q.cxx)

/-- A type whose C++ namespace is `std::vector` or below: no legal C++ program has one. -/
def InsideStdVector (p : Pair) : Prop := ∃ rest, p.ns = "std" :: "vector" :: rest

/-- The two entities agree in all that distinguishes them in C++. -/
def SameEntity (apis : List Api) : Entity → Entity → Prop
  | .fn f, .fn g => SameFn apis f g
  | .trampoline f a h, .trampoline g b k => SameFn apis f g ∧ a.rust = b.rust ∧ h = k
  | .op p o, .op q o' => SameType p q ∧ o = o'
  | .member w p m, .member w' q m' => w = w' ∧ SameType p q ∧ m = m'
  | _, _ => False

end Verif.Mangle
