import Verif.Types.Spec
/-!
# Names of C++ and names of Rust
-/
namespace Verif.Plain
open Verif.Syntax Verif.Types

/-- What a name of C++ can have in it.  `$` is an extension that all compilers have.  Letters outside ASCII are the same in both
languages. -/
def nameChar (c : Char) : Bool := c.isAlphanum || c = '_' || c = '$' || decide (128 ≤ c.toNat)

/-- An identifier of C++. -/
structure Identifier (t : List Char) : Prop where
  some : t ≠ []
  chars : ∀ c ∈ t, nameChar c = true
  start : ∀ c ∈ t.head?, c.isDigit = false

/-- The reserved words of C++. -/
def reserved : List String :=
  ["alignas", "alignof", "and", "and_eq", "asm", "auto", "bitand", "bitor", "bool", "break", "case", "catch", "char", "char8_t",
   "char16_t", "char32_t", "class", "compl", "concept", "const", "consteval", "constexpr", "constinit", "const_cast", "continue",
   "co_await", "co_return", "co_yield", "decltype", "default", "delete", "do", "double", "dynamic_cast", "else", "enum", "explicit",
   "export", "extern", "false", "float", "for", "friend", "goto", "if", "inline", "int", "long", "mutable", "namespace", "new",
   "noexcept", "not", "not_eq", "nullptr", "operator", "or", "or_eq", "private", "protected", "public", "register",
   "reinterpret_cast", "requires", "return", "short", "signed", "sizeof", "static", "static_assert", "static_cast", "struct",
   "switch", "template", "this", "thread_local", "throw", "true", "try", "typedef", "typeid", "typename", "union", "unsigned",
   "using", "virtual", "void", "volatile", "wchar_t", "while", "xor", "xor_eq"]

/-- A name that C++ takes for one. -/
def CxxName (t : List Char) : Prop := Identifier t ∧ ∀ w ∈ reserved, t ≠ w.toList

/-- What Rust has before a raw identifier. -/
def rawMark : List Char := ['r', '#']

/-- A raw identifier of Rust. -/
def Raw (s : Ident) : Prop := rawMark <+: s.toList

/-- A name in a bridge, as text: an identifier, with `r#` before it or not. -/
def RustName (s : Ident) : Prop := ∃ t, Identifier t ∧ '$' ∉ t ∧ (s.toList = t ∨ s.toList = rawMark ++ t)

/-- All names of a bridge: of items, fields, variants and arguments. -/
def namesIn : Api → List Pair
  | .struct s => s.name :: s.fields.map (·.name)
  | .enum e => e.name :: e.variants
  | .cxxType t | .rustType t => [t.name]
  | .cxxFunction f | .rustFunction f => f.name :: f.sig.args.map (·.name)
  | .typeAlias a => [a.name]
  | .include _ | .impl _ => []

/-- What every bridge is made of. -/
def RustNames (apis : List Api) : Prop :=
  ∀ a ∈ apis, ∀ p ∈ namesIn a, (∀ s ∈ p.ns, RustName s) ∧ RustName p.cxx ∧ RustName p.rust

/-- The type is defined in a C++ header, not by the bridge. -/
def Elsewhere (apis : List Api) (n : Ident) : Prop := ∃ k ∈ definitions apis n, k = .cxx ∨ k = .alias ∨ k = .headerEnum

/-- The names that an item is given for C++: its own name, its namespace, and the names of variants and arguments; those of
fields if the bridge defines the struct. -/
inductive ForCxx (apis : List Api) : Api → Ident → Prop
  | struct {s : Struct} {n : Ident} : n ∈ s.name.cxx :: s.name.ns → ForCxx apis (.struct s) n
  | field {s : Struct} {f : Var} : ¬ Elsewhere apis s.name.rust → f ∈ s.fields → ForCxx apis (.struct s) f.name.cxx
  | enum {e : Enum} {n : Ident} : n ∈ e.name.cxx :: e.name.ns → ForCxx apis (.enum e) n
  | variant {e : Enum} {v : Pair} : e.variantsFromHeader = false → v ∈ e.variants → ForCxx apis (.enum e) v.cxx
  | cxxType {t : ExternType} {n : Ident} : n ∈ t.name.cxx :: t.name.ns → ForCxx apis (.cxxType t) n
  | rustType {t : ExternType} {n : Ident} : n ∈ t.name.cxx :: t.name.ns → ForCxx apis (.rustType t) n
  | alias {a : TypeAlias} {n : Ident} : n ∈ a.name.cxx :: a.name.ns → ForCxx apis (.typeAlias a) n
  | cxxFn {f : ExternFn} {n : Ident} : n ∈ f.name.cxx :: f.name.ns → ForCxx apis (.cxxFunction f) n
  | cxxArg {f : ExternFn} {v : Var} : v ∈ f.sig.args → ForCxx apis (.cxxFunction f) v.name.cxx
  | rustFn {f : ExternFn} {n : Ident} : n ∈ f.name.cxx :: f.name.ns → ForCxx apis (.rustFunction f) n
  | rustArg {f : ExternFn} {v : Var} : v ∈ f.sig.args → ForCxx apis (.rustFunction f) v.name.cxx

/-- The Rust names that make it to C++ nevertheless: those of functions, and of arguments of C++ functions that are function
pointers. -/
inductive ForRust : Api → Ident → Prop
  | cxxFn {f : ExternFn} : ForRust (.cxxFunction f) f.name.rust
  | callback {f : ExternFn} {v : Var} {u : Bool} {as : List Ty} {r : Option Ty} {th : Bool} :
      v ∈ f.sig.args → v.ty = .fn u as r th → ForRust (.cxxFunction f) v.name.rust
  | rustFn {f : ExternFn} : ForRust (.rustFunction f) f.name.rust

end Verif.Plain
