import Verif.Panics.Model
import Verif.Check.Rules
/-!
# Which bridges make a generator panic
-/
namespace Verif.Panics
open Verif.Syntax Verif.Types

/-- The text of an identifier without `r#`. -/
def IsIdent (u : Chars) (s : List Char) : Prop :=
  ∃ c cs, s = c :: cs ∧ u.start c = true ∧ ∀ d ∈ cs, u.cont d = true

/-- The text of a raw identifier. -/
def IsRaw (s : List Char) : Prop := ∃ rest, s = 'r' :: '#' :: rest

/-- The name that an item gives to a type in C++. -/
def cxxName : Api → Option Ident
  | .struct s => some s.name.cxx
  | .enum e => some e.name.cxx
  | .cxxType t | .rustType t => some t.name.cxx
  | .typeAlias a => some a.name.cxx
  | _ => none

/-- As the parser builds them (syntax/names.rs:38-48): the C++ names of types are identifiers, raw or not. -/
def Spelled (u : Chars) (apis : List Api) : Prop :=
  ∀ a ∈ apis, ∀ n, cxxName a = some n → IsIdent u n.toList ∨ IsRaw n.toList

/-- The item declares a type for which the macro writes a type id: every type but an opaque Rust type that does not
derive `ExternType`, and a C++ type that is also a shared struct or enum. -/
def Identified (apis : List Api) : Api → Prop
  | .struct _ | .enum _ | .typeAlias _ => True
  | .cxxType t => (∀ s, .struct s ∈ apis → s.name.rust ≠ t.name.rust) ∧ ∀ e, .enum e ∈ apis → e.name.rust ≠ t.name.rust
  | .rustType t => .externType ∈ t.derives
  | _ => False

/-- Some type id is written for a type whose C++ name is a raw identifier. -/
def RawName (apis : List Api) : Prop :=
  ∃ a ∈ apis, Identified apis a ∧ ∃ n, cxxName a = some n ∧ IsRaw n.toList

/-- Some function pointer takes or returns `()`. -/
def UnitInPointer (apis : List Api) : Prop :=
  ∃ u as r th, Check.Occurs apis (.fn u as r th) ∧ (.void ∈ as ∨ r = some .void)

end Verif.Panics
