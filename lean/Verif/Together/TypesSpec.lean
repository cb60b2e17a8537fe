import Verif.Layout.Spec
import Verif.Check.Model
import Verif.Mangle.Spec
import Verif.Pod.Props
import Verif.Toposort.Model
/-!
# The types of several bridges in one translation unit

A generated header defines the structs, enums and opaque types of its bridge, each inside an include guard (C53), and so
does the generated source file.
-/
namespace Verif.Together.Types
open Verif.Syntax Verif.Types
open Verif.Abi (CTok writeType Names)
open Verif.Check Verif.Mangle Verif.Layout

/-- A bridge whose generated header or source file is part of the translation unit, and the layouts of the Rust types
that it imports. -/
structure Bridge where
  apis : List Api
  imported : Ident → Option Lay
  sorted : List Struct
  /-- the definitions in the generated file -/
  defs : List CDef

/-- The generators accept the bridge, and have written `defs`.  Its types have different names in C++, as in C71. -/
structure Bridge.Generated (b : Bridge) : Prop where
  accepted : Accepted .build b.apis
  lexical : LexicalBridge b.apis
  parsed : Parsed b.apis
  distinct : CxxNamesDistinct b.apis
  order : ∃ errs, Toposort.sort (Pod.structsOf b.apis) = some (b.sorted, errs)
  written : cxxDefs (collect b.apis) b.sorted b.apis = some b.defs

/-- All definitions in the translation unit, in their order. -/
def unit (bs : List Bridge) : List CDef := bs.flatMap Bridge.defs

/-- The definitions that are left by the preprocessor, where each is written between `#ifndef G`, `#define G` and
`#endif`, and some macros are defined already. -/
def preprocess : List Symbol → List CDef → List CDef
  | _, [] => []
  | defined, d :: ds => if d.guard ∈ defined then preprocess defined ds else d :: preprocess (d.guard :: defined) ds

/-- The definitions are of the same C++ type: classes of the same name, or enums. -/
def SameType (d e : CDef) : Prop :=
  SameName d.name e.name ∧ ((∃ r, d.body = .enum r) ↔ ∃ r, e.body = .enum r)

/-- Where two bridges define a type of the same name in C++, they define it alike. -/
def Consistent (bs : List Bridge) : Prop :=
  ∀ b ∈ bs, ∀ c ∈ bs, ∀ d ∈ b.defs, ∀ e ∈ c.defs, SameName d.name e.name → d.body = e.body

/-- What the authors of the bridges vouch for: a type that a bridge takes from a C++ header, which may have been
generated for another bridge, has in C++ the layout that this bridge gives it in Rust. -/
def Trusted (m : Machine) (header : Pair → Option Lay) (bs : List Bridge) : Prop :=
  ∀ b ∈ bs, ∀ t : NamedType, FromHeader b.apis t.rust → ∀ p, Names b.apis t.rust p →
    ∀ l, RustLayout m b.imported (rustDefs b.apis) (.ident t) l ↔ CxxLayout m header (unit bs) (.named p) l

end Verif.Together.Types
