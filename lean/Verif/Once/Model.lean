import Verif.Names.Model
import Verif.Mangle.Model
/-!
# The bridges of a program

A program can have many bridges, in one crate or in several.  Each is expanded by itself.  What keeps two of them from
generating the same function is that the generated function stands beside an impl, and that Rust rejects a
program with two impls of a trait for a type.
-/
namespace Verif.Once
open Verif.Syntax Verif.Types Verif.Mangle

/-- The traits of the impls in an expansion. -/
inductive ImplOf
  /-- `cxx::ExternType`, or a trait in a `#[derive]` of the bridge -/
  | derived (t : Trait)
  /-- `cxx::private::RustType` (src/rust_type.rs:3) -/
  | rustType
  /-- `cxx::private::ImplBox` (src/rust_type.rs:4) -/
  | implBox
  /-- `cxx::private::ImplVec` (src/rust_type.rs:5) -/
  | implVec
  | uniquePtrTarget | sharedPtrTarget | weakPtrTarget | vectorElement
  deriving DecidableEq

/-- An impl for a type of the bridge, and the functions with symbols that stand beside it (`none`: the generator panics). -/
structure Piece where
  trait : ImplOf
  name : Ident
  functions : List (Option Symbol)

/-- macro/src/expand.rs:63-92: an item of the bridge.  Structs: 191 (`ExternType`), and one round for each derived trait, with
the operators of 202-307.  Enums: 370.  C++ types: 70-76, 413.  Rust types: 838-864 and 884-927.  Left out are impls of
other traits, beside which no functions stand. -/
def itemPieces (ts : Types) : Api → List Piece
  | .struct s => ⟨.derived .externType, s.name.rust, []⟩ ::
      s.derives.map (fun d => ⟨.derived d, s.name.rust, (Names.operatorsOf s.derives d).map (operator s.name)⟩)
  | .enum e => [⟨.derived .externType, e.name.rust, []⟩]
  | .cxxType t =>
    if mapHas ts.structs t.name.rust || mapHas ts.enums t.name.rust then [] else [⟨.derived .externType, t.name.rust, []⟩]
  | .rustType t => ⟨.rustType, t.name.rust, [operator t.name "sizeof", operator t.name "alignof"]⟩ ::
      (t.derives.filter (fun d => decide (d = .externType))).map (fun _ => ⟨.derived .externType, t.name.rust, []⟩)
  | _ => []

/-- The trait that an instantiation implements: macro/src/expand.rs:1323 `ImplBox`, 1382 `ImplVec`, 1489 `UniquePtrTarget`,
1583 `SharedPtrTarget`, 1645 `WeakPtrTarget`, 1774 `VectorElement`. -/
def implOf : ImplKey → ImplOf
  | .rustBox _ => .implBox
  | .rustVec _ => .implVec
  | .uniquePtr _ => .uniquePtrTarget
  | .sharedPtr _ => .sharedPtrTarget
  | .weakPtr _ => .weakPtrTarget
  | .cxxVector _ => .vectorElement

/-- macro/src/expand.rs:94-115: an instantiation.  The functions of boxes and vectors of Rust are in the expansion, the others
in the generated C++, with the same symbols (C52). -/
def keyPiece (ts : Types) (k : ImplKey) : Piece :=
  ⟨implOf k, k.rust, match rustInst ts k with | some l => l.map some | none => [none]⟩

/-- macro/src/expand.rs:51-155 `expand`. -/
def pieces (ts : Types) (apis : List Api) : List Piece :=
  apis.flatMap (itemPieces ts) ++ ts.impls.map (fun e => keyPiece ts e.1)

end Verif.Once
