import Verif.Placed.Model
import Verif.Out.Spec
/-!
# Where the parts of a generated C++ file belong
-/
namespace Verif.Placed
open Verif.Syntax Verif.Types Verif.Abi Verif.Layout Verif.Out
open Verif.Unit (Decl)

/-- The blocks that belong around a declaration, outermost first: those of the namespace of its item, and `extern "C"`
for what the two languages call of each other. -/
def home : Decl → List Block
  | .struct _ | .using _ | .enumeration _ _ => []
  | .classDef p .. | .enumDef p _ | .checkEnum p => p.ns.map .userDefinedNamespace
  | .proto ns .. => ns.map .userDefinedNamespace ++ [.externC]
  | .shim _ _ _ name _ => name.ns.map .userDefinedNamespace ++ [.externC]
  | .function ns .. | .member ns .. | .layout ns .. => ns.map .userDefinedNamespace
  | .hash .. => [.builtinNamespace "std"]
  | .instance .. => [.externC]

/-- The blocks that belong around a part. -/
def place : Part → List Block
  | .macros | .forwards | .imported _ => []
  | .decl d => home d
  | .callback (.function ns ..) => ns.map .userDefinedNamespace ++ [.externC]
  | .callback d => home d
  | .members _ => [.builtinNamespace "rust", .inlineNamespace "cxxbridge1"]

/-- The texts of a part, each in its place. -/
def inPlace (T : Texts) (p : Part) : List Placed :=
  ((T p).filterMap fun
    | some s => if s = "" then none else some s
    | none => none).map (·, place p)

/-- The declaration that a part is. -/
def Part.decl? : Part → Option Decl
  | .decl d | .callback d => some d
  | _ => none

/-- The imported type an assertion is about. -/
def Part.imported? : Part → Option TypeAlias
  | .imported a => some a
  | _ => none

/-- The type of which members are specialised. -/
def Part.members? : Part → Option ImplKey
  | .members k => some k
  | _ => none

/-- A forward declaration. -/
def Forward : Decl → Prop
  | .struct _ | .using _ | .enumeration _ _ => True
  | _ => False

end Verif.Placed
