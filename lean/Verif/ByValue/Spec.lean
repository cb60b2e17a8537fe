import Verif.Check.Rules
/-!
# What types that cannot be passed by value are
-/
namespace Verif.ByValue
open Verif.Syntax Verif.Types

/-- The types that an item uses by value, and the word for such a use. -/
def uses : Api → List (String × Ty)
  | .struct s => s.fields.map fun f => ("using", f.ty)
  | .cxxFunction f | .rustFunction f => (f.sig.args.map fun a => ("passing", a.ty)) ++ f.sig.ret.toList.map fun t => ("returning", t)
  | _ => []

/-- What a type is, if it cannot be used by value.  Names without a definition in the bridge are those of Rust and of the library. -/
inductive Is (apis : List Api) : Ty → String → Prop
  | cxx {t : NamedType} : definitions apis t.rust = [.cxx] → Is apis (.ident t) "opaque C++ type"
  | rust {t : NamedType} : definitions apis t.rust = [.rust] → Is apis (.ident t) "opaque Rust type"
  | string {g : List Ident} : Is apis (.ident ⟨"CxxString", g⟩) "C++ string"
  | vector {t : Ty} : Is apis (.cxxVector t) "C++ vector"
  | unit : Is apis .void "()"
  | array {t : Ty} {n : Nat} : Check.Rules.Unsized apis t → Is apis (.array t n) "array"

/-- The names of the library stand for what the library calls so. -/
def Reserved (apis : List Api) : Prop := definitions apis "CxxString" = []

end Verif.ByValue
