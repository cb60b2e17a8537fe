import Verif.Check.Model
/-!
# The messages about types that cannot be passed by value: `syntax/check.rs`
-/
namespace Verif.ByValue
open Verif.Syntax Verif.Types Verif.Check

/-- syntax/check.rs:704-739 `describe`. -/
def describe (cx : Cx) : Ty → String
  | .ident t =>
    if mapHas cx.types.structs t.rust then "struct"
    else if mapHas cx.types.enums t.rust then "enum"
    else if mapHas cx.types.aliases t.rust then "C++ type"
    else if t.rust ∈ cx.types.cxx then "opaque C++ type"
    else if t.rust ∈ cx.types.rust then "opaque Rust type"
    else if Atom.fromStr t.rust = some .cxxString then "C++ string"
    else if Atom.fromStr t.rust = some .char then "C char"
    else t.rust
  | .rustBox _ => "Box"
  | .rustVec _ => "Vec"
  | .uniquePtr _ => "unique_ptr"
  | .sharedPtr _ => "shared_ptr"
  | .weakPtr _ => "weak_ptr"
  | .ref .. => "reference"
  | .ptr .. => "raw pointer"
  | .str .. => "&str"
  | .cxxVector _ => "C++ vector"
  | .sliceRef .. => "slice"
  | .fn .. => "function pointer"
  | .void => "()"
  | .array .. => "array"

/-- syntax/check.rs:350, 483, 493 `format!("… {} by value is not supported", desc)`. -/
def message (verb : String) (desc : String) : String := verb ++ " " ++ desc ++ " by value is not supported"

/-- syntax/check.rs:342-353: the fields of a struct. -/
def fieldMessages (cx : Cx) (s : Struct) : List String :=
  s.fields.flatMap fun f => if isFn f.ty then [] else if isUnsized cx f.ty then [message "using" (describe cx f.ty)] else []

/-- syntax/check.rs:466-486: the arguments of a function. -/
def argMessages (cx : Cx) (f : ExternFn) : List String :=
  f.sig.args.flatMap fun a =>
    if isFn a.ty then [] else if isPtr a.ty then [] else if isUnsized cx a.ty then [message "passing" (describe cx a.ty)] else []

/-- syntax/check.rs:488-496: the result of a function. -/
def retMessages (cx : Cx) : Option Ty → List String
  | none => []
  | some ty => if isFn ty then [] else if isUnsized cx ty then [message "returning" (describe cx ty)] else []

/-- syntax/check.rs:63-73: the messages about one item. -/
def messages (cx : Cx) : Api → List String
  | .struct s => fieldMessages cx s
  | .cxxFunction f | .rustFunction f => argMessages cx f ++ retMessages cx f.sig.ret
  | _ => []

end Verif.ByValue
