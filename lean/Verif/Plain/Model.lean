import Verif.Mangle.Model
/-!
# The names that appear in the generated C++

gen/src/write.rs.  Only names that come from the bridge are listed; `self`, `rhs`, `return$` and so on are fixed.  Names inside types
are those of types of the bridge.  The names of the arguments of function pointers are left out.
-/
namespace Verif.Plain
open Verif.Syntax Verif.Types Verif.Mangle

/-- gen/src/write.rs:82-86, gen/src/out.rs:59-61 (`namespace a {`) and `struct T`, `::a::T`: the name with its namespace. -/
def qualified (p : Pair) : List Symbol := nsSegs p.ns ++ [p.cxx.toList]

/-- gen/src/write.rs:538-602 `write_struct_operator_decls`, 191-222 for `hash`. -/
def operators (derives : List Trait) : List String :=
  (if derives.contains .partialEq then "eq" :: (if derives.contains .eq then [] else ["ne"]) else []) ++
  (if derives.contains .partialOrd then ["lt", "le"] ++ (if derives.contains .ord then [] else ["gt", "ge"]) else []) ++
  (if derives.contains .hash then ["hash"] else [])

/-- gen/src/write.rs:897-916: the two functions for an argument that is a function pointer. -/
def callbackNames (ts : Types) (f : ExternFn) (v : Var) : List Symbol :=
  match v.ty with
  | .fn .. => (cTrampoline ts f v.name).toList ++ (rTrampoline ts f v.name).toList
  | _ => []

/-- gen/src/write.rs: the names written for one item.
* struct: :273-359 `write_struct` unless the type is declared as one of C++ (:112), :361-363 `write_struct_decl`, the operators.
* enum: :425-445 `write_enum`, or :447-476 `check_enum` if it is declared as a type of C++; no variants that come from a header
  (:126-132).
* type of C++: :376-378 `write_struct_using`.
* type of Rust: :380-423 `write_opaque_type`, :689-727 for its layout.
* function of C++: :736-905 `write_cxx_function_shim`, with the local variable `f$` (:786-792, :847-850).
* function of Rust: :918-1162; `arg$` (:1064) is written for some of the arguments and listed for all.
* alias, enum with variants from a header: where it is used; it is listed even if it is not. -/
def namesFor (ts : Types) : Api → List Symbol
  | .include _ => []
  | .struct s => qualified s.name ++
      (if s.name.rust ∈ ts.cxx then [] else (structGuard s.name).toList ++ s.fields.map fun f => f.name.cxx.toList) ++
      (operators s.derives).filterMap (operator s.name)
  | .enum e => qualified e.name ++ (if e.name.rust ∈ ts.cxx then [] else (enumGuard e.name).toList) ++
      (if e.variantsFromHeader then [] else e.variants.map fun v => v.cxx.toList)
  | .cxxType t => qualified t.name
  | .rustType t => qualified t.name ++ (structGuard t.name).toList ++ ["sizeof", "alignof"].filterMap (operator t.name)
  | .cxxFunction f => qualified f.name ++ (externFn ts f).toList ++ [f.name.rust.toList ++ ['$']] ++
      f.sig.args.map (fun a => a.name.cxx.toList) ++ f.sig.args.flatMap (callbackNames ts f)
  | .rustFunction f => qualified f.name ++ (externFn ts f).toList ++
      f.sig.args.flatMap fun a => [a.name.cxx.toList, a.name.cxx.toList ++ ['$']]
  | .typeAlias a => qualified a.name
  | .impl _ => []

/-- gen/src/write.rs:18-35 `gen`: the names in the whole file; :1433-1465 `write_generic_instantiations`. -/
def namesWritten (apis : List Api) : List Symbol :=
  apis.flatMap (namesFor (collect apis)) ++
    ((collect apis).impls.map (·.1)).flatMap fun k => ((cxxInst (collect apis) k).toList).flatten

end Verif.Plain
