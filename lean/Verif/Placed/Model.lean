import Verif.Unit.Model
import Verif.Out.Model
/-!
# In which blocks a generated C++ file is written

`gen/src/write.rs` as a sequence of calls on the output (`Verif/Out`).  What is written is arbitrary: a parameter gives
the texts of each part, and the blank lines between them.  Left out are writers that can only add `next_section`.
-/
namespace Verif.Placed
open Verif.Syntax Verif.Types Verif.Abi Verif.Layout Verif.Out
open Verif.Unit (Decl all dataDecl operatorProtos layoutProtos cxxShim trampoline rustProto specialization operatorDefs
  layoutDefs rustShim)

/-- Something that is written. -/
inductive Part
  /-- gen/src/write.rs:48-56: `CXX_DEFAULT_VALUE` -/
  | macros
  /-- gen/src/write.rs:59-92: the forward declarations, with namespaces as text (`Verif/Nested`) -/
  | forwards
  | decl (d : Decl)
  /-- a declaration for a function pointer among the arguments of a C++ function (gen/src/write.rs:907-916) -/
  | callback (d : Decl)
  /-- the assertion that the type is relocatable (gen/src/write.rs:478-536) -/
  | imported (a : TypeAlias)
  /-- specialisations of members of `Box` and `Vec` (gen/src/write.rs:1538-1656) -/
  | members (k : ImplKey)

/-- The texts of a part; `none` is a call of `next_section`. -/
abbrev Texts := Part → List (Option String)

/-- The calls that write a part. -/
def put (T : Texts) (p : Part) : List Call :=
  (T p).map fun
    | none => .nextSection
    | some s => .write s

/-- Several declarations. -/
def puts (T : Texts) (ds : List Decl) : List Call := ds.flatMap fun d => put T (.decl d)

/-- The namespace set in `write_struct` (gen/src/write.rs:277), `write_opaque_type` (381), `write_enum` (431) and
`check_enum` (453). -/
def namespaceOf : Item → Namespace
  | .struct s _ => s.name.ns
  | .opaque t _ => t.name.ns
  | .enum e => e.name.ns
  | .checkEnum e => e.name.ns

/-- gen/src/write.rs:273-359, 380-476: one item. -/
def dataCalls (T : Texts) (ts : Types) (i : Item) : Option (List Call) :=
  (dataDecl ts i).map fun d => [.nextSection, .setNamespace (namespaceOf i)] ++ put T (.decl d)

/-- gen/src/write.rs:147-161: the end of `write_data_structures`; `trivial` is `types.required_trivial`. -/
def importedCalls (T : Texts) (trivial : Ident → Bool) (apis : List Api) : List Call :=
  [.setNamespace [], .nextSection] ++
    apis.flatMap fun
      | .typeAlias a => if trivial a.name.rust then put T (.imported a) else []
      | _ => []

/-- gen/src/write.rs:165-174, the first loop of `write_functions`, with `write_struct_operator_decls` (538-603),
`write_opaque_type_layout_decls` (689-700), `write_cxx_function_shim` (736-905) and `write_rust_function_decl`
(918-925). -/
def firstCalls (T : Texts) (cx : Ctx) : Api → Option (List Call)
  | .struct s => (operatorProtos s).map fun ds =>
      [.setNamespace s.name.ns, .beginBlock .externC] ++ puts T ds ++ [.endBlock .externC]
  | .rustType t => (layoutProtos t).map fun ds =>
      [.setNamespace t.name.ns, .beginBlock .externC] ++ puts T ds ++ [.endBlock .externC]
  | .cxxFunction f =>
    match cxxShim cx f, all (trampoline cx f) f.sig.args with
    | some d, some ts =>
      some ([.nextSection, .setNamespace f.name.ns, .beginBlock .externC] ++ put T (.decl d) ++
        ts.flatten.flatMap (fun d => put T (.callback d)) ++ [.endBlock .externC])
    | _, _ => none
  | .rustFunction f => (rustProto cx f).map fun d =>
      [.setNamespace f.name.ns, .beginBlock .externC] ++ put T (.decl d) ++ [.endBlock .externC]
  | _ => some []

/-- gen/src/write.rs:191-221 `write_std_specializations`. -/
def specializationCalls (T : Texts) (apis : List Api) : Option (List Call) :=
  (all specialization apis).map fun ds =>
    [.setNamespace [], .beginBlock (.builtinNamespace "std")] ++ puts T ds.flatten ++
      [.endBlock (.builtinNamespace "std")]

/-- gen/src/write.rs:179-189, the second loop of `write_functions`, with `write_struct_operators` (605-687),
`write_opaque_type_layout` (702-728) and `write_rust_function_shim` (987-1001). -/
def secondCalls (T : Texts) (header : Bool) (cx : Ctx) : Api → Option (List Call)
  | .struct s => if header then some [] else (operatorDefs s).map fun ds => .setNamespace s.name.ns :: puts T ds
  | .rustType t => if header then some [] else (layoutDefs t).map fun ds => .setNamespace t.name.ns :: puts T ds
  | .rustFunction f => (rustShim header cx f).map fun ds => [.nextSection, .setNamespace f.name.ns] ++ puts T ds
  | _ => some []

/-- gen/src/write.rs:1456-1462: the kinds with members to specialise. -/
def hasMembers : ImplKey → Bool
  | .rustBox _ | .rustVec _ => true
  | _ => false

/-- gen/src/write.rs:1433-1465 `write_generic_instantiations`. -/
def instanceCalls (T : Texts) (cx : Ctx) : Option (List Call) :=
  (Verif.Unit.instances cx).map fun ds =>
    [.nextSection, .setNamespace [], .beginBlock .externC] ++ puts T ds ++ [.endBlock .externC] ++
    [.beginBlock (.builtinNamespace "rust"), .beginBlock (.inlineNamespace "cxxbridge1")] ++
    cx.types.impls.flatMap (fun e => if hasMembers e.1 then put T (.members e.1) else []) ++
    [.endBlock (.inlineNamespace "cxxbridge1"), .endBlock (.builtinNamespace "rust")]

/-- gen/src/write.rs:18-35 `gen`: the calls on the main part of the output.  `defaults` is `needs_default_value` of
`write_macros` (37-57). -/
def calls (T : Texts) (header defaults : Bool) (trivial : Ident → Bool) (cx : Ctx) (sorted : List Struct)
    (apis : List Api) : Option (List Call) :=
  match all (dataCalls T cx.types) (dataStructures cx.types sorted apis),
    (if header then some [] else all (firstCalls T cx) apis),
    (if header then some [] else specializationCalls T apis),
    all (secondCalls T header cx) apis, (if header then some [] else instanceCalls T cx) with
  | some ds, some fs, some hs, some ss, some is =>
    some ((if defaults then .nextSection :: put T .macros else []) ++ (.nextSection :: put T .forwards) ++ ds.flatten ++
      (if header then [] else importedCalls T trivial apis) ++ fs.flatten ++ hs ++ ss.flatten ++ is)
  | _, _, _, _, _ => none

end Verif.Placed
