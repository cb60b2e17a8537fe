import Verif.Layout.Model
/-!
# The declarations of a generated C++ file, in order

`gen/src/write.rs` from the forward declarations to the instantiations.  Each declaration is kept with the types it
mentions, the class members it declares or defines, and the functions its body calls.  Left out are the include
guards (`Verif/Layout`), blocks and namespaces as text (`Verif/Out`, `Verif/Nested`; forward declarations are in
source order here), the include directives and builtins before them (`Verif/Preamble`), comments, and the static
assertions about imported types (`Verif/Assert`).
-/
namespace Verif.Unit
open Verif.Syntax Verif.Types Verif.Abi Verif.Mangle Verif.Layout

/-- A C++ function type, with the `const` and `noexcept` behind it. -/
structure FnSig where
  params : List CTok
  ret : Option CTok
  const : Bool
  noexcept : Bool

/-- A member function declared in a class. -/
structure Member where
  name : String
  sig : FnSig

/-- A declaration at namespace level. -/
inductive Decl
  /-- `struct N;` -/
  | struct (p : Pair)
  /-- `using N = ::ns::N;` -/
  | using (p : Pair)
  /-- `enum class N : repr;` -/
  | enumeration (p : Pair) (repr : Atom)
  /-- `struct N final { .. };`; `base` is whether it derives from `::rust::Opaque`, `inner` are the types declared in it -/
  | classDef (p : Pair) (base : Bool) (fields : List (Ident × CTok)) (members : List Member) (inner : List String)
  /-- `enum class N : repr { .. };` -/
  | enumDef (p : Pair) (repr : Atom)
  /-- static assertions about an enum from a header -/
  | checkEnum (p : Pair)
  /-- a function of the other language is declared in the namespace `ns` -/
  | proto (ns : Namespace) (symbol : Symbol) (params : List CTok) (ret : Option CTok)
  /-- the definition of a function for Rust, that initialises a pointer of type `sig` with the C++ function `name`, or
  with a member function of the class `self`, and calls it -/
  | shim (params : List CTok) (ret : Option CTok) (self : Option Pair) (name : Pair) (sig : FnSig)
  /-- a function is declared, or defined, and then calls these symbols -/
  | function (ns : Namespace) (name : String) (sig : FnSig) (body : Option (List Symbol))
  /-- in the namespace `ns`: the member `cls::m` is defined, and calls these symbols -/
  | member (ns : Namespace) (cls : Ident) (m : Member) (calls : List Symbol)
  /-- `template <> struct hash<::ns::N>`, with a call of `::ns::symbol` -/
  | hash (p : Pair) (calls : List Symbol)
  /-- in the namespace `ns`: the static function `fn` of `cls::layout` is defined -/
  | layout (ns : Namespace) (cls : Ident) (fn : String) (calls : List Symbol)
  /-- the functions and specialisations for `Box<N>` and the like -/
  | instance (k : ImplKey) (p : Pair)

/-- All results, or none. -/
def all {α β : Type} (f : α → Option β) : List α → Option (List β)
  | [] => some []
  | a :: as =>
    match f a, all f as with
    | some b, some bs => some (b :: bs)
    | _, _ => none

/-- gen/src/write.rs:58-91 `write_forward_declarations`: the declaration for an item. -/
def forward (ts : Types) : Api → List Decl
  | .struct s => [.struct s.name]
  | .cxxType t => [.using t.name]
  | .rustType t => [.struct t.name]
  | .enum e => if e.name.rust ∈ ts.cxx then [] else [.enumeration e.name e.repr]
  | _ => []

/-- gen/src/write.rs:1026-1030, 800-804: ` const` behind the parameters. -/
def isConst : Option Receiver → Bool
  | some r => !r.mutable
  | none => false

/-- gen/src/write.rs:1003-1034 `write_rust_function_shim_decl`, without the name and `void *extern$`. -/
def shimSig (ts : Types) (receiver : Option Receiver) (args : List Ty) (ret : Option Ty) (throws : Bool) : Option FnSig :=
  match writeOpt ts ret, writeTypes ts args with
  | some r, some ps =>
    some ⟨ps, r, isConst receiver, !throws⟩
  | _, _ => none

/-- gen/src/write.rs:303-318, 395-411: the declaration of a method in its class. -/
def methodDecl (ts : Types) (f : ExternFn) : Option Member :=
  (shimSig ts f.sig.receiver (f.sig.args.map (·.ty)) f.sig.ret f.sig.throws).map (⟨f.name.cxx, ·⟩)

/-- `bool operator..(N const &) const noexcept`. -/
def comparison (p : Pair) (op : String) : Member := ⟨op, ⟨[.lref false (.named p)], some (.atom .bool), true, true⟩⟩

/-- gen/src/write.rs:320-355: the operators declared in a struct. -/
def operatorMembers (s : Struct) : List Member :=
  (if Trait.partialEq ∈ s.derives then [comparison s.name "operator==", comparison s.name "operator!="] else []) ++
  (if Trait.partialOrd ∈ s.derives then [comparison s.name "operator<", comparison s.name "operator<=",
    comparison s.name "operator>", comparison s.name "operator>="] else [])

/-- gen/src/write.rs:273-359, 380-445: the definition for an item; the assertions of `check_enum` (447-476). -/
def dataDecl (ts : Types) : Item → Option Decl
  | .struct s methods =>
    match writeFields ts s.fields, all (methodDecl ts) methods with
    | some fields, some ms => some (.classDef s.name false fields (ms ++ operatorMembers s) ["IsRelocatable"])
    | _, _ => none
  | .opaque t methods => (all (methodDecl ts) methods).map (.classDef t.name true [] · ["layout"])
  | .enum e => some (.enumDef e.name e.repr)
  | .checkEnum e => some (.checkEnum e.name)

/-- gen/src/write.rs:538-600 `write_struct_operator_decls`. -/
def operatorProtos (s : Struct) : Option (List Decl) :=
  let one (ret : CTok) (n : Nat) (op : String) : Option Decl :=
    (operator s.name op).map fun sym => .proto s.name.ns sym (List.replicate n (.lref false (.named s.name))) (some ret)
  all (fun (x : CTok × Nat × String) => one x.1 x.2.1 x.2.2)
    ((if Trait.partialEq ∈ s.derives then
        [(.atom .bool, 2, "eq")] ++ (if Trait.eq ∈ s.derives then [] else [(.atom .bool, 2, "ne")]) else []) ++
     (if Trait.partialOrd ∈ s.derives then
        [(.atom .bool, 2, "lt"), (.atom .bool, 2, "le")] ++
          (if Trait.ord ∈ s.derives then [] else [(.atom .bool, 2, "gt"), (.atom .bool, 2, "ge")]) else []) ++
     (if Trait.hash ∈ s.derives then [(.atom .usize, 1, "hash")] else []))

/-- gen/src/write.rs:689-700 `write_opaque_type_layout_decls`. -/
def layoutProtos (t : ExternType) : Option (List Decl) :=
  all (fun op => (operator t.name op).map fun sym => .proto t.name.ns sym [] (some (.atom .usize)))
    ["sizeof", "alignof"]

/-- gen/src/write.rs:736-823 `write_cxx_function_shim`: the signature, and the pointer `f$` (783-823). -/
def cxxShim (cx : Ctx) (f : ExternFn) : Option Decl :=
  match cxxFunctionC cx f, writeOpt cx.types f.sig.ret, writeTypes cx.types (f.sig.args.map (·.ty)),
    all (fun (r : Receiver) => resolve cx.types r.ty.rust) f.sig.receiver.toList with
  | some c, some ret, some params, some self =>
    some (.shim c.params c.ret self.head? f.name
      ⟨params, ret, isConst f.sig.receiver, false⟩)
  | _, _, _, _ => none

/-- gen/src/write.rs:907-916 `write_function_pointer_trampoline`, for an argument that is a function pointer
(896-901). -/
def trampoline (cx : Ctx) (f : ExternFn) (a : Var) : Option (List Decl) :=
  match a.ty with
  | .fn _ args ret throws =>
    match rTrampoline cx.types f a.name, cTrampoline cx.types f a.name, trampolineC cx f a.name args ret throws,
      shimSig cx.types none args ret throws with
    | some r, some c, some d, some s =>
      some [.proto f.name.ns r d.params d.ret,
        .function f.name.ns (String.ofList c) { s with params := s.params ++ [.voidPtr] } (some [r])]
    | _, _, _, _ => none
  | _ => some []

/-- gen/src/write.rs:918-925 `write_rust_function_decl`. -/
def rustProto (cx : Ctx) (f : ExternFn) : Option Decl :=
  match externFn cx.types f, rustFunctionC cx f with
  | some s, some d => some (.proto f.name.ns s d.params d.ret)
  | _, _ => none

/-- gen/src/write.rs:165-174, the first loop of `write_functions`. -/
def firstLoop (cx : Ctx) : Api → Option (List Decl)
  | .struct s => operatorProtos s
  | .rustType t => layoutProtos t
  | .cxxFunction f =>
    match cxxShim cx f, all (trampoline cx f) f.sig.args with
    | some d, some ts => some (d :: ts.flatten)
    | _, _ => none
  | .rustFunction f => (rustProto cx f).map ([·])
  | _ => some []

/-- gen/src/write.rs:191-218 `write_std_specializations`. -/
def specialization : Api → Option (List Decl)
  | .struct s =>
    if Trait.hash ∈ s.derives then (operator s.name "hash").map fun sym => [.hash s.name [sym]] else some []
  | _ => some []

/-- gen/src/write.rs:605-687 `write_struct_operators`. -/
def operatorDefs (s : Struct) : Option (List Decl) :=
  let own (op : String) (callee : Option String) : Option Decl :=
    (all (operator s.name) callee.toList).map (.member s.name.ns s.name.cxx (comparison s.name op) ·)
  all (fun (x : String × Option String) => own x.1 x.2)
    ((if Trait.partialEq ∈ s.derives then
        [("operator==", some "eq"), ("operator!=", if Trait.eq ∈ s.derives then none else some "ne")] else []) ++
     (if Trait.partialOrd ∈ s.derives then
        [("operator<", some "lt"), ("operator<=", some "le"),
         ("operator>", if Trait.ord ∈ s.derives then none else some "gt"),
         ("operator>=", if Trait.ord ∈ s.derives then none else some "ge")] else []))

/-- gen/src/write.rs:702-733 `write_opaque_type_layout`. -/
def layoutDefs (t : ExternType) : Option (List Decl) :=
  all (fun (x : String × String) => (operator t.name x.2).map fun sym => .layout t.name.ns t.name.cxx x.1 [sym])
    [("size", "sizeof"), ("align", "alignof")]

/-- gen/src/write.rs:987-1001, 1036-1060 `write_rust_function_shim`. -/
def rustShim (header : Bool) (cx : Ctx) (f : ExternFn) : Option (List Decl) :=
  match externFn cx.types f, shimSig cx.types f.sig.receiver (f.sig.args.map (·.ty)) f.sig.ret f.sig.throws with
  | some sym, some s =>
    match f.sig.receiver with
    | none => some [.function f.name.ns f.name.cxx s (if header then none else some [sym])]
    | some r => (resolve cx.types r.ty.rust).map fun p =>
        if header then [] else [.member f.name.ns p.cxx ⟨f.name.cxx, s⟩ [sym]]
  | _, _ => none

/-- gen/src/write.rs:179-189, the second loop of `write_functions`. -/
def secondLoop (header : Bool) (cx : Ctx) : Api → Option (List Decl)
  | .struct s => if header then some [] else operatorDefs s
  | .rustType t => if header then some [] else layoutDefs t
  | .rustFunction f => rustShim header cx f
  | _ => some []

/-- gen/src/write.rs:1433-1465 `write_generic_instantiations`, first loop; the second one (1456-1462) specialises
the templates of the same types. -/
def instances (cx : Ctx) : Option (List Decl) :=
  all (fun (e : ImplKey × Bool) => (resolve cx.types e.1.rust).map (.instance e.1 ·)) cx.types.impls

/-- gen/src/write.rs:18-35 `gen`; `sorted` is `types.toposorted_structs`. -/
def file (header : Bool) (cx : Ctx) (sorted : List Struct) (apis : List Api) : Option (List Decl) :=
  match all (dataDecl cx.types) (dataStructures cx.types sorted apis),
    (if header then some [] else all (firstLoop cx) apis), (if header then some [] else all specialization apis),
    all (secondLoop header cx) apis, (if header then some [] else instances cx) with
  | some ds, some fs, some hs, some ss, some is =>
    some (apis.flatMap (forward cx.types) ++ ds ++ fs.flatten ++ hs.flatten ++ ss.flatten ++ is)
  | _, _, _, _, _ => none

end Verif.Unit
