import Verif.Improper.Model
import Verif.Pod.Model
import Verif.Mangle.Model
/-!
# The `extern "C"` declarations of both generators

`macro/src/expand.rs` on the Rust side, `gen/src/write.rs` on the C++ side.  A declaration is modelled as its
symbol, the types of its parameters in order and its return type, each type as the tokens the generator
prints.  Parameter names, attributes and bodies are left out here.
-/
namespace Verif.Abi
open Verif.Syntax Verif.Types Verif.Improper Verif.Pod Verif.Mangle

/-- What both generators know: the collected types, the improper structs and a bound on the recursion of
`is_guaranteed_pod` (`Verif/Pod`). -/
structure Ctx where
  types : Types
  improper : List Ident
  depth : Nat

/-- `types.is_considered_improper_ctype(ty)`. -/
def Ctx.isImproper (cx : Ctx) (ty : Ty) : Bool := Improper.isImproper cx.types cx.improper ty

/-- `types.is_guaranteed_pod(ty)`; `false` if the depth did not suffice. -/
def Ctx.isPod (cx : Ctx) (ty : Ty) : Bool := (Pod.isPod cx.types cx.depth ty).getD false

/-- syntax/types.rs:243-255 `needs_indirect_abi`. -/
def Ctx.needsIndirect (cx : Ctx) : Ty → Bool
  | .rustBox _ | .uniquePtr _ | .ref .. | .ptr .. | .str .. | .fn .. | .sliceRef .. => false
  | .array .. => true
  | ty => !cx.isPod ty || cx.isImproper ty

/-! ### The Rust side -/

/-- Types printed by the macro. -/
inductive RTok
  /-- `quote!(#ty)`: the type as the user wrote it -/
  | source (t : Ty)
  /-- `::cxx::private::RustString` -/
  | rustString
  /-- `::cxx::private::RustVec<elem>` -/
  | rustVec (elem : RTok)
  /-- `*mut t` or `*const t` -/
  | raw (mutable : Bool) (t : RTok)
  /-- `*mut c_void` or `*const c_void` -/
  | void (mutable : Bool)
  /-- `&mut t` or `&t` -/
  | borrow (mutable : Bool) (t : RTok)
  /-- `::cxx::private::RustStr` -/
  | rustStr
  /-- `::cxx::private::RustSlice` -/
  | rustSlice
  /-- `::cxx::private::FatFunction` -/
  | fatFunction
  /-- `::cxx::private::Result` -/
  | result
  /-- `*const ()` -/
  | unitPtr
  /-- `&t`, `&mut t` or `Pin<&mut t>` for the type of a receiver -/
  | receiver (pinned mutable : Bool) (t : NamedType)

/-- A declaration on the Rust side. -/
structure RDecl where
  symbol : Option Symbol
  params : List RTok
  ret : Option RTok

/-- Whether a type is the name `String`. -/
def isRustString : Ty → Bool
  | .ident t => decide (t.rust = "String")
  | _ => false

/-- macro/src/expand.rs:1865-1935 `expand_extern_type`. -/
def externType (cx : Ctx) (proper : Bool) : Ty → RTok
  | .ident t => if t.rust = "String" then .rustString else .source (.ident t)
  | .rustBox t =>
    if proper && cx.isImproper t then .void true else .raw true (externType cx proper t)
  | .uniquePtr t =>
    if proper && cx.isImproper t then .void true else .raw true (externType cx proper t)
  | .rustVec t => .rustVec (externType cx proper t)
  | .ref p l m t =>
    match t with
    | .ident n =>
      if n.rust = "String" then .borrow m .rustString
      else if proper && cx.isImproper (.ident n) then .void m else .source (.ref p l m (.ident n))
    | .rustVec v => .borrow m (.rustVec (externType cx proper v))
    | t => if proper && cx.isImproper t then .void m else .source (.ref p l m t)
  | .ptr m t => if proper && cx.isImproper t then .void m else .source (.ptr m t)
  | .str .. => .rustStr
  | .sliceRef .. => .rustSlice
  | t => .source t

/-- macro/src/expand.rs:1859-1863 `indirect_return`. -/
def indirectReturnR (cx : Ctx) (ret : Option Ty) (throws : Bool) : Bool :=
  match ret with
  | none => false
  | some ret => throws || cx.needsIndirect ret

/-- macro/src/expand.rs:1937-1944 `expand_extern_return_type`. -/
def externReturnType (cx : Ctx) (proper : Bool) : Option Ty → Option RTok
  | some ret => if cx.needsIndirect ret then none else some (externType cx proper ret)
  | none => none

/-- macro/src/expand.rs:466-482: a parameter of the declaration of a C++ function. -/
def cxxParamR (cx : Ctx) (ty : Ty) : RTok :=
  if isRustString ty then .raw false (externType cx true ty)
  else match ty with
    | .rustVec _ => .raw false (externType cx true ty)
    | .fn .. => .fatFunction
    | _ => if cx.needsIndirect ty then .raw true (externType cx true ty) else externType cx true ty

/-- syntax/tokens.rs `Receiver::ty`: the type of a receiver. -/
def receiverR (r : Receiver) : RTok := .receiver r.pinned r.mutable r.ty

/-- macro/src/expand.rs:489-493, 1111-1115: the out-pointer, if any. -/
def outParamR (cx : Ctx) (proper : Bool) (ret : Option Ty) (throws : Bool) : List RTok :=
  match ret with
  | some ty => if indirectReturnR cx ret throws then [.raw true (externType cx proper ty)] else []
  | none => []

/-- macro/src/expand.rs:460-499 `expand_cxx_function_decl`. -/
def cxxFunctionR (cx : Ctx) (f : ExternFn) : RDecl :=
  { symbol := externFn cx.types f
    params := f.sig.receiver.toList.map receiverR ++
      f.sig.args.map (fun a => cxxParamR cx a.ty) ++
      outParamR cx true f.sig.ret f.sig.throws
    ret := if f.sig.throws then some .result else externReturnType cx true f.sig.ret }

/-- macro/src/expand.rs:979-989: a parameter of an exported Rust function. -/
def rustParamR (cx : Ctx) (ty : Ty) : RTok :=
  if cx.needsIndirect ty then .raw true (externType cx false ty) else externType cx false ty

/-- macro/src/expand.rs:966-1179 `expand_rust_function_shim_impl`; `pointer` is true for the trampoline of a
function pointer. -/
def rustShimR (cx : Ctx) (symbol : Option Symbol) (receiver : Option Receiver) (args : List Ty) (ret : Option Ty)
    (throws pointer : Bool) : RDecl :=
  { symbol
    params := receiver.toList.map receiverR ++ args.map (rustParamR cx) ++
      outParamR cx false ret throws ++
      (if pointer then [.unitPtr] else [])
    ret := if throws then some .result else externReturnType cx false ret }

/-- macro/src/expand.rs:941-964 `expand_rust_function_shim`. -/
def rustFunctionR (cx : Ctx) (f : ExternFn) : RDecl :=
  rustShimR cx (externFn cx.types f) f.sig.receiver (f.sig.args.map (·.ty)) f.sig.ret f.sig.throws false

/-- macro/src/expand.rs:787-824 `expand_function_pointer_trampoline`: the exported function. -/
def trampolineR (cx : Ctx) (f : ExternFn) (var : Pair) (args : List Ty) (ret : Option Ty) (throws : Bool) : RDecl :=
  rustShimR cx (rTrampoline cx.types f var) none args ret throws true

/-! ### The C++ side -/

/-- Types printed by the C++ generator. -/
inductive CTok
  | atom (a : Atom)
  /-- `::ns::name` -/
  | named (p : Pair)
  | box (t : CTok)
  | vec (t : CTok)
  | uniquePtr (t : CTok)
  | sharedPtr (t : CTok)
  | weakPtr (t : CTok)
  | vector (t : CTok)
  /-- `t &` or `t const &` -/
  | lref (mutable : Bool) (t : CTok)
  /-- `t *` or `t const *` -/
  | star (mutable : Bool) (t : CTok)
  | str
  | slice (mutable : Bool) (t : CTok)
  | fn (args : List CTok) (ret : Option CTok)
  | array (t : CTok) (n : Nat)
  /-- `::rust::repr::Fat` -/
  | fat
  /-- `::rust::repr::PtrLen` -/
  | ptrLen
  /-- `void *` -/
  | voidPtr

/-- A declaration on the C++ side. -/
structure CDecl where
  symbol : Option Symbol
  params : List CTok
  ret : Option CTok

mutual
/-- gen/src/write.rs:1252-1339 `write_type`; `none` is a panic: `unreachable!()` for `Type::Void`, or
`Types::resolve` for an unknown name. -/
def writeType (ts : Types) : Ty → Option CTok
  | .ident t =>
    match Atom.fromStr t.rust with
    | some a => some (.atom a)
    | none => (resolve ts t.rust).map .named
  | .rustBox t => (writeType ts t).map .box
  | .rustVec t => (writeType ts t).map .vec
  | .uniquePtr t => (writeType ts t).map .uniquePtr
  | .sharedPtr t => (writeType ts t).map .sharedPtr
  | .weakPtr t => (writeType ts t).map .weakPtr
  | .cxxVector t => (writeType ts t).map .vector
  | .ref _ _ m t => (writeType ts t).map (.lref m)
  | .ptr m t => (writeType ts t).map (.star m)
  | .str .. => some .str
  | .sliceRef _ m t => (writeType ts t).map (.slice m)
  | .fn _ as r _ =>
    match writeOpt ts r, writeTypes ts as with
    | some r, some as => some (.fn as r)
    | _, _ => none
  | .array t n => (writeType ts t).map (.array · n)
  | .void => none
/-- gen/src/write.rs:1319-1322: the return type inside `::rust::Fn<..>`. -/
def writeOpt (ts : Types) : Option Ty → Option (Option CTok)
  | none => some none
  | some t => (writeType ts t).map some
/-- gen/src/write.rs:1324-1329: the argument types inside `::rust::Fn<..>`. -/
def writeTypes (ts : Types) : List Ty → Option (List CTok)
  | [] => some []
  | t :: rest =>
    match writeType ts t, writeTypes ts rest with
    | some c, some cs => some (c :: cs)
    | _, _ => none
end

/-- gen/src/write.rs:1184-1188 `indirect_return`. -/
def indirectReturnC (cx : Ctx) (ret : Option Ty) (throws : Bool) : Bool :=
  match ret with
  | none => false
  | some ret => throws || cx.needsIndirect ret

/-- gen/src/write.rs:1190-1205 `write_indirect_return_type`. -/
def indirectReturnType (cx : Ctx) : Ty → Option CTok
  | .rustBox t | .uniquePtr t => (writeType cx.types t).map (.star true)
  | .ref _ _ m t => (writeType cx.types t).map (.star m)
  | t => writeType cx.types t

/-- gen/src/write.rs:1216-1236 `write_extern_return_type_space`; the inner `none` is `void`. -/
def externReturnC (cx : Ctx) : Option Ty → Option (Option CTok)
  | none => some none
  | some (.rustBox t) | some (.uniquePtr t) => (writeType cx.types t).map (fun c => some (.star true c))
  | some (.ref _ _ m t) => (writeType cx.types t).map (fun c => some (.star m c))
  | some (.str ..) | some (.sliceRef ..) => some (some .fat)
  | some t => if cx.needsIndirect t then some none else (writeType cx.types t).map some

/-- gen/src/write.rs:1240-1247: the type part of `write_extern_arg`. -/
def externArgBase (cx : Ctx) : Ty → Option CTok
  | .rustBox t | .uniquePtr t | .cxxVector t => (writeType cx.types t).map (.star true)
  | t => writeType cx.types t

/-- gen/src/write.rs:1238-1250 `write_extern_arg`. -/
def externArg (cx : Ctx) (ty : Ty) : Option CTok :=
  if cx.needsIndirect ty then (externArgBase cx ty).map (.star true) else externArgBase cx ty

/-- gen/src/write.rs:764-771: a parameter of the shim of a C++ function. -/
def cxxParamC (cx : Ctx) (ty : Ty) : Option CTok :=
  if isRustString ty then (writeType cx.types ty).map (.star false)
  else match ty with
    | .rustVec _ => (writeType cx.types ty).map (.star false)
    | _ => externArg cx ty

/-- gen/src/write.rs:749-759, 929-940: `Type const &self`. -/
def receiverC (cx : Ctx) (r : Receiver) : Option CTok :=
  (resolve cx.types r.ty.rust).map (fun p => .lref r.mutable (.named p))

/-- `throws` returns `PtrLen`; otherwise `write_extern_return_type_space` (write.rs:740-745, 919-924). -/
def returnC (cx : Ctx) (ret : Option Ty) (throws : Bool) : Option (Option CTok) :=
  if throws then some (some .ptrLen) else externReturnC cx ret

/-- gen/src/write.rs:774-780: the out-pointer of a C++ function, if any. -/
def cxxOutC (cx : Ctx) (ret : Option Ty) (throws : Bool) : Option (List CTok) :=
  match ret with
  | some ty =>
    if indirectReturnC cx ret throws then (indirectReturnType cx ty).map (fun c => [.star true c]) else some []
  | none => some []

/-- gen/src/write.rs:736-781 `write_cxx_function_shim`: its signature. -/
def cxxFunctionC (cx : Ctx) (f : ExternFn) : Option CDecl := do
  let recv ← f.sig.receiver.toList.mapM (receiverC cx)
  let args ← f.sig.args.mapM (fun a => cxxParamC cx a.ty)
  let out ← cxxOutC cx f.sig.ret f.sig.throws
  let ret ← returnC cx f.sig.ret f.sig.throws
  some { symbol := externFn cx.types f, params := recv ++ args ++ out, ret }

/-- gen/src/write.rs:952-963: the type of the out-pointer of a Rust function. -/
def rustReturnPointee (cx : Ctx) : Ty → Option CTok
  | .ref _ _ m t => (writeType cx.types t).map (.star m)
  | t => writeType cx.types t

/-- gen/src/write.rs:948-964: the out-pointer of a Rust function, if any. -/
def rustOutC (cx : Ctx) (ret : Option Ty) (throws : Bool) : Option (List CTok) :=
  match ret with
  | some ty =>
    if indirectReturnC cx ret throws then (rustReturnPointee cx ty).map (fun c => [.star true c]) else some []
  | none => some []

/-- gen/src/write.rs:927-985 `write_rust_function_decl_impl`. -/
def rustDeclC (cx : Ctx) (symbol : Option Symbol) (receiver : Option Receiver) (args : List Ty) (ret : Option Ty)
    (throws indirectCall : Bool) : Option CDecl := do
  let recv ← receiver.toList.mapM (receiverC cx)
  let args ← args.mapM (externArg cx)
  let out ← rustOutC cx ret throws
  let r ← returnC cx ret throws
  some { symbol, params := recv ++ args ++ out ++ (if indirectCall then [.voidPtr] else []), ret := r }

/-- gen/src/write.rs:918-925 `write_rust_function_decl`. -/
def rustFunctionC (cx : Ctx) (f : ExternFn) : Option CDecl :=
  rustDeclC cx (externFn cx.types f) f.sig.receiver (f.sig.args.map (·.ty)) f.sig.ret f.sig.throws false

/-- gen/src/write.rs:907-916 `write_function_pointer_trampoline`: the declaration of the Rust half. -/
def trampolineC (cx : Ctx) (f : ExternFn) (var : Pair) (args : List Ty) (ret : Option Ty) (throws : Bool) :
    Option CDecl :=
  rustDeclC cx (rTrampoline cx.types f var) none args ret throws true

end Verif.Abi
