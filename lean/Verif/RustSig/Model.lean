import Verif.Parse.ItemModel
import Verif.Abi.Model
/-!
# The signatures in the expansion: `macro/src/expand.rs`, `macro/src/tokens.rs`

What the macro prints is given as syn would read it.  Left out: spans, doc comments, attributes, visibility (a function is
always `pub`, syntax/parse.rs:1468-1488).
-/
namespace Verif.RustSig
open Verif.Syntax Verif.Parse Verif.Abi

/-- `syn::Signature`.  The name of an argument is missing if it is `_`. -/
structure RFn where
  unsafety : Bool
  name : Ident
  generics : List Ident
  receiver : Option SelfSrc
  inputs : List (Option Ident × RTy)
  output : Option RTy

/-- `syn::Item`: a function, or `impl<..> T { fn .. }`. -/
inductive RItem
  | fn (f : RFn)
  | method (generics : List Ident) (ty : RTy) (f : RFn)

/-- macro/src/tokens.rs:21-44, 46-70: what `ReceiverType` and `ReceiverTypeSelf` print, `ty` being the type's name.  The
token `pin_tokens` is there exactly if `pinned` is set, likewise `mutability` and `mutable` (syntax/parse.rs:591-629). -/
def receiverOf (r : Receiver) (ty : RTy) : RTy :=
  if r.pinned then cxxPath ["core", "pin"] "Pin" (.angle [.type (.reference r.lifetime r.mutable ty)])
  else .reference r.lifetime r.mutable ty

/-- syntax/tokens.rs:300-306 `ToTokens for NamedType`. -/
def nameOf (n : NamedType) : RTy := .path false false [] n.rust (lifetimeArgs n.generics)

/-- macro/src/tokens.rs:11-13, 21-44 `Receiver::ty`. -/
def receiverTy (r : Receiver) : RTy := receiverOf r (nameOf r.ty)

/-- macro/src/tokens.rs:16-18, 46-70 `Receiver::ty_self`. -/
def receiverTySelf (r : Receiver) : RTy := receiverOf r (.path false false [] "Self" .none)

/-- macro/src/expand.rs:1852-1857 `expand_return_type`. -/
def returnTy (ret : Option Ty) : Option RTy := ret.map printType

/-- macro/src/expand.rs:521-524, 1203-1206: what stands for the result in `Result<..>`. -/
def okTy : Option Ty → RTy
  | some ret => printType ret
  | none => .tuple []

/-! ### Functions of C++ -/

/-- macro/src/expand.rs:505-517: the receiver of the function that the user calls. -/
def shimReceiver (r : Receiver) : SelfSrc :=
  if r.pinned then .typed (receiverTySelf r) else .ref r.lifetime r.mutable

/-- macro/src/expand.rs:518: an argument. -/
def shimArg (a : Var) : Option Ident × RTy := (some a.name.rust, printType a.ty)

/-- macro/src/expand.rs:520-528: the return type. -/
def shimReturn (ret : Option Ty) (throws : Bool) : Option RTy :=
  if throws then
    some (cxxPath ["core", "result"] "Result" (.angle [.type (okTy ret), .type (cxxPath [] "Exception" .none)]))
  else returnTy ret

/-- syntax/resolve.rs:12-46: how many lifetimes the declaration of a type has. -/
def lifetimesIn (ts : Types.Types) (n : Ident) : Option Nat :=
  (Types.mapGet ts.resolutions n).map (·.2.length)

/-- macro/src/expand.rs:755-774: the lifetimes behind the name of the type that has the method. -/
def implLifetimes (ts : Types.Types) (n : NamedType) : Option (List Ident) :=
  if n.generics = [] then (lifetimesIn ts n.rust).map (fun k => List.replicate k "_") else some n.generics

/-- macro/src/expand.rs:501-785 `expand_cxx_function_shim`, the signature; nothing if `resolve` panics. -/
def cxxShim (ts : Types.Types) (f : ExternFn) : Option RItem :=
  let inputs := f.sig.args.map shimArg
  let output := shimReturn f.sig.ret f.sig.throws
  match f.sig.receiver with
  | none => some (.fn ⟨f.sig.unsafety, f.name.rust, f.sig.generics, none, inputs, output⟩)
  | some r =>
    (implLifetimes ts r.ty).map fun ls =>
      .method f.sig.generics (.path false false [] r.ty.rust (lifetimeArgs ls))
        ⟨f.sig.unsafety, f.name.rust, [], some (shimReceiver r), inputs, output⟩

/-! ### Declarations -/

/-- `::cxx::core::ffi::c_void` -/
def cVoid : RTy := cxxPath ["core", "ffi"] "c_void" .none

/-- `::cxx::private::name` -/
def privateTy (name : Ident) (args : PathArgs RTy) : RTy := cxxPath ["private"] name args

/-- macro/src/expand.rs:1865-1935 `expand_extern_type`, with the lifetimes. -/
def externTy (cx : Ctx) (proper : Bool) : Ty → RTy
  | .ident t => if t.rust = "String" then privateTy "RustString" .none else printType (.ident t)
  | .rustBox t => if proper && cx.isImproper t then .ptr true cVoid else .ptr true (externTy cx proper t)
  | .uniquePtr t => if proper && cx.isImproper t then .ptr true cVoid else .ptr true (externTy cx proper t)
  | .rustVec t => privateTy "RustVec" (.angle [.type (externTy cx proper t)])
  | .ref p l m t =>
    match t with
    | .ident n =>
      if n.rust = "String" then .reference l m (privateTy "RustString" .none)
      else if proper && cx.isImproper (.ident n) then .ptr m cVoid else printType (.ref p l m (.ident n))
    | .rustVec v => .reference l m (privateTy "RustVec" (.angle [.type (externTy cx proper v)]))
    | t => if proper && cx.isImproper t then .ptr m cVoid else printType (.ref p l m t)
  | .ptr m t => if proper && cx.isImproper t then .ptr m cVoid else printType (.ptr m t)
  | .str .. => privateTy "RustStr" .none
  | .sliceRef .. => privateTy "RustSlice" .none
  | t => printType t

/-- macro/src/expand.rs:467-481: the type of an argument in the declaration of a C++ function. -/
def declArgTy (cx : Ctx) (ty : Ty) : RTy :=
  if isRustString ty then .ptr false (externTy cx true ty)
  else match ty with
    | .rustVec _ => .ptr false (externTy cx true ty)
    | .fn .. => privateTy "FatFunction" .none
    | _ => if cx.needsIndirect ty then .ptr true (externTy cx true ty) else externTy cx true ty

/-- macro/src/expand.rs:489-493, 1111-1115: the argument for the result, if there is one. -/
def outArg (cx : Ctx) (proper : Bool) (ret : Option Ty) (throws : Bool) : List (Option Ident × RTy) :=
  match ret with
  | some ty => if indirectReturnR cx ret throws then [(some "__return", .ptr true (externTy cx proper ty))] else []
  | none => []

/-- macro/src/expand.rs:484-488, 1145-1149 and 1937-1944: the return type. -/
def externReturn (cx : Ctx) (proper : Bool) (ret : Option Ty) (throws : Bool) : Option RTy :=
  if throws then some (privateTy "Result" .none)
  else match ret with
    | some ret => if cx.needsIndirect ret then none else some (externTy cx proper ret)
    | none => none

/-- macro/src/expand.rs:460-499 `expand_cxx_function_decl`: the declaration inside the function that the user calls. -/
def cxxDecl (cx : Ctx) (f : ExternFn) : RFn :=
  { unsafety := false
    name := "__" ++ f.name.rust
    generics := f.sig.generics
    receiver := none
    inputs := f.sig.receiver.toList.map (fun r => (none, receiverTy r)) ++
      f.sig.args.map (fun a => (some a.name.rust, declArgTy cx a.ty)) ++
      outArg cx true f.sig.ret f.sig.throws
    output := externReturn cx true f.sig.ret f.sig.throws }

/-! ### Functions of Rust -/

/-- macro/src/expand.rs:979-989: the type of an argument of the exported function. -/
def rustArgTy (cx : Ctx) (ty : Ty) : RTy :=
  if cx.needsIndirect ty then .ptr true (externTy cx false ty) else externTy cx false ty

/-- macro/src/expand.rs:943-946: the name of the exported function, which is also the name of the one inside. -/
def rustLocalName (f : ExternFn) : Ident :=
  match f.sig.receiver with
  | none => "__" ++ f.name.rust
  | some r => "__" ++ r.ty.rust ++ "__" ++ f.name.rust

/-- macro/src/expand.rs:966-1179 `expand_rust_function_shim_impl` as called in 953-963: the signature of the exported
function. -/
def rustExport (cx : Ctx) (f : ExternFn) : RFn :=
  { unsafety := true
    name := rustLocalName f
    generics := f.sig.generics
    receiver := none
    inputs := f.sig.receiver.toList.map (fun r => (some "__self", receiverTy r)) ++
      f.sig.args.map (fun a => (some a.name.rust, rustArgTy cx a.ty)) ++
      outArg cx false f.sig.ret f.sig.throws
    output := externReturn cx false f.sig.ret f.sig.throws }

/-- A function that only calls another one: its signature, the path of the other function, the arguments by name, and
whether the call is in an `unsafe` block. -/
structure Forward where
  sig : RFn
  callee : List Ident
  passed : List Ident
  unsafeBlock : Bool

/-- macro/src/expand.rs:1199-1219: the return type of the function inside.  An error type `impl Display` is `RTy.other`. -/
def insideReturn (ret : Option Ty) (throws : Bool) : Option RTy :=
  if throws then some (cxxPath ["core", "result"] "Result" (.angle [.type (okTy ret), .type .other])) else returnTy ret

/-- macro/src/expand.rs:1181-1245 `expand_rust_function_shim_super`. -/
def rustInside (f : ExternFn) : Forward :=
  { sig :=
      { unsafety := f.sig.unsafety
        name := rustLocalName f
        generics := f.sig.generics
        receiver := none
        inputs := f.sig.receiver.toList.map (fun r => (some "__self", receiverTy r)) ++ f.sig.args.map shimArg
        output := insideReturn f.sig.ret f.sig.throws }
    callee :=
      match f.sig.receiver with
      | none => ["super", f.name.rust]
      | some r => [r.ty.rust, f.name.rust]
    passed := f.sig.receiver.toList.map (fun _ => "__self") ++ f.sig.args.map (·.name.rust)
    unsafeBlock := f.sig.unsafety }

end Verif.RustSig
