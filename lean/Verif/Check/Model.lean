import Verif.Types.Model
/-!
# `syntax/check.rs`, `syntax/ident.rs`, `syntax/trivial.rs`: the checks on a bridge

Every check function returns the errors it reports, in order; spans and message texts are left out,
each message having its own constructor.
-/
namespace Verif.Check
open Verif.Syntax Verif.Types

/-- One constructor per message of syntax/check.rs and syntax/ident.rs. -/
inductive Err
  | cxxbridgeReserved | doubleUnderscore
  | unsupportedType | boxCxxType | unsupportedBox | vecOfCxxType | unsupportedVec
  | uniquePtrOfRust | unsupportedUniquePtr | sharedPtrOfRust | sharedPtrOfVector | unsupportedSharedPtr
  | weakPtrOfRust | weakPtrOfVector | unsupportedWeakPtr | cxxVectorOfRust | unsupportedCxxVector
  | requiresPin | refToRef | unsupportedRef | ptrToRef | unsupportedPtr
  | unsupportedSlice | unsupportedArray | fnPtrThrows | fnPtrPointerArg
  | reservedName | reservedLifetime | emptyStruct | untrustedStruct | deriveStruct
  | fnField | fieldByValue | emptyEnum | deriveEnum | deriveOpaque | bounds | needsExternType
  | untrustedLifetimes | unsafeLifetimes | unnamedReceiver | enumReceiver | unknownReceiver | receiverPin
  | fnPtrToRust | pointerArg | argByValue | returnFnPtr | returnByValue | mutReturn
  | deriveAlias | negativeImpl | unsupportedImpl
  deriving DecidableEq, Repr

/-- syntax/check.rs:20-31 `enum Generator`. -/
inductive Generator
  | build
  | macro
  deriving DecidableEq, Repr

/-- syntax/trivial.rs:8-16 `enum TrivialReason`, keeping the name of the struct or function. -/
inductive Reason
  | structField (s : Ident)
  | functionArgument (f : Ident)
  | functionReturn (f : Ident)
  | boxTarget
  | vecElement
  | sliceElement (mutable : Bool)
  | unpinnedMut (f : Ident)
  deriving DecidableEq, Repr

/-- syntax/trivial.rs:27-37 `insist_extern_types_are_trivial`. -/
def insist (ts : Types) (t : Ident) (r : Reason) : List (Ident × Reason) :=
  if t ∈ ts.cxx ∧ mapHas ts.structs t = false ∧ mapHas ts.enums t = false then [(t, r)] else []

/-- syntax/trivial.rs:41-46: a struct field. -/
def insistField (ts : Types) (s : Ident) : Ty → List (Ident × Reason)
  | .ident t => insist ts t.rust (.structField s)
  | _ => []

/-- syntax/trivial.rs:56-70: an argument. -/
def insistArg (ts : Types) (f : Ident) : Ty → List (Ident × Reason)
  | .ident t => insist ts t.rust (.functionArgument f)
  | .ref pinned _ mutable (.ident t) =>
    if mutable = true ∧ pinned = false then insist ts t.rust (.unpinnedMut f) else []
  | _ => []

/-- syntax/trivial.rs:73-87: a return type. -/
def insistRet (ts : Types) (f : Ident) : Ty → List (Ident × Reason)
  | .ident t => insist ts t.rust (.functionReturn f)
  | .ref pinned _ mutable (.ident t) =>
    if mutable = true ∧ pinned = false then insist ts t.rust (.unpinnedMut f) else []
  | _ => []

/-- syntax/trivial.rs:49-54: a receiver. -/
def insistReceiver (ts : Types) (f : Ident) : Option Receiver → List (Ident × Reason)
  | some r => if r.mutable = true ∧ r.pinned = false then insist ts r.ty.rust (.unpinnedMut f) else []
  | none => []

/-- syntax/trivial.rs:49-88: a function. -/
def insistFn (ts : Types) (f : ExternFn) : List (Ident × Reason) :=
  insistReceiver ts f.name.rust f.sig.receiver ++
  f.sig.args.flatMap (fun a => insistArg ts f.name.rust a.ty) ++
  (match f.sig.ret with | some r => insistRet ts f.name.rust r | none => [])

/-- syntax/trivial.rs:39-91: an item. -/
def insistApi (ts : Types) : Api → List (Ident × Reason)
  | .struct s => s.fields.flatMap (fun f => insistField ts s.name.rust f.ty)
  | .cxxFunction f | .rustFunction f => insistFn ts f
  | _ => []

/-- syntax/trivial.rs:95-118: a type of `all`. -/
def insistType (ts : Types) : Ty → List (Ident × Reason)
  | .rustBox (.ident t) => insist ts t.rust .boxTarget
  | .rustVec (.ident t) => insist ts t.rust .vecElement
  | .sliceRef _ mutable (.ident t) => insist ts t.rust (.sliceElement mutable)
  | _ => []

/-- syntax/trivial.rs:18-122 `required_trivial_reasons`, as the sequence of entries pushed. -/
def requiredTrivial (apis : List Api) (ts : Types) : List (Ident × Reason) :=
  apis.flatMap (insistApi ts) ++ ts.all.iter.flatMap (insistType ts)

/-- syntax/check.rs:13-18 `struct Check`, without the error list. -/
structure Cx where
  apis : List Api
  types : Types
  generator : Generator

/-- `cx.types.required_trivial.contains_key(t)`. -/
def Cx.requiresTrivial (cx : Cx) (t : Ident) : Bool :=
  (requiredTrivial cx.apis cx.types).any (fun e => decide (e.1 = t))

/-- syntax/check.rs:663-668 `is_opaque_cxx`. -/
def isOpaqueCxx (cx : Cx) (t : Ident) : Bool :=
  decide (t ∈ cx.types.cxx) && !mapHas cx.types.structs t && !mapHas cx.types.enums t &&
    !(mapHas cx.types.aliases t && cx.requiresTrivial t)

/-- syntax/check.rs:643-661 `is_unsized`. -/
def isUnsized (cx : Cx) : Ty → Bool
  | .ident t => decide (t.rust = "CxxString") || isOpaqueCxx cx t.rust || decide (t.rust ∈ cx.types.rust)
  | .array t _ => isUnsized cx t
  | .cxxVector _ | .fn .. | .void => true
  | _ => false

/-! ### Identifiers -/

/-- `str::starts_with("cxxbridge")`. -/
def startsCxxbridge (s : String) : Bool := "cxxbridge".toList.isPrefixOf s.toList

/-- `str::contains("__")`. -/
def hasDouble : List Char → Bool
  | '_' :: '_' :: _ => true
  | _ :: cs => hasDouble cs
  | [] => false

/-- syntax/ident.rs:11-18 `check_cxx_ident`. -/
def checkCxxIdent (s : Ident) : List Err :=
  (if startsCxxbridge s then [.cxxbridgeReserved] else []) ++
  (if hasDouble s.toList then [.doubleUnderscore] else [])

/-- syntax/ident.rs:20-24 `check_rust_ident`. -/
def checkRustIdent (s : Ident) : List Err :=
  if startsCxxbridge s then [.cxxbridgeReserved] else []

/-- syntax/ident.rs:4-9 `check`. -/
def checkName (p : Pair) : List Err :=
  p.ns.flatMap checkCxxIdent ++ checkCxxIdent p.cxx ++ checkRustIdent p.rust

/-- syntax/ident.rs:27-57 `check_all`, one item. -/
def checkIdents : Api → List Err
  | .include _ | .impl _ => []
  | .struct s => checkName s.name ++ s.fields.flatMap (fun f => checkName f.name)
  | .enum e => checkName e.name ++ e.variants.flatMap checkName
  | .cxxType t | .rustType t => checkName t.name
  | .cxxFunction f | .rustFunction f => checkName f.name ++ f.sig.args.flatMap (fun a => checkName a.name)
  | .typeAlias a => checkName a.name

/-! ### Types -/

/-- syntax/check.rs:82-93 `check_type_ident`. -/
def checkTypeIdent (cx : Cx) (t : NamedType) : List Err :=
  if Atom.fromStr t.rust = none ∧ mapHas cx.types.structs t.rust = false ∧
      mapHas cx.types.enums t.rust = false ∧ t.rust ∉ cx.types.cxx ∧ t.rust ∉ cx.types.rust
  then [.unsupportedType] else []

/-- syntax/check.rs:97-100, 114-118: a C++ type that is neither alias, struct nor enum. -/
def plainCxx (cx : Cx) (t : Ident) : Bool :=
  decide (t ∈ cx.types.cxx) && !mapHas cx.types.aliases t && !mapHas cx.types.structs t &&
    !mapHas cx.types.enums t

/-- syntax/check.rs:95-111 `check_type_box`. -/
def checkTypeBox (cx : Cx) : Ty → List Err
  | .ident t =>
    (if plainCxx cx t.rust then [.boxCxxType] else []) ++
    (if Atom.fromStr t.rust = none then [] else [.unsupportedBox])
  | _ => [.unsupportedBox]

/-- syntax/check.rs:113-139 `check_type_rust_vec`. -/
def checkTypeRustVec (cx : Cx) : Ty → List Err
  | .ident t =>
    if plainCxx cx t.rust then [.vecOfCxxType]
    else if Atom.fromStr t.rust = some .cxxString then [.unsupportedVec] else []
  | .str .. => []
  | _ => [.unsupportedVec]

/-- syntax/check.rs:141-157 `check_type_unique_ptr`. -/
def checkTypeUniquePtr (cx : Cx) : Ty → List Err
  | .ident t =>
    if t.rust ∈ cx.types.rust then [.uniquePtrOfRust]
    else match Atom.fromStr t.rust with
      | none | some .cxxString => []
      | _ => [.unsupportedUniquePtr]
  | .cxxVector _ => []
  | _ => [.unsupportedUniquePtr]

/-- syntax/check.rs:159-180 `check_type_shared_ptr`. -/
def checkTypeSharedPtr (cx : Cx) : Ty → List Err
  | .ident t =>
    if t.rust ∈ cx.types.rust then [.sharedPtrOfRust]
    else match Atom.fromStr t.rust with
      | some .char | some .rustString => [.unsupportedSharedPtr]
      | _ => []
  | .cxxVector _ => [.sharedPtrOfVector]
  | _ => [.unsupportedSharedPtr]

/-- syntax/check.rs:182-203 `check_type_weak_ptr`. -/
def checkTypeWeakPtr (cx : Cx) : Ty → List Err
  | .ident t =>
    if t.rust ∈ cx.types.rust then [.weakPtrOfRust]
    else match Atom.fromStr t.rust with
      | some .char | some .rustString => [.unsupportedWeakPtr]
      | _ => []
  | .cxxVector _ => [.weakPtrOfVector]
  | _ => [.unsupportedWeakPtr]

/-- syntax/check.rs:205-226 `check_type_cxx_vector`. -/
def checkTypeCxxVector (cx : Cx) : Ty → List Err
  | .ident t =>
    if t.rust ∈ cx.types.rust then [.cxxVectorOfRust]
    else match Atom.fromStr t.rust with
      | some .char | some .bool | some .rustString => [.unsupportedCxxVector]
      | _ => []
  | _ => [.unsupportedCxxVector]

/-- syntax/check.rs:230-235: what a mutable reference must be pinned for. -/
def pinTarget (cx : Cx) : Ty → Bool
  | .ident t => decide (t.rust = "CxxString") || isOpaqueCxx cx t.rust
  | .cxxVector _ => true
  | _ => false

/-- syntax/check.rs:228-257 `check_type_ref`. -/
def checkTypeRef (cx : Cx) (pinned mutable : Bool) (inner : Ty) : List Err :=
  (if mutable = true ∧ pinned = false ∧ pinTarget cx inner = true then [.requiresPin] else []) ++
  (match inner with
   | .fn .. | .void => [.unsupportedRef]
   | .ref .. => [.refToRef]
   | _ => [])

/-- syntax/check.rs:259-270 `check_type_ptr`. -/
def checkTypePtr : Ty → List Err
  | .fn .. | .void => [.unsupportedPtr]
  | .ref .. => [.ptrToRef]
  | _ => []

/-- syntax/check.rs:272-291 `check_type_slice_ref`. -/
def checkTypeSliceRef (cx : Cx) (inner : Ty) : List Err :=
  if !isUnsized cx inner || (match inner with
      | .ident t => decide (t.rust ∈ cx.types.rust) || mapHas cx.types.aliases t.rust
      | _ => false)
  then [] else [.unsupportedSlice]

/-- syntax/check.rs:293-299 `check_type_array`. -/
def checkTypeArray (cx : Cx) (inner : Ty) : List Err :=
  if isUnsized cx inner then [.unsupportedArray] else []

/-- Whether a type is `Type::Ptr(_)`. -/
def isPtr : Ty → Bool
  | .ptr .. => true
  | _ => false

/-- Whether a type is `Type::Fn(_)`. -/
def isFn : Ty → Bool
  | .fn .. => true
  | _ => false

/-- syntax/check.rs:301-316 `check_type_fn`. -/
def checkTypeFn (unsafety : Bool) (args : List Ty) (throws : Bool) : List Err :=
  (if throws then [.fnPtrThrows] else []) ++
  args.flatMap (fun a => if isPtr a && !unsafety then [.fnPtrPointerArg] else [])

/-- syntax/check.rs:45-61: the dispatch on a collected type. -/
def checkType (cx : Cx) : Ty → List Err
  | .ident t => checkTypeIdent cx t
  | .rustBox t => checkTypeBox cx t
  | .rustVec t => checkTypeRustVec cx t
  | .uniquePtr t => checkTypeUniquePtr cx t
  | .sharedPtr t => checkTypeSharedPtr cx t
  | .weakPtr t => checkTypeWeakPtr cx t
  | .cxxVector t => checkTypeCxxVector cx t
  | .ref p _ m t => checkTypeRef cx p m t
  | .ptr _ t => checkTypePtr t
  | .array t _ => checkTypeArray cx t
  | .fn u as _ th => checkTypeFn u as th
  | .sliceRef _ _ t => checkTypeSliceRef cx t
  | .str .. | .void => []

/-! ### Items -/

/-- syntax/check.rs:604-616 `check_reserved_name`. -/
def checkReservedName (n : Ident) : List Err :=
  if n = "Box" ∨ n = "UniquePtr" ∨ n = "SharedPtr" ∨ n = "WeakPtr" ∨ n = "Vec" ∨ n = "CxxVector" ∨
      n = "str" ∨ Atom.fromStr n ≠ none
  then [.reservedName] else []

/-- syntax/check.rs:618-627 `check_reserved_lifetime`. -/
def checkReservedLifetime (cx : Cx) (l : Ident) : List Err :=
  if l = "static" then match cx.generator with | .macro => [] | .build => [.reservedLifetime] else []

/-- syntax/check.rs:629-633 `check_lifetimes`, `check_generics`. -/
def checkLifetimes (cx : Cx) (ls : List Ident) : List Err := ls.flatMap (checkReservedLifetime cx)

/-- syntax/check.rs:318-354 `check_api_struct`. -/
def checkApiStruct (cx : Cx) (s : Struct) : List Err :=
  checkReservedName s.name.rust ++ checkLifetimes cx s.generics ++
  (if s.fields.isEmpty then [.emptyStruct] else []) ++
  (if s.name.rust ∈ cx.types.cxx ∧ s.name.rust ∈ cx.types.untrusted then [.untrustedStruct] else []) ++
  s.derives.flatMap (fun d => if d = .externType then [.deriveStruct] else []) ++
  s.fields.flatMap (fun f =>
    if isFn f.ty then [.fnField] else if isUnsized cx f.ty then [.fieldByValue] else [])

/-- syntax/check.rs:356-374 `check_api_enum`. -/
def checkApiEnum (cx : Cx) (e : Enum) : List Err :=
  checkReservedName e.name.rust ++ checkLifetimes cx e.generics ++
  (if e.variants.isEmpty && !e.explicitRepr && !e.variantsFromHeader then [.emptyEnum] else []) ++
  e.derives.flatMap (fun d => if d = .default ∨ d = .externType then [.deriveEnum] else [])

/-- syntax/check.rs:376-408 `check_api_type`. -/
def checkApiType (cx : Cx) (t : ExternType) : List Err :=
  checkReservedName t.name.rust ++ checkLifetimes cx t.generics ++
  t.derives.flatMap (fun d => if d = .externType ∧ t.lang = .rust then [] else [.deriveOpaque]) ++
  (if t.bounds.isEmpty then [] else [.bounds]) ++
  (if cx.requiresTrivial t.name.rust then [.needsExternType] else [])

/-- syntax/check.rs:571-587 `FindLifetimeMut::visit_type`: whether one type justifies a
mutable return. -/
def carriesMut (cx : Cx) : Ty → Bool
  | .ref _ _ mutable _ => mutable
  | .sliceRef _ mutable _ => mutable
  | .ident t =>
    if Atom.fromStr t.rust = none then
      match mapGet cx.types.resolutions t.rust with
      | some (_, generics) => !generics.isEmpty
      | none => true
    else false
  | _ => false

/-- syntax/check.rs:554-564: the receiver justifies a mutable return. -/
def receiverJustifies (cx : Cx) : Option Receiver → Bool
  | some r => r.mutable || (match mapGet cx.types.resolutions r.ty.rust with
      | none => true
      | some (_, generics) => !generics.isEmpty)
  | none => false

/-- syntax/check.rs:542-602 `check_mut_return_restriction`. -/
def checkMutReturn (cx : Cx) (f : ExternFn) : List Err :=
  if f.sig.unsafety then [] else
  match f.sig.ret with
  | some (.ref _ _ true _) | some (.sliceRef _ true _) =>
    if receiverJustifies cx f.sig.receiver then []
    else if f.sig.args.any (fun a => (visitTypes a.ty).any (carriesMut cx)) then []
    else [.mutReturn]
  | _ => []

/-- syntax/check.rs:433-464: the receiver of a function. -/
def checkReceiver (cx : Cx) (r : Receiver) : List Err :=
  let t := r.ty.rust
  if t = "Self" then [.unnamedReceiver]
  else if mapHas cx.types.enums t then [.enumReceiver]
  else if mapHas cx.types.structs t = false ∧ t ∉ cx.types.cxx ∧ t ∉ cx.types.rust then [.unknownReceiver]
  else if r.mutable = true ∧ r.pinned = false ∧ isOpaqueCxx cx t = true then [.receiverPin]
  else []

/-- syntax/check.rs:468-486: one argument. -/
def checkArg (cx : Cx) (f : ExternFn) (ty : Ty) : List Err :=
  if isFn ty then (if f.lang = .rust then [.fnPtrToRust] else [])
  else if isPtr ty then (if f.sig.unsafety then [] else [.pointerArg])
  else if isUnsized cx ty then [.argByValue] else []

/-- syntax/check.rs:490-496: the return type. -/
def checkRet (cx : Cx) : Option Ty → List Err
  | none => []
  | some ty => if isFn ty then [.returnFnPtr] else if isUnsized cx ty then [.returnByValue] else []

/-- syntax/check.rs:410-501 `check_api_fn`. -/
def checkApiFn (cx : Cx) (f : ExternFn) : List Err :=
  (match f.lang with
   | .cxx => if !f.sig.generics.isEmpty && !f.trusted then [.untrustedLifetimes] else []
   | .rust => if !f.sig.generics.isEmpty && !f.sig.unsafety then [.unsafeLifetimes] else []) ++
  checkLifetimes cx f.sig.generics ++
  (match f.sig.receiver with | some r => checkReceiver cx r | none => []) ++
  f.sig.args.flatMap (fun a => checkArg cx f a.ty) ++
  checkRet cx f.sig.ret ++
  (if f.lang = .cxx then checkMutReturn cx f else [])

/-- syntax/check.rs:503-510 `check_api_type_alias`. -/
def checkApiTypeAlias (cx : Cx) (a : TypeAlias) : List Err :=
  checkLifetimes cx a.generics ++ a.derives.map (fun _ => .deriveAlias)

/-- syntax/check.rs:512-540 `check_api_impl`. -/
def checkApiImpl (cx : Cx) (i : Impl) : List Err :=
  checkLifetimes cx i.implGenerics ++
  (if i.negative then [.negativeImpl]
   else match implKey i.ty with
     | some k => if Atom.fromStr k.rust = none then [] else [.unsupportedImpl]
     | none => [.unsupportedImpl])

/-- syntax/check.rs:63-73: the dispatch on an item. -/
def checkApi (cx : Cx) : Api → List Err
  | .include _ => []
  | .struct s => checkApiStruct cx s
  | .enum e => checkApiEnum cx e
  | .cxxType t | .rustType t => checkApiType cx t
  | .cxxFunction f | .rustFunction f => checkApiFn cx f
  | .typeAlias a => checkApiTypeAlias cx a
  | .impl i => checkApiImpl cx i

/-- syntax/check.rs:42-74 `do_typecheck`. -/
def typecheck (cx : Cx) : List Err :=
  cx.apis.flatMap checkIdents ++ cx.types.all.iter.flatMap (checkType cx) ++ cx.apis.flatMap (checkApi cx)

/-- gen/src/mod.rs:177-183 and macro/src/expand.rs:41-46: a bridge is accepted when neither
`Types::collect` nor `typecheck` reports an error.  (`toposort` errors, syntax/types.rs:212, are the
subject of `Verif/Toposort`.) -/
def Accepted (g : Generator) (apis : List Api) : Prop :=
  (collect apis).dups = [] ∧ typecheck ⟨apis, collect apis, g⟩ = []

end Verif.Check
