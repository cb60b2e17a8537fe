import Verif.Abi.Model
/-!
# The conversions in the generated shims

What the generated functions do to each argument and to the result: an expression is a variable, or a call, with
operations applied to it one after the other.  What the operations do to who owns what is in `Verif/Shim`; here they are
kept with the types that are written in them.
-/
namespace Verif.Conv
open Verif.Syntax Verif.Abi

/-! ### Rust -/

/-- An operation in a generated Rust expression, on the expression `e` before it. -/
inductive ROp
  /-- `let mut e = MaybeUninit::new(e);` -/
  | maybeUninit
  /-- `let e = FatFunction { trampoline: .., ptr: e as usize as *const c_void };` -/
  | fatFunction
  /-- `e.as_mut_ptr()` -/
  | asMutPtr
  /-- `e as *const RustString` -/
  | asConstRustString
  /-- `e as *const RustVec<_>` -/
  | asConstRustVec
  /-- `Box::into_raw(e)` -/
  | boxIntoRaw
  /-- `UniquePtr::into_raw(e)` -/
  | uniqueIntoRaw
  /-- `e.cast()` -/
  | cast
  /-- `RustString::from_ref(e)`, `RustString::from_mut(e)` -/
  | stringFrom (mutable : Bool)
  /-- `RustVec::from_ref_vec_string(e)`, `RustVec::from_mut_vec_string(e)` -/
  | vecStringFrom (mutable : Bool)
  /-- `RustVec::from_ref(e)`, `RustVec::from_mut(e)` -/
  | vecFrom (mutable : Bool)
  /-- `Pin::into_inner_unchecked(e)` -/
  | pinIntoInner
  /-- `e as *const t as *const c_void`, `e as *mut t as *mut c_void` -/
  | asVoid (mutable : Bool) (t : Ty)
  /-- `RustStr::from(e)` -/
  | strFrom
  /-- `RustSlice::from_ref(e)`, `RustSlice::from_mut(e)` -/
  | sliceFrom (mutable : Bool)
  /-- `e.assume_init()` -/
  | assumeInit
  /-- `e.into_string()` -/
  | intoString
  /-- `Box::from_raw(e)` -/
  | boxFromRaw
  /-- `e.into_vec_string()` -/
  | intoVecString
  /-- `e.into_vec()` -/
  | intoVec
  /-- `UniquePtr::from_raw(e)` -/
  | uniqueFromRaw
  /-- `e.as_string()`, `e.as_mut_string()` -/
  | asString (mutable : Bool)
  /-- `e.as_vec_string()`, `e.as_mut_vec_string()` -/
  | asVecString (mutable : Bool)
  /-- `e.as_vec()`, `e.as_mut_vec()` -/
  | asVec (mutable : Bool)
  /-- `&*e`, `&mut *e` -/
  | reborrow (mutable : Bool)
  /-- `Pin::new_unchecked(e)` -/
  | pinNew
  /-- `e.as_str()` -/
  | asStr
  /-- `e.as_slice::<t>()`, `e.as_mut_slice::<t>()` -/
  | asSlice (mutable : Bool) (t : Ty)
  /-- `(*e).as_mut_string()` -/
  | derefString
  /-- `(*e).as_mut_vec_string()` -/
  | derefVecString
  /-- `(*e).as_mut_vec()` -/
  | derefVec
  /-- `mem::take(e)` -/
  | take
  /-- `ptr::read(e)` -/
  | read
  /-- `RustString::from(e)` -/
  | stringInto
  /-- `RustVec::from_vec_string(e)` -/
  | vecStringInto
  /-- `RustVec::from(e)` -/
  | vecInto
  deriving Repr

/-- macro/src/expand.rs:599-625: what happens to an argument before the call. -/
def cxxSetupR (cx : Ctx) (ty : Ty) : List ROp :=
  match ty with
  | .fn .. => [.fatFunction]
  | ty => if cx.needsIndirect ty then [.maybeUninit] else []

/-- macro/src/expand.rs:554-583: `Type::Ref` in `expand_cxx_function_shim`. -/
def cxxRefR (cx : Ctx) (pinned mutable : Bool) (inner : Ty) : List ROp :=
  if isRustString inner then [.stringFrom mutable] else
  match inner with
  | .rustVec v => if isRustString v then [.vecStringFrom mutable] else [.vecFrom mutable]
  | inner =>
    if cx.isImproper inner then (if pinned then [.pinIntoInner] else []) ++ [.asVoid mutable inner] else []

/-- macro/src/expand.rs:529-597: how an argument is passed to C++. -/
def cxxPassR (cx : Ctx) (ty : Ty) : List ROp :=
  if isRustString ty then [.asMutPtr, .asConstRustString] else
  match ty with
  | .rustBox t => .boxIntoRaw :: (if cx.isImproper t then [.cast] else [])
  | .uniquePtr t => .uniqueIntoRaw :: (if cx.isImproper t then [.cast] else [])
  | .rustVec _ => [.asMutPtr, .asConstRustVec]
  | .ref p _ m t => cxxRefR cx p m t
  | .ptr _ t => if cx.isImproper t then [.cast] else []
  | .str .. => [.strFrom]
  | .sliceRef _ m _ => [.sliceFrom m]
  | ty => if cx.needsIndirect ty then [.asMutPtr] else []

/-- macro/src/expand.rs:628-632: the type of `__return`, if there is one: `MaybeUninit::<#ret>::uninit()`. -/
def cxxSlotR (cx : Ctx) (throws : Bool) (ty : Ty) : Option RTok :=
  if indirectReturnR cx (some ty) throws then some (externType cx true ty) else none

/-- macro/src/expand.rs:633-641: `__return.as_mut_ptr()`. -/
def cxxOutArgR : List ROp := [.asMutPtr]

/-- macro/src/expand.rs:682-708: `Type::Ref` in `expr`. -/
def cxxRetRefR (cx : Ctx) (pinned mutable : Bool) (inner : Ty) : List ROp :=
  if isRustString inner then [.asString mutable] else
  match inner with
  | .rustVec v => if isRustString v then [.asVecString mutable] else [.asVec mutable]
  | inner =>
    if cx.isImproper inner then [.cast, .reborrow mutable] ++ (if pinned then [.pinNew] else []) else []

/-- macro/src/expand.rs:628-733: what happens to the result of a C++ function: `call` and `expr`. -/
def cxxRetR (cx : Ctx) (throws : Bool) (ty : Ty) : List ROp :=
  (if indirectReturnR cx (some ty) throws then [.assumeInit] else []) ++
  (if isRustString ty then [.intoString] else
   match ty with
   | .rustBox t => (if cx.isImproper t then [.cast] else []) ++ [.boxFromRaw]
   | .rustVec v => if isRustString v then [.intoVecString] else [.intoVec]
   | .uniquePtr t => (if cx.isImproper t then [.cast] else []) ++ [.uniqueFromRaw]
   | .ref p _ m t => cxxRetRefR cx p m t
   | .ptr _ t => if cx.isImproper t then [.cast] else []
   | .str .. => [.asStr]
   | .sliceRef _ m t => [.asSlice m t]
   | _ => [])

/-- macro/src/expand.rs:1018-1031: `Type::Ref` in `expand_rust_function_shim_impl`. -/
def rustRefR (mutable : Bool) (inner : Ty) : List ROp :=
  if isRustString inner then [.asString mutable] else
  match inner with
  | .rustVec v => if isRustString v then [.asVecString mutable] else [.asVec mutable]
  | _ => []

/-- macro/src/expand.rs:993-1051: how an exported Rust function hands an argument to the user's. -/
def rustReceiveR (cx : Ctx) (ty : Ty) : List ROp :=
  if isRustString ty then [.derefString, .take] else
  match ty with
  | .rustBox _ => [.boxFromRaw]
  | .rustVec v => if isRustString v then [.derefVecString, .take] else [.derefVec, .take]
  | .uniquePtr _ => [.uniqueFromRaw]
  | .ref _ _ m t => rustRefR m t
  | .str .. => [.asStr]
  | .sliceRef _ m t => [.asSlice m t]
  | ty => if cx.needsIndirect ty then [.read] else []

/-- macro/src/expand.rs:1079-1093: `Type::Ref` in `conversion`. -/
def rustRetRefR (mutable : Bool) (inner : Ty) : List ROp :=
  if isRustString inner then [.stringFrom mutable] else
  match inner with
  | .rustVec v => if isRustString v then [.vecStringFrom mutable] else [.vecFrom mutable]
  | _ => []

/-- macro/src/expand.rs:1065-1100: the result of the user's function: `conversion`. -/
def rustRetR (ty : Ty) : List ROp :=
  if isRustString ty then [.stringInto] else
  match ty with
  | .rustBox _ => [.boxIntoRaw]
  | .rustVec v => if isRustString v then [.vecStringInto] else [.vecInto]
  | .uniquePtr _ => [.uniqueIntoRaw]
  | .ref _ _ m t => rustRetRefR m t
  | .str .. => [.strFrom]
  | .sliceRef _ m _ => [.sliceFrom m]
  | _ => []

/-! ### C++ -/

/-- An operation in a generated C++ expression, on the expression `e` before it.  `t` is the type that is printed. -/
inductive COp
  /-- `t::from_raw(e)` -/
  | boxFromRaw (t : CTok)
  /-- `t(e)` -/
  | construct (t : CTok)
  /-- `t(::rust::unsafe_bitcopy, e)` -/
  | bitcopy (t : CTok)
  /-- `*e` -/
  | deref
  /-- `&e` -/
  | addr
  /-- `::std::move(e)` -/
  | move
  /-- `e.into_raw()` -/
  | intoRaw
  /-- `e.release()` -/
  | release
  /-- `::rust::impl<::rust::Str>::repr(e)` -/
  | strRepr
  /-- `::rust::impl<t>::repr(e)` -/
  | sliceRepr (t : CTok)
  /-- `::rust::impl<::rust::Str>::new_unchecked(e)` -/
  | strNew
  /-- `::rust::impl<t>::slice(e)` -/
  | sliceNew (t : CTok)
  /-- `::rust::ManuallyDrop<t> e$(e);`, and then `e$` -/
  | manuallyDrop (t : CTok)
  /-- `e.value` -/
  | value

/-- `::rust::String`, as it is printed in gen/src/write.rs:863. -/
def rustStringC : CTok := .atom .rustString

/-- gen/src/write.rs:849-879: the arguments of the user's function in `write_cxx_function_shim`. -/
def cxxReceiveC (cx : Ctx) (ty : Ty) : Option (List COp) :=
  match ty with
  | .rustBox _ => (writeType cx.types ty).map fun c => [.boxFromRaw c]
  | .uniquePtr _ => (writeType cx.types ty).map fun c => [.construct c]
  | _ =>
    if isRustString ty then some [.deref, .bitcopy rustStringC] else
    match ty with
    | .rustVec _ => (writeType cx.types ty).map fun c => [.deref, .bitcopy c]
    | _ => if cx.needsIndirect ty then some [.deref, .move] else some []

/-- gen/src/write.rs:829-843 and 881-886: what is done to the result of the user's function in
`write_cxx_function_shim`. -/
def cxxRetC (cx : Ctx) (throws : Bool) (ty : Ty) : Option (List COp) :=
  let indirect := indirectReturnC cx (some ty) throws
  match ty with
  | .ref .. => some [.addr]
  | .str .. => some (if indirect then [] else [.strRepr])
  | .sliceRef .. => if indirect then some [] else (writeType cx.types ty).map fun c => [.sliceRepr c]
  | .rustBox _ => some [.intoRaw]
  | .uniquePtr _ => some [.release]
  | _ => some []

/-- gen/src/write.rs:1057-1065 and 1115-1130: the arguments of the call in `write_rust_function_shim_impl`. -/
def rustPassC (cx : Ctx) (ty : Ty) : Option (List COp) :=
  match ty with
  | .rustBox _ => some [.intoRaw]
  | .uniquePtr _ => some [.release]
  | _ =>
    if isRustString ty then some (if cx.needsIndirect ty then [.addr] else [])
    else if cx.needsIndirect ty then (writeType cx.types ty).map fun c => [.move, .manuallyDrop c, .value, .addr]
    else some []

/-- gen/src/write.rs:1083-1103 and 1144-1149: the result of the call in `write_rust_function_shim_impl`, if it is
returned. -/
def rustRetC (cx : Ctx) (ty : Ty) : Option (List COp) :=
  match ty with
  | .rustBox _ => (writeType cx.types ty).map fun c => [.boxFromRaw c]
  | .uniquePtr _ => (writeType cx.types ty).map fun c => [.construct c]
  | .ref .. => some [.deref]
  | .str .. => some [.strNew]
  | .sliceRef .. => (writeType cx.types ty).map fun c => [.sliceNew c]
  | _ => some []

/-- gen/src/write.rs:1068-1080: `T` in `::rust::MaybeUninit<T> return$`. -/
def rustUninitC (cx : Ctx) : Ty → Option CTok
  | .ref _ _ m t => (writeType cx.types t).map (.star m)
  | t => writeType cx.types t

/-- gen/src/write.rs:1132-1138: `&return$.value`. -/
def rustOutArgC : List COp := [.value, .addr]

/-- gen/src/write.rs:1157-1167: the result of an exported Rust function that was written to `return$`. -/
def rustRetIndirectC : Ty → List COp
  | .ref .. => [.value, .deref]
  | _ => [.value, .move]

end Verif.Conv
