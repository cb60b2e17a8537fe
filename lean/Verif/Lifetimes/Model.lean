import Verif.RustSig.Model
import Verif.Mangle.Model
/-!
# The lifetimes in the expansion: `macro/src/expand.rs`, `macro/src/generics.rs`, `macro/src/derive.rs`

Every generated item that can have lifetime parameters, with the types in it in which a lifetime can occur.  Rust does not
let an item see the parameters of the function around it, so a function inside another one is an item of its own; a method
sees those of its `impl`.  Left out: types that have no lifetimes, as `c_void` and `usize`; what rustc derives; the type on
the right of an alias, which is printed as the user wrote it.
-/
namespace Verif.Lifetimes
open Verif.Syntax Verif.Parse Verif.Abi Verif.Types Verif.RustSig

/-- Where a type stands: where all lifetimes have to be written (the fields of a struct, and the result of a function that
takes nothing), in the header of an `impl`, or where they can be left out (signatures, expressions). -/
inductive Place
  | exact
  | header
  | free
  deriving DecidableEq, Repr

/-- An item: its lifetime parameters and the types in it. -/
structure Item where
  params : List Ident
  uses : List (Place × RTy)

/-- syntax/resolve.rs:12-46: the lifetimes of the declaration of a type; nothing if there is none, where `resolve` panics. -/
def lifetimesOf (ts : Types) (n : Ident) : Option (List Ident) := (mapGet ts.resolutions n).map (·.2)

/-- `impl<ls> Trait for T<ls>`. -/
def implFor (n : Ident) (ls : List Ident) : Item := ⟨ls, [(.header, nameOf ⟨n, ls⟩)]⟩

/-! ### Types -/

/-- macro/src/derive.rs:7-39: the traits that are not left to rustc. -/
def derivedItems (s : Struct) : List Item :=
  s.derives.flatMap fun
    | .copy | .clone | .debug | .default | .ord | .partialOrd => [implFor s.name.rust s.generics]
    | _ => []

/-- macro/src/expand.rs:212-222 and the like: a function that takes references to the struct. -/
def operatorItem (s : Struct) (args : Nat) : Item :=
  ⟨s.generics, List.replicate args (.free, .reference none false (nameOf ⟨s.name.rust, s.generics⟩))⟩

/-- macro/src/expand.rs:202-307 `expand_struct_operators`. -/
def operatorItems (s : Struct) : List Item :=
  s.derives.flatMap fun
    | .partialEq => operatorItem s 2 :: (if .eq ∈ s.derives then [] else [operatorItem s 2])
    | .partialOrd =>
      [operatorItem s 2, operatorItem s 2] ++ (if .ord ∈ s.derives then [] else [operatorItem s 2, operatorItem s 2])
    | .hash => [operatorItem s 1]
    | _ => []

/-- macro/src/expand.rs:157-200 `expand_struct`, 202-307 and 309-319 `expand_struct_forbid_drop`. -/
def structItems (s : Struct) : List Item :=
  [⟨s.generics, s.fields.map (fun f => (.exact, printType f.ty))⟩, implFor s.name.rust s.generics] ++
  derivedItems s ++ operatorItems s ++
  [⟨s.generics, [(.header, .path false false ["super"] s.name.rust (lifetimeArgs s.generics))]⟩]

/-- macro/src/expand.rs:321-379 `expand_enum` and macro/src/derive.rs:41-98: the struct and its `impl`s, without lifetimes. -/
def enumItems (e : Enum) : List Item :=
  [⟨[], [(.exact, printType (Ty.named e.repr.asRef))]⟩, implFor e.name.rust [], implFor e.name.rust [],
   implFor e.name.rust []]

/-- macro/src/generics.rs:70-91 `to_underscore_lifetimes`: the type in an assertion, with `'_` for every lifetime. -/
def assertItem (ts : Types) (n : Ident) : Option Item :=
  (lifetimesOf ts n).map fun ls => ⟨[], [(.free, nameOf ⟨n, ls.map (fun _ => "_")⟩)]⟩

/-- macro/src/expand.rs:381-420 `expand_cxx_type`. -/
def cxxTypeItems (t : ExternType) : List Item :=
  [⟨t.generics, t.generics.map (fun l =>
      (.exact, cxxPath ["core", "marker"] "PhantomData" (.angle [.type (.reference (some l) false (.tuple []))])))⟩,
   implFor t.name.rust t.generics]

/-- macro/src/expand.rs:835-864 `expand_rust_type_impl`. -/
def rustTypeItems (t : ExternType) : List Item :=
  implFor t.name.rust t.generics ::
    t.derives.flatMap fun
      | .externType => [implFor t.name.rust t.generics]
      | _ => []

/-- macro/src/expand.rs:1266-1289 `expand_type_alias_verify`: the name alone. -/
def aliasItems (a : TypeAlias) : List Item := [⟨[], [(.free, nameOf ⟨a.name.rust, []⟩)]⟩]

/-! ### Functions -/

/-- The types in a signature. -/
def sigUses (f : RFn) : List (Place × RTy) :=
  (match f.receiver with
    | some (.ref l m) => [(.free, .reference l m (.path false false [] "Self" .none))]
    | some (.typed ty) => [(.free, ty)]
    | some .value | none => []) ++
  f.inputs.map (fun i => (.free, i.2)) ++ f.output.toList.map (fun t => (.free, t))

/-- macro/src/expand.rs:719-720, 1043-1050: the element type of a slice, when it is made from its parts. -/
def sliceUses : Ty → List (Place × RTy)
  | .sliceRef _ _ inner => [(.free, printType inner)]
  | _ => []

/-- macro/src/expand.rs:629-631: the type of the place for the result. -/
def returnUses (cx : Ctx) (sig : Sig) : List (Place × RTy) :=
  match sig.ret with
  | some ty => if indirectReturnR cx sig.ret sig.throws then [(.free, externTy cx true ty)] else []
  | none => []

/-- macro/src/expand.rs:787-824 with 966-1179: the function that C++ calls for a function pointer, inside of the function
that takes it.  Its parameters are those of the outer function. -/
def trampolineItem (cx : Ctx) (outer : List Ident) (u : Bool) (args : List Ty) (ret : Option Ty) (throws : Bool) : Item :=
  ⟨outer, args.map (fun a => (.free, rustArgTy cx a)) ++ (outArg cx false ret throws).map (fun i => (.free, i.2)) ++
    (externReturn cx false ret throws).toList.map (fun t => (.free, t)) ++
    (.free, printType (.fn u args ret throws)) :: args.flatMap sliceUses⟩

/-- The function pointers among the arguments. -/
def trampolineItems (cx : Ctx) (f : ExternFn) : List Item :=
  f.sig.args.flatMap fun a =>
    match a.ty with
    | .fn u args ret throws => [trampolineItem cx f.sig.generics u args ret throws]
    | _ => []

/-- macro/src/expand.rs:501-785 `expand_cxx_function_shim`: the function or the method, the declaration inside it, and the
trampolines inside it. -/
def cxxFnItems (cx : Ctx) (f : ExternFn) : Option (List Item) :=
  (cxxShim cx.types f).map fun item =>
    let body := returnUses cx f.sig ++ f.sig.ret.toList.flatMap sliceUses
    (match item with
      | .fn sig => ⟨sig.generics, sigUses sig ++ body⟩
      | .method generics ty sig => ⟨generics ++ sig.generics, (.header, ty) :: sigUses sig ++ body⟩) ::
    ⟨(cxxDecl cx f).generics, sigUses (cxxDecl cx f)⟩ :: trampolineItems cx f

/-- macro/src/expand.rs:941-1179 `expand_rust_function_shim`: the exported function and the one inside it (1181-1245). -/
def rustFnItems (cx : Ctx) (f : ExternFn) : List Item :=
  [⟨(rustExport cx f).generics, sigUses (rustExport cx f) ++ f.sig.args.flatMap (fun a => sliceUses a.ty)⟩,
   ⟨(rustInside f).sig.generics, sigUses (rustInside f).sig⟩]

/-! ### Instantiations -/

/-- syntax/types.rs:150-155, 173-190: the `impl` in the bridge for an instantiation; the last one counts. -/
def explicitImpl (apis : List Api) (k : ImplKey) : Option Impl :=
  (apis.filterMap fun
    | .impl i => if implKey i.ty = some k then some i else none
    | _ => none).getLast?

/-- syntax/parse.rs:1055-1080: `ty_generics`. -/
def tyGenerics : Ty → List Ident
  | .rustBox (.ident n) | .rustVec (.ident n) | .uniquePtr (.ident n) | .sharedPtr (.ident n) | .weakPtr (.ident n)
  | .cxxVector (.ident n) => n.generics
  | _ => []

/-- macro/src/generics.rs:19-63 `split_for_impl`: the parameters of the `impl` and the lifetimes behind the type's name. -/
def splitForImpl (explicit : Option Impl) (resolved : List Ident) : List Ident × List Ident :=
  match explicit with
  | some i => (i.implGenerics, tyGenerics i.ty)
  | none => (resolved, resolved)

/-- `::cxx::CxxVector<T>`, `::cxx::alloc::boxed::Box<T>` and the like. -/
def of (before : List Ident) (name : Ident) (t : RTy) : RTy := cxxPath before name (.angle [.type t])

/-- macro/src/expand.rs:1300-1345 `expand_rust_box`. -/
def boxItems (ps : List Ident) (own : RTy) : List Item :=
  [⟨ps, [(.header, own)]⟩,
   ⟨ps, [(.exact, .ptr true (of ["core", "mem"] "MaybeUninit" own))]⟩,
   ⟨ps, [(.free, .ptr true (of ["core", "mem"] "MaybeUninit" own))]⟩,
   ⟨ps, [(.free, .ptr true (of ["alloc", "boxed"] "Box" own))]⟩]

/-- macro/src/expand.rs:1349-1444 `expand_rust_vec`. -/
def vecItems (ps : List Ident) (own : RTy) : List Item :=
  let this (m : Bool) : Place × RTy := (.free, .ptr m (of ["private"] "RustVec" own))
  [⟨ps, [(.header, own)]⟩, ⟨ps, [this true]⟩, ⟨ps, [this true]⟩, ⟨ps, [this false]⟩, ⟨ps, [this false]⟩,
   ⟨ps, [this false, (.free, .ptr false own)]⟩, ⟨ps, [this true]⟩, ⟨ps, [this true]⟩, ⟨ps, [this true]⟩]

/-- macro/src/expand.rs:1446-1541 `expand_unique_ptr`, 1543-1624 `expand_shared_ptr`: with `trivial` there is a cast. -/
def pointerItems (trivial : Bool) (ps : List Ident) (own : RTy) : List Item :=
  [⟨ps, (.header, own) :: if trivial then [(.free, own)] else []⟩]

/-- macro/src/expand.rs:1698-1849 `expand_cxx_vector`: the `impl` and the declarations in its methods. -/
def vectorItems (trivial : Bool) (ps : List Ident) (own : RTy) : List Item :=
  let vector := of [] "CxxVector" own
  let pinned : Item := ⟨ps, [(.free, of ["core", "pin"] "Pin" (.reference none true vector))]⟩
  [⟨ps, [(.header, own)]⟩,
   ⟨ps, [(.exact, .ptr true vector)]⟩,
   ⟨ps, [(.free, .reference none false vector)]⟩,
   ⟨ps, [(.free, .ptr true vector)]⟩] ++
  (if trivial then [pinned, pinned] else []) ++
  [⟨ps, [(.free, .ptr true vector)]⟩,
   ⟨ps, [(.exact, .ptr false vector)]⟩,
   ⟨ps, [(.exact, .ptr true vector)]⟩]

/-- macro/src/expand.rs:95-117: the items of an instantiation. -/
def instanceItems (ts : Types) (apis : List Api) (k : ImplKey) : Option (List Item) :=
  (lifetimesOf ts k.rust).map fun resolved =>
    let split := splitForImpl (explicitImpl apis k) resolved
    let own := nameOf ⟨k.rust, split.2⟩
    match k with
    | .rustBox _ => boxItems split.1 own
    | .rustVec _ => vecItems split.1 own
    | .uniquePtr r | .sharedPtr r => pointerItems (Mangle.isMaybeTrivial ts r) split.1 own
    | .weakPtr _ => [⟨split.1, [(.header, own)]⟩]
    | .cxxVector r => vectorItems (Mangle.isMaybeTrivial ts r) split.1 own

/-! ### The expansion -/

/-- macro/src/expand.rs:63-93: the items for one of the bridge. -/
def apiItems (cx : Ctx) : Api → Option (List Item)
  | .include _ | .impl _ => some []
  | .struct s => some (structItems s)
  | .enum e => some (enumItems e)
  | .cxxType t =>
    if !mapHas cx.types.structs t.name.rust && !mapHas cx.types.enums t.name.rust then
      (assertItem cx.types t.name.rust).map (fun a => cxxTypeItems t ++ [a])
    else some []
  | .cxxFunction f => cxxFnItems cx f
  | .rustType t => (assertItem cx.types t.name.rust).map (fun a => rustTypeItems t ++ [a, a, a])
  | .rustFunction f => some (rustFnItems cx f)
  | .typeAlias a => some (aliasItems a)

/-- Everything in order; nothing if one of them panics. -/
def collectItems {α : Type} (f : α → Option (List Item)) : List α → Option (List Item)
  | [] => some []
  | a :: rest =>
    match f a, collectItems f rest with
    | some x, some y => some (x ++ y)
    | _, _ => none

/-- macro/src/expand.rs:51-154 `expand`. -/
def expand (cx : Ctx) (apis : List Api) : Option (List Item) :=
  match collectItems (apiItems cx) apis, collectItems (instanceItems cx.types apis) (cx.types.impls.map (·.1)) with
  | some x, some y => some (x ++ y)
  | _, _ => none

end Verif.Lifetimes
