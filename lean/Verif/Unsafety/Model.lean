import Verif.Abi.Model
/-!
# The bodies of the functions in the expansion, as far as `unsafe` is concerned

`macro/src/expand.rs`.  Each function that the macro writes is given with its body as an expression.  Types, attributes,
spans, literals and documentation are left out, and so are the impls of derived traits (`macro/src/derive.rs`) and the static
assertions (`expand_cxx_type_assert_pinned`, `expand_rust_type_assert_unpin`, `expand_type_alias_verify`), which contain
neither `unsafe` nor raw pointers nor calls of unsafe functions.
-/
namespace Verif.Unsafety
open Verif.Syntax Verif.Types Verif.Abi

/-- Functions and methods of `core`, `alloc` and the crate `cxx` that the expansion mentions. -/
inductive Lib
  /-- `Box::new`, `Box::into_raw`, `Box::from_raw` -/
  | boxNew | boxIntoRaw | boxFromRaw
  /-- `UniquePtr::into_raw`, `UniquePtr::from_raw` -/
  | uniqueIntoRaw | uniqueFromRaw
  /-- `ptr.cast()`, `ptr.write(value)`, `ptr::read`, `ptr::write`, `ptr::drop_in_place` -/
  | ptrCast | ptrPut | ptrRead | ptrWrite | dropInPlace
  /-- `mem::take`, `mem::transmute` -/
  | memTake | transmute
  /-- `MaybeUninit::new`, `MaybeUninit::uninit`, `.as_mut_ptr()`, `.assume_init()` -/
  | uninitNew | uninitUninit | uninitAsMutPtr | uninitAssumeInit
  /-- `Pin::into_inner_unchecked`, `Pin::new_unchecked` -/
  | pinIntoInnerUnchecked | pinNewUnchecked
  /-- `Result::map`, `Result::Ok` -/
  | resultMap | resultOk
  /-- `private::prevent_unwind`, `private::r#try`, `private::hash`, `.exception()` of `private::Result` -/
  | preventUnwind | tryFn | hash | exception
  /-- `RustString::from`, `from_ref`, `from_mut`, `.into_string()`, `.as_string()`, `.as_mut_string()` -/
  | stringFrom | stringFromRef | stringFromMut | stringInto | stringAsRef | stringAsMut
  /-- `RustVec::new`, `from`, `from_ref`, `from_mut`, `.into_vec()`, `.as_vec()`, `.as_mut_vec()` -/
  | vecNew | vecFrom | vecFromRef | vecFromMut | vecInto | vecAsRef | vecAsMut
  /-- the same for vectors of strings -/
  | stringsFrom | stringsFromRef | stringsFromMut | stringsInto | stringsAsRef | stringsAsMut
  /-- `.len()`, `.capacity()`, `.as_ptr()`, `.reserve_total(n)`, `.set_len(n)`, `.truncate(n)` of `RustVec` -/
  | vecLen | vecCapacity | vecAsPtr | vecReserveTotal | vecSetLen | vecTruncate
  /-- `RustStr::from`, `.as_str()` -/
  | strFrom | strAsStr
  /-- `RustSlice::from_ref`, `from_mut`, `.as_slice()`, `.as_mut_slice()` -/
  | sliceFromRef | sliceFromMut | sliceAsRef | sliceAsMut
  /-- `Layout::new`, `.size()`, `.align()` -/
  | layoutNew | layoutSize | layoutAlign
  /-- `Formatter::write_str` -/
  | writeStr
  deriving DecidableEq

/-- What is called. -/
inductive Callee
  | lib (f : Lib)
  /-- a function of the expansion or of the user; `unsafety` if it is declared `unsafe fn` -/
  | item (name : Ident) (unsafety : Bool)
  /-- a function declared in an `extern "C"` block, without `safe` -/
  | imported (name : Ident)
  /-- what the first argument points to; `unsafety` if the type is `unsafe fn(..)` -/
  | pointer (unsafety : Bool)
  deriving DecidableEq

/-- Expressions and blocks. -/
inductive Expr
  /-- a variable, or something else without parts -/
  | var (x : Ident)
  /-- a function as a value -/
  | fn (f : Callee)
  /-- `f(args)`, or `arg.f(args)` -/
  | call (f : Callee) (args : List Expr)
  /-- `&e`, `&mut e` -/
  | ref (e : Expr)
  /-- `*e`; `raw` if `e` is a raw pointer -/
  | deref (raw : Bool) (e : Expr)
  /-- `e as T` -/
  | cast (e : Expr)
  /-- `a == b`, and `T { f: a, g: b }` -/
  | two (a b : Expr)
  /-- `e?` -/
  | try (e : Expr)
  /-- `unsafe { e }` -/
  | unsafeBlock (e : Expr)
  /-- `|| e` -/
  | closure (e : Expr)
  /-- `let x = e` -/
  | bind (x : Ident) (e : Expr)
  /-- `a; b` -/
  | seq (a b : Expr)

/-- A function in the expansion. -/
structure Fun where
  /-- `unsafe fn` -/
  unsafety : Bool
  /-- `#[allow(unused_unsafe)]` -/
  allowUnused : Bool
  body : Expr

/-- A call of a function or method of a library. -/
abbrev lib (f : Lib) (args : List Expr) : Expr := .call (.lib f) args

/-- Several statements and a last expression. -/
def block : List Expr → Expr → Expr
  | [], e => e
  | s :: ss, e => .seq s (block ss e)

/-! ### Functions of C++ -/

/-- The vector of an argument or result has strings in it: `vec.inner == RustString`. -/
def ofStrings (t : Ty) : Bool := isRustString t

/-- macro/src/expand.rs:534-597: `arg_vars` in `expand_cxx_function_shim`. -/
def cxxArg (cx : Ctx) (x : Ident) (ty : Ty) : Expr :=
  let otherwise (ty : Ty) : Expr := if cx.needsIndirect ty then lib .uninitAsMutPtr [.var x] else .var x
  match ty with
  | .ident t => if t.rust = "String" then .cast (lib .uninitAsMutPtr [.var x]) else otherwise (.ident t)
  | .rustBox t => if cx.isImproper t then lib .ptrCast [lib .boxIntoRaw [.var x]] else lib .boxIntoRaw [.var x]
  | .uniquePtr t => if cx.isImproper t then lib .ptrCast [lib .uniqueIntoRaw [.var x]] else lib .uniqueIntoRaw [.var x]
  | .rustVec _ => .cast (lib .uninitAsMutPtr [.var x])
  | .ref pinned _ m t =>
    let rest (t : Ty) : Expr :=
      if cx.isImproper t then .cast (.cast (if pinned then lib .pinIntoInnerUnchecked [.var x] else .var x)) else .var x
    match t with
    | .ident n =>
      if n.rust = "String" then lib (if m then .stringFromMut else .stringFromRef) [.var x] else rest (.ident n)
    | .rustVec v =>
      if ofStrings v then lib (if m then .stringsFromMut else .stringsFromRef) [.var x]
      else lib (if m then .vecFromMut else .vecFromRef) [.var x]
    | t => rest t
  | .ptr _ t => if cx.isImproper t then lib .ptrCast [.var x] else .var x
  | .str .. => lib .strFrom [.var x]
  | .sliceRef _ m _ => lib (if m then .sliceFromMut else .sliceFromRef) [.var x]
  | ty => otherwise ty

/-- macro/src/expand.rs:612-625: `setup`, the arguments. -/
def cxxSetup (cx : Ctx) (args : List Var) : List Expr :=
  (args.filter fun a => cx.needsIndirect a.ty).map fun a => .bind a.name.rust (lib .uninitNew [.var a.name.rust])

/-- macro/src/expand.rs:600-611 with 810-823: `trampolines`, the `let` of each. -/
def cxxFats (args : List Var) : List Expr :=
  args.filterMap fun a => match a.ty with
    | .fn .. => some (.bind a.name.rust (.two (.cast (.cast (.fn (.imported "trampoline")))) (.cast (.cast (.var a.name.rust)))))
    | _ => none

/-- macro/src/expand.rs:657-726: what becomes of the result. -/
def cxxResult (cx : Ctx) (call : Expr) : Ty → Expr
  | .ident t => if t.rust = "String" then lib .stringInto [call] else call
  | .rustBox t => if cx.isImproper t then lib .boxFromRaw [lib .ptrCast [call]] else lib .boxFromRaw [call]
  | .rustVec v => if ofStrings v then lib .stringsInto [call] else lib .vecInto [call]
  | .uniquePtr t => if cx.isImproper t then lib .uniqueFromRaw [lib .ptrCast [call]] else lib .uniqueFromRaw [call]
  | .ref pinned _ m t =>
    let rest (t : Ty) : Expr :=
      if cx.isImproper t then
        let place : Expr := .ref (.deref true (lib .ptrCast [call]))
        if pinned then lib .pinNewUnchecked [place] else place
      else call
    match t with
    | .ident n => if n.rust = "String" then lib (if m then .stringAsMut else .stringAsRef) [call] else rest (.ident n)
    | .rustVec v =>
      if ofStrings v then lib (if m then .stringsAsMut else .stringsAsRef) [call]
      else lib (if m then .vecAsMut else .vecAsRef) [call]
    | t => rest t
  | .ptr _ t => if cx.isImproper t then lib .ptrCast [call] else call
  | .str .. => lib .strAsStr [call]
  | .sliceRef _ m _ => lib (if m then .sliceAsMut else .sliceAsRef) [call]
  | _ => call

/-- macro/src/expand.rs:530-534, 598: `vars`, what is passed to the imported function. -/
def cxxVars (cx : Ctx) (f : ExternFn) : List Expr :=
  f.sig.receiver.toList.map (fun _ => .var "self") ++ f.sig.args.map fun a => cxxArg cx a.name.rust a.ty

/-- macro/src/expand.rs:460-499: the imported function. -/
def cxxImported (f : ExternFn) : Callee := .imported ("__" ++ f.name.rust)

/-- macro/src/expand.rs:628-642: `setup`, the call if the result is written through a pointer. -/
def cxxOut (cx : Ctx) (f : ExternFn) : List Expr :=
  if indirectReturnR cx f.sig.ret f.sig.throws then
    let call : Expr := .call (cxxImported f) (cxxVars cx f ++ [lib .uninitAsMutPtr [.var "__return"]])
    [.bind "__return" (lib .uninitUninit []), if f.sig.throws then .try (lib .exception [call]) else call]
  else []

/-- macro/src/expand.rs:628-652: `call`. -/
def cxxCall (cx : Ctx) (f : ExternFn) : Expr :=
  if indirectReturnR cx f.sig.ret f.sig.throws then lib .uninitAssumeInit [.var "__return"]
  else if f.sig.throws then lib .exception [.call (cxxImported f) (cxxVars cx f)]
  else .call (cxxImported f) (cxxVars cx f)

/-- macro/src/expand.rs:653-730: `expr`. -/
def cxxExpr (cx : Ctx) (f : ExternFn) : Expr :=
  match f.sig.ret with
  | none => cxxCall cx f
  | some ret => if f.sig.throws then lib .resultOk [cxxResult cx (cxxCall cx f) ret] else cxxResult cx (cxxCall cx f) ret

/-- macro/src/expand.rs:501-785 `expand_cxx_function_shim`: the body of the function that the user calls. -/
def cxxBody (cx : Ctx) (f : ExternFn) : Expr :=
  block (cxxFats f.sig.args) (.unsafeBlock (block (cxxSetup cx f.sig.args ++ cxxOut cx f) (cxxExpr cx f)))

/-! ### Functions of Rust -/

/-- macro/src/expand.rs:992-1054: `arg_vars` in `expand_rust_function_shim_impl`, and whether `requires_unsafe` is set. -/
def rustArg (cx : Ctx) (x : Ident) (ty : Ty) : Expr × Bool :=
  let otherwise (ty : Ty) : Expr × Bool := if cx.needsIndirect ty then (lib .ptrRead [.var x], true) else (.var x, false)
  match ty with
  | .ident t =>
    if t.rust = "String" then (lib .memTake [lib .stringAsMut [.deref true (.var x)]], true) else otherwise (.ident t)
  | .rustBox _ => (lib .boxFromRaw [.var x], true)
  | .rustVec v =>
    (lib .memTake [lib (if ofStrings v then .stringsAsMut else .vecAsMut) [.deref true (.var x)]], true)
  | .uniquePtr _ => (lib .uniqueFromRaw [.var x], true)
  | .ref _ _ m t =>
    match t with
    | .ident n => (if n.rust = "String" then lib (if m then .stringAsMut else .stringAsRef) [.var x] else .var x, false)
    | .rustVec v =>
      (if ofStrings v then lib (if m then .stringsAsMut else .stringsAsRef) [.var x]
       else lib (if m then .vecAsMut else .vecAsRef) [.var x], false)
    | _ => (.var x, false)
  | .str .. => (lib .strAsStr [.var x], true)
  | .sliceRef _ m _ => (lib (if m then .sliceAsMut else .sliceAsRef) [.var x], true)
  | ty => otherwise ty

/-- macro/src/expand.rs:1075-1110: `conversion`. -/
def rustConversion : Ty → Option Lib
  | .ident t => if t.rust = "String" then some .stringFrom else none
  | .rustBox _ => some .boxIntoRaw
  | .rustVec v => some (if ofStrings v then .stringsFrom else .vecFrom)
  | .uniquePtr _ => some .uniqueIntoRaw
  | .ref _ _ m t =>
    match t with
    | .ident n => if n.rust = "String" then some (if m then .stringFromMut else .stringFromRef) else none
    | .rustVec v =>
      some (if ofStrings v then (if m then .stringsFromMut else .stringsFromRef) else if m then .vecFromMut else .vecFromRef)
    | _ => none
  | .str .. => some .strFrom
  | .sliceRef _ m _ => some (if m then .sliceFromMut else .sliceFromRef)
  | _ => none

/-- macro/src/expand.rs:1055: `vars`. -/
def rustVars (cx : Ctx) (receiver : Bool) (args : List (Ident × Ty)) : List Expr :=
  (if receiver then [.var "__self"] else []) ++ args.map fun a => (rustArg cx a.1 a.2).1

/-- macro/src/expand.rs:1060-1073: `call`.  `invoke` is the local function to call; with `none` it is the function behind
`__extern`. -/
def rustCall (invoke : Option Ident) (unsafety : Bool) (vars : List Expr) : Expr :=
  match invoke with
  | some name => .call (.item name unsafety) vars
  | none => .call (.pointer unsafety) (lib .transmute [.var "__extern"] :: vars)

/-- macro/src/expand.rs:1112-1122: `expr`, with the conversion. -/
def rustConverted (call : Expr) (conversion : Option Lib) (throws : Bool) : Expr :=
  match conversion with
  | none => call
  | some c => if throws then lib .resultMap [call, .fn (.lib c)] else lib c [call]

/-- macro/src/expand.rs:1124-1143: what is done with the result. -/
def rustStored (expr : Expr) (ret : Option Ty) (throws indirect : Bool) : Expr :=
  if throws then lib .tryFn [if ret.isSome then .var "__return" else .ref (.var "()"), expr]
  else if indirect then lib .ptrWrite [.var "__return", expr] else expr

/-- macro/src/expand.rs:991-1054, 1070, 1136, 1140: `requires_unsafe`. -/
def rustRequiresUnsafe (cx : Ctx) (invoke : Option Ident) (args : List (Ident × Ty)) (throws indirect : Bool) : Bool :=
  (args.any fun a => (rustArg cx a.1 a.2).2) || invoke.isNone || throws || indirect

/-- macro/src/expand.rs:1059-1073, 1114-1121, 1135, 1139: `requires_closure`. -/
def rustRequiresClosure (invoke : Option Ident) (vars : List Expr) (conversion : Option Lib) (throws indirect : Bool) : Bool :=
  invoke.isNone || !vars.isEmpty || conversion.isSome || throws || indirect

/-- macro/src/expand.rs:966-1179 `expand_rust_function_shim_impl`: the exported function.  `unsafety` is that of the
signature. -/
def rustShim (cx : Ctx) (invoke : Option Ident) (unsafety receiver : Bool) (args : List (Ident × Ty)) (ret : Option Ty)
    (throws : Bool) : Fun :=
  let vars := rustVars cx receiver args
  let indirect := indirectReturnR cx ret throws
  let conversion := ret.bind rustConversion
  let stored := rustStored (rustConverted (rustCall invoke unsafety vars) conversion throws) ret throws indirect
  let expr : Expr := if rustRequiresUnsafe cx invoke args throws indirect then .unsafeBlock stored else stored
  let closure : Expr :=
    if rustRequiresClosure invoke vars conversion throws indirect then .closure expr
    else .fn (.item (invoke.getD "__") unsafety)
  ⟨true, false, .seq (.bind "__fn" (.var "label")) (lib .preventUnwind [.var "__fn", closure])⟩

/-- macro/src/expand.rs:941-946: the name of the exported function, and of the one inside. -/
def rustLocal (f : ExternFn) : Ident :=
  match f.sig.receiver with
  | none => "__" ++ f.name.rust
  | some r => "__" ++ r.ty.rust ++ "__" ++ f.name.rust

/-- macro/src/expand.rs:941-964 `expand_rust_function_shim`. -/
def rustExported (cx : Ctx) (f : ExternFn) : Fun :=
  rustShim cx (some (rustLocal f)) f.sig.unsafety f.sig.receiver.isSome (f.sig.args.map fun a => (a.name.rust, a.ty)) f.sig.ret
    f.sig.throws

/-- macro/src/expand.rs:1183-1246 `expand_rust_function_shim_super`.  `actual`: the function of the user is an `unsafe fn`. -/
def rustInside (actual : Bool) (f : ExternFn) : Fun :=
  let call : Expr := .call (.item f.name.rust actual)
    (f.sig.receiver.toList.map (fun _ => .var "__self") ++ f.sig.args.map fun a => .var a.name.rust)
  ⟨f.sig.unsafety, f.sig.unsafety, if f.sig.unsafety then .unsafeBlock call else call⟩

/-- macro/src/expand.rs:787-824 `expand_function_pointer_trampoline`: the exported function.  The names of the arguments are
left out. -/
def trampolines (cx : Ctx) (args : List Var) : List Fun :=
  args.filterMap fun a => match a.ty with
    | .fn unsafety args ret throws => some (rustShim cx none unsafety false (args.map fun t => ("arg", t)) ret throws)
    | _ => none

/-! ### Types -/

/-- macro/src/expand.rs:202-307 `expand_struct_operators`: one operator. -/
def comparison : Fun :=
  ⟨false, false, .seq (.bind "__fn" (.var "label"))
    (lib .preventUnwind [.var "__fn", .closure (.two (.deref false (.var "lhs")) (.deref false (.var "rhs")))])⟩

/-- macro/src/expand.rs:290-302: the hash. -/
def hashing : Fun :=
  ⟨false, false, .seq (.bind "__fn" (.var "label")) (lib .preventUnwind [.var "__fn", .closure (lib .hash [.var "this"])])⟩

/-- macro/src/expand.rs:202-307 `expand_struct_operators`. -/
def operators (s : Struct) : List Fun :=
  s.derives.flatMap fun
    | .partialEq => comparison :: (if Trait.eq ∈ s.derives then [] else [comparison])
    | .partialOrd => [comparison, comparison] ++ (if Trait.ord ∈ s.derives then [] else [comparison, comparison])
    | .hash => [hashing]
    | _ => []

/-- macro/src/expand.rs:884-927 `expand_rust_type_layout`: `__AssertSized`, and the two exported functions. -/
def layoutFns : List Fun :=
  [⟨false, false, lib .layoutNew []⟩,
   ⟨false, false, lib .layoutSize [.call (.item "__AssertSized" false) []]⟩,
   ⟨false, false, lib .layoutAlign [.call (.item "__AssertSized" false) []]⟩]

/-- macro/src/expand.rs:56-93: the functions for one item.  `actual` says which functions of the user are `unsafe fn`. -/
def itemFns (cx : Ctx) (actual : ExternFn → Bool) : Api → List Fun
  | .struct s => operators s
  | .cxxFunction f => ⟨f.sig.unsafety, false, cxxBody cx f⟩ :: trampolines cx f.sig.args
  | .rustType _ => layoutFns
  | .rustFunction f => [rustExported cx f, rustInside (actual f) f]
  | _ => []

/-! ### Instances of generic types -/

/-- syntax/types.rs:273-277 `is_maybe_trivial`. -/
def maybeTrivial (ts : Types) (name : Ident) : Bool :=
  mapHas ts.structs name || mapHas ts.enums name || mapHas ts.aliases name

/-- A function that calls an imported one in an `unsafe` block. -/
def importing (unsafety : Bool) (name : Ident) (args : List Expr) : Fun := ⟨unsafety, false, .unsafeBlock (.call (.imported name) args)⟩

/-- The same, with what is done to the result. -/
def importingThen (unsafety : Bool) (name : Ident) (args : List Expr) (f : Expr → Expr) : Fun :=
  ⟨unsafety, false, .unsafeBlock (f (.call (.imported name) args))⟩

/-- The same, with a local variable `repr` that is returned. -/
def importingRepr (unsafety : Bool) (call : Expr) : Fun :=
  ⟨unsafety, false, .seq (.bind "repr" (lib .uninitUninit [])) (.seq (.unsafeBlock call) (.var "repr"))⟩

/-- `__typename`. -/
def typename : Fun := ⟨false, false, lib .writeStr [.var "f", .var "name"]⟩

/-- A method of `*this`, in an `unsafe` block. -/
def onThis (f : Lib) (args : List Expr) : Expr := .unsafeBlock (lib f (.deref true (.var "this") :: args))

/-- macro/src/expand.rs:1300-1347 `expand_rust_box`. -/
def boxFns : List Fun :=
  [⟨true, false, lib .boxIntoRaw [lib .boxNew [lib .uninitUninit []]]⟩,
   ⟨true, false, .bind "_" (.unsafeBlock (lib .boxFromRaw [.var "ptr"]))⟩,
   ⟨true, false, .seq (.bind "__fn" (.var "label"))
     (lib .preventUnwind [.var "__fn", .closure (.unsafeBlock (lib .dropInPlace [.var "this"]))])⟩]

/-- macro/src/expand.rs:1349-1444 `expand_rust_vec`. -/
def vecFns : List Fun :=
  [⟨true, false, .unsafeBlock (lib .ptrWrite [.var "this", lib .vecNew []])⟩,
   ⟨true, false, .seq (.bind "__fn" (.var "label"))
     (lib .preventUnwind [.var "__fn", .closure (.unsafeBlock (lib .dropInPlace [.var "this"]))])⟩,
   ⟨true, false, onThis .vecLen []⟩,
   ⟨true, false, onThis .vecCapacity []⟩,
   ⟨true, false, onThis .vecAsPtr []⟩,
   ⟨true, false, onThis .vecReserveTotal [.var "new_cap"]⟩,
   ⟨true, false, onThis .vecSetLen [.var "len"]⟩,
   ⟨true, false, .seq (.bind "__fn" (.var "label"))
     (lib .preventUnwind [.var "__fn", .closure (onThis .vecTruncate [.var "len"])])⟩]

/-- macro/src/expand.rs:1444-1541 `expand_unique_ptr`. -/
def uniquePtrFns (value : Bool) : List Fun :=
  let repr : Expr := .ref (.var "repr")
  [typename, importingRepr false (.call (.imported "__null") [repr])] ++
  (if value then
    [importingRepr false (lib .ptrPut [lib .ptrCast [.call (.imported "__uninit") [repr]], .var "value"])] else []) ++
  [importingRepr true (.call (.imported "__raw") [repr, lib .ptrCast [.var "raw"]]),
   importingThen true "__get" [repr] fun e => lib .ptrCast [e],
   importingThen true "__release" [repr] fun e => lib .ptrCast [e],
   importing true "__drop" [repr]]

/-- macro/src/expand.rs:1543-1624 `expand_shared_ptr`. -/
def sharedPtrFns (value : Bool) : List Fun :=
  [typename, importing true "__null" [.var "new"]] ++
  (if value then [importingThen true "__uninit" [.var "new"] fun e => lib .ptrPut [lib .ptrCast [e], .var "value"]] else []) ++
  [importing true "__clone" [.var "this", .var "new"],
   importingThen true "__get" [.var "this"] fun e => lib .ptrCast [e],
   importing true "__drop" [.var "this"]]

/-- macro/src/expand.rs:1626-1696 `expand_weak_ptr`. -/
def weakPtrFns : List Fun :=
  [typename, importing true "__null" [.var "new"], importing true "__clone" [.var "this", .var "new"],
   importing true "__downgrade" [.var "shared", .var "weak"], importing true "__upgrade" [.var "weak", .var "shared"],
   importing true "__drop" [.var "this"]]

/-- macro/src/expand.rs:1698-1850 `expand_cxx_vector`. -/
def vectorFns (value : Bool) : List Fun :=
  let repr : Expr := .ref (.var "repr")
  [typename, importing false "__vector_new" [], importing false "__vector_size" [.var "v"],
   importingThen true "__get_unchecked" [.var "v", .var "pos"] .cast] ++
  (if value then
    [importing true "__push_back" [.var "this", .cast (.cast (.var "value"))],
     importing true "__pop_back" [.var "this", .cast (.cast (.var "out"))]] else []) ++
  [importingRepr false (.call (.imported "__unique_ptr_null") [repr]),
   importingRepr true (.call (.imported "__unique_ptr_raw") [repr, .var "raw"]),
   importing true "__unique_ptr_get" [repr], importing true "__unique_ptr_release" [repr],
   importing true "__unique_ptr_drop" [repr]]

/-- macro/src/expand.rs:95-115: the functions for one instance of a generic type. -/
def instanceFns (ts : Types) : ImplKey → List Fun
  | .rustBox _ => boxFns
  | .rustVec _ => vecFns
  | .uniquePtr n => uniquePtrFns (maybeTrivial ts n)
  | .sharedPtr n => sharedPtrFns (maybeTrivial ts n)
  | .weakPtr _ => weakPtrFns
  | .cxxVector n => vectorFns (maybeTrivial ts n)

/-- macro/src/expand.rs:51-155 `expand`: all functions. -/
def expansion (cx : Ctx) (actual : ExternFn → Bool) (apis : List Api) : List Fun :=
  apis.flatMap (itemFns cx actual) ++ (cx.types.impls.map (·.1)).flatMap (instanceFns cx.types)

end Verif.Unsafety
