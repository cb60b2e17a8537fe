import Verif.Preamble.BuiltinModel
import Verif.Abi.Model
import Verif.Check.Model
/-!
# `gen/src/write.rs`: what generated code refers to and what it asks for

The output is modelled as the sequence of format strings written, each as it stands in the source, and of requests for
helpers and headers.  Format strings without a name from `std` or `rust` are left out, and so are line breaks, blocks and
the values put in for `{}`.  A panic in `write_type` (`unreachable!()`, unknown names) writes nothing here; `Verif/Abi` has
those.
-/
namespace Verif.Preamble
open Verif.Syntax Verif.Types Verif.Check

/-- A run of format strings written one after the other. -/
inductive Frag
  | atom (a : Atom)
  | box | vec | uniquePtr | sharedPtr | weakPtr | vector | str | slice | fn | array
  | structEnd
  | opaqueHead | opaqueLayout
  | enumCheck | relocatable | relocatableOrArray
  | hashDecl | hashSpec | layoutDecls | layoutDefs
  | ptrLen | fat
  | shimTry | placement | implStrRepr | impl | implRepr | bitcopyString | bitcopyVec | moveArg | shimFail
  | manuallyDrop | manuallyDropEnd | maybeUninit | implStrNew | implSliceNew | errorDecl | errorThrow | moveReturn
  | boxExtern | vecExtern | boxImpl | vecImpl
  | completeAssert | uniquePtrHead | uniquePtrUninit | uniquePtrRest | uniquePtrDeleter
  | sharedPtrHead | sharedPtrUninit | sharedPtrRest | weakPtrAll
  | vectorHead | vectorValue
  deriving DecidableEq

/-- The namespace whose block is open around a run. -/
inductive Scope
  | top | std | rust
  deriving DecidableEq

/-- gen/src/write.rs:193 (`namespace std`) and 1453-1454 (`namespace rust`). -/
def Frag.scope : Frag → Scope
  | .hashSpec => .std
  | .boxImpl | .vecImpl => .rust
  | _ => .top

/-- The format strings, with their lines in gen/src/write.rs: `write_atom` 1341-1360, `write_type` 1252-1339,
`write_struct` 355, `write_opaque_type` 390, 415-420, `check_enum` 457, `check_trivial_extern_type` 526-528,
`write_struct_operator_decls` 597, `write_std_specializations` 202-205, layout 694-697, 713-723, return types 743, 936,
1231, `write_cxx_function_shim` 821-894, `write_rust_function_shim_impl` 1062-1169, instantiations 1484-1533, 1547-1565,
1579-1649, 1694-1773, 1799-1856, 1873-1925, 1944-1985. -/
noncomputable def Frag.lines : Frag → List Text
  | .atom .bool => [b!"bool"]
  | .atom .char => [b!"char"]
  | .atom .u8 => [b!"::std::uint8_t"]
  | .atom .u16 => [b!"::std::uint16_t"]
  | .atom .u32 => [b!"::std::uint32_t"]
  | .atom .u64 => [b!"::std::uint64_t"]
  | .atom .usize => [b!"::std::size_t"]
  | .atom .i8 => [b!"::std::int8_t"]
  | .atom .i16 => [b!"::std::int16_t"]
  | .atom .i32 => [b!"::std::int32_t"]
  | .atom .i64 => [b!"::std::int64_t"]
  | .atom .isize => [b!"::rust::isize"]
  | .atom .f32 => [b!"float"]
  | .atom .f64 => [b!"double"]
  | .atom .cxxString => [b!"::std::string"]
  | .atom .rustString => [b!"::rust::String"]
  | .box => [b!"::rust::Box<"]
  | .vec => [b!"::rust::Vec<"]
  | .uniquePtr => [b!"::std::unique_ptr<"]
  | .sharedPtr => [b!"::std::shared_ptr<"]
  | .weakPtr => [b!"::std::weak_ptr<"]
  | .vector => [b!"::std::vector<"]
  | .str => [b!"::rust::Str"]
  | .slice => [b!"::rust::Slice<"]
  | .fn => [b!"::rust::Fn<"]
  | .array => [b!"::std::array<"]
  | .structEnd => [b!"  using IsRelocatable = ::std::true_type;"]
  | .opaqueHead => [b!"struct {} final : public ::rust::Opaque {{"]
  | .opaqueLayout =>
    [b!"private:", b!"  friend ::rust::layout;", b!"  struct layout {{", b!"    static ::std::size_t size() noexcept;",
     b!"    static ::std::size_t align() noexcept;", b!"  }};"]
  | .enumCheck => [b!"static_assert(::std::is_enum<{}>::value, \"expected enum\");"]
  | .relocatable => [b!"    ::rust::IsRelocatable<{}>::value,"]
  | .relocatableOrArray => [b!"    ::rust::IsRelocatableOrArray<{}>::value,"]
  | .hashDecl => [b!"::std::size_t {}({} const &) noexcept;"]
  | .hashSpec =>
    [b!"template <> struct hash<{}> {{", b!"  ::std::size_t operator()({} const &self) const noexcept {{"]
  | .layoutDecls => [b!"::std::size_t {}() noexcept;", b!"::std::size_t {}() noexcept;"]
  | .layoutDefs => [b!"::std::size_t {}::layout::size() noexcept {{", b!"::std::size_t {}::layout::align() noexcept {{"]
  | .ptrLen => [b!"::rust::repr::PtrLen "]
  | .fat => [b!"::rust::repr::Fat "]
  | .shimTry => [b!"::rust::repr::PtrLen throw$;", b!"  ::rust::behavior::trycatch("]
  | .placement => [b!"new (return$) "]
  | .implStrRepr => [b!"::rust::impl<::rust::Str>::repr("]
  | .impl => [b!"::rust::impl<"]
  | .implRepr => [b!">::repr("]
  | .bitcopyString => [b!"::rust::String(::rust::unsafe_bitcopy, *{})"]
  | .bitcopyVec => [b!"(::rust::unsafe_bitcopy, *{})"]
  | .moveArg => [b!"::std::move(*{})"]
  | .shimFail => [b!"      ::rust::detail::Fail(throw$));"]
  | .manuallyDrop => [b!"  ::rust::ManuallyDrop<"]
  | .manuallyDropEnd => [b!"> {}$(::std::move({0}));"]
  | .maybeUninit => [b!"::rust::MaybeUninit<"]
  | .implStrNew => [b!"::rust::impl<::rust::Str>::new_unchecked("]
  | .implSliceNew => [b!">::slice("]
  | .errorDecl => [b!"::rust::repr::PtrLen error$ = "]
  | .errorThrow => [b!"    throw ::rust::impl<::rust::Error>::error(error$);"]
  | .moveReturn => [b!"::std::move(return$.value)"]
  | .boxExtern => [b!"void cxxbridge1$box${}$drop(::rust::Box<{}> *ptr) noexcept;"]
  | .vecExtern =>
    [b!"void cxxbridge1$rust_vec${}$new(::rust::Vec<{}> const *ptr) noexcept;",
     b!"void cxxbridge1$rust_vec${}$drop(::rust::Vec<{}> *ptr) noexcept;",
     b!"::std::size_t cxxbridge1$rust_vec${}$len(::rust::Vec<{}> const *ptr) noexcept;",
     b!"::std::size_t cxxbridge1$rust_vec${}$capacity(::rust::Vec<{}> const *ptr) noexcept;",
     b!"{} const *cxxbridge1$rust_vec${}$data(::rust::Vec<{0}> const *ptr) noexcept;",
     b!"void cxxbridge1$rust_vec${}$reserve_total(::rust::Vec<{}> *ptr, ::std::size_t new_cap) noexcept;",
     b!"void cxxbridge1$rust_vec${}$set_len(::rust::Vec<{}> *ptr, ::std::size_t len) noexcept;",
     b!"void cxxbridge1$rust_vec${}$truncate(::rust::Vec<{}> *ptr, ::std::size_t len) noexcept;"]
  | .boxImpl =>
    [b!"{} *Box<{}>::allocation::alloc() noexcept {{", b!"void Box<{}>::allocation::dealloc({} *ptr) noexcept {{",
     b!"void Box<{}>::drop() noexcept {{"]
  | .vecImpl =>
    [b!"Vec<{}>::Vec() noexcept {{", b!"void Vec<{}>::drop() noexcept {{", b!"::std::size_t Vec<{}>::size() const noexcept {{",
     b!"::std::size_t Vec<{}>::capacity() const noexcept {{", b!"{} const *Vec<{0}>::data() const noexcept {{",
     b!"void Vec<{}>::reserve_total(::std::size_t new_cap) noexcept {{",
     b!"void Vec<{}>::set_len(::std::size_t len) noexcept {{", b!"void Vec<{}>::truncate(::std::size_t len) {{"]
  | .completeAssert =>
    [b!"static_assert(::rust::detail::is_complete<{}>::value, \"definition of {} is required\");"]
  | .uniquePtrHead =>
    [b!"static_assert(sizeof(::std::unique_ptr<{}>) == sizeof(void *), \"\");",
     b!"static_assert(alignof(::std::unique_ptr<{}>) == alignof(void *), \"\");",
     b!"void cxxbridge1$unique_ptr${}$null(::std::unique_ptr<{}> *ptr) noexcept {{",
     b!"  ::new (ptr) ::std::unique_ptr<{}>();"]
  | .uniquePtrUninit =>
    [b!"{} *cxxbridge1$unique_ptr${}$uninit(::std::unique_ptr<{}> *ptr) noexcept {{",
     b!"  {} *uninit = reinterpret_cast<{} *>(new ::rust::MaybeUninit<{}>);",
     b!"  ::new (ptr) ::std::unique_ptr<{}>(uninit);"]
  | .uniquePtrRest =>
    [b!"void cxxbridge1$unique_ptr${}$raw(::std::unique_ptr<{}> *ptr, {} *raw) noexcept {{",
     b!"  ::new (ptr) ::std::unique_ptr<{}>(raw);",
     b!"{} const *cxxbridge1$unique_ptr${}$get(::std::unique_ptr<{}> const &ptr) noexcept {{",
     b!"{} *cxxbridge1$unique_ptr${}$release(::std::unique_ptr<{}> &ptr) noexcept {{",
     b!"void cxxbridge1$unique_ptr${}$drop(::std::unique_ptr<{}> *ptr) noexcept {{"]
  | .uniquePtrDeleter => [b!"  ::rust::deleter_if<::rust::detail::is_complete<{}>::value>{{}}(ptr);"]
  | .sharedPtrHead =>
    [b!"static_assert(sizeof(::std::shared_ptr<{}>) == 2 * sizeof(void *), \"\");",
     b!"static_assert(alignof(::std::shared_ptr<{}>) == alignof(void *), \"\");",
     b!"void cxxbridge1$shared_ptr${}$null(::std::shared_ptr<{}> *ptr) noexcept {{",
     b!"  ::new (ptr) ::std::shared_ptr<{}>();"]
  | .sharedPtrUninit =>
    [b!"{} *cxxbridge1$shared_ptr${}$uninit(::std::shared_ptr<{}> *ptr) noexcept {{",
     b!"  {} *uninit = reinterpret_cast<{} *>(new ::rust::MaybeUninit<{}>);",
     b!"  ::new (ptr) ::std::shared_ptr<{}>(uninit);"]
  | .sharedPtrRest =>
    [b!"void cxxbridge1$shared_ptr${}$clone(::std::shared_ptr<{}> const &self, ::std::shared_ptr<{}> *ptr) noexcept {{",
     b!"  ::new (ptr) ::std::shared_ptr<{}>(self);",
     b!"{} const *cxxbridge1$shared_ptr${}$get(::std::shared_ptr<{}> const &self) noexcept {{",
     b!"void cxxbridge1$shared_ptr${}$drop(::std::shared_ptr<{}> *self) noexcept {{"]
  | .weakPtrAll =>
    [b!"static_assert(sizeof(::std::weak_ptr<{}>) == 2 * sizeof(void *), \"\");",
     b!"static_assert(alignof(::std::weak_ptr<{}>) == alignof(void *), \"\");",
     b!"void cxxbridge1$weak_ptr${}$null(::std::weak_ptr<{}> *ptr) noexcept {{",
     b!"  ::new (ptr) ::std::weak_ptr<{}>();",
     b!"void cxxbridge1$weak_ptr${}$clone(::std::weak_ptr<{}> const &self, ::std::weak_ptr<{}> *ptr) noexcept {{",
     b!"  ::new (ptr) ::std::weak_ptr<{}>(self);",
     b!"void cxxbridge1$weak_ptr${}$downgrade(::std::shared_ptr<{}> const &shared, ::std::weak_ptr<{}> *weak) noexcept {{",
     b!"  ::new (weak) ::std::weak_ptr<{}>(shared);",
     b!"void cxxbridge1$weak_ptr${}$upgrade(::std::weak_ptr<{}> const &weak, ::std::shared_ptr<{}> *shared) noexcept {{",
     b!"  ::new (shared) ::std::shared_ptr<{}>(weak.lock());",
     b!"void cxxbridge1$weak_ptr${}$drop(::std::weak_ptr<{}> *self) noexcept {{"]
  | .vectorHead =>
    [b!"::std::vector<{}> *cxxbridge1$std$vector${}$new() noexcept {{", b!"  return new ::std::vector<{}>();",
     b!"::std::size_t cxxbridge1$std$vector${}$size(::std::vector<{}> const &s) noexcept {{",
     b!"{} *cxxbridge1$std$vector${}$get_unchecked(::std::vector<{}> *s, ::std::size_t pos) noexcept {{"]
  | .vectorValue =>
    [b!"void cxxbridge1$std$vector${}$push_back(::std::vector<{}> *v, {} *value) noexcept {{",
     b!"  v->push_back(::std::move(*value));", b!"  ::rust::destroy(value);",
     b!"void cxxbridge1$std$vector${}$pop_back(::std::vector<{}> *v, {} *out) noexcept {{",
     b!"  ::new (out) {}(::std::move(v->back()));"]

/-- The flags of `Builtins` that are set outside of builtin.rs. -/
inductive Flag
  | rustString | rustStr | rustSlice | rustBox | rustVec | rustFn | rustIsize | rustOpaque | layout | unsafeBitcopy | rustError
  | manuallyDrop | maybeUninit | trycatch | ptrLen | reprFat | rustStrNewUnchecked | rustStrRepr | rustSliceNew
  | rustSliceRepr | relocatable | relocatableOrArray | isComplete | destroy | deleterIf
  deriving DecidableEq

inductive Act
  | text (f : Frag)
  /-- `out.builtin.x = true` -/
  | ask (f : Flag)
  /-- `out.include.x = true` -/
  | inc (h : Std)
  deriving DecidableEq

/-- What the generator knows. -/
structure Out where
  cx : Verif.Abi.Ctx
  /-- the items of the bridge -/
  apis : List Api
  /-- `types.toposorted_structs` -/
  sorted : List Struct
  header : Bool

/-! ### Types -/

/-- gen/src/write.rs:230-250: the requests for one type. -/
def pick : Ty → List Act
  | .ident t =>
    match Atom.fromStr t.rust with
    | some .u8 | some .u16 | some .u32 | some .u64 | some .i8 | some .i16 | some .i32 | some .i64 => [.inc .cstdint]
    | some .usize => [.inc .cstddef]
    | some .isize => [.ask .rustIsize]
    | some .cxxString => [.inc .string]
    | some .rustString => [.ask .rustString]
    | some .bool | some .char | some .f32 | some .f64 | none => []
  | .rustBox _ => [.ask .rustBox]
  | .rustVec _ => [.ask .rustVec]
  | .uniquePtr _ => [.inc .memory]
  | .sharedPtr _ | .weakPtr _ => [.inc .memory]
  | .str .. => [.ask .rustStr]
  | .cxxVector _ => [.inc .vector]
  | .fn .. => [.ask .rustFn]
  | .sliceRef .. => [.ask .rustSlice]
  | .array .. => [.inc .array]
  | .ref .. | .void | .ptr .. => []

/-- gen/src/write.rs:230-251, the loop over `out.types`. -/
def picks (ts : Types) : List Act := ts.all.iter.flatMap pick

mutual
/-- gen/src/write.rs:1252-1339 `write_type`, and with it `write_type_space` (1362-1365). -/
def typeText : Ty → List Act
  | .ident t =>
    match Atom.fromStr t.rust with
    | some a => [.text (.atom a)]
    | none => []
  | .rustBox t => .text .box :: typeText t
  | .rustVec t => .text .vec :: typeText t
  | .uniquePtr t => .text .uniquePtr :: typeText t
  | .sharedPtr t => .text .sharedPtr :: typeText t
  | .weakPtr t => .text .weakPtr :: typeText t
  | .cxxVector t => .text .vector :: typeText t
  | .ref _ _ _ t => typeText t
  | .ptr _ t => typeText t
  | .str .. => [.text .str]
  | .sliceRef _ _ t => .text .slice :: typeText t
  | .fn _ as r _ => .text .fn :: (optText r ++ typesText as)
  | .array t _ => .text .array :: typeText t
  | .void => []
/-- gen/src/write.rs:1177-1182 `write_return_type`. -/
def optText : Option Ty → List Act
  | none => []
  | some t => typeText t
/-- gen/src/write.rs:1324-1329: argument types. -/
def typesText : List Ty → List Act
  | [] => []
  | t :: ts => typeText t ++ typesText ts
end

/-- gen/src/write.rs:1190-1205 `write_indirect_return_type`. -/
def indirectReturnText : Ty → List Act
  | .rustBox t | .uniquePtr t => typeText t
  | .ref _ _ _ t => typeText t
  | t => typeText t

/-- gen/src/write.rs:1216-1236 `write_extern_return_type_space`. -/
def externReturnText (o : Out) : Option Ty → List Act
  | some (.rustBox t) | some (.uniquePtr t) => typeText t
  | some (.ref _ _ _ t) => typeText t
  | some (.str ..) | some (.sliceRef ..) => [.ask .reprFat, .text .fat]
  | some t => if o.cx.needsIndirect t then [] else typeText t
  | none => []

/-- gen/src/write.rs:965-974, 1072-1081: what a Rust function writes its result to. -/
def outPtrText : Option Ty → List Act
  | some (.ref _ _ _ t) => typeText t
  | some t => typeText t
  | none => []

/-- gen/src/write.rs:1238-1250 `write_extern_arg`. -/
def externArgText : Ty → List Act
  | .rustBox t | .uniquePtr t | .cxxVector t => typeText t
  | t => typeText t

/-! ### Data structures -/

/-- gen/src/write.rs:1003-1034 `write_rust_function_shim_decl`. -/
def shimDecl (args : List Ty) (ret : Option Ty) : List Act := optText ret ++ args.flatMap typeText

/-- gen/src/write.rs:95-105: the functions with a receiver of this type. -/
def methodsFor (apis : List Api) (name : Ident) : List ExternFn :=
  apis.filterMap fun
    | .cxxFunction f | .rustFunction f =>
      match f.sig.receiver with
      | some r => if r.ty.rust = name then some f else none
      | none => none
    | _ => none

def methodDecl (f : ExternFn) : List Act := shimDecl (f.sig.args.map (·.ty)) f.sig.ret

/-- gen/src/write.rs:273-359 `write_struct`. -/
def writeStruct (o : Out) (s : Struct) : List Act :=
  s.fields.flatMap (fun f => typeText f.ty) ++ (methodsFor o.apis s.name.rust).flatMap methodDecl ++
    [.inc .typeTraits, .text .structEnd]

/-- gen/src/write.rs:380-423 `write_opaque_type`. -/
def writeOpaque (o : Out) (t : ExternType) : List Act :=
  [.ask .rustOpaque, .text .opaqueHead] ++ (methodsFor o.apis t.name.rust).flatMap methodDecl ++
    [.ask .layout, .inc .cstddef, .text .opaqueLayout]

/-- gen/src/write.rs:365-374 `write_enum_decl` and 425-445 `write_enum`: the text is that of `write_atom`. -/
def writeEnum (e : Enum) : List Act := [.text (.atom e.repr)]

/-- gen/src/write.rs:447-472 `check_enum`. -/
def checkEnum (e : Enum) : List Act :=
  [.inc .typeTraits, .text .enumCheck, .text (.atom e.repr)] ++ e.variants.map fun _ => .text (.atom e.repr)

/-- gen/src/write.rs:59-64, 76-84: the forward declaration of an item. -/
def forwardDecl (o : Out) : Api → List Act
  | .enum e => if e.name.rust ∈ o.cx.types.cxx then [] else writeEnum e
  | _ => []

/-- gen/src/write.rs:111-124: the structs taken from `toposorted_structs` up to one with this name, and those that
remain. -/
def takeTo (name : Ident) : List Struct → List Struct × List Struct
  | [] => ([], [])
  | s :: rest => if s.name.rust = name then ([s], rest) else let (a, b) := takeTo name rest; (s :: a, b)

/-- gen/src/write.rs:107-143, the loop over the items; the state is `structs_written` and the rest of
`toposorted_structs`. -/
def dataLoop (o : Out) : List Api → List Ident → List Struct → List Act
  | [], _, _ => []
  | .struct s :: apis, written, rest =>
    if s.name.rust ∈ written then dataLoop o apis written rest
    else
      let (now, rest) := takeTo s.name.rust rest
      (now.flatMap fun n => if n.name.rust ∈ o.cx.types.cxx then [] else writeStruct o n) ++
        dataLoop o apis (written ++ now.map (·.name.rust)) rest
  | .enum e :: apis, written, rest =>
    (if e.name.rust ∉ o.cx.types.cxx then writeEnum e else if e.variantsFromHeader then [] else checkEnum e) ++
      dataLoop o apis written rest
  | .rustType t :: apis, written, rest => writeOpaque o t ++ dataLoop o apis written rest
  | _ :: apis, written, rest => dataLoop o apis written rest

/-- Whether the reason is `StructField` or `VecElement`. -/
def arrayReason : Reason → Bool
  | .structField _ | .vecElement => true
  | _ => false

/-- gen/src/write.rs:153-160, 474-536 `check_trivial_extern_type`. -/
def checkTrivial (o : Out) (a : TypeAlias) : List Act :=
  let reasons := (requiredTrivial o.apis o.cx.types).filterMap fun e => if e.1 = a.name.rust then some e.2 else none
  if reasons = [] then []
  else .ask .relocatable ::
    (if reasons.all arrayReason then [.ask .relocatableOrArray, .text .relocatableOrArray] else [.text .relocatable])

/-- gen/src/write.rs:94-161 `write_data_structures`. -/
def dataStructures (o : Out) : List Act :=
  dataLoop o o.apis [] o.sorted ++
    (if o.header then [] else o.apis.flatMap fun
      | .typeAlias a => checkTrivial o a
      | _ => [])

/-! ### Functions -/

/-- gen/src/write.rs:1184-1188 `indirect_return`. -/
def indirectReturn (o : Out) (ret : Option Ty) (throws : Bool) : Bool :=
  match ret with
  | some t => throws || o.cx.needsIndirect t
  | none => false

/-- gen/src/write.rs:927-985 `write_rust_function_decl_impl`. -/
def rustDecl (o : Out) (args : List Ty) (ret : Option Ty) (throws : Bool) : List Act :=
  (if throws then [.ask .ptrLen, .text .ptrLen] else externReturnText o ret) ++ args.flatMap externArgText ++
    (if indirectReturn o ret throws then outPtrText ret else [])

/-- gen/src/write.rs:1058-1066: an argument that is moved before the call. -/
def moveIn (o : Out) (t : Ty) : List Act :=
  if !Verif.Abi.isRustString t && o.cx.needsIndirect t then
    [.inc .utility, .ask .manuallyDrop, .text .manuallyDrop] ++ typeText t ++ [.text .manuallyDropEnd]
  else []

/-- gen/src/write.rs:1036-1175 `write_rust_function_shim_impl`. -/
def rustShimImpl (o : Out) (method : Bool) (args : List Ty) (ret : Option Ty) (throws : Bool) : List Act :=
  if o.header && method then []
  else
    shimDecl args ret ++
    (if o.header then []
    else
      args.flatMap (moveIn o) ++
      (if indirectReturn o ret throws then
        [.ask .maybeUninit, .text .maybeUninit] ++ outPtrText ret
      else match ret with
        | some (.rustBox t) => typeText (.rustBox t)
        | some (.uniquePtr t) => typeText (.uniquePtr t)
        | some (.str ..) => [.ask .rustStrNewUnchecked, .text .implStrNew]
        | some (.sliceRef l m t) =>
          [.ask .rustSliceNew, .text .impl] ++ typeText (.sliceRef l m t) ++ [.text .implSliceNew]
        | _ => []) ++
      (if throws then [.ask .ptrLen, .text .errorDecl] else []) ++
      (if throws then [.ask .rustError, .text .errorThrow] else []) ++
      (if indirectReturn o ret throws then
        match ret with
        | some (.ref ..) => []
        | _ => [.inc .utility, .text .moveReturn]
      else []))

/-- gen/src/write.rs:907-916 `write_function_pointer_trampoline`. -/
def trampoline (o : Out) : Ty → List Act
  | .fn _ as r th => rustDecl o as r th ++ rustShimImpl o false as r th
  | _ => []

/-- gen/src/write.rs:854-879: an argument of the call. -/
def callArg (o : Out) (t : Ty) : List Act :=
  match t with
  | .rustBox _ => typeText t
  | .uniquePtr _ => typeText t
  | .rustVec _ => [.ask .unsafeBitcopy] ++ typeText t ++ [.text .bitcopyVec]
  | t =>
    if Verif.Abi.isRustString t then [.ask .unsafeBitcopy, .text .bitcopyString]
    else if o.cx.needsIndirect t then [.inc .utility, .text .moveArg]
    else []

/-- gen/src/write.rs:761-771: a parameter of the shim. -/
def shimParam (t : Ty) : List Act :=
  if Verif.Abi.isRustString t then typeText t
  else match t with
    | .rustVec e => typeText (.rustVec e)
    | t => externArgText t

/-- gen/src/write.rs:736-905 `write_cxx_function_shim`. -/
def cxxShim (o : Out) (f : ExternFn) : List Act :=
  let args := f.sig.args.map (·.ty)
  (if f.sig.throws then [.ask .ptrLen, .text .ptrLen] else externReturnText o f.sig.ret) ++
  args.flatMap shimParam ++
  (if indirectReturn o f.sig.ret f.sig.throws then f.sig.ret.toList.flatMap indirectReturnText else []) ++
  optText f.sig.ret ++ args.flatMap typeText ++
  (if f.sig.throws then [.ask .ptrLen, .ask .trycatch, .text .shimTry] else []) ++
  (if indirectReturn o f.sig.ret f.sig.throws then
    [.inc .new, .text .placement] ++ f.sig.ret.toList.flatMap indirectReturnText else []) ++
  (match f.sig.ret with
  | some (.str ..) =>
    if indirectReturn o f.sig.ret f.sig.throws then [] else [.ask .rustStrRepr, .text .implStrRepr]
  | some (.sliceRef l m t) =>
    if indirectReturn o f.sig.ret f.sig.throws then []
    else [.ask .rustSliceRepr, .text .impl] ++ typeText (.sliceRef l m t) ++ [.text .implRepr]
  | _ => []) ++
  args.flatMap (callArg o) ++
  (if f.sig.throws then [.text .shimFail] else []) ++
  args.flatMap (trampoline o)

/-- gen/src/write.rs:538-603 `write_struct_operator_decls`. -/
def operatorDecls (s : Struct) : List Act :=
  if Trait.hash ∈ s.derives then [.inc .cstddef, .text .hashDecl] else []

/-- gen/src/write.rs:191-221 `write_std_specializations`. -/
def stdSpec : Api → List Act
  | .struct s => if Trait.hash ∈ s.derives then [.inc .cstddef, .inc .functional, .text .hashSpec] else []
  | _ => []

/-- gen/src/write.rs:163-189 `write_functions`.  `write_struct_operators` (605-687) mentions nothing from `std` or
`rust`. -/
def functions (o : Out) : List Act :=
  (if o.header then []
  else o.apis.flatMap (fun
      | .struct s => operatorDecls s
      | .rustType _ => [.text .layoutDecls]
      | .cxxFunction f => cxxShim o f
      | .rustFunction f => rustDecl o (f.sig.args.map (·.ty)) f.sig.ret f.sig.throws
      | _ => []) ++
    o.apis.flatMap stdSpec) ++
  o.apis.flatMap fun
    | .rustType _ => if o.header then [] else [.text .layoutDefs]
    | .rustFunction f => rustShimImpl o f.sig.receiver.isSome (f.sig.args.map (·.ty)) f.sig.ret f.sig.throws
    | _ => []

/-! ### Instantiations -/

/-- syntax/types.rs:273-277 `is_maybe_trivial`. -/
def maybeTrivial (ts : Types) (name : Ident) : Bool :=
  mapHas ts.structs name || mapHas ts.enums name || mapHas ts.aliases name

/-- gen/src/write.rs:1664-1780 `write_unique_ptr_common`; `none` for a vector. -/
def uniquePtrCommon (o : Out) (name : Option Ident) : List Act :=
  let value := match name with
    | some n => maybeTrivial o.cx.types n
    | none => false
  let conditional := match name with
    | some n => !mapHas o.cx.types.structs n && !mapHas o.cx.types.enums n
    | none => false
  [.inc .new, .inc .utility] ++ (if name.isNone then [.text .vector] else []) ++
  (if conditional then [.ask .isComplete, .text .completeAssert] else []) ++
  [.text .uniquePtrHead] ++ (if value then [.ask .maybeUninit, .text .uniquePtrUninit] else []) ++
  [.text .uniquePtrRest] ++ (if conditional then [.ask .deleterIf, .text .uniquePtrDeleter] else [])

/-- gen/src/write.rs:1440-1450: the `extern "C"` part of an instantiation, with 1467-1536, 1658-1992. -/
def externPart (o : Out) : ImplKey → List Act
  | .rustBox _ => [.text .boxExtern]
  | .rustVec _ => [.inc .cstddef, .text .vecExtern]
  | .uniquePtr n => uniquePtrCommon o (some n)
  | .sharedPtr n =>
    [.inc .new, .inc .utility, .text .sharedPtrHead] ++
      (if maybeTrivial o.cx.types n then [.ask .maybeUninit, .text .sharedPtrUninit] else []) ++ [.text .sharedPtrRest]
  | .weakPtr _ => [.inc .new, .inc .utility, .text .weakPtrAll]
  | .cxxVector n =>
    [.inc .cstddef, .inc .utility, .ask .destroy, .text .vectorHead] ++
      (if maybeTrivial o.cx.types n then [.text .vectorValue] else []) ++ [.inc .memory] ++ uniquePtrCommon o none

/-- gen/src/write.rs:1455-1461: the part in namespace `rust`, with 1538-1656. -/
def rustPart : ImplKey → List Act
  | .rustBox _ => [.text .boxImpl]
  | .rustVec _ => [.inc .cstddef, .text .vecImpl]
  | _ => []

/-- gen/src/write.rs:1433-1465 `write_generic_instantiations`. -/
def instantiations (o : Out) : List Act :=
  if o.header then []
  else (o.cx.types.impls.map (·.1)).flatMap (externPart o) ++ (o.cx.types.impls.map (·.1)).flatMap rustPart

/-! ### The whole -/

/-- gen/src/write.rs:18-35 `gen`, up to `builtin::write`. -/
def emits (o : Out) : List Act :=
  picks o.cx.types ++ o.apis.flatMap (forwardDecl o) ++ dataStructures o ++ functions o ++ instantiations o

/-- The flags set in the end. -/
def asked (es : List Act) : Builtins where
  rustString := es.contains (.ask .rustString)
  rustStr := es.contains (.ask .rustStr)
  rustSlice := es.contains (.ask .rustSlice)
  rustBox := es.contains (.ask .rustBox)
  rustVec := es.contains (.ask .rustVec)
  rustFn := es.contains (.ask .rustFn)
  rustIsize := es.contains (.ask .rustIsize)
  rustOpaque := es.contains (.ask .rustOpaque)
  layout := es.contains (.ask .layout)
  unsafeBitcopy := es.contains (.ask .unsafeBitcopy)
  rustError := es.contains (.ask .rustError)
  manuallyDrop := es.contains (.ask .manuallyDrop)
  maybeUninit := es.contains (.ask .maybeUninit)
  trycatch := es.contains (.ask .trycatch)
  ptrLen := es.contains (.ask .ptrLen)
  reprFat := es.contains (.ask .reprFat)
  rustStrNewUnchecked := es.contains (.ask .rustStrNewUnchecked)
  rustStrRepr := es.contains (.ask .rustStrRepr)
  rustSliceNew := es.contains (.ask .rustSliceNew)
  rustSliceRepr := es.contains (.ask .rustSliceRepr)
  relocatable := es.contains (.ask .relocatable)
  relocatableOrArray := es.contains (.ask .relocatableOrArray)
  isComplete := es.contains (.ask .isComplete)
  destroy := es.contains (.ask .destroy)
  deleterIf := es.contains (.ask .deleterIf)

/-- gen/src/write.rs:32 `builtin::write(out)`, before `include::write(out)`; `custom` are the includes of the user
(224-228, 23). -/
def generated (o : Out) (custom : List Include) : Includes × List Ev :=
  writeBuiltins ⟨custom, fun h => (emits o).contains (.inc h)⟩ (asked (emits o))

end Verif.Preamble
