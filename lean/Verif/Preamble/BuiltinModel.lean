import Verif.Preamble.IncludeModel
import Verif.Header.Model
import Verif.Header.Text
/-!
# `gen/src/builtin.rs`: the helpers of generated C++

Calls of `next_section` only place blank lines and are left out.
-/
namespace Verif.Preamble
open Verif.Header (textOf)

/-- gen/src/builtin.rs:6-36 `Builtins`, without the text. -/
structure Builtins where
  panic : Bool := false
  rustString : Bool := false
  rustStr : Bool := false
  rustSlice : Bool := false
  rustBox : Bool := false
  rustVec : Bool := false
  rustFn : Bool := false
  rustIsize : Bool := false
  rustOpaque : Bool := false
  layout : Bool := false
  unsafeBitcopy : Bool := false
  unsafeBitcopyT : Bool := false
  rustError : Bool := false
  manuallyDrop : Bool := false
  maybeUninit : Bool := false
  trycatch : Bool := false
  ptrLen : Bool := false
  reprFat : Bool := false
  rustStrNewUnchecked : Bool := false
  rustStrRepr : Bool := false
  rustSliceNew : Bool := false
  rustSliceRepr : Bool := false
  relocatable : Bool := false
  relocatableOrArray : Bool := false
  friendImpl : Bool := false
  isComplete : Bool := false
  destroy : Bool := false
  deleterIf : Bool := false
  deriving DecidableEq

/-- `include.x = true` for several headers. -/
def ask (flag : Std → Bool) (hs : List Std) : Std → Bool := fun h => flag h || hs.contains h

/-- gen/src/builtin.rs:53-140: the requests that follow from others, one `if` after the other. -/
def propagate (b : Builtins) (i : Std → Bool) : Builtins × (Std → Bool) :=
  let i := if b.rustString then ask i [.array, .cstdint, .string] else i
  let (b, i) := if b.rustStr then ({ b with friendImpl := true }, ask i [.array, .cstdint, .string, .stringView]) else (b, i)
  let (b, i) := if b.rustVec then
      ({ b with panic := true, rustSlice := true, unsafeBitcopyT := true },
        ask i [.algorithm, .array, .cassert, .cstddef, .cstdint, .initializerList, .iterator, .new, .stdexcept, .typeTraits,
          .utility])
    else (b, i)
  let (b, i) := if b.rustSlice then
      ({ b with friendImpl := true, layout := true, panic := true },
        ask i [.array, .cassert, .cstddef, .cstdint, .iterator, .ranges, .stdexcept, .typeTraits])
    else (b, i)
  let i := if b.rustBox then ask i [.new, .typeTraits, .utility] else i
  let i := if b.rustFn then ask i [.utility] else i
  let (b, i) := if b.rustError then ({ b with friendImpl := true }, ask i [.exception]) else (b, i)
  let i := if b.rustIsize then ask i [.basetsd, .sysTypes] else i
  let (b, i) := if b.relocatableOrArray then ({ b with relocatable := true }, ask i [.cstddef]) else (b, i)
  let i := if b.relocatable then ask i [.typeTraits] else i
  let (b, i) := if b.layout then ({ b with isComplete := true }, ask i [.typeTraits, .cstddef]) else (b, i)
  let i := if b.isComplete then ask i [.cstddef, .typeTraits] else i
  let b := if b.unsafeBitcopy then { b with unsafeBitcopyT := true } else b
  let b := if b.trycatch then { b with ptrLen := true } else b
  (b, i)

/-- The sections of rust/cxx.h copied by gen/src/builtin.rs:155, 184-197. -/
inductive Sec
  | panic | rustString | rustStr | rustSlice | rustBox | bitcopyT | bitcopy | rustVec | rustFn | rustError | rustIsize
  | rustOpaque | isComplete | layout | relocatable
  deriving DecidableEq

/-- gen/src/builtin.rs:155, 184-197: their guards. -/
noncomputable def Sec.guard : Sec → Text
  | .panic => b!"CXXBRIDGE1_PANIC" | .rustString => b!"CXXBRIDGE1_RUST_STRING" | .rustStr => b!"CXXBRIDGE1_RUST_STR"
  | .rustSlice => b!"CXXBRIDGE1_RUST_SLICE" | .rustBox => b!"CXXBRIDGE1_RUST_BOX"
  | .bitcopyT => b!"CXXBRIDGE1_RUST_BITCOPY_T" | .bitcopy => b!"CXXBRIDGE1_RUST_BITCOPY"
  | .rustVec => b!"CXXBRIDGE1_RUST_VEC" | .rustFn => b!"CXXBRIDGE1_RUST_FN" | .rustError => b!"CXXBRIDGE1_RUST_ERROR"
  | .rustIsize => b!"CXXBRIDGE1_RUST_ISIZE" | .rustOpaque => b!"CXXBRIDGE1_RUST_OPAQUE"
  | .isComplete => b!"CXXBRIDGE1_IS_COMPLETE" | .layout => b!"CXXBRIDGE1_LAYOUT"
  | .relocatable => b!"CXXBRIDGE1_RELOCATABLE"

/-- A run of lines written under one condition. -/
inductive Piece
  | comment
  | copied (s : Sec)
  | fwdBitcopyT | fwdImpl | fwdString | fwdOpaque | fwdLayout
  | strUninit | sliceUninit | fat | ptrLen | operatorNew | fail | manuallyDrop | maybeUninit
  | implStr (new repr : Bool)
  | implSlice (new repr : Bool)
  | implError | destroy | deleterIf | relocatableOrArray | trycatch
  deriving DecidableEq

/-- The lines that `ifndef::write` writes. -/
def linesWritten : Option (List Verif.Header.Emit) → List Text
  | some es => es.filterMap fun
    | .line l => some l
    | .nextSection => none
  | none => []

/-- gen/src/builtin.rs:153-417: the lines of a piece.  For a section they are what `ifndef::write` copies. -/
noncomputable def Piece.lines : Piece → List Text
  | .comment => [b!"// #include \"rust/cxx.h\""]
  | .copied s =>
    linesWritten (Verif.Header.write (textOf Verif.Header.Cxx.layout) true s.guard)
  | .fwdBitcopyT => [b!"struct unsafe_bitcopy_t;"]
  | .fwdImpl => [b!"template <typename T>", b!"class impl;"]
  | .fwdString => [b!"class String;"]
  | .fwdOpaque => [b!"class Opaque;"]
  | .fwdLayout =>
    [b!"template <typename T>", b!"::std::size_t size_of();", b!"template <typename T>", b!"::std::size_t align_of();"]
  | .strUninit => [b!"class Str::uninit {};", b!"inline Str::Str(uninit) noexcept {}"]
  | .sliceUninit =>
    [b!"template <typename T>", b!"class Slice<T>::uninit {};", b!"template <typename T>",
     b!"inline Slice<T>::Slice(uninit) noexcept {}"]
  | .fat => [b!"using Fat = ::std::array<::std::uintptr_t, 2>;"]
  | .ptrLen => [b!"struct PtrLen final {", b!"  void *ptr;", b!"  ::std::size_t len;", b!"};"]
  | .operatorNew =>
    [b!"template <typename T, typename = void *>", b!"struct operator_new {",
     b!"  void *operator()(::std::size_t sz) { return ::operator new(sz); }", b!"};",
     b!"template <typename T>", b!"struct operator_new<T, decltype(T::operator new(sizeof(T)))> {",
     b!"  void *operator()(::std::size_t sz) { return T::operator new(sz); }", b!"};"]
  | .fail =>
    [b!"class Fail final {", b!"  ::rust::repr::PtrLen &throw$;", b!"public:",
     b!"  Fail(::rust::repr::PtrLen &throw$) noexcept : throw$(throw$) {}", b!"  void operator()(char const *) noexcept;",
     b!"  void operator()(std::string const &) noexcept;", b!"};"]
  | .manuallyDrop =>
    [b!"template <typename T>", b!"union ManuallyDrop {", b!"  T value;",
     b!"  ManuallyDrop(T &&value) : value(::std::move(value)) {}", b!"  ~ManuallyDrop() {}", b!"};"]
  | .maybeUninit =>
    [b!"template <typename T>", b!"union MaybeUninit {", b!"  T value;",
     b!"  void *operator new(::std::size_t sz) { return detail::operator_new<T>{}(sz); }", b!"  MaybeUninit() {}",
     b!"  ~MaybeUninit() {}", b!"};"]
  | .implStr new repr =>
    [b!"template <>", b!"class impl<Str> final {", b!"public:"] ++
    (if new then
      [b!"  static Str new_unchecked(repr::Fat repr) noexcept {", b!"    Str str = Str::uninit{};",
       b!"    str.repr = repr;", b!"    return str;", b!"  }"] else []) ++
    (if repr then
      [b!"  static repr::Fat repr(Str str) noexcept {", b!"    return str.repr;", b!"  }"] else []) ++
    [b!"};"]
  | .implSlice new repr =>
    [b!"template <typename T>", b!"class impl<Slice<T>> final {", b!"public:"] ++
    (if new then
      [b!"  static Slice<T> slice(repr::Fat repr) noexcept {", b!"    Slice<T> slice = typename Slice<T>::uninit{};",
       b!"    slice.repr = repr;", b!"    return slice;", b!"  }"] else []) ++
    (if repr then
      [b!"  static repr::Fat repr(Slice<T> slice) noexcept {", b!"    return slice.repr;", b!"  }"] else []) ++
    [b!"};"]
  | .implError =>
    [b!"template <>", b!"class impl<Error> final {", b!"public:", b!"  static Error error(repr::PtrLen repr) noexcept {",
     b!"    Error error;", b!"    error.msg = static_cast<char const *>(repr.ptr);", b!"    error.len = repr.len;",
     b!"    return error;", b!"  }", b!"};"]
  | .destroy => [b!"template <typename T>", b!"void destroy(T *ptr) {", b!"  ptr->~T();", b!"}"]
  | .deleterIf =>
    [b!"template <bool> struct deleter_if {", b!"  template <typename T> void operator()(T *) {}", b!"};",
     b!"template <> struct deleter_if<true> {", b!"  template <typename T> void operator()(T *ptr) { ptr->~T(); }", b!"};"]
  | .relocatableOrArray =>
    [b!"template <typename T>", b!"struct IsRelocatableOrArray : IsRelocatable<T> {};",
     b!"template <typename T, ::std::size_t N>", b!"struct IsRelocatableOrArray<T[N]> : IsRelocatableOrArray<T> {};"]
  | .trycatch =>
    [b!"class missing {};", b!"missing trycatch(...);", [],
     b!"template <typename Try, typename Fail>", b!"static typename ::std::enable_if<",
     b!"    ::std::is_same<decltype(trycatch(::std::declval<Try>(), ::std::declval<Fail>())),",
     b!"                 missing>::value>::type", b!"trycatch(Try &&func, Fail &&fail) noexcept try {", b!"  func();",
     b!"} catch (::std::exception const &e) {", b!"  fail(e.what());", b!"}"]

/-- gen/src/block.rs: the blocks used here. -/
inductive Blk
  | rust | cxxbridge1 | repr | detail | behavior | anonymous
  deriving DecidableEq

/-- What `write` does with the output. -/
inductive Ev
  | begin (b : Blk)
  | piece (p : Piece)
  | «end» (b : Blk)
  deriving DecidableEq

/-- A piece under a condition. -/
def opt (c : Bool) (p : Piece) : List Ev := if c then [.piece p] else []

/-- gen/src/builtin.rs:149-197: the part that is left out when the user includes rust/cxx.h. -/
def copiedEvs (b : Builtins) : List (List Ev) :=
  [[.piece .comment], opt b.panic (.copied .panic), opt b.rustString .fwdBitcopyT,
   if b.friendImpl then [.begin .anonymous, .piece .fwdImpl, .end .anonymous] else [],
   opt (b.rustStr && !b.rustString) .fwdString, opt (b.layout && !b.rustOpaque) .fwdOpaque, opt b.rustSlice .fwdLayout,
   opt b.rustString (.copied .rustString), opt b.rustStr (.copied .rustStr), opt b.rustSlice (.copied .rustSlice),
   opt b.rustBox (.copied .rustBox), opt b.unsafeBitcopyT (.copied .bitcopyT), opt b.unsafeBitcopy (.copied .bitcopy),
   opt b.rustVec (.copied .rustVec), opt b.rustFn (.copied .rustFn), opt b.rustError (.copied .rustError),
   opt b.rustIsize (.copied .rustIsize), opt b.rustOpaque (.copied .rustOpaque), opt b.isComplete (.copied .isComplete),
   opt b.layout (.copied .layout), opt b.relocatable (.copied .relocatable)]

/-- gen/src/builtin.rs:201-420: the rest. -/
def ownEvs (b : Builtins) : List (List Ev) :=
  [opt b.rustStrNewUnchecked .strUninit, opt b.rustSliceNew .sliceUninit,
   [.begin .repr], opt b.reprFat .fat, opt b.ptrLen .ptrLen, [.end .repr],
   [.begin .detail], opt b.maybeUninit .operatorNew, opt b.trycatch .fail, [.end .detail],
   opt b.manuallyDrop .manuallyDrop, opt b.maybeUninit .maybeUninit,
   [.begin .anonymous],
   opt (b.rustStrNewUnchecked || b.rustStrRepr) (.implStr b.rustStrNewUnchecked b.rustStrRepr),
   opt (b.rustSliceNew || b.rustSliceRepr) (.implSlice b.rustSliceNew b.rustSliceRepr),
   opt b.rustError .implError, opt b.destroy .destroy, opt b.deleterIf .deleterIf,
   opt b.relocatableOrArray .relocatableOrArray,
   [.end .anonymous], [.end .cxxbridge1],
   if b.trycatch then [.begin .behavior, .piece .trycatch, .end .behavior] else []]

/-- gen/src/builtin.rs:215-417: the headers asked for while writing. -/
def ownIncludes (b : Builtins) (i : Std → Bool) : Std → Bool :=
  let i := if b.reprFat then ask i [.array, .cstdint] else i
  let i := if b.ptrLen then ask i [.cstddef] else i
  let i := if b.maybeUninit then ask i [.cstddef, .new] else i
  let i := if b.trycatch then ask i [.string] else i
  let i := if b.manuallyDrop then ask i [.utility] else i
  let i := if b.maybeUninit then ask i [.cstddef] else i
  let i := if b.trycatch then ask i [.exception, .typeTraits, .utility] else i
  i

/-- gen/src/builtin.rs:44-424 `write`: the headers asked for in the end and the output. -/
def writeBuiltins (i : Includes) (b : Builtins) : Includes × List Ev :=
  if b = {} then (i, []) else
  let (b, flag) := propagate b i.flag
  ({ i with flag := ownIncludes b flag },
    ([[Ev.begin .rust], [.begin .cxxbridge1]] ++ (if i.hasCxxHeader then [] else copiedEvs b) ++ ownEvs b ++
      [[Ev.end .rust]]).flatten)

end Verif.Preamble
