import Verif.Strings.Machine
/-!
# Both halves of the classes for strings and slices
-/
namespace Verif.Strings
open Verif.Thunk
variable {W : Type}

/-- A function that is declared in a block of foreign functions: the name by which it is called there, and the symbol. -/
structure Decl (P : Type) where
  name : Symbol
  sym : Symbol
  params : List P
  ret : P

/-- A function with C linkage.  `noexcept` is meant for C++; it is true of the Rust functions. -/
structure Fn (P W : Type) where
  sym : Symbol
  params : List P
  ret : P
  noexcept : Bool
  body : List Nat → Run W (List Nat)

/-- What the linker does: the function of that symbol. -/
def find {P : Type} (fns : List (Fn P W)) (sym : Symbol) : Option (Fn P W) := fns.find? fun f => f.sym == sym

/-- A call of a declared function of the other language, by its name. -/
def call {P Q : Type} (decls : List (Decl P)) (fns : List (Fn Q W)) (name : Symbol) (args : List Nat) : Run W (List Nat) :=
  match decls.find? fun d => d.name == name with
  | some d =>
    if args.length = d.params.length then
      match find fns d.sym with
      | some f => f.body args
      | none => stuck
    else stuck
  | none => stuck

/-! ### The functions that Rust exports -/

/-- src/symbols/rust_string.rs:10-114. -/
def stringFns (lib : Lib W) : List (Fn RText W) :=
  [⟨"cxxbridge1$string$new".toList, [.uninit .string], .unit, true, fun
    | [this] => lib.do_ (.stringEmpty this)
    | _ => stuck⟩,
   ⟨"cxxbridge1$string$clone".toList, [.uninit .string, .ref .string], .unit, true, fun
    | [this, other] => lib.do_ (.stringClone this other)
    | _ => stuck⟩,
   ⟨"cxxbridge1$string$from_utf8".toList, [.uninit .string, .bytes, .usize], .bool, true, fun
    | [this, ptr, len] => do
      let ok ← lib.run (.isUtf8 ptr len)
      if ok = 1 then
        let _ ← lib.run (.stringOfBytes this ptr len)
        pure [1]
      else pure [0]
    | _ => stuck⟩,
   ⟨"cxxbridge1$string$from_utf8_lossy".toList, [.uninit .string, .bytes, .usize], .unit, true, fun
    | [this, ptr, len] => lib.do_ (.stringLossy this ptr len)
    | _ => stuck⟩,
   ⟨"cxxbridge1$string$from_utf16".toList, [.uninit .string, .units, .usize], .bool, true, fun
    | [this, ptr, len] => do
      let ok ← lib.run (.isUtf16 ptr len)
      if ok = 1 then
        let _ ← lib.run (.stringOfUnits this ptr len)
        pure [1]
      else pure [0]
    | _ => stuck⟩,
   ⟨"cxxbridge1$string$from_utf16_lossy".toList, [.uninit .string, .units, .usize], .unit, true, fun
    | [this, ptr, len] => lib.do_ (.stringLossy16 this ptr len)
    | _ => stuck⟩,
   ⟨"cxxbridge1$string$drop".toList, [.last .string], .unit, true, fun
    | [this] => lib.do_ (.stringDrop this)
    | _ => stuck⟩,
   ⟨"cxxbridge1$string$ptr".toList, [.ref .string], .bytes, true, fun
    | [this] => lib.word (.stringPtr this)
    | _ => stuck⟩,
   ⟨"cxxbridge1$string$len".toList, [.ref .string], .usize, true, fun
    | [this] => lib.word (.stringLen this)
    | _ => stuck⟩,
   ⟨"cxxbridge1$string$capacity".toList, [.ref .string], .usize, true, fun
    | [this] => lib.word (.stringCapacity this)
    | _ => stuck⟩,
   ⟨"cxxbridge1$string$reserve_additional".toList, [.refMut .string, .usize], .unit, true, fun
    | [this, additional] => lib.do_ (.stringReserve this additional)
    | _ => stuck⟩,
   ⟨"cxxbridge1$string$reserve_total".toList, [.refMut .string, .usize], .unit, true, fun
    | [this, newCap] => do
      let cap ← lib.run (.stringCapacity this)
      if newCap > cap then
        let len ← lib.run (.stringLen this)
        lib.do_ (.stringReserve this (newCap - len))
      else pure []
    | _ => stuck⟩]

/-- src/symbols/rust_str.rs:14-20, which needs the feature `alloc`. -/
def strRefFn (lib : Lib W) : Fn RText W :=
  ⟨"cxxbridge1$str$ref".toList, [.uninit .strRef, .ref .string], .unit, true, fun
    | [this, string] => lib.do_ (.strOfString this string)
    | _ => stuck⟩

/-- src/symbols/rust_str.rs:8-12 and 22-43. -/
def strFns (lib : Lib W) : List (Fn RText W) :=
  [⟨"cxxbridge1$str$new".toList, [.uninit .strRef], .unit, true, fun
    | [this] => lib.do_ (.strEmpty this)
    | _ => stuck⟩,
   ⟨"cxxbridge1$str$from".toList, [.uninit .strRef, .bytes, .usize], .bool, true, fun
    | [this, ptr, len] => do
      let ok ← lib.run (.isUtf8 ptr len)
      if ok = 1 then
        let _ ← lib.run (.strOfBytes this ptr len)
        pure [1]
      else pure [0]
    | _ => stuck⟩,
   ⟨"cxxbridge1$str$ptr".toList, [.ref .strRef], .bytes, true, fun
    | [this] => lib.word (.strPtr this)
    | _ => stuck⟩,
   ⟨"cxxbridge1$str$len".toList, [.ref .strRef], .usize, true, fun
    | [this] => lib.word (.strLen this)
    | _ => stuck⟩]

/-- src/symbols/rust_slice.rs:5-20. -/
def sliceFns (lib : Lib W) : List (Fn RText W) :=
  [⟨"cxxbridge1$slice$new".toList, [.uninit .rustSlice, .nonNull, .usize], .unit, true, fun
    | [this, ptr, len] => lib.do_ (.sliceOf this ptr len)
    | _ => stuck⟩,
   ⟨"cxxbridge1$slice$ptr".toList, [.ref .rustSlice], .nonNull, true, fun
    | [this] => lib.word (.slicePtr this)
    | _ => stuck⟩,
   ⟨"cxxbridge1$slice$len".toList, [.ref .rustSlice], .usize, true, fun
    | [this] => lib.word (.sliceLen this)
    | _ => stuck⟩]

/-- src/symbols/exception.rs:9-18. -/
def exceptionFn (lib : Lib W) : Fn RText W :=
  ⟨"cxxbridge1$exception".toList, [.bytes, .usize], .ptrLen, true, fun
    | [ptr, len] => do
      let box ← lib.run (.boxedLossy ptr len)
      let len ← lib.run (.boxedLen box)
      pure [box, len]
    | _ => stuck⟩

/-- src/symbols/mod.rs:1-5: the functions that the crate exports, with or without the feature `alloc`. -/
def rustFns (lib : Lib W) (alloc : Bool) : List (Fn RText W) :=
  (if alloc then exceptionFn lib :: strRefFn lib :: stringFns lib else []) ++ strFns lib ++ sliceFns lib

/-! ### Their declarations in C++ -/

/-- A declaration in C++, where the name is the symbol. -/
def cdecl (sym : String) (params : List CText) (ret : CText) : Decl CText := ⟨sym.toList, sym.toList, params, ret⟩

/-- src/cxx.cc:38-71 and 531-533. -/
def cxxDecls : List (Decl CText) :=
  [cdecl "cxxbridge1$string$new" [.obj .rustString false] .void,
   cdecl "cxxbridge1$string$clone" [.obj .rustString false, .obj .rustString true] .void,
   cdecl "cxxbridge1$string$from_utf8" [.obj .rustString false, .chars, .size] .bool,
   cdecl "cxxbridge1$string$from_utf8_lossy" [.obj .rustString false, .chars, .size] .void,
   cdecl "cxxbridge1$string$from_utf16" [.obj .rustString false, .units, .size] .bool,
   cdecl "cxxbridge1$string$from_utf16_lossy" [.obj .rustString false, .units, .size] .void,
   cdecl "cxxbridge1$string$drop" [.obj .rustString false] .void,
   cdecl "cxxbridge1$string$ptr" [.obj .rustString true] .chars,
   cdecl "cxxbridge1$string$len" [.obj .rustString true] .size,
   cdecl "cxxbridge1$string$capacity" [.obj .rustString true] .size,
   cdecl "cxxbridge1$string$reserve_additional" [.obj .rustString false, .size] .void,
   cdecl "cxxbridge1$string$reserve_total" [.obj .rustString false, .size] .void,
   cdecl "cxxbridge1$str$new" [.obj .rustStr false] .void,
   cdecl "cxxbridge1$str$ref" [.obj .rustStr false, .obj .rustString true] .void,
   cdecl "cxxbridge1$str$from" [.obj .rustStr false, .chars, .size] .bool,
   cdecl "cxxbridge1$str$ptr" [.obj .rustStr true] .chars,
   cdecl "cxxbridge1$str$len" [.obj .rustStr true] .size,
   cdecl "cxxbridge1$slice$new" [.obj .untyped false, .obj .untyped true, .size] .void,
   cdecl "cxxbridge1$slice$ptr" [.obj .untyped true] (.obj .untyped false),
   cdecl "cxxbridge1$slice$len" [.obj .untyped true] .size,
   cdecl "cxxbridge1$exception" [.chars, .size] .ptrLen]

/-! ### The functions that C++ exports -/

/-- src/cxx.cc:7-36 and 465-475. -/
def cxxFns (lib : Lib W) : List (Fn CText W) :=
  [⟨"cxxbridge1$cxx_string$init".toList, [.obj .stdString false, .bytes, .size], .void, true, fun
    | [s, ptr, len] => lib.do_ (.stdInit s ptr len)
    | _ => stuck⟩,
   ⟨"cxxbridge1$cxx_string$destroy".toList, [.obj .stdString false], .void, true, fun
    | [s] => lib.do_ (.stdDestroy s)
    | _ => stuck⟩,
   ⟨"cxxbridge1$cxx_string$data".toList, [.obj .stdString true], .chars, true, fun
    | [s] => lib.word (.stdData s)
    | _ => stuck⟩,
   ⟨"cxxbridge1$cxx_string$length".toList, [.obj .stdString true], .size, true, fun
    | [s] => lib.word (.stdLength s)
    | _ => stuck⟩,
   ⟨"cxxbridge1$cxx_string$clear".toList, [.obj .stdString false], .void, true, fun
    | [s] => lib.do_ (.stdClear s)
    | _ => stuck⟩,
   ⟨"cxxbridge1$cxx_string$reserve_total".toList, [.obj .stdString false, .size], .void, true, fun
    | [s, newCap] => lib.do_ (.stdReserve s newCap)
    | _ => stuck⟩,
   ⟨"cxxbridge1$cxx_string$push".toList, [.obj .stdString false, .bytes, .size], .void, true, fun
    | [s, ptr, len] => lib.do_ (.stdAppend s ptr len)
    | _ => stuck⟩,
   ⟨"cxxbridge1$error".toList, [.chars, .size], .chars, true, fun
    | [ptr, len] => do
      let copy ← lib.run (.newChars len)
      let _ ← lib.run (.memcpy copy ptr len)
      pure [copy]
    | _ => stuck⟩]

/-! ### Their declarations in Rust -/

/-- src/cxx_string.rs:17-32 and src/result.rs:45-48. -/
def rustDecls : List (Decl RText) :=
  [⟨"string_init".toList, "cxxbridge1$cxx_string$init".toList, [.uninit .cxxString, .bytes, .usize], .unit⟩,
   ⟨"string_destroy".toList, "cxxbridge1$cxx_string$destroy".toList, [.uninit .cxxString], .unit⟩,
   ⟨"string_data".toList, "cxxbridge1$cxx_string$data".toList, [.ref .cxxString], .bytes⟩,
   ⟨"string_length".toList, "cxxbridge1$cxx_string$length".toList, [.ref .cxxString], .usize⟩,
   ⟨"string_clear".toList, "cxxbridge1$cxx_string$clear".toList, [.refMut .cxxString], .unit⟩,
   ⟨"string_reserve_total".toList, "cxxbridge1$cxx_string$reserve_total".toList, [.refMut .cxxString, .usize], .unit⟩,
   ⟨"string_push".toList, "cxxbridge1$cxx_string$push".toList, [.refMut .cxxString, .bytes, .usize], .unit⟩,
   ⟨"error".toList, "cxxbridge1$error".toList, [.bytes, .usize], .nonNullByte⟩]

/-! ### The callers in C++ -/

/-- A call of a Rust function in `cxx.cc`, which is linked with a crate that has the feature `alloc`. -/
def cpp (lib : Lib W) (name : String) (args : List Nat) : Run W (List Nat) :=
  call cxxDecls (rustFns lib true) name.toList args

/-- The pointer that is passed on: `s == nullptr && len == 0 ? reinterpret_cast<T *>(align) : s`. -/
def orDangling (align s len : Nat) : Nat := if s = 0 ∧ len = 0 then align else s

/-- src/cxx.cc:107-111 and 113-117 `initString`, 304-308 `initStr`: an exception if the text is refused. -/
def initText (lib : Lib W) (name : String) (self s len : Nat) : Run W (List Nat) := do
  match ← cpp lib name [self, s, len] with
  | [0] => lib.do_ .throwInvalid
  | _ => pure []

/-- The members of `rust::String`, `rust::Str` and `rust::Slice` that call Rust. -/
inductive Member
  /-- src/cxx.cc:95 -/
  | stringNew
  /-- 97-99 -/
  | stringCopy
  /-- 101-103 -/
  | stringMove
  /-- 105 -/
  | stringDrop
  /-- 121-124 -/
  | stringCstr
  /-- 126-131 -/
  | stringChars
  /-- 146-153 -/
  | stringUnits
  /-- 157-161, 179-182 -/
  | lossyChars
  /-- 163-168, 190-194 -/
  | lossyUnits
  /-- 196-202 -/
  | stringAssign
  /-- 204-209 -/
  | stringMoveAssign
  /-- 215-217 -/
  | stringData
  /-- 219-221 -/
  | stringSize
  /-- 223-225 -/
  | stringLength
  /-- 229-235 -/
  | stringCStr
  /-- 237-239 -/
  | stringCapacity
  /-- 241-243 -/
  | stringReserve
  /-- 300 -/
  | strNew
  /-- 302 -/
  | strOfString
  /-- 317-322 -/
  | strChars
  /-- 334 -/
  | strData
  /-- 336 -/
  | strSize
  /-- 395-397 -/
  | sliceInit
  /-- 399 -/
  | slicePtr
  /-- 401-403 -/
  | sliceLen
  /-- 563-565 -/
  | failCstr
  /-- 567-569 -/
  | failString
  deriving DecidableEq, Repr

/-- src/cxx.cc:95-243, 300-336, 395-403, 563-569: the members.  Assertions about null and alignment are left out (C100);
an assignment of the representation copies the words of the object. -/
def member (lib : Lib W) : Member → List Nat → Run W (List Nat)
  | .stringNew, [this] => cpp lib "cxxbridge1$string$new" [this]
  | .stringCopy, [this, other] => cpp lib "cxxbridge1$string$clone" [this, other]
  | .stringMove, [this, other] => do
    let _ ← lib.run (.copyRepr this other)
    cpp lib "cxxbridge1$string$new" [other]
  | .stringDrop, [this] => cpp lib "cxxbridge1$string$drop" [this]
  | .stringCstr, [this, s] => do
    let len ← lib.run (.strlen s)
    initText lib "cxxbridge1$string$from_utf8" this s len
  | .stringChars, [this, s, len] => initText lib "cxxbridge1$string$from_utf8" this (orDangling 1 s len) len
  | .stringUnits, [this, s, len] => initText lib "cxxbridge1$string$from_utf16" this (orDangling 2 s len) len
  | .lossyChars, [this, s, len] => cpp lib "cxxbridge1$string$from_utf8_lossy" [this, orDangling 1 s len, len]
  | .lossyUnits, [this, s, len] => cpp lib "cxxbridge1$string$from_utf16_lossy" [this, orDangling 2 s len, len]
  | .stringAssign, [this, other] => do
    if this ≠ other then
      let _ ← cpp lib "cxxbridge1$string$drop" [this]
      let _ ← cpp lib "cxxbridge1$string$clone" [this, other]
      pure [this]
    else pure [this]
  | .stringMoveAssign, [this, other] => do
    let _ ← cpp lib "cxxbridge1$string$drop" [this]
    let _ ← lib.run (.copyRepr this other)
    let _ ← cpp lib "cxxbridge1$string$new" [other]
    pure [this]
  | .stringData, [this] => cpp lib "cxxbridge1$string$ptr" [this]
  | .stringSize, [this] => cpp lib "cxxbridge1$string$len" [this]
  | .stringLength, [this] => cpp lib "cxxbridge1$string$len" [this]
  | .stringCStr, [this] => do
    match ← cpp lib "cxxbridge1$string$len" [this] with
    | [len] =>
      let _ ← cpp lib "cxxbridge1$string$reserve_additional" [this, 1]
      match ← cpp lib "cxxbridge1$string$ptr" [this] with
      | [ptr] =>
        let _ ← lib.run (.storeByte (ptr + len) 0)
        pure [ptr]
      | _ => stuck
    | _ => stuck
  | .stringCapacity, [this] => cpp lib "cxxbridge1$string$capacity" [this]
  | .stringReserve, [this, newCap] => cpp lib "cxxbridge1$string$reserve_total" [this, newCap]
  | .strNew, [this] => cpp lib "cxxbridge1$str$new" [this]
  | .strOfString, [this, s] => cpp lib "cxxbridge1$str$ref" [this, s]
  | .strChars, [this, s, len] => initText lib "cxxbridge1$str$from" this (orDangling 1 s len) len
  | .strData, [this] => cpp lib "cxxbridge1$str$ptr" [this]
  | .strSize, [this] => cpp lib "cxxbridge1$str$len" [this]
  | .sliceInit, [self, ptr, len] => cpp lib "cxxbridge1$slice$new" [self, ptr, len]
  | .slicePtr, [self] => cpp lib "cxxbridge1$slice$ptr" [self]
  | .sliceLen, [self] => cpp lib "cxxbridge1$slice$len" [self]
  | .failCstr, [s] => do
    let len ← lib.run (.strlen s)
    cpp lib "cxxbridge1$exception" [s, len]
  | .failString, [s] => do
    let data ← lib.run (.stdData s)
    let len ← lib.run (.stdLength s)
    cpp lib "cxxbridge1$exception" [data, len]
  | _, _ => stuck

/-! ### The callers in Rust -/

/-- A call of a C++ function in the Rust crate. -/
def rust (lib : Lib W) (name : String) (args : List Nat) : Run W (List Nat) :=
  call rustDecls (cxxFns lib) name.toList args

/-- The methods of `CxxString` and its like that call C++. -/
inductive Method
  /-- src/cxx_string.rs:104-106 -/
  | len
  /-- 137-139 -/
  | asPtr
  /-- 184-186 -/
  | clear
  /-- 208-214 -/
  | reserve
  /-- 222-224 -/
  | pushBytes
  /-- 312-319 `StackString::init` -/
  | init
  /-- 322-329 `Drop for StackString` -/
  | drop
  /-- src/result.rs:39-53 `to_c_error` -/
  | toCError
  deriving DecidableEq, Repr

/-- src/cxx_string.rs:104-329 and src/result.rs:39-53: the methods.  A slice is given by its pointer and length; `max` is
`usize::MAX`. -/
def method (lib : Lib W) (max : Nat) : Method → List Nat → Run W (List Nat)
  | .len, [this] => rust lib "string_length" [this]
  | .asPtr, [this] => rust lib "string_data" [this]
  | .clear, [this] => rust lib "string_clear" [this]
  | .reserve, [this, additional] => do
    match ← rust lib "string_length" [this] with
    | [len] =>
      if len + additional ≤ max then rust lib "string_reserve_total" [this, len + additional]
      else lib.do_ .panic
    | _ => stuck
  | .pushBytes, [this, ptr, len] => rust lib "string_push" [this, ptr, len]
  | .init, [space, ptr, len] => do
    let _ ← rust lib "string_init" [space, ptr, len]
    pure [space]
  | .drop, [space] => rust lib "string_destroy" [space]
  | .toCError, [msg] => do
    let _ ← lib.run (.pushNul msg)
    let ptr ← lib.run (.stringPtr msg)
    let len ← lib.run (.stringLen msg)
    match ← rust lib "error" [ptr, len] with
    | [copy] => pure [copy, len]
    | _ => stuck
  | _, _ => stuck

end Verif.Strings
