import Verif.Syntax.Ast
/-!
# The types of the runtime

The definitions, in both languages, of the types that the runtime hands over (`src/*.rs`, `include/cxx.h`), and the
compile-time checks about their sizes (`const_assert_eq!`, `transmute`, `static_assert`).  What the standard libraries and
the platform contribute is left open; the rules of the compilers are in `Verif/Repr/Spec`.  Methods, traits and names of
fields are left out.  The features `alloc` and `std` are on.
-/
namespace Verif.Repr
open Verif.Syntax

/-- Type arguments: `c_void`, a builtin type of cxx, `&str`, a type of a bridge, `CxxVector<T>`. -/
inductive Arg
  | void
  | atom (a : Atom)
  | str
  | user (n : Ident)
  | vector (t : Arg)
  deriving DecidableEq

/-! ### Rust -/

/-- Rust types.  Those of the first line are primitive (`ptr`: a raw pointer, reference, `NonNull` or `Box` to a `Sized`
type), those of the second from the standard library: `String`, `Vec<T>`, `NonNull<str>`, `NonNull<[()]>`. -/
inductive RTy
  | usize | isize | ptr | cvoid | phantom
  | string | vec (t : Arg) | fatStr | fatSlice
  | uninit (t : RTy)
  | array (t : RTy) (n : Nat)
  /-- `#[repr(C)]` -/
  | record (fields : List RTy)
  /-- `#[repr(C, packed)]` -/
  | packed (fields : List RTy)
  /-- `#[repr(C)] union` -/
  | union (fields : List RTy)

/-- src/rust_string.rs:8-12 `struct RustString`; `size` is `mem::size_of`. -/
def rustString (size : RTy → Nat) : RTy := .record [.array (.uninit .usize) (size .string / size .usize)]

/-- src/rust_vec.rs:12-17 `struct RustVec<T>`. -/
def rustVec (size : RTy → Nat) : RTy := .record [.array (.uninit .usize) (size (.vec .void) / size .usize), .phantom]

/-- src/rust_str.rs:7-11 `struct RustStr`. -/
def rustStr (size : RTy → Nat) : RTy := .record [.array (.uninit .usize) (size .fatStr / size .usize)]

/-- src/rust_slice.rs:7-11 `struct RustSlice`. -/
def rustSlice (size : RTy → Nat) : RTy := .record [.array (.uninit .usize) (size .fatSlice / size .usize)]

/-- src/unique_ptr.rs:22-29 `struct UniquePtr<T>`. -/
def uniquePtr : RTy := .record [.uninit .ptr, .phantom]

/-- src/shared_ptr.rs:15-22 `struct SharedPtr<T>`. -/
def sharedPtr : RTy := .record [.array (.uninit .ptr) 2, .phantom]

/-- src/weak_ptr.rs:14-21 `struct WeakPtr<T>`. -/
def weakPtr : RTy := .record [.array (.uninit .ptr) 2, .phantom]

/-- src/cxx_string.rs:297-302 `struct StackString`. -/
def stackString : RTy := .record [.uninit (.array .usize 8)]

/-- src/function.rs:5-9 `struct FatFunction`: the trampoline and the function. -/
def fatFunction : List RTy := [.ptr, .ptr]

/-- src/result.rs:13-18 `PtrLen`: pointer and length. -/
def ptrLen : List RTy := [.ptr, .usize]

/-- src/result.rs:20-24 `Result`. -/
def result : RTy := .union [.record ptrLen, .ptr]

/-- src/cxx_string.rs:44-48 `struct CxxString`; `u8` has the layout of `c_void` (core::ffi: an enum with `#[repr(u8)]`). -/
def cxxString : RTy := .record [.array .cvoid 0, .phantom]

/-- src/cxx_vector.rs:24-34 `struct CxxVector<T>`. -/
def cxxVector : RTy := .packed [.array .cvoid 0, .phantom, .phantom]

/-- src/opaque.rs:17-22 `struct Opaque`; `SyncUnsafeCell<PhantomData<()>>` (27-28) is transparent. -/
def opaqueType : RTy := .packed [.array .ptr 0, .phantom, .phantom]

/-- src/symbols/rust_vec.rs:59-75: the elements for which there is `rust_vec_shims!`. -/
def vecElements : List Arg :=
  [.atom .bool, .atom .u8, .atom .u16, .atom .u32, .atom .u64, .atom .usize, .atom .i8, .atom .i16, .atom .i32, .atom .i64,
   .atom .isize, .atom .f32, .atom .f64, .atom .char, .atom .rustString, .str]

/-- The two sides of every `const_assert_eq!`: src/rust_string.rs:46-48, src/rust_str.rs:27-28, src/rust_slice.rs:62-66,
src/opaque.rs:32-33, src/cxx_vector.rs:412-413, src/symbols/rust_vec.rs:12-14. -/
def constAsserts (size align : RTy → Nat) : List (Nat × Nat) :=
  [(size (.array .usize 3), size (rustString size)), (size .string, size (rustString size)),
   (align .string, align (rustString size)),
   (size .fatStr, size (rustStr size)), (align .fatStr, align (rustStr size)),
   (size .fatSlice, size (rustSlice size)), (align .fatSlice, align (rustSlice size)),
   (0, size opaqueType), (1, align opaqueType), (0, size cxxVector), (1, align cxxVector)] ++
  vecElements.flatMap (fun t =>
    [(size (.array .usize 3), size (rustVec size)), (size (.vec t), size (rustVec size)),
     (align (.vec t), align (rustVec size))])

/-- The types of every `mem::transmute`: src/rust_string.rs:16, 28, src/rust_vec.rs:25, 37, src/rust_str.rs:16, 21,
src/rust_slice.rs:44, 49, 55.  Those of `RustVec<T>` are there for every `T`. -/
def transmutes (size : RTy → Nat) (t : Arg) : List (RTy × RTy) :=
  [(.string, rustString size), (.vec t, rustVec size), (.fatStr, rustStr size), (.fatSlice, rustSlice size)]

/-! ### C++ -/

/-- C++ types. -/
inductive CTy
  | uintptr | intptr | sizeT | ssizeT | ptr | fnPtr
  | string | uniquePtr (t : Arg) | sharedPtr (t : Arg) | weakPtr (t : Arg)
  | array (t : CTy) (n : Nat)
  /-- A class without virtual functions; base classes are empty. -/
  | cls (fields : List CTy)

/-- include/cxx.h:44-114 `class String`. -/
def cString : CTy := .cls [.array .uintptr 3]

/-- include/cxx.h:340-401 `class Vec`. -/
def cVec : CTy := .cls [.array .uintptr 3]

/-- include/cxx.h:120-167 `class Str`. -/
def cStr : CTy := .cls [.array .uintptr 2]

/-- include/cxx.h:185-229 `class Slice`. -/
def cSlice : CTy := .cls [.array .uintptr 2]

/-- include/cxx.h:291-334 `class Box`. -/
def cBox : CTy := .cls [.ptr]

/-- include/cxx.h:410-418 `class Fn`. -/
def cFn : List CTy := [.fnPtr, .ptr]

/-- src/cxx.cc:525-528 and gen/src/builtin.rs:225-228 `struct PtrLen`. -/
def cPtrLen : List CTy := [.ptr, .sizeT]

/-- What a `static_assert` compares: a size with a multiple of another one, or two alignments. -/
inductive StaticAssert
  | sizeEq (a : CTy) (k : Nat) (b : CTy)
  | alignEq (a b : CTy)
  | sizeLe (a : CTy) (k : Nat) (b : CTy)
  | alignLe (a b : CTy)

/-- src/cxx.cc:797-802 `FOR_EACH_SHARED_PTR`. -/
def sharedTargets : List Arg :=
  [.atom .u8, .atom .u16, .atom .u32, .atom .u64, .atom .i8, .atom .i16, .atom .i32, .atom .i64, .atom .f32, .atom .f64,
   .atom .bool, .atom .usize, .atom .isize, .atom .cxxString]

/-- src/cxx.cc:714-715 and gen/src/write.rs:1797-1806. -/
def sharedAsserts (t : Arg) : List StaticAssert := [.sizeEq (.sharedPtr t) 2 .ptr, .alignEq (.sharedPtr t) .ptr]

/-- src/cxx.cc:740-741 and gen/src/write.rs:1871-1880. -/
def weakAsserts (t : Arg) : List StaticAssert := [.sizeEq (.weakPtr t) 2 .ptr, .alignEq (.weakPtr t) .ptr]

/-- gen/src/write.rs:1698-1707. -/
def uniqueAsserts (t : Arg) : List StaticAssert := [.sizeEq (.uniquePtr t) 1 .ptr, .alignEq (.uniquePtr t) .ptr]

/-- src/cxx.cc:414-421, 606-610, 713-741.  Assertions about traits are left out. -/
def runtimeAsserts : List StaticAssert :=
  [.sizeEq .sizeT 1 .uintptr, .alignEq .sizeT .uintptr, .sizeEq .ssizeT 1 .intptr, .alignEq .ssizeT .intptr,
   .alignLe .string .ptr, .sizeLe .string 8 .ptr] ++
  sharedTargets.flatMap (fun t => sharedAsserts t ++ weakAsserts t)

/-- The instantiations of a bridge for which code is generated (gen/src/write.rs:1670-1990). -/
structure Instances where
  unique : List Arg
  shared : List Arg
  weak : List Arg

/-- The assertions about layout in the code generated for them.  A `CxxVector<T>` brings with it `UniquePtr<CxxVector<T>>`
(gen/src/write.rs:1992), which is taken to be in `unique`. -/
def generatedAsserts (i : Instances) : List StaticAssert :=
  i.unique.flatMap uniqueAsserts ++ i.shared.flatMap sharedAsserts ++ i.weak.flatMap weakAsserts

end Verif.Repr
