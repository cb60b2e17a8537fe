import Verif.Thunk.Machine
/-!
# What the functions for strings and slices are made of

The classes `rust::String`, `rust::Str` and `rust::Slice` are C++ shells around Rust values, and `CxxString` is a Rust shell
around `std::string`.  They work by calling functions of the other language.  The operations at the bottom belong to the two
standard libraries; nothing is assumed of them here.  Addresses, sizes and flags are numbers.
-/
namespace Verif.Strings
open Verif.Thunk

/-- A linker symbol. -/
abbrev Symbol := List Char

/-- The library operations. -/
inductive TextOp
  /-- writes `String::new()` to the address -/
  | stringEmpty (this : Nat)
  /-- writes a clone of the `String` at the second address to the first -/
  | stringClone (this other : Nat)
  /-- are these bytes UTF-8? -/
  | isUtf8 (ptr len : Nat)
  /-- writes the `String` with these bytes to the address -/
  | stringOfBytes (this ptr len : Nat)
  /-- writes `String::from_utf8_lossy` of these bytes to the address -/
  | stringLossy (this ptr len : Nat)
  /-- are these units UTF-16? -/
  | isUtf16 (ptr len : Nat)
  /-- writes the `String` with these units to the address -/
  | stringOfUnits (this ptr len : Nat)
  /-- writes `String::from_utf16_lossy` of these units to the address -/
  | stringLossy16 (this ptr len : Nat)
  /-- drops the `String` at the address -/
  | stringDrop (this : Nat)
  | stringPtr (this : Nat)
  | stringLen (this : Nat)
  | stringCapacity (this : Nat)
  /-- `String::reserve`: space for so many further bytes -/
  | stringReserve (this additional : Nat)
  /-- writes `""` to the address -/
  | strEmpty (this : Nat)
  /-- writes the `&str` of the `String` at the second address to the first -/
  | strOfString (this string : Nat)
  /-- writes the `&str` of these bytes to the address -/
  | strOfBytes (this ptr len : Nat)
  | strPtr (this : Nat)
  | strLen (this : Nat)
  /-- writes the slice of this pointer and length to the address -/
  | sliceOf (this ptr len : Nat)
  | slicePtr (this : Nat)
  | sliceLen (this : Nat)
  /-- a new boxed `str` with `String::from_utf8_lossy` of these bytes; gives its address -/
  | boxedLossy (ptr len : Nat)
  /-- the length of the boxed `str` at the address -/
  | boxedLen (box : Nat)
  /-- appends the byte 0 to the message, a `String`; gives its new length -/
  | pushNul (msg : Nat)
  /-- `new (s) std::string(ptr, len)` -/
  | stdInit (s ptr len : Nat)
  /-- `s->~string()` -/
  | stdDestroy (s : Nat)
  | stdData (s : Nat)
  | stdLength (s : Nat)
  | stdClear (s : Nat)
  /-- `s.reserve(new_cap)` of C++: space for so many bytes in all -/
  | stdReserve (s newCap : Nat)
  /-- `s.append(ptr, len)` -/
  | stdAppend (s ptr len : Nat)
  /-- `new char[len]` -/
  | newChars (len : Nat)
  /-- `std::memcpy(to, ptr, len)` -/
  | memcpy (to ptr len : Nat)
  /-- `std::strlen(s)` -/
  | strlen (s : Nat)
  /-- the words of the object at the second address are copied to the first -/
  | copyRepr (this other : Nat)
  /-- one byte is written -/
  | storeByte (addr byte : Nat)
  /-- `throw std::invalid_argument` -/
  | throwInvalid
  /-- a Rust panic -/
  | panic
  deriving DecidableEq, Repr

/-- An interpretation of the operations. -/
abbrev Lib (W : Type) := TextOp → W → Nat × W

/-- Performs an operation. -/
def Lib.run {W : Type} (lib : Lib W) (o : TextOp) : Run W Nat := fun w => some (lib o w)

/-- A call that cannot be made. -/
def stuck {W : Type} : Run W (List Nat) := fun _ => none

/-- The word that an operation gives. -/
def Lib.word {W : Type} (lib : Lib W) (o : TextOp) : Run W (List Nat) := do let x ← lib.run o; pure [x]

/-- An operation that gives nothing. -/
def Lib.do_ {W : Type} (lib : Lib W) (o : TextOp) : Run W (List Nat) := do let _ ← lib.run o; pure []

/-- The objects behind pointers in C++; `untyped` is `void`. -/
inductive CObj
  | stdString | rustString | rustStr | untyped
  deriving DecidableEq, Repr

/-- Types in the C++ declarations.  References are pointers. -/
inductive CText
  | void
  | bool
  | size
  | ptrLen
  | obj (o : CObj) (const_ : Bool)
  /-- `const char *` -/
  | chars
  /-- `const std::uint8_t *` -/
  | bytes
  /-- `const char16_t *` -/
  | units
  deriving DecidableEq, Repr

/-- The objects behind pointers in Rust. -/
inductive RObj
  | cxxString | string | strRef | rustSlice
  deriving DecidableEq, Repr

/-- Types in the Rust declarations. -/
inductive RText
  | unit
  | bool
  | usize
  | ptrLen
  /-- `&mut MaybeUninit<T>` -/
  | uninit (o : RObj)
  /-- `&mut ManuallyDrop<T>` -/
  | last (o : RObj)
  /-- `&T` -/
  | ref (o : RObj)
  /-- `&mut T`, `Pin<&mut T>` -/
  | refMut (o : RObj)
  /-- `*const u8` -/
  | bytes
  /-- `*const u16` -/
  | units
  /-- `NonNull<()>` -/
  | nonNull
  /-- `NonNull<u8>` -/
  | nonNullByte
  deriving DecidableEq, Repr

end Verif.Strings
