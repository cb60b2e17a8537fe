import Verif.Strings.Machine
/-!
# When two declarations of one function fit
-/
namespace Verif.Strings

/-- The same object in both languages: the table of built-in bindings in the book (book/src/bindings.md).  A slice is handed
over by C++ as `void *`. -/
inductive Same : CObj → RObj → Prop
  | cxxString : Same .stdString .cxxString
  | string : Same .rustString .string
  | str : Same .rustStr .strRef
  | slice : Same .untyped .rustSlice

/-- An argument that C++ passes as the first type may be taken by Rust as the second.  Rust writes only to what is not
`const`. -/
inductive Given : CText → RText → Prop
  | size : Given .size .usize
  | chars : Given .chars .bytes
  | units : Given .units .units
  | read {o o' c} : Same o o' → Given (.obj o c) (.ref o')
  | write {o o'} : Same o o' → Given (.obj o false) (.refMut o')
  | uninit {o o'} : Same o o' → Given (.obj o false) (.uninit o')
  | last {o o'} : Same o o' → Given (.obj o false) (.last o')
  | place {c} : Given (.obj .untyped c) .nonNull

/-- What Rust returns as the second type may be received by C++ as the first. -/
inductive Received : CText → RText → Prop
  | void : Received .void .unit
  | bool : Received .bool .bool
  | size : Received .size .usize
  | ptrLen : Received .ptrLen .ptrLen
  | chars : Received .chars .bytes
  | place : Received (.obj .untyped false) .nonNull

/-- An argument that Rust passes as the first type may be taken by C++ as the second.  C++ writes only to what Rust gave
it for writing. -/
inductive Passed : RText → CText → Prop
  | usize : Passed .usize .size
  | bytes : Passed .bytes .bytes
  | chars : Passed .bytes .chars
  | uninit {o o'} : Same o o' → Passed (.uninit o') (.obj o false)
  | ref {o o'} : Same o o' → Passed (.ref o') (.obj o true)
  | refMut {o o' c} : Same o o' → Passed (.refMut o') (.obj o c)

/-- What C++ returns as the second type may be received by Rust as the first. -/
inductive Returned : RText → CText → Prop
  | unit : Returned .unit .void
  | usize : Returned .usize .size
  | bytes : Returned .bytes .chars
  | owned : Returned .nonNullByte .chars

end Verif.Strings
