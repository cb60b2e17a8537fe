import Verif.Thunk.Machine
import Verif.Builtins.Model
/-!
# The built-in types in both languages, and when two declarations fit
-/
namespace Verif.Runtime
open Verif.Syntax Verif.Thunk Verif.Builtins

/-- The Rust type `T` and the C++ type `t` stand for one built-in type: the table of built-in bindings in the book
(book/src/bindings.md), in the spelling of the sources. -/
inductive Stands : Elem → Ident → CName → Prop
  | bool : Stands (.atom .bool) "bool" ⟨[], "bool"⟩
  | char : Stands (.atom .char) "c_char" ⟨[], "char"⟩
  | u8 : Stands (.atom .u8) "u8" ⟨["std"], "uint8_t"⟩
  | u16 : Stands (.atom .u16) "u16" ⟨["std"], "uint16_t"⟩
  | u32 : Stands (.atom .u32) "u32" ⟨["std"], "uint32_t"⟩
  | u64 : Stands (.atom .u64) "u64" ⟨["std"], "uint64_t"⟩
  | usize : Stands (.atom .usize) "usize" ⟨["std"], "size_t"⟩
  | i8 : Stands (.atom .i8) "i8" ⟨["std"], "int8_t"⟩
  | i16 : Stands (.atom .i16) "i16" ⟨["std"], "int16_t"⟩
  | i32 : Stands (.atom .i32) "i32" ⟨["std"], "int32_t"⟩
  | i64 : Stands (.atom .i64) "i64" ⟨["std"], "int64_t"⟩
  | isize : Stands (.atom .isize) "isize" ⟨["rust"], "isize"⟩
  | f32 : Stands (.atom .f32) "f32" ⟨[], "float"⟩
  | f64 : Stands (.atom .f64) "f64" ⟨[], "double"⟩
  | cxxString : Stands (.atom .cxxString) "CxxString" ⟨["std"], "string"⟩
  | rustString : Stands (.atom .rustString) "RustString" ⟨["rust"], "String"⟩
  | str : Stands .str "&str" ⟨["rust"], "Str"⟩

/-- `e'` is `e`, or the integer type of fixed width that is the same C++ type as `e` on the platform. -/
inductive SameHere (p : Platform) : Elem → Elem → Prop
  | refl (e) : SameHere p e e
  | usize64 : p.size = some true → SameHere p (.atom .usize) (.atom .u64)
  | usize32 : p.size = some false → SameHere p (.atom .usize) (.atom .u32)
  | isize64 : p.isize = some true → SameHere p (.atom .isize) (.atom .i64)
  | isize32 : p.isize = some false → SameHere p (.atom .isize) (.atom .i32)
  | charUnsigned : p.char = some true → SameHere p (.atom .char) (.atom .u8)
  | charSigned : p.char = some false → SameHere p (.atom .char) (.atom .i8)

/-- What C++ may write through, Rust may write through. -/
def Writable (rustMut cxxConst : Bool) : Prop := rustMut = true ∨ cxxConst = true

/-- An argument that Rust passes as the first type may be taken by C++ as the second: both are sizes, or both are pointers
to the same thing. -/
inductive Passed (T : Ident) (t : CName) : RPTy → CPTy → Prop
  | size : Passed T t .usize .size
  | repr {m c} : Writable m c → Passed T t (.repr m) (.unique (.named t) c)
  | reprVector {m c} : Writable m c → Passed T t (.repr m) (.unique (.vector t) c)
  | shared {m c} : Writable m c → Passed T t (.opaque_ m) (.shared (.named t) c)
  | weak {m c} : Writable m c → Passed T t (.opaque_ m) (.weak (.named t) c)
  | obj {m c} : Writable m c → Passed T t (.obj T m) (.obj (.named t) c)
  | vector {m c} : Writable m c → Passed T t (.cxxVector T m) (.obj (.vector t) c)

/-- What C++ returns as the second type may be received by Rust as the first. -/
inductive Returned (T : Ident) (t : CName) : RPTy → CPTy → Prop
  | unit : Returned T t .unit .void
  | size : Returned T t .usize .size
  | memory {m c} : (m = true → c = false) → Returned T t (.opaque_ m) (.obj (.named t) c)
  | obj {m c} : (m = true → c = false) → Returned T t (.obj T m) (.obj (.named t) c)
  | vector {m c} : (m = true → c = false) → Returned T t (.cxxVector T m) (.obj (.vector t) c)

/-- An argument that C++ passes as the first type may be taken by Rust as the second. -/
inductive Given (T : Ident) (t : CName) : CPTy → RPTy → Prop
  | size : Given T t .size .usize
  | vec {c m} : (m = true → c = false) → Given T t (.vec t c) (.vec T m)

/-- What Rust returns as the second type may be received by C++ as the first. -/
inductive Received (T : Ident) (t : CName) : CPTy → RPTy → Prop
  | void : Received T t .void .unit
  | size : Received T t .size .usize
  | obj {c m} : (c = false → m = true) → Received T t (.obj (.named t) c) (.obj T m)

end Verif.Runtime
