/-!
# `syntax/atom.rs`: the built-in type names

Model of the `Atom` enumeration and its string conversions.
-/
namespace Verif.Syntax

/-- syntax/atom.rs:5-23 `enum Atom`. -/
inductive Atom
  | bool | char
  | u8 | u16 | u32 | u64 | usize
  | i8 | i16 | i32 | i64 | isize
  | f32 | f64
  | cxxString | rustString
  deriving DecidableEq, Repr, Inhabited

namespace Atom

/-- The variants of `Atom` in declaration order (syntax/atom.rs:6-23). -/
def all : List Atom :=
  [bool, char, u8, u16, u32, u64, usize, i8, i16, i32, i64, isize, f32, f64, cxxString, rustString]

/-- syntax/atom.rs:60-82 `AsRef<str> for Atom`. -/
def asRef : Atom → String
  | bool => "bool"
  | char => "c_char"
  | u8 => "u8"
  | u16 => "u16"
  | u32 => "u32"
  | u64 => "u64"
  | usize => "usize"
  | i8 => "i8"
  | i16 => "i16"
  | i32 => "i32"
  | i64 => "i64"
  | isize => "isize"
  | f32 => "f32"
  | f64 => "f64"
  | cxxString => "CxxString"
  | rustString => "String"

/-- syntax/atom.rs:30-51 `Atom::from_str`. -/
def fromStr (s : String) : Option Atom :=
  if s = "bool" then some bool
  else if s = "c_char" then some char
  else if s = "u8" then some u8
  else if s = "u16" then some u16
  else if s = "u32" then some u32
  else if s = "u64" then some u64
  else if s = "usize" then some usize
  else if s = "i8" then some i8
  else if s = "i16" then some i16
  else if s = "i32" then some i32
  else if s = "i64" then some i64
  else if s = "isize" then some isize
  else if s = "f32" then some f32
  else if s = "f64" then some f64
  else if s = "CxxString" then some cxxString
  else if s = "String" then some rustString
  else none

/-- Every atom prints to a name that parses back to it. -/
theorem fromStr_asRef (a : Atom) : fromStr a.asRef = some a := by
  cases a <;> rfl

/-- Only the printed name of an atom parses to it. -/
theorem asRef_of_fromStr {s : String} {a : Atom} (h : fromStr s = some a) : a.asRef = s := by
  unfold fromStr at h
  grind (splits := 20) [asRef]

/-- The name of an atom determines it. -/
theorem fromStr_eq_some_iff (s : String) (a : Atom) : fromStr s = some a ↔ s = a.asRef :=
  ⟨fun h => (asRef_of_fromStr h).symm, fun h => h ▸ fromStr_asRef a⟩

end Atom
end Verif.Syntax
