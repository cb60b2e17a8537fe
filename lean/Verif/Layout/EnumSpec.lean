import Verif.Layout.EnumModel
import Verif.Discriminant.Spec
/-!
# What integer constants mean in Rust and C++
-/
namespace Verif.Layout
open Verif.Syntax Verif.Discriminant

/-- The signed integer types. -/
def Signed (a : Atom) : Prop := a = .i8 ∨ a = .i16 ∨ a = .i32 ∨ a = .i64 ∨ a = .isize

/-- The value of an integer in a Rust expression of type `a`: the literal, negated if there is a minus sign, which
is only allowed for a signed type; the value must be one of the type. -/
inductive RustValue (a : Atom) : RustInt → Int → Prop
  | plain (n : Nat) (h : Spec.Fits a n) : RustValue a ⟨false, n⟩ n
  | minus (n : Nat) (hs : Signed a) (h : Spec.Fits a (-n)) : RustValue a ⟨true, n⟩ (-n)

/-- A C++ decimal literal: `0`, or digits that do not begin with `0` (which would be octal), below `2 ^ 63`: there is
no type for a greater one ([lex.icon]). -/
inductive CxxLiteral : List Char → Nat → Prop
  | zero : CxxLiteral ['0'] 0
  | digits (c : Char) (cs : List Char) (hd : ∀ d ∈ c :: cs, '0' ≤ d ∧ d ≤ '9') (h0 : c ≠ '0')
      (h : (c :: cs).foldl (fun n d => 10 * n + (d.toNat - '0'.toNat)) 0 < 2 ^ 63) :
      CxxLiteral (c :: cs) ((c :: cs).foldl (fun n d => 10 * n + (d.toNat - '0'.toNat)) 0)

/-- An optional minus sign and a literal. -/
inductive CxxConstant : List Char → Int → Prop
  | plain {cs : List Char} {n : Nat} (h : CxxLiteral cs n) : CxxConstant cs n
  | minus {cs : List Char} {n : Nat} (h : CxxLiteral cs n) : CxxConstant ('-' :: cs) (-n)

/-- The value of an enumerator with underlying type `a`; narrowing is not allowed ([dcl.enum]). -/
def CxxValue (a : Atom) (text : List Char) (v : Int) : Prop := CxxConstant text v ∧ Spec.Fits a v

/-- An enum as a C++ header defines it, seen through the conversion to `repr`: its size, and the value of each
enumerator after the conversion. -/
structure HeaderEnum where
  isEnum : Bool
  size : Nat
  value : Atom → Ident → Option Int

/-- An assertion holds of an enum, given the sizes of the number types. -/
def Passes (sizeOf : Atom → Nat) (h : HeaderEnum) : Assert → Prop
  | .isEnum => h.isEnum = true
  | .size a => h.size = sizeOf a
  | .value a n text => ∃ v, h.value a n = some v ∧ CxxConstant text v

end Verif.Layout
