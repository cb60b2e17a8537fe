import Verif.Header.Spec
/-!
# Lines of text, cheap to compute with

`b!"text"` stands for the bytes of the string literal.  They are put into one number in base 256, which the kernel
takes apart quickly; string literals themselves are slow to evaluate.
-/
namespace Verif.Header

/-- The digits in base 256, lowest first.  (Written with the recursors, so that the kernel evaluates each quotient
once.) -/
noncomputable def digits (fuel : Nat) : Nat → Text :=
  Nat.rec (fun _ => [])
    (fun _ more n => Nat.rec (motive := fun _ => Text) [] (fun k _ => (k + 1) % 256 :: more ((k + 1) / 256)) n) fuel

noncomputable def line (n : Nat) : Text := digits 200 n

/-- The bytes of a literal. -/
macro:max "b!" s:str : term => do
  let n := s.getString.toUTF8.toList.foldr (fun b acc => b.toNat + 256 * acc) 0
  `(line $(Lean.quote n))

example : b!"#if 0" = [35, 105, 102, 32, 48] := by decide +kernel

end Verif.Header
