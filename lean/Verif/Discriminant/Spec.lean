import Verif.Discriminant.Model
/-!
# Specification of enum discriminants, over the integers

Written without reference to the model's helper functions: it only uses the source syntax
(`Expr`, `VariantSrc`) and `Atom`.
-/
/-- The integer a stored discriminant stands for. -/
def Verif.Discriminant.Disc.toInt (d : Verif.Discriminant.Disc) : Int :=
  if d.neg then -(d.mag : Int) else d.mag

namespace Verif.Discriminant.Spec
open Verif.Syntax

/-- The integer types a literal suffix or `#[repr]` may name. -/
def intTypes : List Atom := [.u8, .u16, .u32, .u64, .usize, .i8, .i16, .i32, .i64, .isize]

/-- The candidate reprs, in the order they are tried when none is given. -/
def candidates : List Atom := [.u8, .i8, .u16, .i16, .u32, .i32, .u64, .i64]

/-- The values of each fixed-width integer type; `usize` and `isize` depend on the target. -/
def range : Atom → Option (Int × Int)
  | .u8 => some (0, 2^8 - 1)
  | .i8 => some (-(2^7), 2^7 - 1)
  | .u16 => some (0, 2^16 - 1)
  | .i16 => some (-(2^15), 2^15 - 1)
  | .u32 => some (0, 2^32 - 1)
  | .i32 => some (-(2^31), 2^31 - 1)
  | .u64 => some (0, 2^64 - 1)
  | .i64 => some (-(2^63), 2^63 - 1)
  | _ => none

/-- `v` is a value of the fixed-width integer type `a`. -/
def Fits (a : Atom) (v : Int) : Prop := ∀ lo hi, range a = some (lo, hi) → lo ≤ v ∧ v ≤ hi

instance (a : Atom) (v : Int) : Decidable (Fits a v) :=
  match h : range a with
  | none => isTrue (by intro lo hi h'; rw [h] at h'; cases h')
  | some (lo, hi) =>
    if hv : lo ≤ v ∧ v ≤ hi then
      isTrue (by intro lo' hi' h'; rw [h] at h'; cases h'; exact hv)
    else isFalse (by intro hf; exact hv (hf lo hi h))

/-- The integer denoted by a (possibly repeatedly negated) literal below 2^64. -/
def value : Expr → Option Int
  | .lit v _ => if v < 2^64 then some (v : Int) else none
  | .neg e => (value e).map (fun x => -x)
  | .other => none

/-- The suffix of the literal inside an expression: `some none` without suffix, `none` if the
suffix is not an integer type or there is no literal. -/
def suffix : Expr → Option (Option Atom)
  | .lit _ s => if s = "" then some none else (intTypes.find? (fun a => a.asRef = s)).map some
  | .neg e => suffix e
  | .other => none

/-- The discriminant rule: a written value stands; otherwise one more than the previous variant,
starting from 0. -/
def discs : Option Int → List (Option Int) → List Int
  | _, [] => []
  | _, some v :: rest => v :: discs (some v) rest
  | none, none :: rest => 0 :: discs (some 0) rest
  | some p, none :: rest => (p + 1) :: discs (some (p + 1)) rest

/-- The discriminants of the variants as written. -/
def valuesOf (vs : List VariantSrc) : List Int := discs none (vs.map fun v => v.expr.bind value)

/-- The suffixes written, in order. -/
def suffixesOf (vs : List VariantSrc) : List Atom :=
  vs.filterMap fun v => (v.expr.bind suffix).join

/-- An odd number of minus signs in front of a literal `0`. -/
def isNegZero : Expr → Bool
  | e => go false e
where
  /-- counts signs -/
  go : Bool → Expr → Bool
  | sgn, .lit v _ => sgn && v == 0
  | sgn, .neg e => go (!sgn) e
  | _, .other => false

/-- No variant writes its discriminant as `-0`. -/
def NoNegZero (vs : List VariantSrc) : Prop := ∀ v ∈ vs, ∀ e, v.expr = some e → isNegZero e = false

/-- The integer type named by the attribute or, failing that, by the first literal suffix. -/
def namedRepr (attr : Option Atom) (vs : List VariantSrc) : Option Atom :=
  (attr.toList ++ suffixesOf vs).head?

/-- When a bridge may accept the enum: only unit variants, every written discriminant an integer
literal, no value above the largest `u64`, all named integer types the same, and the values fit
the named type, or some candidate type if none is named. -/
structure Acceptable (attr : Option Atom) (vs : List VariantSrc) : Prop where
  unit : ∀ v ∈ vs, v.unit = true
  literal : ∀ v ∈ vs, ∀ e, v.expr = some e → (value e).isSome ∧ (suffix e).isSome
  small : ∀ x ∈ valuesOf vs, x < 2^64
  sameType : ∀ a ∈ attr.toList ++ suffixesOf vs, namedRepr attr vs = some a
  fits : match namedRepr attr vs with
    | some a => ∀ x ∈ valuesOf vs, Fits a x
    | none => ∃ a ∈ candidates, ∀ x ∈ valuesOf vs, Fits a x

end Verif.Discriminant.Spec
