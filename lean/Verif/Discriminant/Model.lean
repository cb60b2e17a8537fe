import Verif.Syntax.Atom
/-!
# `syntax/discriminant.rs` and `parse_enum`/`parse_variant` of `syntax/parse.rs`

Model of how a shared enum's variants get their discriminants and its repr type.
-/
namespace Verif.Discriminant
open Verif.Syntax

/-- Error values.  `overflowPanic` is not an error the code returns: it stands for the
`magnitude -= 1` subtraction of syntax/discriminant.rs:69 going below zero, which panics when the
generator is compiled with overflow checks. -/
inductive Err
  | notIntegerLiteral
  | outsideSupportedRange
  | unrecognizedSuffix
  | outsideLimits
  | expectedFound
  | nextOverflow
  | enumWithData
  | noReprFits
  | overflowPanic
  deriving DecidableEq, Repr

/-- 2^64, the number of values of Rust's `u64`. -/
def u64Size : Nat := 18446744073709551616

/-- syntax/discriminant.rs:16-26 `struct Discriminant { sign, magnitude }` (`neg = true` is
`Sign::Negative`).  `magnitude : u64` is a natural number here; literals at or above 2^64 are
refused by `parseLit`, as `s.parse::<u64>()` does. -/
structure Disc where
  neg : Bool
  mag : Nat
  deriving DecidableEq, Repr

/-- syntax/discriminant.rs:152-157 `Discriminant::zero`. -/
def Disc.zero : Disc := ⟨false, 0⟩
/-- syntax/discriminant.rs:159-164 `Discriminant::pos`. -/
def Disc.pos (n : Nat) : Disc := ⟨false, n⟩
/-- syntax/discriminant.rs:166-180 `Discriminant::neg`, for a negative argument `-n`. -/
def Disc.negOf (n : Nat) : Disc := ⟨true, n⟩

/-- syntax/discriminant.rs:244-254 `Ord for Discriminant`. -/
def Disc.cmp (a b : Disc) : Ordering :=
  match a.neg, b.neg with
  | true, true => (compare a.mag b.mag).swap
  | true, false => .lt
  | false, true => .gt
  | false, false => compare a.mag b.mag

/-- `a <= b`, from `PartialOrd` (syntax/discriminant.rs:256-260). -/
def Disc.le (a b : Disc) : Bool := a.cmp b != .gt
/-- `a < b`, from `PartialOrd` (syntax/discriminant.rs:256-260). -/
def Disc.lt (a b : Disc) : Bool := a.cmp b == .lt

/-- syntax/discriminant.rs:276-281 `struct Limits`. -/
structure Limits where
  repr : Atom
  min : Disc
  max : Disc

/-- syntax/discriminant.rs:294-335 `const LIMITS`. -/
def LIMITS : List Limits := [
  ⟨.u8, .zero, .pos 255⟩,
  ⟨.i8, .negOf 128, .pos 127⟩,
  ⟨.u16, .zero, .pos 65535⟩,
  ⟨.i16, .negOf 32768, .pos 32767⟩,
  ⟨.u32, .zero, .pos 4294967295⟩,
  ⟨.i32, .negOf 2147483648, .pos 2147483647⟩,
  ⟨.u64, .zero, .pos 18446744073709551615⟩,
  ⟨.i64, .negOf 9223372036854775808, .pos 9223372036854775807⟩]

/-- syntax/discriminant.rs:284-291 `Limits::of`. -/
def Limits.of (repr : Atom) : Option Limits := LIMITS.find? (fun l => l.repr == repr)

/-- The discriminant expressions that matter to syntax/discriminant.rs:107-132: an integer literal
(its value and suffix), a negation, anything else. -/
inductive Expr
  | lit (value : Nat) (suffix : String)
  | neg (e : Expr)
  | other
  deriving DecidableEq, Repr

/-- syntax/discriminant.rs:224-242 `FromStr for Discriminant`.  `lit.base10_parse` passes only the
digits, so the leading `-` case is dead and the value is a natural number here. -/
def parseLit (value : Nat) : Except Err Disc :=
  if value < u64Size then .ok ⟨false, value⟩ else .error .outsideSupportedRange

/-- syntax/discriminant.rs:262-274 `parse_int_suffix`. -/
def parseIntSuffix (suffix : String) : Except Err (Option Atom) :=
  if suffix = "" then .ok none
  else match Atom.fromStr suffix with
    | some .u8 => .ok (some .u8)
    | some .u16 => .ok (some .u16)
    | some .u32 => .ok (some .u32)
    | some .u64 => .ok (some .u64)
    | some .usize => .ok (some .usize)
    | some .i8 => .ok (some .i8)
    | some .i16 => .ok (some .i16)
    | some .i32 => .ok (some .i32)
    | some .i64 => .ok (some .i64)
    | some .isize => .ok (some .isize)
    | _ => .error .unrecognizedSuffix

/-- syntax/discriminant.rs:107-132 `expr_to_discriminant`. -/
def exprToDiscriminant : Expr → Except Err (Disc × Option Atom)
  | .lit v s =>
    match parseLit v with
    | .error e => .error e
    | .ok d =>
      match parseIntSuffix s with
      | .error e => .error e
      | .ok r => .ok (d, r)
  | .neg e =>
    match exprToDiscriminant e with
    | .error e => .error e
    | .ok (d, r) => .ok (⟨!d.neg, d.mag⟩, r)
  | .other => .error .notIntegerLiteral

/-- syntax/discriminant.rs:10-14 `struct DiscriminantSet`.  The `BTreeSet` is a list of the inserted
values; only membership, minimum and maximum are used. -/
structure DSet where
  repr : Option Atom
  values : List Disc
  previous : Option Disc
  deriving DecidableEq, Repr

/-- syntax/discriminant.rs:29-35 `DiscriminantSet::new`. -/
def DSet.new (repr : Option Atom) : DSet := ⟨repr, [], none⟩

/-- syntax/discriminant.rs:134-149 `fn insert`: the limit check, then `values.insert`. -/
def insertRaw (s : DSet) (d : Disc) : Except Err (DSet × Disc) :=
  let bad := match s.repr with
    | some r => match Limits.of r with
      | some l => d.lt l.min || l.max.lt d
      | none => false
    | none => false
  if bad then .error .outsideLimits
  else .ok (⟨s.repr, d :: s.values, some d⟩, d)

/-- syntax/discriminant.rs:37-62 `DiscriminantSet::insert`.  An error aborts before `self` changes
in any way that a successful parse could observe (the code may have set `self.repr`; since an error
makes the whole bridge fail, the model drops the state on error). -/
def DSet.insert (s : DSet) (e : Expr) : Except Err (DSet × Disc) :=
  match exprToDiscriminant e with
  | .error e => .error e
  | .ok (d, r) =>
    match s.repr, r with
    | none, some nr =>
      let bad := match Limits.of nr with
        | some l => s.values.any (fun p => !(l.min.le p && p.le l.max))
        | none => false
      if bad then .error .outsideLimits
      else insertRaw { s with repr := some nr } d
    | some prev, some nr => if prev ≠ nr then .error .expectedFound else insertRaw s d
    | _, none => insertRaw s d

/-- syntax/discriminant.rs:64-86 `DiscriminantSet::insert_next`.  `checks` says whether the
generator is compiled with overflow checks: the subtraction on line 69 panics (`overflowPanic`) or
wraps to 2^64 - 1 when the previous value was written `-0`. -/
def DSet.insertNext (checks : Bool) (s : DSet) : Except Err (DSet × Disc) :=
  match s.previous with
  | none => insertRaw s Disc.zero
  | some d =>
    if d.neg then
      if d.mag = 0 then
        if checks then .error .overflowPanic
        else insertRaw s ⟨true, u64Size - 1⟩
      else
        let m := d.mag - 1
        insertRaw s ⟨if m = 0 then false else true, m⟩
    else if d.mag = u64Size - 1 then .error .nextOverflow
    else insertRaw s ⟨false, d.mag + 1⟩

/-- `*values.iter().next()` of the `BTreeSet` (syntax/discriminant.rs:95): the least element. -/
def minOf : Disc → List Disc → Disc
  | m, [] => m
  | m, d :: ds => minOf (if d.lt m then d else m) ds

/-- `*values.iter().next_back()` of the `BTreeSet` (syntax/discriminant.rs:96): the greatest. -/
def maxOf : Disc → List Disc → Disc
  | m, [] => m
  | m, d :: ds => maxOf (if m.lt d then d else m) ds

/-- syntax/discriminant.rs:88-104 `DiscriminantSet::inferred_repr`. -/
def DSet.inferredRepr (s : DSet) : Except Err Atom :=
  match s.repr with
  | some r => .ok r
  | none =>
    match s.values with
    | [] => .ok .u8
    | d :: ds =>
      match LIMITS.find? (fun l => l.min.le (minOf d ds) && (maxOf d ds).le l.max) with
      | some l => .ok l.repr
      | none => .error .noReprFits

/-- One variant of the enum as written: whether it is a unit variant, and its `= expr`. -/
structure VariantSrc where
  unit : Bool
  expr : Option Expr
  deriving DecidableEq, Repr

/-- syntax/parse.rs:283-333 `parse_variant`: discriminant part. -/
def parseVariant (checks : Bool) (v : VariantSrc) (s : DSet) : Except Err (DSet × Disc) :=
  if !v.unit then .error .enumWithData
  else match v.expr with
    | some e => s.insert e
    | none => s.insertNext checks

/-- syntax/parse.rs:227-237: the loop over variants; failed variants are reported and skipped.
Returns the collected errors, the final set and the accepted variants' discriminants in order. -/
def parseVariants (checks : Bool) : List VariantSrc → DSet → List Err × DSet × List Disc
  | [], s => ([], s, [])
  | v :: vs, s =>
    match parseVariant checks v s with
    | .error e =>
      let r := parseVariants checks vs s
      (e :: r.1, r.2.1, r.2.2)
    | .ok (s', d) =>
      let r := parseVariants checks vs s'
      (r.1, r.2.1, d :: r.2.2)

/-- The result of parsing an enum: reported errors, repr, discriminants in variant order. -/
structure EnumResult where
  errors : List Err
  repr : Atom
  discs : List Disc
  deriving DecidableEq, Repr

/-- syntax/parse.rs:227-250: the discriminant part of `parse_enum`; when no repr fits, an error is
reported, the variants are cleared and `U8` is kept. -/
def parseEnum (checks : Bool) (explicitRepr : Option Atom) (vs : List VariantSrc) : EnumResult :=
  let r := parseVariants checks vs (DSet.new explicitRepr)
  match r.2.1.inferredRepr with
  | .ok a => ⟨r.1, a, r.2.2⟩
  | .error e => ⟨r.1 ++ [e], .u8, []⟩

end Verif.Discriminant
