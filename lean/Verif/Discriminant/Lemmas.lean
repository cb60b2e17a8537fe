import Verif.Discriminant.Spec
/-! Helper lemmas for the discriminant properties. -/
namespace Verif.Discriminant
open Verif.Syntax

/-- "written `-0`" -/
def Disc.IsNegZero (d : Disc) : Prop := d.neg = true ∧ d.mag = 0

theorem cmp_nat_swap (a b : Nat) : (compare a b).swap = compare b a := by
  rw [Nat.compare_swap]

theorem Disc.le_iff (a b : Disc) : a.le b = true ↔
    (if a.neg then (if b.neg then b.mag ≤ a.mag else True) else (if b.neg then False else a.mag ≤ b.mag)) := by
  obtain ⟨na, ma⟩ := a
  obtain ⟨nb, mb⟩ := b
  cases na <;> cases nb <;> simp [Disc.le, Disc.cmp, bne_iff_ne]
  · rw [Nat.compare_eq_gt]; omega
  · rw [Nat.compare_eq_lt]; omega

theorem Disc.lt_iff (a b : Disc) : a.lt b = true ↔ ¬ b.le a = true := by
  rw [Disc.le_iff]
  obtain ⟨na, ma⟩ := a
  obtain ⟨nb, mb⟩ := b
  cases na <;> cases nb <;> simp [Disc.lt, Disc.cmp]
  · rw [Nat.compare_eq_lt]
  · rw [Nat.compare_eq_gt]

theorem Disc.le_toInt {a b : Disc} (h : a.le b = true) : a.toInt ≤ b.toInt := by
  rw [Disc.le_iff] at h
  obtain ⟨na, ma⟩ := a
  obtain ⟨nb, mb⟩ := b
  cases na <;> cases nb <;> simp [Disc.toInt] at * <;> omega

theorem Disc.le_of_toInt {a b : Disc} (hb : ¬ b.IsNegZero) (h : a.toInt ≤ b.toInt) :
    a.le b = true := by
  rw [Disc.le_iff]
  obtain ⟨na, ma⟩ := a
  obtain ⟨nb, mb⟩ := b
  cases na <;> cases nb <;> simp [Disc.toInt, Disc.IsNegZero] at * <;> omega

theorem Disc.le_total (a b : Disc) : a.le b = true ∨ b.le a = true := by
  simp only [Disc.le_iff]
  obtain ⟨na, ma⟩ := a
  obtain ⟨nb, mb⟩ := b
  cases na <;> cases nb <;> simp <;> omega

theorem Disc.le_trans {a b c : Disc} (h : a.le b = true) (h' : b.le c = true) : a.le c = true := by
  simp only [Disc.le_iff] at *
  obtain ⟨na, ma⟩ := a
  obtain ⟨nb, mb⟩ := b
  obtain ⟨nc, mc⟩ := c
  cases na <;> cases nb <;> cases nc <;> simp at * <;> omega

theorem Disc.le_refl (a : Disc) : a.le a = true := (Disc.le_total a a).elim id id

/-- `minOf` is a member and a lower bound. -/
theorem minOf_le (m : Disc) (ds : List Disc) : ∀ d ∈ m :: ds, (minOf m ds).le d = true := by
  induction ds generalizing m with
  | nil => intro d hd; simp [minOf] at *; subst hd; exact Disc.le_refl _
  | cons a as ih =>
    intro d hd
    by_cases h : a.lt m = true
    · simp only [minOf, h, if_true]
      rw [Disc.lt_iff] at h
      have ham := (Disc.le_total a m).resolve_right h
      have hm := ih a a (by simp)
      simp only [List.mem_cons] at hd
      rcases hd with rfl | rfl | hd
      · exact Disc.le_trans hm ham
      · exact hm
      · exact ih a d (by simp [hd])
    · simp only [minOf, h]
      rw [Disc.lt_iff] at h
      have hma := Classical.not_not.1 h
      have hm := ih m m (by simp)
      simp only [List.mem_cons] at hd
      rcases hd with rfl | rfl | hd
      · exact hm
      · exact Disc.le_trans hm hma
      · exact ih m d (by simp [hd])

theorem minOf_mem (m : Disc) (ds : List Disc) : minOf m ds ∈ m :: ds := by
  induction ds generalizing m with
  | nil => simp [minOf]
  | cons a as ih =>
    simp only [minOf]
    have := ih (if a.lt m = true then a else m)
    rcases List.mem_cons.1 this with h | h
    · rw [h]; split <;> simp
    · simp [h]

theorem maxOf_ge (m : Disc) (ds : List Disc) : ∀ d ∈ m :: ds, d.le (maxOf m ds) = true := by
  induction ds generalizing m with
  | nil => intro d hd; simp [maxOf] at *; subst hd; exact Disc.le_refl _
  | cons a as ih =>
    intro d hd
    by_cases h : m.lt a = true
    · simp only [maxOf, h, if_true]
      rw [Disc.lt_iff] at h
      have ham := (Disc.le_total m a).resolve_right h
      have hm := ih a a (by simp)
      simp only [List.mem_cons] at hd
      rcases hd with rfl | rfl | hd
      · exact Disc.le_trans ham hm
      · exact hm
      · exact ih a d (by simp [hd])
    · simp only [maxOf, h]
      rw [Disc.lt_iff] at h
      have hma := Classical.not_not.1 h
      have hm := ih m m (by simp)
      simp only [List.mem_cons] at hd
      rcases hd with rfl | rfl | hd
      · exact hm
      · exact Disc.le_trans hma hm
      · exact ih m d (by simp [hd])

theorem maxOf_mem (m : Disc) (ds : List Disc) : maxOf m ds ∈ m :: ds := by
  induction ds generalizing m with
  | nil => simp [maxOf]
  | cons a as ih =>
    simp only [maxOf]
    have := ih (if m.lt a = true then a else m)
    rcases List.mem_cons.1 this with h | h
    · rw [h]; split <;> simp
    · simp [h]

/-- A discriminant is within the limits of an entry. -/
def Limits.has (l : Limits) (d : Disc) : Bool := l.min.le d && d.le l.max

/-- Within the limits of a repr, where it has limits. -/
def within (r : Atom) (d : Disc) : Prop := ∀ l, Limits.of r = some l → l.has d = true

/-- `Limits::of` as a table. -/
theorem Limits.of_eq (r : Atom) : Limits.of r = match r with
    | .u8 => some ⟨.u8, .zero, .pos 255⟩
    | .i8 => some ⟨.i8, .negOf 128, .pos 127⟩
    | .u16 => some ⟨.u16, .zero, .pos 65535⟩
    | .i16 => some ⟨.i16, .negOf 32768, .pos 32767⟩
    | .u32 => some ⟨.u32, .zero, .pos 4294967295⟩
    | .i32 => some ⟨.i32, .negOf 2147483648, .pos 2147483647⟩
    | .u64 => some ⟨.u64, .zero, .pos 18446744073709551615⟩
    | .i64 => some ⟨.i64, .negOf 9223372036854775808, .pos 9223372036854775807⟩
    | _ => none := by
  cases r <;> rfl

theorem Limits.has_fits {r : Atom} {d : Disc} (h : within r d) : Spec.Fits r d.toInt := by
  intro lo hi hr
  cases r <;> simp [Spec.range] at hr
  all_goals
    obtain ⟨rfl, rfl⟩ := hr
    have := h _ rfl
    simp only [Limits.has, Bool.and_eq_true] at this
    have h1 := Disc.le_toInt this.1
    have h2 := Disc.le_toInt this.2
    simp [Disc.toInt, Disc.zero, Disc.pos, Disc.negOf] at h1 h2
    simp [Disc.toInt]
    omega

theorem fits_within {r : Atom} {d : Disc} (hz : ¬ d.IsNegZero) (h : Spec.Fits r d.toInt) :
    within r d := by
  intro l hl
  rw [Limits.of_eq] at hl
  cases r <;> simp at hl
  all_goals
    subst hl
    have := h _ _ rfl
    simp only [Limits.has, Bool.and_eq_true]
    constructor
    · exact Disc.le_of_toInt hz (by simp [Disc.toInt, Disc.zero, Disc.negOf] at *; omega)
    · exact Disc.le_of_toInt (by simp [Disc.IsNegZero, Disc.pos])
        (by simp [Disc.toInt, Disc.pos] at *; omega)

end Verif.Discriminant

namespace Verif.Discriminant
open Verif.Syntax

/-- A successful `insertRaw` (syntax/discriminant.rs:134-149). -/
theorem insertRaw_ok_iff {s : DSet} {d : Disc} {r : DSet × Disc} :
    insertRaw s d = .ok r ↔
      (∀ a, s.repr = some a → within a d) ∧ r = (⟨s.repr, d :: s.values, some d⟩, d) := by
  unfold insertRaw
  cases hr : s.repr with
  | none => simp [eq_comm]
  | some a =>
    cases hl : Limits.of a with
    | none =>
      have hw : within a d := by intro l hl'; rw [hl] at hl'; cases hl'
      simp [hl, hw, eq_comm]
    | some l =>
      have key : (d.lt l.min || l.max.lt d) = true ↔ ¬ within a d := by
        simp only [within, hl, Option.some.injEq, forall_eq', Limits.has, Bool.or_eq_true,
          Disc.lt_iff, Bool.and_eq_true]
        grind
      by_cases hw : within a d
      · have hk : ¬ ((d.lt l.min || l.max.lt d) = true) := fun h => key.1 h hw
        simp only [hl]
        rw [if_neg hk]
        simp [hw, eq_comm]
      · have hk := key.2 hw
        simp only [hl]
        rw [if_pos hk]
        simp [hw]

theorem parseIntSuffix_eq (s : String) :
    parseIntSuffix s = match Spec.suffix (.lit 0 s) with
      | some r => .ok r
      | none => .error .unrecognizedSuffix := by
  unfold parseIntSuffix
  simp only [Spec.suffix]
  by_cases hs : s = ""
  · simp [hs]
  · simp only [hs, if_false]
    cases ha : Atom.fromStr s with
    | none =>
      have : Spec.intTypes.find? (fun a => decide (a.asRef = s)) = none := by
        rw [List.find?_eq_none]
        intro a _
        simp
        intro h
        rw [← h, Atom.fromStr_asRef] at ha
        cases ha
      rw [this]; rfl
    | some a =>
      have := Atom.asRef_of_fromStr ha
      subst this
      cases a <;> rfl

/-- `expr_to_discriminant` succeeds exactly on integer literals with integer suffixes, and then
gives their value and suffix. -/
theorem exprToDiscriminant_spec (e : Expr) :
    match exprToDiscriminant e with
    | .ok (d, r) => Spec.value e = some d.toInt ∧ Spec.suffix e = some r ∧ d.mag < u64Size ∧
        ∀ sgn, (Spec.isNegZero.go sgn e = true ↔ (xor sgn d.neg = true ∧ d.mag = 0))
    | .error _ => Spec.value e = none ∨ Spec.suffix e = none := by
  induction e with
  | lit v s =>
    simp only [exprToDiscriminant, parseLit]
    have h64 : (2:Nat)^64 = u64Size := by decide
    by_cases hv : v < u64Size
    · simp only [hv, if_true]
      rw [parseIntSuffix_eq]
      have hsuf : Spec.suffix (.lit 0 s) = Spec.suffix (.lit v s) := rfl
      rw [hsuf]
      cases hs : Spec.suffix (.lit v s) with
      | none => simp
      | some r =>
        refine ⟨by simp [Spec.value, h64, hv, Disc.toInt], rfl, hv, ?_⟩
        intro sgn
        simp [Spec.isNegZero.go]
    · simp only [hv, if_false]
      left; simp [Spec.value, h64, hv]
  | neg e ih =>
    simp only [exprToDiscriminant]
    cases he : exprToDiscriminant e with
    | error e' =>
      rw [he] at ih
      simp only [Spec.value, Spec.suffix]
      rcases ih with h | h
      · left; simp [h]
      · right; exact h
    | ok p =>
      obtain ⟨d, r⟩ := p
      rw [he] at ih
      obtain ⟨h1, h2, h3, h4⟩ := ih
      refine ⟨?_, h2, h3, ?_⟩
      · simp only [Spec.value, h1, Option.map_some, Option.some.injEq, Disc.toInt]
        cases d.neg <;> simp
      · intro sgn
        simp only [Spec.isNegZero.go, h4]
        cases sgn <;> cases d.neg <;> simp
  | other => simp [exprToDiscriminant, Spec.value]

/-- The next value of the discriminant rule. -/
def nextVal : Option Int → Int
  | none => 0
  | some p => p + 1

/-- The value a variant should get after previous value `p`. -/
def specVal (p : Option Int) (v : VariantSrc) : Int :=
  match v.expr.bind Spec.value with
  | some x => x
  | none => nextVal p

theorem discs_cons (p : Option Int) (v : VariantSrc) (vs : List VariantSrc) :
    Spec.discs p ((v :: vs).map fun v => v.expr.bind Spec.value) =
      specVal p v :: Spec.discs (some (specVal p v)) (vs.map fun v => v.expr.bind Spec.value) := by
  simp only [List.map_cons, specVal]
  cases v.expr.bind Spec.value <;> cases p <;> simp [Spec.discs, nextVal]

/-- The suffix a variant carries. -/
def sufOf (v : VariantSrc) : Option Atom := (v.expr.bind Spec.suffix).join

theorem suffixesOf_cons (v : VariantSrc) (vs : List VariantSrc) :
    Spec.suffixesOf (v :: vs) = (sufOf v).toList ++ Spec.suffixesOf vs := by
  unfold Spec.suffixesOf
  rw [List.filterMap_cons]
  unfold sufOf
  cases (v.expr.bind Spec.suffix).join <;> rfl

/-- What it takes for one variant to be accepted in state `s`. -/
structure StepOk (s : DSet) (v : VariantSrc) (x : Int) : Prop where
  unit : v.unit = true
  lit : ∀ e, v.expr = some e → (Spec.value e).isSome ∧ (Spec.suffix e).isSome
  small : x < u64Size
  same : ∀ a b, s.repr = some a → sufOf v = some b → a = b

/-- One step, soundness: what an accepted variant gives (with overflow checks on). -/
theorem parseVariant_sound {v : VariantSrc} {s s' : DSet} {d : Disc}
    (h : parseVariant true v s = .ok (s', d)) (hprev : ∀ p, s.previous = some p → p.mag < u64Size) :
    StepOk s v d.toInt ∧ d.toInt = specVal (s.previous.map Disc.toInt) v ∧ d.mag < u64Size ∧
    s' = ⟨s.repr.or (sufOf v), d :: s.values, some d⟩ ∧
    (∀ a, s'.repr = some a → within a d) ∧
    (∀ a, s.repr = none → s'.repr = some a → ∀ p ∈ s.values, within a p) := by
  unfold parseVariant at h
  cases hu : v.unit with
  | false => simp [hu] at h
  | true =>
  simp only [hu] at h
  cases he : v.expr with
  | none =>
    simp only [he] at h
    have hsuf : sufOf v = none := by simp [sufOf, he]
    unfold DSet.insertNext at h
    have fin : ∀ d', insertRaw s d' = .ok (s', d) →
        d'.toInt = specVal (s.previous.map Disc.toInt) v → d'.mag < u64Size →
        StepOk s v d.toInt ∧ d.toInt = specVal (s.previous.map Disc.toInt) v ∧ d.mag < u64Size ∧
        s' = ⟨s.repr.or (sufOf v), d :: s.values, some d⟩ ∧
        (∀ a, s'.repr = some a → within a d) ∧
        (∀ a, s.repr = none → s'.repr = some a → ∀ p ∈ s.values, within a p) := by
      intro d' hi hval hm
      rw [insertRaw_ok_iff] at hi
      obtain ⟨hw, heq⟩ := hi
      obtain ⟨rfl, rfl⟩ := Prod.mk.inj heq
      refine ⟨⟨hu, ?_, ?_, ?_⟩, hval, hm, by simp [hsuf], by simpa using hw, ?_⟩
      · intro e h'; rw [he] at h'; cases h'
      · unfold Disc.toInt; split <;> omega
      · intro a b _ hb; rw [hsuf] at hb; cases hb
      · intro a hn hs; simp [hn] at hs
    have hsv : specVal (s.previous.map Disc.toInt) v = nextVal (s.previous.map Disc.toInt) := by
      simp [specVal, he]
    cases hp : s.previous with
    | none =>
      simp only [hp] at h
      exact hp ▸ fin _ h (by rw [hsv, hp]; simp [Disc.zero, Disc.toInt, nextVal]) (by decide)
    | some p =>
      have hpm := hprev p hp
      simp only [hp] at h
      cases hn : p.neg with
      | true =>
        simp only [hn, if_true] at h
        by_cases hz : p.mag = 0
        · simp [hz] at h
        · simp only [hz, if_false] at h
          refine hp ▸ fin _ h ?_ ?_
          · rw [hsv, hp]
            simp only [Option.map_some, nextVal, Disc.toInt, hn, if_true]
            by_cases h1 : p.mag - 1 = 0
            · simp [h1]; omega
            · simp [h1]; omega
          · simp; omega
      | false =>
        simp only [hn, Bool.false_eq_true, if_false] at h
        by_cases hz : p.mag = u64Size - 1
        · simp [hz] at h
        · simp only [hz, if_false] at h
          refine hp ▸ fin _ h ?_ ?_
          · rw [hsv, hp]
            simp [nextVal, Disc.toInt, hn]
          · simp [u64Size] at *; omega
  | some e =>
    simp only [he] at h
    unfold DSet.insert at h
    have hspec := exprToDiscriminant_spec e
    cases hx : exprToDiscriminant e with
    | error e' => simp [hx] at h
    | ok pr =>
      obtain ⟨d', r⟩ := pr
      rw [hx] at hspec
      obtain ⟨hv, hs, hm, _⟩ := hspec
      have hsuf : sufOf v = r := by simp [sufOf, he, hs]
      have hsv : specVal (s.previous.map Disc.toInt) v = d'.toInt := by simp [specVal, he, hv]
      simp only [hx] at h
      have fin : ∀ rep, insertRaw { s with repr := rep } d' = .ok (s', d) →
          rep = s.repr.or r → (∀ a b, s.repr = some a → r = some b → a = b) →
          (∀ a, s.repr = none → rep = some a → ∀ p ∈ s.values, within a p) →
          StepOk s v d.toInt ∧ d.toInt = specVal (s.previous.map Disc.toInt) v ∧ d.mag < u64Size ∧
          s' = ⟨s.repr.or (sufOf v), d :: s.values, some d⟩ ∧
          (∀ a, s'.repr = some a → within a d) ∧
          (∀ a, s.repr = none → s'.repr = some a → ∀ p ∈ s.values, within a p) := by
        intro rep hi hrep hsame hpast
        rw [insertRaw_ok_iff] at hi
        obtain ⟨hw, heq⟩ := hi
        obtain ⟨rfl, rfl⟩ := Prod.mk.inj heq
        refine ⟨⟨hu, ?_, ?_, ?_⟩, hsv.symm, hm, by simp [hsuf, hrep], by simpa using hw, ?_⟩
        · intro e' h'; rw [he] at h'; cases h'; simp [hv, hs]
        · unfold Disc.toInt; split <;> omega
        · intro a b ha hb; rw [hsuf] at hb; exact hsame a b ha hb
        · exact hpast
      cases hr : s.repr with
      | none =>
        cases r with
        | none =>
          simp only [hr] at h
          have := fin none (by rw [← hr]; exact h) (by simp [hr]) (by simp) (by simp)
          rwa [hr] at this
        | some nr =>
          simp only [hr] at h
          cases hl : Limits.of nr with
          | none =>
            simp only [hl, Bool.false_eq_true, if_false] at h
            have := fin (some nr) h (by simp [hr]) (by simp [hr])
              (by intro a _ ha p _ l hl'; cases ha; rw [hl] at hl'; cases hl')
            rwa [hr] at this
          | some l =>
            simp only [hl] at h
            by_cases hany : (s.values.any fun p => !(l.min.le p && p.le l.max)) = true
            · rw [if_pos hany] at h; cases h
            · rw [if_neg hany] at h
              have := fin (some nr) h (by simp [hr]) (by simp [hr])
                (by
                  intro a _ ha p hp l' hl'
                  cases ha
                  rw [hl] at hl'; cases hl'
                  simp only [List.any_eq_true, not_exists, not_and] at hany
                  have := hany p hp
                  simpa [Limits.has] using this)
              rwa [hr] at this
      | some a =>
        cases r with
        | none =>
          simp only [hr] at h
          have := fin (some a) (by rw [← hr]; exact h) (by simp [hr]) (by simp) (by simp [hr])
          rwa [hr] at this
        | some nr =>
          simp only [hr] at h
          by_cases hne : a = nr
          · simp only [hne, ne_eq, not_true_eq_false, if_false] at h
            have := fin (some a) (by rw [← hr]; exact h) (by simp [hr]) (by simp [hr, hne])
              (by simp [hr])
            rwa [hr] at this
          · simp [hne] at h

end Verif.Discriminant

namespace Verif.Discriminant
open Verif.Syntax

/-- One step, completeness: a good variant is accepted (overflow checks on or off), when nothing
was written as `-0`. -/
theorem parseVariant_complete (c : Bool) {v : VariantSrc} {s : DSet}
    (hok : StepOk s v (specVal (s.previous.map Disc.toInt) v))
    (hnz : ∀ e, v.expr = some e → Spec.isNegZero e = false)
    (hprev : ∀ p, s.previous = some p → p.mag < u64Size ∧ ¬ p.IsNegZero)
    (hvals : ∀ p ∈ s.values, ¬ p.IsNegZero)
    (hfit : ∀ a, s.repr.or (sufOf v) = some a →
      Spec.Fits a (specVal (s.previous.map Disc.toInt) v) ∧
      ∀ p ∈ s.values, Spec.Fits a p.toInt) :
    ∃ d, parseVariant c v s = .ok (⟨s.repr.or (sufOf v), d :: s.values, some d⟩, d) ∧
      d.toInt = specVal (s.previous.map Disc.toInt) v ∧ d.mag < u64Size ∧ ¬ d.IsNegZero := by
  obtain ⟨hu, hlit, hsmall, hsame⟩ := hok
  unfold parseVariant
  simp only [hu]
  cases he : v.expr with
  | none =>
    have hsuf : sufOf v = none := by simp [sufOf, he]
    have hsv : specVal (s.previous.map Disc.toInt) v = nextVal (s.previous.map Disc.toInt) := by
      simp [specVal, he]
    simp only [hsuf, Option.or_none] at hfit ⊢
    have fin : ∀ d', d'.toInt = specVal (s.previous.map Disc.toInt) v → d'.mag < u64Size →
        ¬ d'.IsNegZero → DSet.insertNext c s = insertRaw s d' →
        ∃ d, DSet.insertNext c s = .ok (⟨s.repr, d :: s.values, some d⟩, d) ∧
        d.toInt = specVal (s.previous.map Disc.toInt) v ∧ d.mag < u64Size ∧ ¬ d.IsNegZero := by
      intro d' h1 h2 h3 h4
      refine ⟨d', ?_, h1, h2, h3⟩
      rw [h4, insertRaw_ok_iff]
      refine ⟨?_, rfl⟩
      intro a ha
      exact fits_within h3 (h1 ▸ (hfit a ha).1)
    simp only [Bool.not_true, Bool.false_eq_true, if_false]
    cases hp : s.previous with
    | none =>
      rw [← hp]
      refine fin Disc.zero ?_ (by decide) (by simp [Disc.IsNegZero, Disc.zero]) ?_
      · rw [hsv, hp]; simp [Disc.zero, Disc.toInt, nextVal]
      · simp [DSet.insertNext, hp]
    | some p =>
      obtain ⟨hpm, hpz⟩ := hprev p hp
      rw [← hp]
      rw [hsv, hp] at hsmall
      simp only [Option.map_some, nextVal] at hsmall
      cases hn : p.neg with
      | true =>
        have hz : p.mag ≠ 0 := fun h => hpz ⟨hn, h⟩
        refine fin ⟨if p.mag - 1 = 0 then false else true, p.mag - 1⟩ ?_ (by simp; omega) ?_ ?_
        · rw [hsv, hp]
          simp only [Option.map_some, nextVal, Disc.toInt, hn, if_true]
          by_cases h1 : p.mag - 1 = 0
          · simp [h1]; omega
          · simp [h1]; omega
        · simp [Disc.IsNegZero]
        · simp [DSet.insertNext, hp, hn, hz]
      | false =>
        simp only [Disc.toInt, hn, Bool.false_eq_true, if_false] at hsmall
        have hz : p.mag ≠ u64Size - 1 := by
          intro h; rw [h] at hsmall; simp [u64Size] at hsmall
        refine fin ⟨false, p.mag + 1⟩ ?_ ?_ (by simp [Disc.IsNegZero]) ?_
        · rw [hsv, hp]
          simp [nextVal, Disc.toInt, hn]
        · simp [u64Size] at *; omega
        · simp [DSet.insertNext, hp, hn, hz]
  | some e =>
    simp only [Bool.not_true, Bool.false_eq_true, if_false]
    obtain ⟨hv, hs⟩ := hlit e he
    have hspec := exprToDiscriminant_spec e
    cases hx : exprToDiscriminant e with
    | error e' => rw [hx] at hspec; rcases hspec with h | h <;> simp [h] at hv hs
    | ok pr =>
      obtain ⟨d, r⟩ := pr
      rw [hx] at hspec
      obtain ⟨hv', hs', hm, hz⟩ := hspec
      have hdz : ¬ d.IsNegZero := by
        intro h
        have := (hz false).2 (by simpa [Disc.IsNegZero] using h)
        have h0 := hnz e he
        simp only [Spec.isNegZero] at h0
        rw [this] at h0; cases h0
      have hsuf : sufOf v = r := by simp [sufOf, he, hs']
      have hsv : specVal (s.previous.map Disc.toInt) v = d.toInt := by simp [specVal, he, hv']
      rw [hsuf] at hfit hsame ⊢
      rw [hsv] at hfit ⊢
      refine ⟨d, ?_, rfl, hm, hdz⟩
      have raw : insertRaw { s with repr := s.repr.or r } d =
          .ok (⟨s.repr.or r, d :: s.values, some d⟩, d) := by
        rw [insertRaw_ok_iff]
        exact ⟨fun a ha => fits_within hdz (hfit a ha).1, rfl⟩
      unfold DSet.insert
      simp only [hx]
      obtain ⟨sr, sv, sp⟩ := s
      dsimp only at *
      cases sr with
      | none =>
        cases r with
        | none => exact raw
        | some nr =>
          simp only [Option.none_or] at raw hfit ⊢
          cases hl : Limits.of nr with
          | none => simpa [hl] using raw
          | some l =>
            have hb : (sv.any fun p => !(l.min.le p && p.le l.max)) = false := by
              simp only [List.any_eq_false]
              intro p hp
              have := fits_within (hvals p hp) ((hfit nr rfl).2 p hp) l hl
              simpa [Limits.has] using this
            simp only [hl, hb]
            simpa using raw
      | some a =>
        cases r with
        | none => exact raw
        | some nr =>
          have : a = nr := hsame a nr rfl rfl
          subst this
          simpa using raw

theorem parseVariants_cons_ok {c : Bool} {v : VariantSrc} {vs : List VariantSrc} {s : DSet}
    (h : (parseVariants c (v :: vs) s).1 = []) :
    ∃ s' d, parseVariant c v s = .ok (s', d) ∧ (parseVariants c vs s').1 = [] ∧
      (parseVariants c (v :: vs) s).2 = ((parseVariants c vs s').2.1, d :: (parseVariants c vs s').2.2) := by
  cases hv : parseVariant c v s with
  | error e => simp [parseVariants, hv] at h
  | ok p =>
    obtain ⟨s', d⟩ := p
    refine ⟨s', d, rfl, ?_, ?_⟩
    · simpa [parseVariants, hv] using h
    · simp [parseVariants, hv]

/-- Soundness for the whole variant list. -/
theorem parseVariants_sound (vs : List VariantSrc) (s : DSet)
    (h : (parseVariants true vs s).1 = []) (hprev : ∀ p, s.previous = some p → p.mag < u64Size)
    (hin : ∀ a, s.repr = some a → ∀ p ∈ s.values, within a p) :
    let s' := (parseVariants true vs s).2.1
    let ds := (parseVariants true vs s).2.2
    ds.map Disc.toInt =
        Spec.discs (s.previous.map Disc.toInt) (vs.map fun v => v.expr.bind Spec.value) ∧
    s'.values = ds.reverse ++ s.values ∧
    (∀ v ∈ vs, v.unit = true) ∧
    (∀ v ∈ vs, ∀ e, v.expr = some e → (Spec.value e).isSome ∧ (Spec.suffix e).isSome) ∧
    (∀ d ∈ ds, d.toInt < u64Size) ∧
    s'.repr = (s.repr.toList ++ Spec.suffixesOf vs).head? ∧
    (∀ a ∈ s.repr.toList ++ Spec.suffixesOf vs, s'.repr = some a) ∧
    (∀ a, s'.repr = some a → ∀ p ∈ s'.values, within a p) := by
  induction vs generalizing s with
  | nil =>
    simp only [parseVariants, Spec.suffixesOf, List.filterMap_nil, List.append_nil]
    refine ⟨by simp [Spec.discs], by simp, by simp, by simp, by simp, ?_, ?_, hin⟩
    · cases s.repr <;> rfl
    · cases s.repr <;> simp
  | cons v vs ih =>
    obtain ⟨s1, d, hv, htail, heq⟩ := parseVariants_cons_ok h
    have st := parseVariant_sound hv hprev
    obtain ⟨⟨hu, hlit, hsm, hsame⟩, hval, hm, hs1, hw, hpast⟩ := st
    have hrep1 : s1.repr = s.repr.or (sufOf v) := by rw [hs1]
    have hvals1 : s1.values = d :: s.values := by rw [hs1]
    have hprev1 : s1.previous = some d := by rw [hs1]
    have hin1 : ∀ a, s1.repr = some a → ∀ p ∈ s1.values, within a p := by
      intro a ha p hp
      rw [hvals1] at hp
      rcases List.mem_cons.1 hp with rfl | hp
      · exact hw a ha
      · cases hr : s.repr with
        | none => exact hpast a hr ha p hp
        | some b =>
          have : a = b := by rw [hrep1, hr] at ha; simpa using ha.symm
          subst this
          exact hin a hr p hp
    have IH := ih s1 htail (by intro p hp; rw [hprev1] at hp; cases hp; exact hm) hin1
    simp only at IH
    obtain ⟨i1, i2, i3, i4, i5, i6, i7, i8⟩ := IH
    simp only [heq]
    have hsufs : s.repr.toList ++ Spec.suffixesOf (v :: vs) =
        s.repr.toList ++ ((sufOf v).toList ++ Spec.suffixesOf vs) := by rw [suffixesOf_cons]
    refine ⟨?_, ?_, ?_, ?_, ?_, ?_, ?_, i8⟩
    · rw [discs_cons, List.map_cons, i1, hprev1, Option.map_some, hval]
    · rw [i2, hvals1]; simp
    · intro w hw'; rcases List.mem_cons.1 hw' with rfl | hw'
      · exact hu
      · exact i3 w hw'
    · intro w hw'; rcases List.mem_cons.1 hw' with rfl | hw'
      · exact hlit
      · exact i4 w hw'
    · intro x hx; rcases List.mem_cons.1 hx with rfl | hx
      · exact hsm
      · exact i5 x hx
    · rw [i6, hsufs, hrep1]
      cases s.repr <;> cases sufOf v <;> simp
    · intro a ha
      rw [hsufs] at ha
      apply i7
      rw [hrep1]
      simp only [List.mem_append] at ha ⊢
      rcases ha with ha | ha | ha
      · left; cases hr : s.repr <;> simp [hr] at ha ⊢; exact ha
      · left
        cases hr : s.repr with
        | none => simpa using ha
        | some b =>
          cases hq : sufOf v with
          | none => simp [hq] at ha
          | some q =>
            have := hsame b q hr hq
            subst this
            simpa [hq] using ha
      · right; exact ha

/-- Completeness for the whole variant list. -/
theorem parseVariants_complete (c : Bool) (vs : List VariantSrc) (s : DSet)
    (hnz : Spec.NoNegZero vs)
    (hprev : ∀ p, s.previous = some p → p.mag < u64Size ∧ ¬ p.IsNegZero)
    (hvals : ∀ p ∈ s.values, ¬ p.IsNegZero)
    (hu : ∀ v ∈ vs, v.unit = true)
    (hlit : ∀ v ∈ vs, ∀ e, v.expr = some e → (Spec.value e).isSome ∧ (Spec.suffix e).isSome)
    (hsm : ∀ x ∈ Spec.discs (s.previous.map Disc.toInt) (vs.map fun v => v.expr.bind Spec.value),
      x < u64Size)
    (hsame : ∀ a ∈ s.repr.toList ++ Spec.suffixesOf vs,
      ∀ b ∈ s.repr.toList ++ Spec.suffixesOf vs, a = b)
    (hfit : ∀ a ∈ s.repr.toList ++ Spec.suffixesOf vs,
      (∀ x ∈ Spec.discs (s.previous.map Disc.toInt) (vs.map fun v => v.expr.bind Spec.value),
        Spec.Fits a x) ∧ ∀ p ∈ s.values, Spec.Fits a p.toInt) :
    (parseVariants c vs s).1 = [] ∧ ∀ d ∈ (parseVariants c vs s).2.1.values, ¬ d.IsNegZero := by
  induction vs generalizing s with
  | nil => exact ⟨rfl, hvals⟩
  | cons v vs ih =>
    rw [discs_cons] at hsm hfit
    rw [suffixesOf_cons] at hsame hfit
    have step := parseVariant_complete c (v := v) (s := s)
      ⟨hu v (by simp), hlit v (by simp), hsm _ (by simp), by
        intro a b ha hb
        exact hsame a (by simp [ha]) b (by simp [hb])⟩
      (hnz v (by simp)) hprev hvals (by
        intro a ha
        have hmem : a ∈ s.repr.toList ++ ((sufOf v).toList ++ Spec.suffixesOf vs) := by
          cases hr : s.repr <;> cases hq : sufOf v <;> simp [hr, hq] at ha ⊢ <;> simp [ha]
        exact ⟨(hfit a hmem).1 _ (by simp), (hfit a hmem).2⟩)
    obtain ⟨d, hd, hval, hm, hz⟩ := step
    have sub : ∀ a ∈ (s.repr.or (sufOf v)).toList ++ Spec.suffixesOf vs,
        a ∈ s.repr.toList ++ ((sufOf v).toList ++ Spec.suffixesOf vs) := by
      intro a ha
      cases hr : s.repr <;> cases hq : sufOf v <;> simp [hr, hq] at ha ⊢ <;> grind
    have IH := ih ⟨s.repr.or (sufOf v), d :: s.values, some d⟩
      (fun w hw => hnz w (by simp [hw]))
      (by intro p hp; cases hp; exact ⟨hm, hz⟩)
      (by
        intro p hp
        rcases List.mem_cons.1 hp with rfl | hp
        · exact hz
        · exact hvals p hp)
      (fun w hw => hu w (by simp [hw])) (fun w hw => hlit w (by simp [hw]))
      (by intro x hx; simp only [Option.map_some, hval] at hx; exact hsm x (by simp [hx]))
      (fun a ha b hb => hsame a (sub a ha) b (sub b hb))
      (by
        intro a ha
        obtain ⟨f1, f2⟩ := hfit a (sub a ha)
        refine ⟨?_, ?_⟩
        · intro x hx; simp only [Option.map_some, hval] at hx; exact f1 x (by simp [hx])
        · intro p hp
          rcases List.mem_cons.1 hp with rfl | hp
          · rw [hval]; exact f1 _ (by simp)
          · exact f2 p hp)
    simp only [parseVariants, hd]
    exact IH

/-- With no `-0` written, overflow checks make no difference. -/
theorem parseVariants_checks (c : Bool) (vs : List VariantSrc) (s : DSet)
    (hnz : Spec.NoNegZero vs) (hprev : ∀ p, s.previous = some p → ¬ p.IsNegZero) :
    parseVariants c vs s = parseVariants true vs s := by
  induction vs generalizing s with
  | nil => rfl
  | cons v vs ih =>
    have hstep : parseVariant c v s = parseVariant true v s := by
      unfold parseVariant
      split
      · rfl
      · split
        · rfl
        · unfold DSet.insertNext
          cases hp : s.previous with
          | none => rfl
          | some p =>
            have := hprev p hp
            simp only [Disc.IsNegZero, not_and] at this
            cases hn : p.neg with
            | true => simp [hn, this hn]
            | false => simp [hn]
    have ihv := fun s h => ih s (fun w hw => hnz w (by simp [hw])) h
    unfold parseVariants
    rw [hstep]
    cases hv : parseVariant true v s with
    | error e => simp only [ihv s hprev]
    | ok pr =>
      obtain ⟨s', d⟩ := pr
      have : ∀ p, s'.previous = some p → ¬ p.IsNegZero := by
        unfold parseVariant at hv
        have hraw : ∀ s0 : DSet, ∀ d', ¬ d'.IsNegZero → insertRaw s0 d' = .ok (s', d) →
            ∀ p, s'.previous = some p → ¬ p.IsNegZero := by
          intro s0 d' hz hi p hp
          rw [insertRaw_ok_iff] at hi
          obtain ⟨rfl, rfl⟩ := Prod.mk.inj hi.2
          cases hp; exact hz
        cases hu : v.unit with
        | false => simp [hu] at hv
        | true =>
          simp only [hu, Bool.not_true, Bool.false_eq_true, if_false] at hv
          cases he : v.expr with
          | none =>
            simp only [he] at hv
            unfold DSet.insertNext at hv
            cases hp : s.previous with
            | none =>
              simp only [hp] at hv
              exact hraw _ _ (by simp [Disc.IsNegZero, Disc.zero]) hv
            | some p =>
              simp only [hp] at hv
              cases hn : p.neg with
              | true =>
                by_cases hz : p.mag = 0
                · exact absurd ⟨hn, hz⟩ (hprev p hp)
                · simp only [hn, hz, if_true, if_false] at hv
                  exact hraw _ _ (by simp [Disc.IsNegZero]) hv
              | false =>
                simp only [hn, Bool.false_eq_true, if_false] at hv
                split at hv
                · cases hv
                · exact hraw _ _ (by simp [Disc.IsNegZero]) hv
          | some e =>
            simp only [he] at hv
            unfold DSet.insert at hv
            have hspec := exprToDiscriminant_spec e
            cases hx : exprToDiscriminant e with
            | error e' => simp [hx] at hv
            | ok pr =>
              obtain ⟨d', r⟩ := pr
              rw [hx] at hspec
              obtain ⟨_, _, _, hz⟩ := hspec
              have hdz : ¬ d'.IsNegZero := by
                intro h
                have h1 := (hz false).2 (by simpa [Disc.IsNegZero] using h)
                have h0 := hnz v (by simp) e he
                simp only [Spec.isNegZero] at h0
                rw [h1] at h0; cases h0
              simp only [hx] at hv
              repeat' split at hv
              all_goals first
                | exact hraw _ _ hdz hv
                | (cases hv; done)
      simp only [ihv s' this]

end Verif.Discriminant
