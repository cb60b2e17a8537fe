import Verif.Discriminant.Lemmas
/-!
# Properties C19 and C20: enum discriminants and inferred repr
-/
namespace Verif.Discriminant
open Verif.Syntax

/-- **C19** (values).  If parsing an enum reports no error (generator built with overflow checks),
the discriminants are exactly those of the rule "as written, else previous + 1, starting at 0", one
per variant in order. -/
theorem enum_discriminant_values (attr : Option Atom) (vs : List VariantSrc)
    (h : (parseEnum true attr vs).errors = []) :
    (parseEnum true attr vs).discs.map Disc.toInt = Spec.valuesOf vs := by
  unfold parseEnum at h ⊢
  have hs := parseVariants_sound vs (DSet.new attr)
  cases hi : (parseVariants true vs (DSet.new attr)).2.1.inferredRepr with
  | error e => simp [hi] at h
  | ok a =>
    simp only [hi] at h ⊢
    exact (hs h (by simp [DSet.new]) (by simp [DSet.new])).1

theorem enum_within (attr : Option Atom) (vs : List VariantSrc)
    (h : (parseEnum true attr vs).errors = []) :
    (∀ d ∈ (parseEnum true attr vs).discs, within (parseEnum true attr vs).repr d) ∧
    (∀ a ∈ attr.toList ++ Spec.suffixesOf vs, (parseEnum true attr vs).repr = a) := by
  unfold parseEnum at h ⊢
  have hs := parseVariants_sound vs (DSet.new attr)
  cases hi : (parseVariants true vs (DSet.new attr)).2.1.inferredRepr with
  | error e => simp [hi] at h
  | ok a =>
    simp only [hi] at h ⊢
    obtain ⟨_, hvals, _, _, _, _, hsame, hw⟩ := hs h (by simp [DSet.new]) (by simp [DSet.new])
    simp only [DSet.new, List.append_nil] at hvals
    have hmem : ∀ d ∈ (parseVariants true vs (DSet.new attr)).2.2,
        d ∈ (parseVariants true vs (DSet.new attr)).2.1.values := by
      intro d hd; simp only [DSet.new]; rw [hvals]; simpa [DSet.new] using hd
    unfold DSet.inferredRepr at hi
    constructor
    · intro d hd
      have hdv := hmem d hd
      cases hr : (parseVariants true vs (DSet.new attr)).2.1.repr with
      | some b =>
        simp only [hr, Except.ok.injEq] at hi
        subst hi
        exact hw b hr d hdv
      | none =>
        simp only [hr] at hi
        cases hv : (parseVariants true vs (DSet.new attr)).2.1.values with
        | nil => rw [hv] at hdv; cases hdv
        | cons x xs =>
          simp only [hv] at hi
          rw [hv] at hdv
          split at hi
          · rename_i l hl
            simp only [Except.ok.injEq] at hi
            subst hi
            have hp := List.find?_some hl
            have hlm := List.mem_of_find?_eq_some hl
            simp only [Bool.and_eq_true] at hp
            intro l' hl'
            have : l' = l := by
              simp only [LIMITS, List.mem_cons, List.not_mem_nil, or_false] at hlm
              rw [Limits.of_eq] at hl'
              rcases hlm with rfl | rfl | rfl | rfl | rfl | rfl | rfl | rfl <;> simpa using hl'.symm
            subst this
            simp only [Limits.has, Bool.and_eq_true]
            exact ⟨Disc.le_trans hp.1 (minOf_le x xs d hdv), Disc.le_trans (maxOf_ge x xs d hdv) hp.2⟩
          · cases hi
    · intro b hb
      have := hsame b (by simpa [DSet.new] using hb)
      rw [this] at hi
      simpa using hi.symm

/-- **C19** (fit).  Every accepted discriminant is a value of the repr type that both generators
use, and the repr is the one named by the attribute and by every suffix.  Missing from the full
claim: `usize`/`isize`, for which `Fits` says nothing (see `enum_usize_unchecked`). -/
theorem enum_discriminants_fit_partial (attr : Option Atom) (vs : List VariantSrc)
    (h : (parseEnum true attr vs).errors = []) :
    (∀ d ∈ (parseEnum true attr vs).discs, Spec.Fits (parseEnum true attr vs).repr d.toInt) ∧
    (∀ a ∈ attr.toList ++ Spec.suffixesOf vs, (parseEnum true attr vs).repr = a) := by
  have hw := enum_within attr vs h
  exact ⟨fun d hd => Limits.has_fits (hw.1 d hd), hw.2⟩

/-- How the candidate search reads in terms of integer ranges. -/
theorem limits_fit_iff (l : Limits) (hl : l ∈ LIMITS) (x : Disc) (xs : List Disc)
    (hz : ∀ d ∈ x :: xs, ¬ d.IsNegZero) :
    (l.min.le (minOf x xs) && (maxOf x xs).le l.max) = true ↔
      ∀ d ∈ x :: xs, Spec.Fits l.repr d.toInt := by
  have hof : Limits.of l.repr = some l := by
    simp only [LIMITS, List.mem_cons, List.not_mem_nil, or_false] at hl
    rcases hl with rfl | rfl | rfl | rfl | rfl | rfl | rfl | rfl <;> rfl
  constructor
  · intro h d hd
    simp only [Bool.and_eq_true] at h
    apply Limits.has_fits
    intro l' hl'
    rw [hof] at hl'; cases hl'
    simp only [Limits.has, Bool.and_eq_true]
    exact ⟨Disc.le_trans h.1 (minOf_le x xs d hd), Disc.le_trans (maxOf_ge x xs d hd) h.2⟩
  · intro h
    have h1 := fits_within (hz _ (minOf_mem x xs)) (h _ (minOf_mem x xs)) l hof
    have h2 := fits_within (hz _ (maxOf_mem x xs)) (h _ (maxOf_mem x xs)) l hof
    simp only [Limits.has, Bool.and_eq_true] at h1 h2 ⊢
    exact ⟨h1.1, h2.2⟩

theorem find_candidates (p : Limits → Bool) (q : Atom → Bool)
    (h : ∀ l ∈ LIMITS, p l = q l.repr) :
    (LIMITS.find? p).map Limits.repr = Spec.candidates.find? q := by
  have : Spec.candidates = LIMITS.map Limits.repr := rfl
  rw [this, List.find?_map]
  congr 1
  generalize LIMITS = L at h
  induction L with
  | nil => rfl
  | cons a as ih =>
    simp only [List.find?_cons, Function.comp]
    rw [h a (by simp)]
    rw [ih (fun l hl => h l (by simp [hl]))]

theorem inferredRepr_search {s : DSet} (hr : s.repr = none) (hz : ∀ d ∈ s.values, ¬ d.IsNegZero) :
    s.inferredRepr = match Spec.candidates.find?
        (fun a => decide (∀ d ∈ s.values, Spec.Fits a d.toInt)) with
      | some a => .ok a
      | none => .error .noReprFits := by
  unfold DSet.inferredRepr
  simp only [hr]
  cases hv : s.values with
  | nil => simp [Spec.candidates]
  | cons x xs =>
    simp only
    rw [hv] at hz
    rw [← find_candidates (fun l => l.min.le (minOf x xs) && (maxOf x xs).le l.max)
      (fun a => decide (∀ d ∈ x :: xs, Spec.Fits a d.toInt))]
    · cases LIMITS.find? (fun l => l.min.le (minOf x xs) && (maxOf x xs).le l.max) <;> rfl
    · intro l hl
      have := limits_fit_iff l hl x xs hz
      rw [Bool.eq_iff_iff, this, decide_eq_true_iff]

theorem new_complete (c : Bool) (attr : Option Atom) (vs : List VariantSrc)
    (hnz : Spec.NoNegZero vs) (hu : ∀ v ∈ vs, v.unit = true)
    (hlit : ∀ v ∈ vs, ∀ e, v.expr = some e → (Spec.value e).isSome ∧ (Spec.suffix e).isSome)
    (hsm : ∀ x ∈ Spec.valuesOf vs, x < 2^64)
    (hsame : ∀ a ∈ attr.toList ++ Spec.suffixesOf vs, Spec.namedRepr attr vs = some a)
    (hfit : ∀ a, Spec.namedRepr attr vs = some a → ∀ x ∈ Spec.valuesOf vs, Spec.Fits a x) :
    (parseVariants c vs (DSet.new attr)).1 = [] ∧
      ∀ d ∈ (parseVariants c vs (DSet.new attr)).2.1.values, ¬ d.IsNegZero :=
  parseVariants_complete c vs (DSet.new attr) hnz (by simp [DSet.new]) (by simp [DSet.new]) hu hlit
    (by
      intro x hx
      have := hsm x (by simpa [DSet.new, Spec.valuesOf] using hx)
      have h64 : ((2:Int)^64) = (u64Size : Int) := by decide
      rwa [h64] at this)
    (by
      intro a ha b hb
      have h1 := hsame a ha
      have h2 := hsame b hb
      rw [h1] at h2; simpa using h2)
    (by
      intro a ha
      exact ⟨fun x hx => hfit a (hsame a ha) x (by simpa [DSet.new, Spec.valuesOf] using hx),
        by simp [DSet.new]⟩)

/-- **C19/C20** (acceptance, repr, values together).  For enums that do not write a discriminant as
`-0`, parsing succeeds exactly on acceptable enums, whatever the overflow-check setting. -/
theorem enum_accept_iff_partial (c : Bool) (attr : Option Atom) (vs : List VariantSrc)
    (hnz : Spec.NoNegZero vs) :
    (parseEnum c attr vs).errors = [] ↔ Spec.Acceptable attr vs := by
  have hchk := parseVariants_checks c vs (DSet.new attr) hnz (by simp [DSet.new])
  have hpe : parseEnum c attr vs = parseEnum true attr vs := by unfold parseEnum; rw [hchk]
  rw [hpe]
  have h64 : ((2:Int)^64) = (u64Size : Int) := by decide
  constructor
  · intro h
    have hvals := enum_discriminant_values attr vs h
    have hfits := enum_discriminants_fit_partial attr vs h
    have hs := parseVariants_sound vs (DSet.new attr)
    unfold parseEnum at h hvals hfits
    cases hi : (parseVariants true vs (DSet.new attr)).2.1.inferredRepr with
    | error e => simp [hi] at h
    | ok a =>
      simp only [hi] at h hvals hfits
      obtain ⟨_, hval, h3, h4, h5, h6, h7, h8⟩ := hs h (by simp [DSet.new]) (by simp [DSet.new])
      have hmem : ∀ x ∈ Spec.valuesOf vs, ∃ d ∈ (parseVariants true vs (DSet.new attr)).2.2,
          d.toInt = x := by
        intro x hx; rw [← hvals] at hx; simpa using hx
      have hfit : ∀ x ∈ Spec.valuesOf vs, Spec.Fits a x := by
        intro x hx
        obtain ⟨d, hd, rfl⟩ := hmem x hx
        exact hfits.1 d hd
      refine ⟨h3, h4, ?_, ?_, ?_⟩
      · intro x hx
        obtain ⟨d, hd, rfl⟩ := hmem x hx
        rw [h64]; exact h5 d hd
      · intro b hb
        have := h7 b (by simpa [DSet.new] using hb)
        rw [h6] at this
        simpa [Spec.namedRepr, DSet.new] using this
      · cases hn : Spec.namedRepr attr vs with
        | some b =>
          have hb : b ∈ attr.toList ++ Spec.suffixesOf vs := List.mem_of_mem_head? hn
          have := hfits.2 b hb
          subst this
          exact hfit
        | none =>
          refine ⟨a, ?_, hfit⟩
          have hr : (parseVariants true vs (DSet.new attr)).2.1.repr = none := by
            rw [h6]; simpa [Spec.namedRepr, DSet.new] using hn
          unfold DSet.inferredRepr at hi
          simp only [hr] at hi
          split at hi
          · cases hi; simp [Spec.candidates]
          · split at hi
            · rename_i l hl
              cases hi
              have := List.mem_of_find?_eq_some hl
              exact List.mem_map_of_mem (f := Limits.repr) this
            · cases hi
  · intro ⟨hu, hlit, hsm, hsame, hfit⟩
    obtain ⟨hok, hz⟩ := new_complete true attr vs hnz hu hlit hsm hsame (by
      intro a ha; rw [ha] at hfit; exact hfit)
    obtain ⟨h1, hval, _, _, _, h6, h7, _⟩ :=
      parseVariants_sound vs (DSet.new attr) hok (by simp [DSet.new]) (by simp [DSet.new])
    unfold parseEnum
    cases hn : Spec.namedRepr attr vs with
    | some b =>
      have hr : (parseVariants true vs (DSet.new attr)).2.1.repr = some b := by
        rw [h6]; simpa [Spec.namedRepr, DSet.new] using hn
      simp only [DSet.inferredRepr, hr]
      exact hok
    | none =>
      have hr : (parseVariants true vs (DSet.new attr)).2.1.repr = none := by
        rw [h6]; simpa [Spec.namedRepr, DSet.new] using hn
      rw [hn] at hfit
      obtain ⟨a, ha, hfa⟩ := hfit
      simp only [inferredRepr_search hr hz]
      have hsome : (Spec.candidates.find? (fun a => decide (∀ d ∈
          (parseVariants true vs (DSet.new attr)).2.1.values, Spec.Fits a d.toInt))).isSome := by
        rw [List.find?_isSome]
        refine ⟨a, ha, ?_⟩
        rw [decide_eq_true_iff]
        intro d hd
        rw [hval] at hd
        apply hfa
        have : d ∈ (parseVariants true vs (DSet.new attr)).2.2 := by simpa [DSet.new] using hd
        have := List.mem_map_of_mem (f := Disc.toInt) this
        rw [h1] at this
        simpa [Spec.valuesOf, DSet.new] using this
      revert hsome
      cases Spec.candidates.find? (fun a => decide (∀ d ∈
          (parseVariants true vs (DSet.new attr)).2.1.values, Spec.Fits a d.toInt)) with
      | none => simp
      | some b => intro _; exact hok

/-- **C20**.  With no repr attribute and no literal suffix, an accepted enum gets the first of
u8, i8, u16, i16, u32, i32, u64, i64 that holds all its discriminants. -/
theorem inferred_repr_is_first_fit_partial (c : Bool) (vs : List VariantSrc)
    (hnz : Spec.NoNegZero vs) (hsuf : Spec.suffixesOf vs = [])
    (h : (parseEnum c none vs).errors = []) :
    Spec.candidates.find? (fun a => decide (∀ x ∈ Spec.valuesOf vs, Spec.Fits a x)) =
      some (parseEnum c none vs).repr := by
  have hacc := (enum_accept_iff_partial c none vs hnz).1 h
  have hchk := parseVariants_checks c vs (DSet.new none) hnz (by simp [DSet.new])
  have hpe : parseEnum c none vs = parseEnum true none vs := by unfold parseEnum; rw [hchk]
  rw [hpe] at h ⊢
  have hvals := enum_discriminant_values none vs h
  obtain ⟨hu, hlit, hsm, hsame, hfit⟩ := hacc
  have hname : Spec.namedRepr none vs = none := by simp [Spec.namedRepr, hsuf]
  obtain ⟨hok, hz⟩ := new_complete true none vs hnz hu hlit hsm hsame (by
    intro a ha; rw [hname] at ha; cases ha)
  obtain ⟨h1, hval, _, _, _, h6, _, _⟩ :=
    parseVariants_sound vs (DSet.new none) hok (by simp [DSet.new]) (by simp [DSet.new])
  have hr : (parseVariants true vs (DSet.new none)).2.1.repr = none := by
    rw [h6]; simp [DSet.new, hsuf]
  have hequiv : (fun a => decide (∀ d ∈ (parseVariants true vs (DSet.new none)).2.1.values,
      Spec.Fits a d.toInt)) = (fun a => decide (∀ x ∈ Spec.valuesOf vs, Spec.Fits a x)) := by
    funext a
    rw [decide_eq_decide]
    have h1' : (parseVariants true vs (DSet.new none)).2.2.map Disc.toInt = Spec.valuesOf vs := by
      rw [h1]; rfl
    rw [← h1', hval]
    simp [DSet.new]
  simp only [parseEnum] at h ⊢
  rw [inferredRepr_search hr hz, hequiv] at h ⊢
  cases hf : Spec.candidates.find? (fun a => decide (∀ x ∈ Spec.valuesOf vs, Spec.Fits a x)) with
  | none => simp [hf] at h
  | some a => rfl

/-- **C20** (error side).  With no repr attribute and no suffix, an enum of integer literals is
refused exactly when no candidate type holds all its discriminants. -/
theorem inferred_repr_error_iff_partial (c : Bool) (vs : List VariantSrc) (hnz : Spec.NoNegZero vs)
    (hsuf : Spec.suffixesOf vs = []) (hu : ∀ v ∈ vs, v.unit = true)
    (hlit : ∀ v ∈ vs, ∀ e, v.expr = some e → (Spec.value e).isSome ∧ (Spec.suffix e).isSome) :
    (parseEnum c none vs).errors ≠ [] ↔
      ¬ ∃ a ∈ Spec.candidates, ∀ x ∈ Spec.valuesOf vs, Spec.Fits a x := by
  rw [Ne, enum_accept_iff_partial c none vs hnz, not_congr]
  constructor
  · intro ⟨_, _, _, _, hfit⟩
    simpa [Spec.namedRepr, hsuf] using hfit
  · intro hfit
    refine ⟨hu, hlit, ?_, by simp [hsuf], by simpa [Spec.namedRepr, hsuf] using hfit⟩
    intro x hx
    obtain ⟨a, ha, hf⟩ := hfit
    have := hf x hx
    simp only [Spec.candidates, List.mem_cons, List.not_mem_nil, or_false] at ha
    rcases ha with rfl | rfl | rfl | rfl | rfl | rfl | rfl | rfl <;>
      (have := this _ _ rfl; omega)

/-! ### Where the claims fail of the code

`-0` is kept as "negative, magnitude 0": it is refused for unsigned reprs, and a following variant
without a discriminant subtracts 1 from magnitude 0 (syntax/discriminant.rs:69). -/

/-- `enum E { A = -0, B }`. -/
def negZeroThenNext : List VariantSrc := [⟨true, some (.neg (.lit 0 ""))⟩, ⟨true, none⟩]

/-- With overflow checks the generator panics on `enum E { A = -0, B }`, although `0, 1` is a valid
assignment that fits u8. -/
theorem enum_neg_zero_panics :
    Err.overflowPanic ∈ (parseEnum true none negZeroThenNext).errors ∧
      Spec.Acceptable none negZeroThenNext := by
  refine ⟨by decide, ⟨by decide, ?_, by decide, by decide, ?_⟩⟩
  · intro v hv e he
    simp [negZeroThenNext] at hv
    rcases hv with rfl | rfl
    · cases he; decide
    · cases he
  · exact ⟨.u8, by decide, by decide⟩

/-- Without overflow checks the subtraction wraps, and with `#[repr(isize)]` the enum
`{ A = -0, B }` is accepted with `B = -(2^64 - 1)` instead of `1`. -/
theorem enum_neg_zero_wraps :
    (parseEnum false (some .isize) negZeroThenNext).errors = [] ∧
    (parseEnum false (some .isize) negZeroThenNext).discs.map Disc.toInt = [0, -18446744073709551615] ∧
    Spec.valuesOf negZeroThenNext = [0, 1] := by decide

/-- `#[repr(u8)] enum E { A = -0 }` is refused although 0 is a `u8`. -/
theorem enum_neg_zero_refused :
    (parseEnum true (some .u8) [⟨true, some (.neg (.lit 0 ""))⟩]).errors ≠ [] ∧
    Spec.Fits .u8 0 := by decide

/-- Values are not checked against `usize`: `#[repr(usize)] enum E { A = -1 }` passes. -/
theorem enum_usize_unchecked :
    (parseEnum true (some .usize) [⟨true, some (.neg (.lit 1 ""))⟩]).errors = [] ∧
    (parseEnum true (some .usize) [⟨true, some (.neg (.lit 1 ""))⟩]).discs.map Disc.toInt = [-1] := by
  decide

/-! ### The hypotheses are met by real enums -/

/-- `enum E { A = -2, B, C, D, Z = 300 }` -/
def sampleEnum : List VariantSrc :=
  [⟨true, some (.neg (.lit 2 ""))⟩, ⟨true, none⟩, ⟨true, none⟩, ⟨true, none⟩, ⟨true, some (.lit 300 "")⟩]

example : (parseEnum true none sampleEnum).errors = [] ∧
    (parseEnum true none sampleEnum).discs.map Disc.toInt = [-2, -1, 0, 1, 300] ∧
    (parseEnum true none sampleEnum).repr = .i16 ∧ Spec.NoNegZero sampleEnum ∧
    Spec.suffixesOf sampleEnum = [] := by
  refine ⟨by decide, by decide, by decide, ?_, by decide⟩
  intro v hv e he
  simp [sampleEnum] at hv
  rcases hv with rfl | rfl | rfl <;> cases he <;> decide

example : (parseEnum true (some .u8) [⟨true, some (.lit 254 "u8")⟩, ⟨true, none⟩]).errors = [] ∧
    (parseEnum true (some .u8) [⟨true, some (.lit 254 "u8")⟩, ⟨true, none⟩, ⟨true, none⟩]).errors ≠ [] := by
  decide

end Verif.Discriminant
