import Verif.Layout.EnumSpec
import Verif.Discriminant.Props
/-!
# Shared enums have the same values in Rust and C++
-/
namespace Verif.Layout
open Verif.Syntax Verif.Discriminant

/-! ### Decimal literals -/

theorem head_digit (n : Nat) (h : 0 < n) : ∃ c cs, Nat.toDigits 10 n = c :: cs ∧ c ≠ '0' := by
  induction n using Nat.strongRecOn with
  | ind n ih =>
    by_cases hn : n < 10
    · refine ⟨n.digitChar, [], Nat.toDigits_of_lt_base hn, ?_⟩
      rw [Ne, Nat.digitChar_eq_zero]; omega
    · obtain ⟨c, cs, h1, h2⟩ := ih (n / 10) (by omega) (by omega)
      exact ⟨c, cs ++ [(n % 10).digitChar], by rw [Nat.toDigits_of_base_le (by decide) (by omega), h1]; rfl, h2⟩

theorem digit_range {c : Char} (h : c.isDigit = true) : '0' ≤ c ∧ c ≤ '9' := by
  simp only [Char.isDigit, Bool.and_eq_true, decide_eq_true_eq] at h
  exact h

/-- The digits of a number, read as a C++ literal, give the number. -/
theorem literal_repr {n : Nat} (h : n < 2 ^ 63) : CxxLiteral (Nat.repr n).toList n := by
  rw [Nat.toList_repr]
  by_cases h0 : n = 0
  · subst h0; rw [Nat.toDigits_zero]; exact .zero
  · obtain ⟨c, cs, h1, h2⟩ := head_digit n (by omega)
    have hv : (c :: cs).foldl (fun n d => 10 * n + (d.toNat - '0'.toNat)) 0 = n := by
      rw [← h1]; exact Nat.ofDigitChars_ten_toDigits
    have := CxxLiteral.digits c cs (fun d hd => digit_range (Nat.isDigit_of_mem_toDigits (by decide) (by decide) (h1 ▸ hd)))
      h2 (by rw [hv]; exact h)
    rw [hv] at this
    rw [h1]; exact this

/-- A literal has one value, and it is below `2 ^ 63`. -/
theorem literal_value {cs : List Char} {n : Nat} (h : CxxLiteral cs n) :
    n = Nat.ofDigitChars 10 cs 0 ∧ n < 2 ^ 63 ∧ ∀ c, cs.head? = some c → c ≠ '-' := by
  cases h with
  | zero => exact ⟨rfl, by decide, by simp⟩
  | digits c cs hd h0 h =>
    refine ⟨rfl, h, ?_⟩
    simp only [List.head?_cons, Option.some.injEq]
    rintro _ rfl rfl
    exact absurd (hd '-' (by simp)).1 (by decide)

theorem constant_text {d : Disc} {v : Int} (h : CxxConstant (discText d) v) : v = d.toInt ∧ d.mag < 2 ^ 63 := by
  have hhead : ∀ c, (Nat.repr d.mag).toList.head? = some c → c ≠ '-' := by
    intro c hc
    rw [Nat.toList_repr] at hc
    have hm : c ∈ Nat.toDigits 10 d.mag := List.mem_of_mem_head? hc
    have := digit_range (Nat.isDigit_of_mem_toDigits (by decide) (by decide) hm)
    rintro rfl
    exact absurd this.1 (by decide)
  unfold discText at h
  cases hn : d.neg with
  | false =>
    rw [hn] at h
    simp only [Bool.false_eq_true, if_false, List.nil_append] at h
    generalize ht : (Nat.repr d.mag).toList = t at h
    cases h with
    | plain h =>
      obtain ⟨h1, h2, _⟩ := literal_value h
      rw [← ht, Nat.toList_repr, Nat.ofDigitChars_ten_toDigits] at h1
      subst h1
      exact ⟨by simp [Disc.toInt, hn], h2⟩
    | minus h => exact absurd rfl (hhead '-' (by rw [ht]; rfl))
  | true =>
    rw [hn] at h
    simp only [if_true, List.cons_append, List.nil_append] at h
    generalize ht : (Nat.repr d.mag).toList = t at h
    cases h with
    | plain h => exact absurd rfl ((literal_value h).2.2 '-' rfl)
    | minus h =>
      obtain ⟨h1, h2, _⟩ := literal_value h
      rw [← ht, Nat.toList_repr, Nat.ofDigitChars_ten_toDigits] at h1
      subst h1
      exact ⟨by simp [Disc.toInt, hn], h2⟩

/-- What the C++ compiler reads is the discriminant, if there is a literal for it. -/
theorem constant_iff (d : Disc) (v : Int) : CxxConstant (discText d) v ↔ v = d.toInt ∧ d.mag < 2 ^ 63 := by
  refine ⟨constant_text, ?_⟩
  rintro ⟨rfl, h⟩
  have hl := literal_repr h
  unfold discText Disc.toInt
  cases d.neg
  · exact .plain hl
  · exact .minus hl

/-- What the Rust compiler reads is the discriminant, if it is in range. -/
theorem rustValue_iff {a : Atom} {d : Disc} (hw : Discriminant.within a d) (ha : Spec.range a ≠ none) (v : Int) :
    RustValue a (discTokens d) v ↔ v = d.toInt := by
  have hf := Limits.has_fits hw
  constructor
  · intro h
    generalize ht : discTokens d = t at h
    cases h with
    | plain n _ => simp only [discTokens, RustInt.mk.injEq] at ht; simp [Disc.toInt, ht.1, ht.2]
    | minus n _ _ => simp only [discTokens, RustInt.mk.injEq] at ht; simp [Disc.toInt, ht.1, ht.2]
  · rintro rfl
    unfold discTokens
    cases hn : d.neg with
    | false =>
      simp only [Disc.toInt, hn, Bool.false_eq_true, if_false] at hf ⊢
      exact .plain _ hf
    | true =>
      have hs : Signed a := by
        cases a <;> simp [Spec.range] at ha <;> simp only [Signed, reduceCtorEq, or_true, or_false, or_self]
        all_goals
          have := hw _ (Limits.of_eq _)
          simp [Limits.has, Disc.le, Disc.cmp, Disc.zero, hn] at this
      simp only [Disc.toInt, hn, if_true] at hf ⊢
      exact .minus _ hs hf

/-! ### Main results -/

/-- **C72** (for values that have a C++ literal).  When the variants of an enum parse without error and it is
represented by a fixed-width type, the `i`-th variant becomes a Rust constant under its Rust name and a C++
enumerator under its C++ name, and the value of both, uniquely, is the one the rule "as written, else one more than the
previous" gives.  Missing: values of magnitude `2 ^ 63` and above, `large_values_have_no_literal`, and `usize` and
`isize`, for which `enum_usize_unchecked`. -/
theorem enum_values_partial (name : Pair) (attr : Option Atom) (names : List Pair) (vs : List VariantSrc)
    (h : (parseEnum true attr vs).errors = []) (hr : Spec.range (parseEnum true attr vs).repr ≠ none)
    (i : Nat) (n : Pair) (x : Int) (hn : names[i]? = some n) (hx : (Spec.valuesOf vs)[i]? = some x)
    (hm : -(2 ^ 63) < x ∧ x < 2 ^ 63) :
    let e := enumOut name attr names vs
    ∃ r c, (rustConsts e)[i]? = some (n.rust, r) ∧ (cxxEnumerators e)[i]? = some (n.cxx, c) ∧
      (∀ v, RustValue e.repr r v ↔ v = x) ∧ (∀ v, CxxValue e.repr c v ↔ v = x) := by
  intro e
  rw [← enum_discriminant_values attr vs h, List.getElem?_map, Option.map_eq_some_iff] at hx
  obtain ⟨d, hd, rfl⟩ := hx
  have hw := (enum_within attr vs h).1 d (List.mem_of_getElem? hd)
  have hv : e.variants[i]? = some (n, d) := by
    simp only [e, enumOut, List.getElem?_zip_eq_some]
    exact ⟨hn, hd⟩
  refine ⟨discTokens d, discText d, by simp [rustConsts, hv], by simp [cxxEnumerators, hv],
    rustValue_iff hw hr, fun v => ?_⟩
  unfold CxxValue
  rw [constant_iff]
  constructor
  · exact fun h => h.1.1
  · rintro rfl
    refine ⟨⟨rfl, ?_⟩, Limits.has_fits hw⟩
    unfold Disc.toInt at hm
    split at hm <;> omega

/-- **C72** (number and order of the variants).  Without errors there is one constant and one enumerator for every
variant. -/
theorem enum_variants_complete (name : Pair) (attr : Option Atom) (names : List Pair) (vs : List VariantSrc)
    (h : (parseEnum true attr vs).errors = []) (hl : names.length = vs.length) :
    (rustConsts (enumOut name attr names vs)).map (·.1) = names.map (·.rust) ∧
    (cxxEnumerators (enumOut name attr names vs)).map (·.1) = names.map (·.cxx) := by
  have hlen : ∀ (p : Option Int) (l : List (Option Int)), (Spec.discs p l).length = l.length := by
    intro p l
    induction l generalizing p with
    | nil => cases p <;> simp [Spec.discs]
    | cons a l ih => cases a <;> cases p <;> simp [Spec.discs, ih]
  have hd : (parseEnum true attr vs).discs.length = names.length := by
    have := congrArg List.length (enum_discriminant_values attr vs h)
    rw [List.length_map, Spec.valuesOf, hlen, List.length_map] at this
    rw [this, hl]
  have hz : (names.zip (parseEnum true attr vs).discs).map (·.1) = names :=
    List.map_fst_zip (by omega)
  constructor
  · have : (rustConsts (enumOut name attr names vs)).map (·.1) =
        ((names.zip (parseEnum true attr vs).discs).map (·.1)).map (·.rust) := by
      simp [rustConsts, enumOut]
    rw [this, hz]
  · have : (cxxEnumerators (enumOut name attr names vs)).map (·.1) =
        ((names.zip (parseEnum true attr vs).discs).map (·.1)).map (·.cxx) := by
      simp [cxxEnumerators, enumOut]
    rw [this, hz]

/-- **C72** (enums defined in a header).  The assertions hold exactly when the type is an enum of the size of the
representation type and every variant, converted to it, has the value of the Rust constant, if there is a literal
for that value. -/
theorem check_enum_exact (e : EnumOut) (sizeOf : Atom → Nat) (hdr : HeaderEnum)
    (hm : ∀ v ∈ e.variants, v.2.mag < 2 ^ 63) :
    (∀ a ∈ checkEnum e, Passes sizeOf hdr a) ↔
      hdr.isEnum = true ∧ hdr.size = sizeOf e.repr ∧
        ∀ n d, (n, d) ∈ e.variants → hdr.value e.repr n.cxx = some d.toInt := by
  simp only [checkEnum, List.mem_cons, List.mem_map]
  constructor
  · intro h
    refine ⟨h _ (.inl rfl), h _ (.inr (.inl rfl)), fun n d hv => ?_⟩
    obtain ⟨v, h1, h2⟩ := h _ (.inr (.inr ⟨(n, d), hv, rfl⟩))
    rw [h1, (constant_text h2).1]
  · rintro ⟨h1, h2, h3⟩ a (rfl | rfl | ⟨⟨n, d⟩, hv, rfl⟩)
    · exact h1
    · exact h2
    · exact ⟨_, h3 n d hv, (constant_iff _ _).2 ⟨rfl, hm _ hv⟩⟩

/-! ### Where the claim fails -/

/-- `enum E { A = 18446744073709551615 }` and `enum E { A = -9223372036854775808 }` are accepted, with representation
types `u64` and `i64` that have these values; but standard C++ has no decimal literal as large, so that the printed
enumerators have no value. -/
theorem large_values_have_no_literal :
    (parseEnum true none [⟨true, some (.lit 18446744073709551615 "")⟩]).errors = [] ∧
    (parseEnum true none [⟨true, some (.lit 18446744073709551615 "")⟩]).repr = .u64 ∧
    (parseEnum true none [⟨true, some (.neg (.lit 9223372036854775808 ""))⟩]).errors = [] ∧
    (parseEnum true none [⟨true, some (.neg (.lit 9223372036854775808 ""))⟩]).repr = .i64 ∧
    RustValue .u64 (discTokens ⟨false, 18446744073709551615⟩) 18446744073709551615 ∧
    RustValue .i64 (discTokens ⟨true, 9223372036854775808⟩) (-9223372036854775808) ∧
    (∀ v, ¬ CxxValue .u64 (discText ⟨false, 18446744073709551615⟩) v) ∧
    (∀ v, ¬ CxxValue .i64 (discText ⟨true, 9223372036854775808⟩) v) := by
  refine ⟨by decide, by decide, by decide, by decide, .plain _ (by decide), .minus _ (by simp [Signed]) (by decide), ?_, ?_⟩
  · intro v h
    have := (constant_text h.1).2
    simp at this
  · intro v h
    have := (constant_text h.1).2
    simp at this

/-! ### Concrete instances -/

/-- `enum E { A = -2, B, Z = 300 }`. -/
example :
    let vs : List VariantSrc := [⟨true, some (.neg (.lit 2 ""))⟩, ⟨true, none⟩, ⟨true, some (.lit 300 "")⟩]
    let e := enumOut ⟨[], "E", "E"⟩ none [⟨[], "A", "A"⟩, ⟨[], "b", "B"⟩, ⟨[], "Z", "Z"⟩] vs
    (parseEnum true none vs).errors = [] ∧ Spec.range (parseEnum true none vs).repr ≠ none ∧
    Spec.valuesOf vs = [-2, -1, 300] ∧ e.repr = .i16 ∧
    rustConsts e = [("A", ⟨true, 2⟩), ("B", ⟨true, 1⟩), ("Z", ⟨false, 300⟩)] ∧
    cxxEnumerators e = [("A", ['-', '2']), ("b", ['-', '1']), ("Z", ['3', '0', '0'])] := by decide

/-- A header that agrees and one that does not. -/
example :
    let e : EnumOut := ⟨⟨[], "E", "E"⟩, .u8, [(⟨[], "A", "A"⟩, ⟨false, 7⟩)]⟩
    let size : Atom → Nat := fun _ => 1
    (∀ a ∈ checkEnum e, Passes size ⟨true, 1, fun _ n => if n = "A" then some 7 else none⟩ a) ∧
    ¬ (∀ a ∈ checkEnum e, Passes size ⟨true, 1, fun _ n => if n = "A" then some 8 else none⟩ a) := by
  intro e size
  constructor
  · rw [check_enum_exact _ _ _ (by simp [e])]
    simp [e, size, Disc.toInt]
  · rw [check_enum_exact _ _ _ (by simp [e])]
    simp [e, size, Disc.toInt]

end Verif.Layout
