import Verif.View.Model
/-!
# C100: a Rust slice of C++ memory is of memory that may be read
-/
namespace Verif.View

variable {maxBytes : Nat} {m : Mem}

theorem bytes_nil {p : Nat} : Bytes m p [] := fun i h => absurd h (Nat.not_lt_zero i)

theorem Bytes.readable {p : Nat} {bs : List Nat} (h : Bytes m p bs) {i : Nat} (hi : i < bs.length) :
    (m (p + i)).isSome = true := by rw [h i hi]; rfl

theorem Bytes.left {p : Nat} {bs cs : List Nat} (h : Bytes m p (bs ++ cs)) : Bytes m p bs := fun i hi => by
  have := h i (by rw [List.length_append]; omega)
  rw [this, List.getElem_append_left hi]

theorem Bytes.right {p : Nat} {bs cs : List Nat} (h : Bytes m p (bs ++ cs)) : Bytes m (p + bs.length) cs := fun i hi => by
  have := h (bs.length + i) (by rw [List.length_append]; omega)
  rw [Nat.add_assoc, this, List.getElem_append_right (by omega)]
  simp

/-- A non-null, aligned array shows its contents. -/
theorem shows_of {t : Elt} {p n : Nat} {bs : List Nat} (h0 : p ≠ 0) (ha : p % t.align = 0) (hb : Bytes m p bs)
    (hl : bs.length = n * t.size) (hm : n * t.size ≤ maxBytes) : Shows maxBytes m t (.handed ⟨p, n⟩) bs :=
  ⟨⟨p, n⟩, rfl, ⟨h0, ha, fun _ hi => hb.readable (by rw [hl]; exact hi), hm⟩, hb, hl⟩

/-- The empty slice at the alignment shows nothing. -/
theorem shows_empty {t : Elt} {a : Nat} (h0 : a ≠ 0) (ha : a % t.align = 0) : Shows maxBytes m t (.handed ⟨a, 0⟩) [] :=
  shows_of h0 ha bytes_nil (by simp) (by simp)

theorem shows_array {t : Elt} {p n d : Nat} {bs : List Nat} (hd : d ≠ 0) (hda : d % t.align = 0)
    (h : Array maxBytes m t p n bs) : Shows maxBytes m t (.handed ⟨if p = 0 ∧ n = 0 then d else p, n⟩) bs := by
  obtain ⟨hl, hm, hb, ha, hz⟩ := h
  by_cases hp : p = 0
  · obtain rfl := hz hp
    obtain rfl : bs = [] := List.length_eq_zero_iff.1 (by simpa using hl)
    rw [if_pos ⟨hp, rfl⟩]
    exact shows_empty hd hda
  · rw [if_neg (fun h => hp h.1)]
    exact shows_of hp ha hb hl hm

theorem assert_true {nd : Bool} {c : Bool} {o : Outcome} (h : c = true) : assert nd c o = o := by simp [assert, h]

theorem not_null {t : Elt} {p n : Nat} {bs : List Nat} (h : Array maxBytes m t p n bs) : (p != 0 || n == 0) = true := by
  by_cases hp : p = 0
  · simp [h.2.2.2.2 hp]
  · simp [hp]

/-- **C100**, `rust::String(const char *, size_t)`, `String::lossy` and `rust::Str(const char *, size_t)`: Rust is shown exactly
the characters, also of an empty array at null, with and without assertions. -/
theorem chars_shown (nd : Bool) {p n : Nat} {bs : List Nat} (h : Array maxBytes m .byte p n bs) :
    Shows maxBytes m .byte (fromChars nd p n) bs := by
  unfold fromChars
  rw [assert_true (not_null h)]
  exact shows_array (by decide) (by decide) h

/-- **C100**, the same for `char16_t`. -/
theorem chars16_shown (nd : Bool) {p n : Nat} {bs : List Nat} (h : Array maxBytes m .unit16 p n bs) :
    Shows maxBytes m .unit16 (fromChars16 nd p n) bs := by
  unfold fromChars16
  have ha : p % 2 = 0 := h.2.2.2.1
  rw [assert_true (not_null h), assert_true (by simp [ha])]
  exact shows_array (by decide) (by decide) h

/-! ### C strings -/

theorem length_counts {t : Elt} {p n : Nat} (hf : ∀ k, k < n → isZero m t.size (p + k * t.size) = some false)
    (hn : isZero m t.size (p + n * t.size) = some true) : ∀ fuel j, j ≤ n → n < j + fuel → length m t p fuel j = some n
  | 0, j, h1, h2 => by omega
  | fuel + 1, j, h1, h2 => by
    unfold length
    by_cases hj : j = n
    · subst hj; rw [hn]
    · rw [hf j (by omega)]
      exact length_counts hf hn fuel (j + 1) (by omega) (by omega)

theorem isZero_bytes : ∀ (cs : List Nat) (a : Nat), Bytes m a cs → isZero m cs.length a = some (cs.all (· == 0))
  | [], _, _ => rfl
  | c :: cs, a, h => by
    have h0 : m a = some c := h 0 (Nat.succ_pos _)
    have hr : Bytes m (a + 1) cs := fun i hi => by
      have := h (i + 1) (by simp only [List.length_cons]; omega)
      rw [Nat.add_assoc, Nat.add_comm 1 i, this]; rfl
    simp only [List.length_cons, isZero, h0, isZero_bytes cs (a + 1) hr, Option.bind_eq_bind, Option.bind_some, pure,
      List.all_cons]

theorem Bytes.slice {p : Nat} {bs : List Nat} (h : Bytes m p bs) (i k : Nat) (hik : i + k ≤ bs.length) :
    Bytes m (p + i) ((bs.drop i).take k) := fun j hj => by
  have hj' : j < k := by simp only [List.length_take, List.length_drop] at hj; omega
  have := h (i + j) (by omega)
  rw [Nat.add_assoc, this]
  simp

/-- The length of a C string is counted right, in any address space it lies in. -/
theorem length_cstring {t : Elt} {p space : Nat} {bs : List Nat} (ht : 0 < t.size) (hs : ∀ a, (m a).isSome = true → a < space)
    (h : CString maxBytes m t p bs) : ∃ n, length m t p space 0 = some n ∧ bs.length = n * t.size := by
  obtain ⟨h0, ha, hm, hb, n, hn, hz⟩ := h
  refine ⟨n, ?_, hn⟩
  refine length_counts ?_ ?_ _ _ (Nat.zero_le _) ?_
  · intro k hk
    have hin : k * t.size + t.size ≤ bs.length := by
      rw [hn, ← Nat.succ_mul]; exact Nat.mul_le_mul_right _ hk
    have hsl := hb.left.slice (k * t.size) t.size hin
    have hlen : ((bs.drop (k * t.size)).take t.size).length = t.size := by
      simp only [List.length_take, List.length_drop]; omega
    have := isZero_bytes _ _ hsl
    rw [hlen] at this
    rw [this]
    congr 1
    obtain ⟨j, hj, hne⟩ := hz k hk
    rw [List.all_eq_false]
    refine ⟨bs[k * t.size + j]'(by omega), ?_, ?_⟩
    · refine List.mem_iff_getElem.2 ⟨j, by rw [hlen]; exact hj, ?_⟩
      simp
    · intro hc
      apply hne
      rw [List.getElem?_eq_getElem (by omega)]
      simpa using hc
  · have := isZero_bytes _ _ hb.right
    rw [List.length_replicate, hn] at this
    rw [this]
    simp
  · have hl : p + bs.length < space := by
      have := hb.right.readable (i := 0) (by simpa using ht)
      exact hs _ this
    have : n ≤ n * t.size := Nat.le_mul_of_pos_right _ ht
    omega

theorem shows_cstring {t : Elt} {p n : Nat} {bs : List Nat} (h : CString maxBytes m t p bs) (hn : bs.length = n * t.size) :
    Shows maxBytes m t (.handed ⟨p, n⟩) bs :=
  shows_of h.1 h.2.1 h.2.2.2.1.left hn (by rw [← hn]; exact h.2.2.1)

/-- **C100**, `rust::String(const char *)`, `rust::Str(const char *)`, `String::lossy(const char *)` and the message of an
exception: Rust is shown the characters up to the first zero. -/
theorem cstring_shown (nd : Bool) {space p : Nat} {bs : List Nat} (hs : ∀ a, (m a).isSome = true → a < space)
    (h : CString maxBytes m .byte p bs) :
    Shows maxBytes m .byte (fromCString nd m space p) bs ∧ Shows maxBytes m .byte (lossyCString nd m space p) bs ∧
    Shows maxBytes m .byte (failMessage m space p) bs := by
  obtain ⟨n, hlen, hn⟩ := length_cstring (by decide) hs h
  have h0 : (p != 0) = true := by simp [h.1]
  refine ⟨?_, ?_, ?_⟩
  · rw [fromCString, assert_true h0, hlen]
    exact shows_cstring h hn
  · rw [lossyCString, assert_true h0, hlen]
    refine chars_shown nd ⟨hn, ?_, h.2.2.2.1.left, h.2.1, fun hp => absurd hp h.1⟩
    rw [← hn]; exact h.2.2.1
  · rw [failMessage, hlen]
    exact shows_cstring h hn

/-- **C100**, the same for `char16_t`. -/
theorem cstring16_shown (nd : Bool) {space p : Nat} {bs : List Nat} (hs : ∀ a, (m a).isSome = true → a < space)
    (h : CString maxBytes m .unit16 p bs) :
    Shows maxBytes m .unit16 (fromCString16 nd m space p) bs ∧ Shows maxBytes m .unit16 (lossyCString16 nd m space p) bs := by
  obtain ⟨n, hlen, hn⟩ := length_cstring (by decide) hs h
  have h0 : (p != 0) = true := by simp [h.1]
  have ha : (p % 2 == 0) = true := beq_iff_eq.2 h.2.1
  refine ⟨?_, ?_⟩
  · rw [fromCString16, assert_true h0, assert_true ha, hlen]
    exact shows_cstring h hn
  · rw [lossyCString16, assert_true h0, assert_true ha, hlen]
    simp only [h.1, false_and, if_false]
    exact shows_cstring h hn

/-! ### Standard strings and vectors -/

/-- **C100**, `rust::String(std::string)`, `rust::Str(std::string)`, `String::lossy(std::string)`, an exception that is a string, and
`CxxString::as_bytes`. -/
theorem std_string_shown (nd : Bool) {s : StdString} {bs : List Nat} (h : s.Holds maxBytes m bs) :
    Shows maxBytes m .byte (fromStdString s) bs ∧ Shows maxBytes m .byte (lossyStdString nd s) bs := by
  obtain ⟨h0, hl, hm, hb⟩ := h
  have hn : bs.length = s.size * Elt.byte.size := by rw [hl]; simp [Elt.byte]
  refine ⟨shows_of h0 (Nat.mod_one _) hb.left hn (by rw [← hn]; exact hm), ?_⟩
  exact chars_shown nd ⟨hn, by rw [← hn]; exact hm, hb.left, Nat.mod_one _, fun hp => absurd hp h0⟩

/-- **C100**, `CxxString::as_c_str` shows the bytes up to the first zero in the string, or all of them. -/
theorem c_str_shown {space : Nat} {s : StdString} {bs : List Nat} (hs : ∀ a, (m a).isSome = true → a < space)
    (h : s.Holds maxBytes m bs) : Shows maxBytes m .byte (asCStr m space s) (bs.takeWhile (· != 0)) := by
  obtain ⟨h0, hl, hm, hb⟩ := h
  have hc : CString maxBytes m .byte s.data (bs.takeWhile (· != 0)) := by
    refine ⟨h0, Nat.mod_one _, Nat.le_trans (List.takeWhile_prefix _).length_le hm, ?_, (bs.takeWhile (· != 0)).length, by
      simp [Elt.byte], ?_⟩
    · have hp : bs.takeWhile (· != 0) ++ [0] <+: bs ++ [0] := by
        conv => rhs; rw [← List.takeWhile_append_dropWhile (p := (· != 0)) (l := bs)]
        rw [List.append_assoc]
        apply List.prefix_append_right_inj _ |>.2
        cases hd : bs.dropWhile (· != 0) with
        | nil => exact List.prefix_refl _
        | cons x xs =>
          have : x = 0 := by
            have := List.head?_dropWhile_not (· != 0) bs
            rw [hd] at this
            simpa using this
          subst this
          exact ⟨xs ++ [0], rfl⟩
      obtain ⟨r, hr⟩ := hp
      rw [← hr] at hb
      exact hb.left
    · intro k hk
      refine ⟨0, by decide, ?_⟩
      have hk' : k * Elt.byte.size + 0 = k := by simp [Elt.byte]
      rw [hk', List.getElem?_eq_getElem hk]
      intro he
      have := List.all_eq_true.1 (List.all_takeWhile (p := (· != 0)) (l := bs)) _ (List.getElem_mem hk)
      rw [Option.some.inj he] at this
      exact absurd this (by decide)
  obtain ⟨n, hlen, hn⟩ := length_cstring (by decide) hs hc
  rw [asCStr, hlen]
  exact shows_cstring hc hn

/-- **C100**, slices of C++: `rust::Slice<T>(pointer, count)`, the one without elements, and `CxxVector::as_slice`, also where the
empty vector has no memory. -/
theorem slices_shown (nd : Bool) {t : Elt} (ht : 0 < t.align) :
    (∀ p n bs, Array maxBytes m t p n bs → Shows maxBytes m t (slice nd t p n) bs) ∧
    Shows maxBytes m t (sliceDefault t) [] ∧
    (∀ (v : StdVector) bs, v.Holds maxBytes m t bs → Shows maxBytes m t (vectorSlice t v) bs) := by
  refine ⟨fun p n bs h => ?_, shows_empty (by omega) (Nat.mod_self _), fun v bs h => ?_⟩
  · unfold slice
    rw [assert_true (not_null h)]
    exact shows_array (by omega) (Nat.mod_self _) h
  · obtain ⟨hl, hm, hb⟩ := h
    unfold vectorSlice
    by_cases h0 : v.size = 0
    · rw [if_pos h0]
      obtain rfl : bs = [] := List.length_eq_zero_iff.1 (by rw [hl, h0]; simp)
      exact shows_empty (by omega) (Nat.mod_self _)
    · rw [if_neg h0, Nat.zero_mul, Nat.add_zero]
      obtain ⟨h1, h2, h3⟩ := hb h0
      exact shows_of h1 h2 h3 hl (by rw [← hl]; exact hm)

/-- **C100**: with assertions, a null pointer with a length, or a pointer to `char16_t` that is not
aligned, never reaches Rust. -/
theorem null_stopped (m : Mem) (space n : Nat) (t : Elt) : fromChars false 0 (n + 1) = .abort ∧ fromChars16 false 0 (n + 1) = .abort ∧
    slice false t 0 (n + 1) = .abort ∧ fromCString false m space 0 = .abort ∧ lossyCString false m space 0 = .abort ∧
    fromCString16 false m space 0 = .abort ∧ lossyCString16 false m space 0 = .abort ∧
    ∀ p k, p % 2 = 1 → fromChars16 false p k = .abort ∧ fromCString16 false m space p = .abort ∧
      lossyCString16 false m space p = .abort := by
  refine ⟨?_, ?_, ?_, ?_, ?_, ?_, ?_, fun p k hp => ?_⟩
  all_goals simp_all [fromChars, fromChars16, slice, fromCString, lossyCString, fromCString16, lossyCString16, assert]

/-! ### Concrete cases -/

/-- The bytes `hi` and a zero at address 100. -/
def demo : Mem := fun a => [(100, 104), (101, 105), (102, 0)].lookup a

theorem demo_bytes : Bytes demo 100 [104, 105, 0] := by
  intro i hi
  match i, hi with
  | 0, _ => rfl
  | 1, _ => rfl
  | 2, _ => rfl

example : Array 1000 demo .byte 100 2 [104, 105] ∧ Array 1000 demo .byte 0 0 [] ∧
    CString 1000 demo .byte 100 [104, 105] ∧ (StdString.mk 100 2).Holds 1000 demo [104, 105] ∧
    (StdVector.mk 0 0).Holds 1000 demo ⟨4, 4⟩ [] ∧ ∀ a, (demo a).isSome = true → a < 103 := by
  have h2 : Bytes demo 100 ([104, 105] ++ [0]) := demo_bytes
  refine ⟨⟨rfl, by decide, h2.left, by decide, by decide⟩, ⟨rfl, by decide, bytes_nil, by decide, by decide⟩,
    ⟨by decide, by decide, by decide, h2, 2, rfl, ?_⟩, ⟨by decide, rfl, by decide, h2⟩, ⟨rfl, by decide, fun h => absurd rfl h⟩, ?_⟩
  · intro k hk
    match k, hk with
    | 0, _ => exact ⟨0, by decide, by decide⟩
    | 1, _ => exact ⟨0, by decide, by decide⟩
  · intro a ha
    simp only [demo, List.lookup] at ha
    split at ha
    · simp_all
    · split at ha
      · simp_all
      · split at ha
        · simp_all
        · simp at ha

example : fromCString true demo 103 100 = .handed ⟨100, 2⟩ ∧ fromChars true 0 0 = .handed ⟨1, 0⟩ ∧
    vectorSlice ⟨4, 4⟩ ⟨0, 0⟩ = .handed ⟨4, 0⟩ := by decide

end Verif.View
