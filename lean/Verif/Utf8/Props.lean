import Verif.Utf8.Lemmas
import Verif.Common.Fn
/-!
# C01, C04, C05
-/
namespace Verif.Utf8
open Spec

/-! ## The validator decides well-formedness -/

theorem wf_nil : WellFormed8 [] := ⟨[], by simp, rfl⟩

theorem wf_cons {c : Nat} {rest : List Nat} (hc : IsScalar c) (h : WellFormed8 rest) :
    WellFormed8 (encode8 c ++ rest) := by
  obtain ⟨cs, h1, rfl⟩ := h
  refine ⟨c :: cs, ?_, by simp⟩
  intro x hx
  rcases List.mem_cons.1 hx with rfl | hx
  · exact hc
  · exact h1 x hx

theorem wf_append {a b : List Nat} (ha : WellFormed8 a) (hb : WellFormed8 b) : WellFormed8 (a ++ b) := by
  obtain ⟨cs, h1, rfl⟩ := ha
  obtain ⟨ds, h2, rfl⟩ := hb
  exact ⟨cs ++ ds, by simpa [or_imp, forall_and] using ⟨h1, h2⟩, by simp⟩

theorem fromUtf8_encode {c : Nat} (hc : IsScalar c) (rest : List Nat) :
    fromUtf8 (encode8 c ++ rest) =
      (fromUtf8 rest).map (fun e => ⟨(encode8 c).length + e.validUpTo, e.errorLen⟩) := by
  obtain ⟨b0, tl, he, hs⟩ := step_encode hc rest
  rw [he, List.cons_append, fromUtf8, hs]
  simp only [List.drop_left]
  cases fromUtf8 rest <;> simp

/-- Case split on a non-empty byte string: a character in front, or an ill-formed piece. -/
theorem front_cases (b0 : Nat) (rest : List Nat) :
    (∃ c r, IsScalar c ∧ b0 :: rest = encode8 c ++ r ∧ step b0 rest = .ok ((encode8 c).length - 1)) ∨
    (∃ l, step b0 rest = .bad l) := by
  cases h : step b0 rest with
  | bad l => exact Or.inr ⟨l, rfl⟩
  | ok n =>
    obtain ⟨hn, c, hc, he⟩ := step_ok h
    refine Or.inl ⟨c, rest.drop n, hc, by simp [he], ?_⟩
    simp [he]; omega

theorem from_utf8_iff (bs : List Nat) : fromUtf8 bs = none ↔ WellFormed8 bs := by
  constructor
  · intro h
    generalize hn : bs.length = n
    induction n using Nat.strongRecOn generalizing bs with
    | ind n ih =>
      match bs, h, hn with
      | [], _, _ => exact wf_nil
      | b0 :: rest, h, hn =>
        rcases front_cases b0 rest with ⟨c, r, hc, he, _⟩ | ⟨l, hl⟩
        · rw [he, fromUtf8_encode hc] at h
          rw [he]
          refine wf_cons hc (ih r.length ?_ r (by simpa using h) rfl)
          have := congrArg List.length he
          have hl := List.length_pos_iff.2 (encode8_ne_nil c)
          simp at this hn; omega
        · rw [fromUtf8, hl] at h; cases h
  · rintro ⟨cs, hcs, rfl⟩
    induction cs with
    | nil => simp [fromUtf8]
    | cons c cs ih =>
      rw [List.flatMap_cons, fromUtf8_encode (hcs c (by simp)), ih (fun x hx => hcs x (by simp [hx]))]
      rfl

theorem fromUtf8Lossy_encode {c : Nat} (hc : IsScalar c) (rest : List Nat) :
    fromUtf8Lossy (encode8 c ++ rest) = encode8 c ++ fromUtf8Lossy rest := by
  obtain ⟨b0, tl, he, hs⟩ := step_encode hc rest
  rw [he, List.cons_append, fromUtf8Lossy, hs]
  simp

/-- Every byte string has a decomposition, and the lossy conversion is the one it gives. -/
theorem lossy_pieces (bs : List Nat) : ∃ ps, Pieces bs ps ∧ fromUtf8Lossy bs = lossy ps := by
  have hrep : encode8 0xFFFD = replacement := by decide
  generalize hn : bs.length = n
  induction n using Nat.strongRecOn generalizing bs with
  | ind n ih =>
    match bs, hn with
    | [], _ => exact ⟨[], .nil, by simp [fromUtf8Lossy, lossy]⟩
    | b0 :: rest, hn =>
      rcases front_cases b0 rest with ⟨c, r, hc, he, _⟩ | ⟨l, hl⟩
      · have hlen := congrArg List.length he
        have hpos := List.length_pos_iff.2 (encode8_ne_nil c)
        obtain ⟨ps, hp, hq⟩ := ih r.length (by simp at hlen hn; omega) r rfl
        rw [he]
        exact ⟨_, .char hc hp, by rw [fromUtf8Lossy_encode hc, hq]; simp [lossy]⟩
      · have hm := step_bad_maximal hl
        match l, hl, hm with
        | none, hl, hm =>
          refine ⟨[.bad (b0 :: rest)], ?_, ?_⟩
          · have := Pieces.bad (bad := b0 :: rest) (rest := []) (by simp) hm .nil
            simpa using this
          · rw [fromUtf8Lossy, hl]; simp [lossy, hrep]
        | some k, hl, hm =>
          obtain ⟨ps, hp, hq⟩ := ih (rest.drop (k - 1)).length (by simp at hn ⊢; omega) _ rfl
          refine ⟨.bad (b0 :: rest.take (k - 1)) :: ps, ?_, ?_⟩
          · have := Pieces.bad (bad := b0 :: rest.take (k - 1)) (by simp) hm hp
            simpa using this
          · rw [fromUtf8Lossy, hl]; simp [lossy, hrep, hq]

theorem incomplete_prefix {p q : List Nat} (hp : p ≠ []) (h : Incomplete (p ++ q)) : Incomplete p := by
  obtain ⟨_, c, r, hc, hr, he⟩ := h
  exact ⟨hp, c, q ++ r, hc, by simp [hr], by simp [he]⟩

theorem encode_append_inj {c d : Nat} {r s : List Nat} (hc : IsScalar c) (hd : IsScalar d)
    (h : encode8 c ++ r = encode8 d ++ s) : c = d ∧ r = s := by
  obtain ⟨b, tl, he, hs⟩ := step_encode hc r
  obtain ⟨b', tl', he', hs'⟩ := step_encode hd s
  have h' := h
  rw [he, he'] at h
  simp only [List.cons_append] at h
  obtain ⟨rfl, ht⟩ := List.cons.inj h
  rw [ht, hs'] at hs
  injection hs with hl
  obtain ⟨h1, h2⟩ := List.append_inj ht hl.symm
  refine ⟨?_, h2⟩
  have hee : encode8 c = encode8 d := by rw [he, he', h1]
  unfold IsScalar at hc hd
  unfold encode8 at hee
  by_cases a1 : c < 0x80 <;> by_cases b1 : d < 0x80 <;> by_cases a2 : c < 0x800 <;> by_cases b2 : d < 0x800 <;>
    by_cases a3 : c < 0x10000 <;> by_cases b3 : d < 0x10000 <;>
    simp only [a1, b1, a2, b2, a3, b3, if_true, if_false, List.cons.injEq, and_true, reduceCtorEq, and_false] at hee <;> omega

theorem maximal_unique {a r b s : List Nat} (ha : a ≠ []) (hb : b ≠ []) (h : a ++ r = b ++ s)
    (hma : MaximalIllFormed a r) (hmb : MaximalIllFormed b s) : a = b ∧ r = s := by
  have hlen : a.length = b.length := by
    rcases hma.2.2 with ia | ⟨la, ia⟩ <;> rcases hmb.2.2 with ib | ⟨lb, ib⟩
    · exact Nat.le_antisymm (hmb.2.1 a r ia h.symm) (hma.2.1 b s ib h)
    · exfalso
      match b, lb, a, ha with
      | [x], _, y :: a, _ =>
        simp at h; rw [h.1] at ia
        exact ib (incomplete_prefix (p := [x]) (q := a) (by simp) ia)
    · exfalso
      match a, la, b, hb with
      | [x], _, y :: b, _ =>
        simp at h; rw [← h.1] at ib
        exact ia (incomplete_prefix (p := [x]) (q := b) (by simp) ib)
    · omega
  exact List.append_inj h hlen

/-- The decomposition is unique. -/
theorem pieces_unique {bs : List Nat} {ps qs : List Piece} (hp : Pieces bs ps) (hq : Pieces bs qs) :
    ps = qs := by
  induction hp generalizing qs with
  | nil =>
    generalize h : ([] : List Nat) = l at hq
    cases hq with
    | nil => rfl
    | char hc _ => simp [encode8_ne_nil] at h
    | bad hne _ _ => simp [hne] at h
  | @char c rest ps hc _ ih =>
    generalize h : encode8 c ++ rest = l at hq
    cases hq with
    | nil => simp [encode8_ne_nil] at h
    | char hd hr =>
      obtain ⟨rfl, rfl⟩ := encode_append_inj hc hd h
      rw [ih hr]
    | bad hne hm _ => exact absurd ⟨c, rest, hc, h.symm⟩ hm.1
  | @bad b rest ps hne hm _ ih =>
    generalize h : b ++ rest = l at hq
    cases hq with
    | nil => simp [hne] at h
    | @char c r _ hc _ => exact absurd ⟨c, r, hc, h⟩ hm.1
    | bad hne' hm' hr =>
      obtain ⟨rfl, rfl⟩ := maximal_unique hne hne' h hm hm'
      rw [ih hr]

theorem pieces_wf {cs : List Nat} (h : ∀ c ∈ cs, IsScalar c) :
    Pieces (cs.flatMap encode8) (cs.map .char) := by
  induction cs with
  | nil => exact .nil
  | cons c cs ih =>
    exact .char (h c (by simp)) (ih (fun x hx => h x (by simp [hx])))

theorem lossy_wf {bs : List Nat} {ps : List Piece} (h : Pieces bs ps) : WellFormed8 (lossy ps) := by
  induction h with
  | nil => exact wf_nil
  | char hc _ ih => simpa [lossy] using wf_cons hc ih
  | bad _ _ _ ih =>
    simpa [lossy] using wf_cons (c := 0xFFFD) (by unfold IsScalar; omega) ih

theorem lossy_id {cs : List Nat} : lossy (cs.map .char) = cs.flatMap encode8 := by
  simp [lossy, List.flatMap_map]

/-! ## C01 -/

/-- **C01**, bytes. `rust::String(ptr, len)` succeeds exactly when the `len` bytes are well-formed
UTF-8, and then holds exactly those bytes; otherwise it throws `std::invalid_argument`. A null pointer
with length 0 gives the empty string. -/
theorem string_utf8_gate (mem : List Nat) (len : Nat) :
    (∀ t, stringCtor (.mem mem) len = .ok t ↔ WellFormed8 (mem.take len) ∧ t = mem.take len) ∧
    (stringCtor (.mem mem) len = .error .invalidArgument ↔ ¬ WellFormed8 (mem.take len)) ∧
    stringCtor .null 0 = .ok [] := by
  have key := from_utf8_iff (mem.take len)
  refine ⟨fun t => ?_, ?_, by simp [stringCtor, slice, fromUtf8]⟩
  · unfold stringCtor slice
    cases h : fromUtf8 (mem.take len) with
    | none => simp only [h]; rw [h] at key; simp at key; simp [key, eq_comm]
    | some e => simp only [h]; rw [h] at key; simp at key; simp [key]
  · unfold stringCtor slice
    cases h : fromUtf8 (mem.take len) with
    | none => simp only [h]; rw [h] at key; simp at key; simp [key]
    | some e => simp only [h]; rw [h] at key; simp at key; simp [key]

/-- **C01**, `rust::String(const std::string &)` takes all the bytes, including NULs. -/
theorem string_std_gate (s : List Nat) :
    (∀ t, stringCtorStd s = .ok t ↔ WellFormed8 s ∧ t = s) ∧
    (stringCtorStd s = .error .invalidArgument ↔ ¬ WellFormed8 s) := by
  have := string_utf8_gate s s.length
  simp only [List.take_length] at this
  exact ⟨this.1, this.2.1⟩

/-- **C01**, `rust::String(const char *)` takes the bytes before the first NUL. -/
theorem string_cstr_gate (text after : List Nat) (hnul : ∀ b ∈ text, b ≠ 0) :
    (∀ t, stringCtorCStr (text ++ 0 :: after) = .ok t ↔ WellFormed8 text ∧ t = text) ∧
    (stringCtorCStr (text ++ 0 :: after) = .error .invalidArgument ↔ ¬ WellFormed8 text) := by
  have hs : strlen (text ++ 0 :: after) = text.length := by
    unfold strlen
    rw [List.takeWhile_append_of_pos (by simpa using hnul)]
    simp
  have := string_utf8_gate (text ++ 0 :: after) text.length
  simp only [List.take_left'] at this
  simp only [stringCtorCStr, hs]
  exact ⟨this.1, this.2.1⟩

/-- **C01**, `rust::Str(ptr, len)`. -/
theorem str_utf8_gate (mem : List Nat) (len : Nat) :
    (∀ t, strCtor (.mem mem) len = .ok t ↔ WellFormed8 (mem.take len) ∧ t = mem.take len) ∧
    (strCtor (.mem mem) len = .error .invalidArgument ↔ ¬ WellFormed8 (mem.take len)) ∧
    strCtor .null 0 = .ok [] :=
  string_utf8_gate mem len

/-! UTF-16 -/

theorem push_encode {c : Nat} (hc : IsScalar c) : push c = encode8 c := by
  unfold IsScalar at hc
  unfold push encode8
  by_cases h1 : c < 0x80
  · simp [h1]
  by_cases h2 : c < 0x800
  · simp only [h1, h2, if_true, if_false, List.cons.injEq, and_true]; omega
  by_cases h3 : c < 0x10000
  · simp only [h1, h2, h3, if_true, if_false, List.cons.injEq, and_true]; omega
  · simp only [h1, h2, h3, if_false, List.cons.injEq, and_true]; omega

theorem decode16_encode {c : Nat} (hc : IsScalar c) (rest : List Nat) :
    decodeUtf16 (encode16 c ++ rest) = some c :: decodeUtf16 rest := by
  unfold IsScalar at hc
  unfold encode16
  by_cases h : c < 0x10000
  · rw [if_pos h]
    have hs : step16 c rest = (some c, 0) := by unfold step16; rw [if_pos (by omega)]
    simp [decodeUtf16, hs]
  · rw [if_neg h]
    have hs : step16 (0xD800 + (c - 0x10000) / 1024) ((0xDC00 + (c - 0x10000) % 1024) :: rest) = (some c, 1) := by
      unfold step16
      rw [if_neg (by omega), if_neg (by omega)]
      simp only
      rw [if_neg (by omega)]
      simp only [Prod.mk.injEq, Option.some.injEq, and_true]
      omega
    simp [decodeUtf16, hs]

theorem decode16_sound (us : List Nat) (hu : ∀ u ∈ us, u < 0x10000) :
    (∀ d ∈ decodeUtf16 us, ∀ c, d = some c → IsScalar c) ∧
    ((∀ d ∈ decodeUtf16 us, d ≠ none) →
      ∃ cs : List Nat, decodeUtf16 us = cs.map some ∧ us = cs.flatMap encode16) := by
  generalize hn : us.length = n
  induction n using Nat.strongRecOn generalizing us with
  | ind n ih =>
    match us, hn with
    | [], _ => exact ⟨by simp [decodeUtf16], fun _ => ⟨[], by simp [decodeUtf16]⟩⟩
    | u :: rest, hn =>
      have hrest := ih (rest.drop (step16 u rest).2).length (by simp at hn ⊢; omega)
        (rest.drop (step16 u rest).2) (fun x hx => hu x (List.mem_cons_of_mem _ (List.mem_of_mem_drop hx))) rfl
      have hu0 := hu u (by simp)
      have key : ∀ c, (step16 u rest).1 = some c →
          IsScalar c ∧ u :: rest = encode16 c ++ rest.drop (step16 u rest).2 := by
        intro c hc
        unfold step16 at hc ⊢
        by_cases a : u < 0xD800 ∨ 0xDFFF < u
        · rw [if_pos a] at hc ⊢
          cases hc
          exact ⟨by unfold IsScalar; omega, by simp [encode16, hu0]⟩
        rw [if_neg a] at hc ⊢
        by_cases b : 0xDC00 ≤ u
        · rw [if_pos b] at hc; cases hc
        rw [if_neg b] at hc ⊢
        match rest, hc with
        | [], hc => cases hc
        | u2 :: r, hc =>
          simp only at hc ⊢
          by_cases d : u2 < 0xDC00 ∨ 0xDFFF < u2
          · rw [if_pos d] at hc; cases hc
          rw [if_neg d] at hc ⊢
          simp only [Option.some.injEq] at hc
          refine ⟨by unfold IsScalar; omega, ?_⟩
          unfold encode16
          rw [if_neg (by omega)]
          simp only [List.drop_succ_cons, List.drop_zero, List.cons_append, List.nil_append,
            List.cons.injEq, and_true]
          omega
      rw [decodeUtf16]
      constructor
      · intro d hd c hdc
        rcases List.mem_cons.1 hd with rfl | hd
        · exact (key c hdc).1
        · exact hrest.1 d hd c hdc
      · intro hall
        obtain ⟨cs, h1, h2⟩ := hrest.2 (fun d hd => hall d (List.mem_cons_of_mem _ hd))
        cases hc : (step16 u rest).1 with
        | none => exact absurd hc (hall _ (by simp))
        | some c =>
          refine ⟨c :: cs, by rw [h1]; simp, ?_⟩
          rw [(key c hc).2, List.flatMap_cons, ← h2]

/-- **C01**, UTF-16. `rust::String(const char16_t *, len)` succeeds exactly on well-formed UTF-16, and
then holds the UTF-8 encoding of the same scalar values; otherwise `std::invalid_argument`. -/
theorem string_utf16_gate (mem : List Nat) (len : Nat) (hmem : ∀ u ∈ mem, u < 0x10000) :
    (∀ t, stringCtor16 (.mem mem) len = .ok t ↔
      ∃ cs : List Nat, (∀ c ∈ cs, IsScalar c) ∧ mem.take len = cs.flatMap encode16 ∧ t = cs.flatMap encode8) ∧
    (stringCtor16 (.mem mem) len = .error .invalidArgument ↔ ¬ WellFormed16 (mem.take len)) ∧
    stringCtor16 .null 0 = .ok [] := by
  have hu : ∀ u ∈ mem.take len, u < 0x10000 := fun u hm => hmem u (List.mem_of_mem_take hm)
  have fwd : ∀ cs : List Nat, (∀ c ∈ cs, IsScalar c) →
      fromUtf16 (cs.flatMap encode16) = some (cs.flatMap encode8) := by
    intro cs hcs
    have hd : decodeUtf16 (cs.flatMap encode16) = cs.map some := by
      induction cs with
      | nil => simp [decodeUtf16]
      | cons c cs ih =>
        rw [List.flatMap_cons, decode16_encode (hcs c (by simp)), ih (fun x hx => hcs x (by simp [hx]))]
        rfl
    unfold fromUtf16
    simp only [hd]
    rw [if_pos (by simp)]
    simp only [List.flatMap_map, Option.some.injEq]
    clear hd
    induction cs with
    | nil => rfl
    | cons c cs ih =>
      simp only [List.flatMap_cons]
      rw [push_encode (hcs c (by simp)), ih (fun x hx => hcs x (by simp [hx]))]
  have bwd : ∀ t, fromUtf16 (mem.take len) = some t →
      ∃ cs : List Nat, (∀ c ∈ cs, IsScalar c) ∧ mem.take len = cs.flatMap encode16 := by
    intro t ht
    unfold fromUtf16 at ht
    simp only at ht
    by_cases ha : ((decodeUtf16 (mem.take len)).all (·.isSome)) = true
    · obtain ⟨s1, s2⟩ := decode16_sound _ hu
      obtain ⟨cs, h1, h2⟩ := s2 (by
        intro d hd he
        have := List.all_eq_true.1 ha d hd
        rw [he] at this; simp at this)
      exact ⟨cs, fun c hc => s1 (some c) (by rw [h1]; simp [hc]) c rfl, h2⟩
    · rw [if_neg ha] at ht; cases ht
  refine ⟨fun t => ?_, ?_, ?_⟩
  · unfold stringCtor16 slice
    simp only
    constructor
    · intro h
      cases hf : fromUtf16 (mem.take len) with
      | none => rw [hf] at h; cases h
      | some b =>
        rw [hf] at h; cases h
        obtain ⟨cs, h1, h2⟩ := bwd t hf
        refine ⟨cs, h1, h2, ?_⟩
        rw [h2, fwd cs h1] at hf
        cases hf; rfl
    · rintro ⟨cs, h1, h2, rfl⟩
      rw [h2, fwd cs h1]
  · unfold stringCtor16 slice
    simp only
    cases hf : fromUtf16 (mem.take len) with
    | none =>
      simp only [true_iff]
      rintro ⟨cs, h1, h2⟩
      rw [h2, fwd cs h1] at hf; cases hf
    | some b =>
      simp only [reduceCtorEq, false_iff]
      exact fun hn => hn (bwd b hf)
  · simp [stringCtor16, slice, fromUtf16, decodeUtf16]

/-- **C01**, lossy constructor. It never fails, always gives well-formed UTF-8, and replaces exactly
the maximal ill-formed subsequences by U+FFFD, so well-formed input is kept. -/
theorem string_lossy_total (mem : List Nat) (len : Nat) :
    ∃ t, stringLossy (.mem mem) len = .ok t ∧ WellFormed8 t ∧
      (∃ ps, Pieces (mem.take len) ps ∧ t = lossy ps) ∧
      (WellFormed8 (mem.take len) → t = mem.take len) := by
  obtain ⟨ps, hp, he⟩ := lossy_pieces (mem.take len)
  refine ⟨_, rfl, ?_, ⟨ps, hp, he⟩, ?_⟩
  · rw [he]; exact lossy_wf hp
  · rintro ⟨cs, hcs, h⟩
    have := pieces_unique hp (h ▸ pieces_wf hcs)
    rw [he, this, lossy_id, h]

theorem lossy16_decode (us : List Nat) (hu : ∀ u ∈ us, u < 0x10000) :
    Lossy16 us ((decodeUtf16 us).map (fun d => d.getD 0xFFFD)) := by
  generalize hn : us.length = n
  induction n using Nat.strongRecOn generalizing us with
  | ind n ih =>
    match us, hn with
    | [], _ => simpa [decodeUtf16] using Lossy16.nil
    | u :: rest, hn =>
      by_cases hc : ∃ c r, IsScalar c ∧ u :: rest = encode16 c ++ r
      · obtain ⟨c, r, hc, he⟩ := hc
        have hlen := congrArg List.length he
        have hpos : 0 < (encode16 c).length := by unfold encode16; split <;> simp
        rw [he, decode16_encode hc]
        refine .char hc (ih r.length (by simp at hlen hn; omega) r ?_ rfl)
        intro x hx
        exact hu x (by rw [he]; exact List.mem_append_right _ hx)
      · have hu0 := hu u (by simp)
        have a : ¬ (u < 0xD800 ∨ 0xDFFF < u) := fun a =>
          hc ⟨u, rest, by unfold IsScalar; omega, by simp [encode16, hu0]⟩
        have hs : step16 u rest = (none, 0) := by
          unfold step16
          rw [if_neg a]
          by_cases b : 0xDC00 ≤ u
          · rw [if_pos b]
          rw [if_neg b]
          match rest with
          | [] => rfl
          | u2 :: r =>
            simp only
            by_cases d : u2 < 0xDC00 ∨ 0xDFFF < u2
            · rw [if_pos d]
            · refine absurd ⟨(u % 1024) * 1024 + u2 % 1024 + 0x10000, r, by unfold IsScalar; omega, ?_⟩ hc
              unfold encode16
              rw [if_neg (by omega)]
              simp only [List.cons_append, List.nil_append, List.cons.injEq, and_true]
              omega
        rw [decodeUtf16, hs]
        simp only [List.map_cons, Option.getD_none, List.drop_zero]
        exact .bad (by omega) (by omega) hc (ih rest.length (by simp at hn; omega) rest
          (fun x hx => hu x (by simp [hx])) rfl)

theorem encode16_append_inj {c d : Nat} {r s : List Nat} (hc : IsScalar c) (hd : IsScalar d)
    (h : encode16 c ++ r = encode16 d ++ s) : c = d ∧ r = s := by
  have h1 := decode16_encode hc r
  rw [h, decode16_encode hd s] at h1
  injection h1 with h1 _
  injection h1 with h1
  subst h1
  exact ⟨rfl, List.append_cancel_left h⟩

theorem lossy16_unique {us cs ds : List Nat} (h : Lossy16 us cs) (h' : Lossy16 us ds) : cs = ds := by
  have hne : ∀ c, encode16 c ≠ [] := by intro c; unfold encode16; split <;> simp
  induction h generalizing ds with
  | nil =>
    generalize h : ([] : List Nat) = l at h'
    cases h' with
    | nil => rfl
    | char hc _ => simp [hne] at h
    | bad _ _ _ _ => simp at h
  | @char c rest ps hc _ ih =>
    generalize h : encode16 c ++ rest = l at h'
    cases h' with
    | nil => simp [hne] at h
    | char hd hr =>
      obtain ⟨rfl, rfl⟩ := encode16_append_inj hc hd h
      rw [ih hr]
    | bad _ _ hm _ => exact absurd ⟨c, rest, hc, h.symm⟩ hm
  | @bad u rest ps _ _ hm _ ih =>
    generalize h : u :: rest = l at h'
    cases h' with
    | nil => simp at h
    | @char c r _ hc _ => exact absurd ⟨c, r, hc, h⟩ hm
    | bad _ _ _ hr =>
      obtain ⟨rfl, rfl⟩ := List.cons.inj h
      rw [ih hr]

/-- **C01**, lossy UTF-16 constructor. It never fails, always gives well-formed UTF-8, namely the
encoding of the input's scalar values with one U+FFFD for each unpaired surrogate; so well-formed
UTF-16 gives the same scalar values. -/
theorem string_lossy16_total (mem : List Nat) (len : Nat) (hmem : ∀ u ∈ mem, u < 0x10000) :
    ∃ t, stringLossy16 (.mem mem) len = .ok t ∧ WellFormed8 t ∧
      (∃ cs, Lossy16 (mem.take len) cs ∧ (∀ ds, Lossy16 (mem.take len) ds → ds = cs) ∧ t = cs.flatMap encode8) ∧
      ∀ cs : List Nat, (∀ c ∈ cs, IsScalar c) → mem.take len = cs.flatMap encode16 → t = cs.flatMap encode8 := by
  have hu : ∀ u ∈ mem.take len, u < 0x10000 := fun u hm => hmem u (List.mem_of_mem_take hm)
  have hrep : IsScalar 0xFFFD := by unfold IsScalar; omega
  have hl := lossy16_decode _ hu
  have hscal : ∀ {us cs}, Lossy16 us cs → ∀ c ∈ cs, IsScalar c := by
    intro us cs h
    induction h with
    | nil => simp
    | char hc _ ih => simpa using ⟨hc, ih⟩
    | bad _ _ _ _ ih => simpa using ⟨hrep, ih⟩
  have heq : fromUtf16Lossy (mem.take len) =
      ((decodeUtf16 (mem.take len)).map (fun d => d.getD 0xFFFD)).flatMap encode8 := by
    unfold fromUtf16Lossy
    have hs := hscal hl
    rw [List.flatMap_map]
    generalize decodeUtf16 (mem.take len) = ds at hs
    induction ds with
    | nil => rfl
    | cons d ds ih =>
      simp only [List.flatMap_cons]
      rw [ih (fun x hx => hs x (by simp at hx ⊢; exact Or.inr hx)), push_encode (hs _ (by simp))]
  refine ⟨_, rfl, ?_, ⟨_, hl, fun ds hd => lossy16_unique hd hl, heq⟩, ?_⟩
  · exact ⟨_, hscal hl, heq⟩
  · intro cs hcs h
    have : Lossy16 (mem.take len) cs := by
      rw [h]
      clear h hl heq
      induction cs with
      | nil => exact .nil
      | cons c cs ih => exact .char (hcs c (by simp)) (ih (fun x hx => hcs x (by simp [hx])))
    rw [heq, lossy16_unique this hl]


-- "é€" is accepted; a stray continuation byte, an encoded surrogate, an overlong "/" and a truncated
-- euro sign are refused; lossy replaces them.
example : stringCtor (.mem [0xC3, 0xA9, 0xE2, 0x82, 0xAC]) 5 = .ok [0xC3, 0xA9, 0xE2, 0x82, 0xAC] := by decide +kernel
example : stringCtor (.mem [0x80]) 1 = .error .invalidArgument := by decide +kernel
example : stringCtor (.mem [0xED, 0xA0, 0x80]) 3 = .error .invalidArgument := by decide +kernel
example : stringCtor (.mem [0xC0, 0xAF]) 2 = .error .invalidArgument := by decide +kernel
example : stringCtor (.mem [0x61, 0xE2, 0x82]) 3 = .error .invalidArgument := by decide +kernel
example : stringLossy (.mem [0x61, 0xE2, 0x82, 0x62]) 4 = .ok ([0x61] ++ replacement ++ [0x62]) := by decide +kernel
example : WellFormed8 [0xC3, 0xA9, 0xE2, 0x82, 0xAC] :=
  ⟨[0xE9, 0x20AC], by intro c hc; simp at hc; unfold IsScalar; omega, by decide⟩
example : stringCtor16 (.mem [0xD83D, 0xDE00]) 2 = .ok [0xF0, 0x9F, 0x98, 0x80] := by decide +kernel
example : stringCtor16 (.mem [0xDE00, 0xD83D]) 2 = .error .invalidArgument := by decide +kernel
example : stringLossy16 (.mem [0xD83D, 0x61]) 2 = .ok (replacement ++ [0x61]) := by decide +kernel

/-! ## C04 -/

/-- What an error report says about the input: characters before it, then an ill-formed piece. -/
theorem fromUtf8_err {bs : List Nat} {e : Utf8Error} (h : fromUtf8 bs = some e) :
    ∃ (cs : List Nat) (b0 : Nat) (rest : List Nat), (∀ c ∈ cs, IsScalar c) ∧ bs = cs.flatMap encode8 ++ b0 :: rest ∧
      e.validUpTo = (cs.flatMap encode8).length ∧ step b0 rest = .bad e.errorLen := by
  generalize hn : bs.length = n
  induction n using Nat.strongRecOn generalizing bs e with
  | ind n ih =>
    match bs, h, hn with
    | [], h, _ => simp [fromUtf8] at h
    | b0 :: rest, h, hn =>
      rcases front_cases b0 rest with ⟨c, r, hc, he, _⟩ | ⟨l, hl⟩
      · rw [he, fromUtf8_encode hc] at h
        cases hr : fromUtf8 r with
        | none => rw [hr] at h; cases h
        | some e' =>
          rw [hr] at h
          simp only [Option.map_some, Option.some.injEq] at h
          have hlen := congrArg List.length he
          have hpos := List.length_pos_iff.2 (encode8_ne_nil c)
          obtain ⟨cs, x, y, h1, h2, h3, h4⟩ := ih r.length (by simp at hlen hn; omega) hr rfl
          refine ⟨c :: cs, x, y, ?_, ?_, ?_, ?_⟩
          · intro z hz
            rcases List.mem_cons.1 hz with rfl | hz
            · exact hc
            · exact h1 z hz
          · rw [he, h2]; simp
          · rw [← h]; simp [h3]
          · rw [← h]; exact h4
      · rw [fromUtf8, hl] at h
        cases h
        exact ⟨[], b0, rest, by simp, by simp, by simp, hl⟩

theorem fromUtf8Lossy_flatMap {cs : List Nat} (h : ∀ c ∈ cs, IsScalar c) (rest : List Nat) :
    fromUtf8Lossy (cs.flatMap encode8 ++ rest) = cs.flatMap encode8 ++ fromUtf8Lossy rest := by
  induction cs with
  | nil => simp
  | cons c cs ih =>
    rw [List.flatMap_cons, List.append_assoc, fromUtf8Lossy_encode (h c (by simp)),
      ih (fun x hx => h x (by simp [hx])), List.append_assoc]

theorem display_eq_lossy (bs : List Nat) : display bs = fromUtf8Lossy bs := by
  generalize hn : bs.length = n
  induction n using Nat.strongRecOn generalizing bs with
  | ind n ih =>
    rw [display]
    split
    · rename_i h
      obtain ⟨cs, hcs, rfl⟩ := (from_utf8_iff bs).1 h
      have := fromUtf8Lossy_flatMap hcs []
      simp [fromUtf8Lossy] at this
      exact this.symm
    · rename_i e h
      obtain ⟨cs, b0, rest, hcs, rfl, hv, hs⟩ := fromUtf8_err h
      rw [fromUtf8Lossy_flatMap hcs, fromUtf8Lossy, hs]
      simp only [hv, List.take_left]
      cases hl : e.errorLen with
      | none => simp
      | some k =>
        obtain ⟨hk, hk'⟩ := step_bad_pos (hl ▸ hs)
        simp only
        rw [if_neg (by simp; omega)]
        rw [List.append_assoc]
        congr 2
        have hd : (cs.flatMap encode8 ++ b0 :: rest).drop ((cs.flatMap encode8).length + k) = rest.drop (k - 1) := by
          rw [List.drop_append]
          obtain ⟨k, rfl⟩ : ∃ j, k = j + 1 := ⟨k - 1, by omega⟩
          simp
        rw [hd]
        refine ih _ ?_ _ rfl
        simp at hn ⊢
        omega

/-- **C04**. Displaying a C++ string writes, for the unique decomposition of its bytes into characters
and maximal ill-formed subsequences, each character unchanged and one U+FFFD per ill-formed
subsequence. That is what `String::from_utf8_lossy` gives, it is well-formed, and well-formed input is
written unchanged. -/
theorem display_lossy (bs : List Nat) :
    (∃ ps, Pieces bs ps ∧ (∀ qs, Pieces bs qs → qs = ps) ∧ display bs = lossy ps) ∧
    display bs = fromUtf8Lossy bs ∧ WellFormed8 (display bs) ∧
    (WellFormed8 bs → display bs = bs) := by
  obtain ⟨ps, hp, he⟩ := lossy_pieces bs
  have hd := display_eq_lossy bs
  refine ⟨⟨ps, hp, fun qs hq => pieces_unique hq hp, hd.trans he⟩, hd, ?_, ?_⟩
  · rw [hd, he]; exact lossy_wf hp
  · rintro ⟨cs, hcs, h⟩
    have := pieces_unique hp (h ▸ pieces_wf hcs)
    rw [hd, he, this, lossy_id, h]

-- a truncated euro sign, then "a", then a lone 0xFF, then "b": one U+FFFD for each
example : display [0xE2, 0x82, 0x61, 0xFF, 0x62] = replacement ++ [0x61] ++ replacement ++ [0x62] := by
  decide +kernel

/-! ## C05 -/

theorem nextCodePoint_encode {c : Nat} (hc : IsScalar c) (rest : List Nat) :
    ∃ x tl, encode8 c = x :: tl ∧ nextCodePoint x (tl ++ rest) = (c, tl.length) := by
  unfold IsScalar at hc
  unfold encode8
  by_cases h1 : c < 0x80
  · exact ⟨c, [], by simp [h1], by simp [nextCodePoint, h1]⟩
  by_cases h2 : c < 0x800
  · refine ⟨_, _, by rw [if_neg h1, if_pos h2], ?_⟩
    unfold nextCodePoint
    rw [if_neg (by omega)]
    simp only
    rw [if_pos (by omega)]
    simp only [List.cons_append, List.getD_cons_zero, List.length_cons, List.length_nil, Prod.mk.injEq, and_true]
    omega
  by_cases h3 : c < 0x10000
  · refine ⟨_, _, by rw [if_neg h1, if_neg h2, if_pos h3], ?_⟩
    unfold nextCodePoint
    rw [if_neg (by omega)]
    simp only
    rw [if_neg (by omega), if_pos (by omega)]
    simp only [List.cons_append, List.getD_cons_zero, List.getD_cons_succ, List.length_cons, List.length_nil, Prod.mk.injEq, and_true]
    omega
  · refine ⟨_, _, by rw [if_neg h1, if_neg h2, if_neg h3], ?_⟩
    unfold nextCodePoint
    rw [if_neg (by omega)]
    simp only
    rw [if_neg (by omega), if_neg (by omega)]
    simp only [List.cons_append, List.getD_cons_zero, List.getD_cons_succ, List.length_cons, List.length_nil, Prod.mk.injEq, and_true]
    omega

/-- What `debug` writes for a character. -/
def shown (t : Tables) (c : Nat) : List Nat :=
  if (escapeDebug t c).length ≠ 1 ∧ c ≠ 39 then (escapeDebug t c).flatMap push else encode8 c

theorem lenUtf8_encode (c : Nat) : lenUtf8 c = (encode8 c).length := by
  unfold lenUtf8 encode8; split <;> (try split) <;> (try split) <;> simp

theorem debugChars_spec (t : Tables) (cs : List Nat) (hcs : ∀ c ∈ cs, IsScalar c) :
    ∀ (pre : List Nat) (w : Nat), w ≤ pre.length →
      debugChars t (pre ++ cs.flatMap encode8) (charIndices pre.length (cs.flatMap encode8)) w =
        pre.drop w ++ cs.flatMap (shown t) := by
  induction cs with
  | nil => intro pre w _; simp [charIndices, debugChars]
  | cons c cs ih =>
    intro pre w hw
    have hc := hcs c (by simp)
    have ih := ih (fun x hx => hcs x (by simp [hx]))
    obtain ⟨x, tl, he, hn⟩ := nextCodePoint_encode hc (cs.flatMap encode8)
    have hidx : charIndices pre.length ((c :: cs).flatMap encode8) =
        (pre.length, c) :: charIndices (pre ++ encode8 c).length (cs.flatMap encode8) := by
      rw [List.flatMap_cons, he, List.cons_append, charIndices, hn]
      simp [Nat.add_comm, Nat.add_left_comm]
    rw [hidx, debugChars]
    have hassoc : pre ++ (c :: cs).flatMap encode8 = (pre ++ encode8 c) ++ cs.flatMap encode8 := by simp
    by_cases hcond : (escapeDebug t c).length ≠ 1 ∧ c ≠ 39
    · rw [if_pos hcond, hassoc, ih (pre ++ encode8 c) _ (by simp [lenUtf8_encode]), lenUtf8_encode]
      have h1 : ((pre ++ encode8 c ++ cs.flatMap encode8).drop w).take (pre.length - w) = pre.drop w := by
        rw [List.append_assoc, List.drop_append_of_le_length hw]
        rw [List.take_append_of_le_length (by simp)]
        exact List.take_of_length_le (by simp)
      rw [h1]
      simp [shown, hcond]
    · rw [if_neg hcond, hassoc, ih (pre ++ encode8 c) w (by simp; omega)]
      rw [List.drop_append_of_le_length hw]
      simp [shown, if_neg hcond]

theorem hexDigit_spec {d : Nat} (h : d < 16) : isHexDigit (hexDigit d) ∧ digitValue (hexDigit d) = d := by
  unfold hexDigit isHexDigit digitValue
  split <;> (split <;> omega)

theorem hex_spec (n : Nat) : IsHexNumeral n (hex n) ∧ hex n ≠ [] ∧ ((hex n).head? = some 48 → hex n = [48]) ∧
    (∀ d ∈ hex n, d < 0x80) := by
  induction n using Nat.strongRecOn with
  | ind n ih =>
    rw [hex]
    have hlt : ∀ d, d < 16 → hexDigit d < 0x80 := by intro d hd; unfold hexDigit; split <;> omega
    by_cases h : n < 16
    · rw [if_pos h]
      obtain ⟨h1, h2⟩ := hexDigit_spec h
      refine ⟨⟨by simpa using h1, by simpa using h2⟩, by simp, by simp, ?_⟩
      intro d hd; simp at hd; subst hd; exact hlt n h
    · rw [if_neg h]
      obtain ⟨⟨a1, a2⟩, a3, a4, a5⟩ := ih (n / 16) (by omega)
      obtain ⟨h1, h2⟩ := hexDigit_spec (d := n % 16) (by omega)
      refine ⟨⟨?_, ?_⟩, by simp, ?_, ?_⟩
      · intro d hd
        rcases List.mem_append.1 hd with hd | hd
        · exact a1 d hd
        · simp at hd; subst hd; exact h1
      · rw [List.foldl_append, a2]; simp [h2]; omega
      · intro hh
        have e := a4 (by
          match hex (n / 16), a3, hh with
          | d :: ds, _, hh => simpa using hh)
        rw [e] at a2
        simp [digitValue] at a2
        omega
      · intro d hd
        rcases List.mem_append.1 hd with hd | hd
        · exact a5 d hd
        · simp at hd; subst hd; exact hlt _ (by omega)

theorem hex2_spec {b : Nat} (hb : b < 256) : ShowsByte b ([92, 120] ++ hex2 b) := by
  unfold hex2
  by_cases h : b < 16
  · rw [if_pos h, hex, if_pos h]
    obtain ⟨h1, h2⟩ := hexDigit_spec h
    refine ShowsByte.mk ⟨?_, ?_⟩
    · intro d hd; simp at hd; rcases hd with rfl | rfl
      · exact Or.inl (by omega)
      · exact h1
    · simp only [List.foldl_cons, List.foldl_nil, h2]; simp [digitValue]
  · rw [if_neg h, hex, if_neg h, hex, if_pos (by omega)]
    obtain ⟨h1, h2⟩ := hexDigit_spec (d := b % 16) (by omega)
    obtain ⟨h3, h4⟩ := hexDigit_spec (d := b / 16) (by omega)
    refine ShowsByte.mk ⟨?_, ?_⟩
    · intro d hd; simp at hd; rcases hd with rfl | rfl
      · exact h3
      · exact h1
    · simp [h2, h4]; omega

theorem push_ascii {l : List Nat} (h : ∀ d ∈ l, d < 0x80) : l.flatMap push = l := by
  induction l with
  | nil => rfl
  | cons d l ih =>
    rw [List.flatMap_cons, ih (fun x hx => h x (by simp [hx]))]
    simp [push, h d (by simp)]

/-- Characters shown as themselves. -/
def Tables.plain (t : Tables) (c : Nat) : Prop := t.graphemeExtended c = false ∧ t.printable c = true

theorem shown_spec (t : Tables) (c : Nat) : ShowsChar t.plain c (shown t c) := by
  by_cases hsp : c ∈ [0, 9, 13, 10, 92, 34, 39]
  · simp only [List.mem_cons, List.not_mem_nil, or_false] at hsp
    rcases hsp with rfl | rfl | rfl | rfl | rfl | rfl | rfl
    · exact .nul
    · exact .tab
    · exact .cr
    · exact .lf
    · exact .backslash
    · exact .doubleQuote
    · exact .singleQuote
  · have hsp' := hsp
    simp only [List.mem_cons, List.not_mem_nil, or_false, not_or] at hsp'
    obtain ⟨n1, n2, n3, n4, n5, n6, n7⟩ := hsp'
    by_cases hp : t.plain c
    · have he : escapeDebug t c = [c] := by
        simp [escapeDebug, n1, n2, n3, n4, n5, n6, n7, hp.1, hp.2]
      simp only [shown, he]
      simpa using ShowsChar.plain hsp hp
    · have he : escapeDebug t c = [92, 117, 123] ++ hex c ++ [125] := by
        unfold Tables.plain at hp
        simp only [escapeDebug, n1, n2, n3, n4, n5, n6, n7, or_self, if_false]
        by_cases hg : t.graphemeExtended c = true
        · simp [hg]
        · have : t.printable c = false := by
            cases hpr : t.printable c
            · rfl
            · exact absurd ⟨by simpa using hg, hpr⟩ hp
          simp [hg, this]
      obtain ⟨h1, h2, h3, h4⟩ := hex_spec c
      have hs : shown t c = [92, 117, 123] ++ hex c ++ [125] := by
        unfold shown
        rw [he, if_pos ⟨by simp, n7⟩]
        apply push_ascii
        intro d hd
        simp only [List.mem_append, List.mem_cons, List.not_mem_nil, or_false] at hd
        rcases hd with ((rfl | rfl | rfl) | hd) | rfl
        · omega
        · omega
        · omega
        · exact h4 d hd
        · omega
      rw [hs]
      exact .unicode hsp hp h2 h3 h1

theorem showsAll_flatMap {α : Type} {R : α → List Nat → Prop} {f : α → List Nat} {l : List α}
    (h : ∀ a ∈ l, R a (f a)) : ShowsAll R l (l.flatMap f) := by
  induction l with
  | nil => exact .nil
  | cons a l ih => exact .cons (h a (by simp)) (ih (fun x hx => h x (by simp [hx])))

theorem showsAll_append {α : Type} {R : α → List Nat → Prop} {l m : List α} {o p : List Nat}
    (h : ShowsAll R l o) (h' : ShowsAll R m p) : ShowsAll R (l ++ m) (o ++ p) := by
  induction h with
  | nil => exact h'
  | cons ha _ ih => simpa using ShowsAll.cons ha ih

theorem pieces_append_chars {cs : List Nat} (hcs : ∀ c ∈ cs, IsScalar c) {rest : List Nat} {ps : List Piece}
    (h : Pieces rest ps) : Pieces (cs.flatMap encode8 ++ rest) (cs.map .char ++ ps) := by
  induction cs with
  | nil => exact h
  | cons c cs ih =>
    have := Pieces.char (hcs c (by simp)) (ih (fun x hx => hcs x (by simp [hx])))
    simpa using this

theorem shows_chars (t : Tables) (cs : List Nat) :
    ShowsAll (ShowsPiece t.plain) (cs.map .char) (cs.flatMap (shown t)) := by
  induction cs with
  | nil => exact .nil
  | cons c cs ih => exact .cons (shown_spec t c) ih

theorem debugLoop_spec (t : Tables) (bs : List Nat) (hb : ∀ b ∈ bs, b < 256) :
    ∃ ps, Pieces bs ps ∧ ShowsAll (ShowsPiece t.plain) ps (debugLoop t bs) := by
  generalize hn : bs.length = n
  induction n using Nat.strongRecOn generalizing bs with
  | ind n ih =>
    rw [debugLoop]
    by_cases hnil : bs = []
    · subst hnil; exact ⟨[], .nil, by simpa using ShowsAll.nil⟩
    rw [dif_neg hnil]
    cases h : fromUtf8 bs with
    | none =>
      obtain ⟨cs, hcs, rfl⟩ := (from_utf8_iff bs).1 h
      refine ⟨cs.map .char, pieces_wf hcs, ?_⟩
      have := debugChars_spec t cs hcs [] 0 (by simp)
      simp at this
      simp only [this]
      exact shows_chars t cs
    | some e =>
      obtain ⟨cs, b0, rest, hcs, rfl, hv, hs⟩ := fromUtf8_err h
      have hd := debugChars_spec t cs hcs [] 0 (by simp)
      simp only [List.nil_append, List.length_nil, List.drop_nil] at hd
      simp only [hv, List.take_left, List.drop_left, hd]
      have hbad : ∀ l : List Nat, (∀ b ∈ l, b ∈ b0 :: rest) →
          ShowsPiece t.plain (.bad l) (l.flatMap (fun b => [92, 120] ++ hex2 b)) := by
        intro l hl
        refine showsAll_flatMap (fun b hb' => hex2_spec (hb b ?_))
        exact List.mem_append_right _ (hl b hb')
      cases hl : e.errorLen with
      | none =>
        rw [hl] at hs
        have hm := step_bad_maximal hs
        simp only at hm
        refine ⟨cs.map .char ++ [.bad (b0 :: rest)], ?_, ?_⟩
        · refine pieces_append_chars hcs ?_
          have := Pieces.bad (bad := b0 :: rest) (rest := []) (by simp) hm .nil
          simpa using this
        · simp only [endOfBroken, List.length_append, List.length_cons]
          rw [if_neg (by omega)]
          have e1 : List.drop ((cs.flatMap encode8).length + (rest.length + 1)) (cs.flatMap encode8 ++ b0 :: rest) = [] := by
            apply List.drop_eq_nil_of_le; simp
          rw [e1, debugLoop]
          simp only [dif_pos, List.append_nil, Nat.add_sub_cancel_left]
          rw [List.take_of_length_le (by simp)]
          refine showsAll_append (shows_chars t cs) ?_
          have := ShowsAll.cons (hbad _ (fun b hb => hb)) (ShowsAll.nil (R := ShowsPiece t.plain))
          simpa using this
      | some k =>
        rw [hl] at hs
        obtain ⟨hk, hk'⟩ := step_bad_pos hs
        have hm := step_bad_maximal hs
        simp only at hm
        have e1 : (cs.flatMap encode8 ++ b0 :: rest).drop ((cs.flatMap encode8).length + k) = rest.drop (k - 1) := by
          rw [List.drop_append]
          obtain ⟨k, rfl⟩ : ∃ j, k = j + 1 := ⟨k - 1, by omega⟩
          simp
        have e2 : (b0 :: rest).take k = b0 :: rest.take (k - 1) := by
          obtain ⟨k, rfl⟩ : ∃ j, k = j + 1 := ⟨k - 1, by omega⟩
          simp
        obtain ⟨ps, hp, hq⟩ := ih (rest.drop (k - 1)).length (by simp at hn ⊢; omega) (rest.drop (k - 1))
          (fun b hb' => hb b (List.mem_append_right _ (List.mem_cons_of_mem _ (List.mem_of_mem_drop hb')))) rfl
        simp only [endOfBroken, Nat.add_sub_cancel_left]
        rw [if_neg (by omega), e1, e2]
        refine ⟨cs.map .char ++ (.bad (b0 :: rest.take (k - 1)) :: ps), ?_, ?_⟩
        · refine pieces_append_chars hcs ?_
          have := Pieces.bad (bad := b0 :: rest.take (k - 1)) (by simp) hm hp
          simpa using this
        · rw [List.append_assoc]
          refine showsAll_append (shows_chars t cs) (.cons (hbad _ ?_) hq)
          intro b hb'
          rcases List.mem_cons.1 hb' with rfl | hb'
          · simp
          · exact List.mem_cons_of_mem _ (List.mem_of_mem_take hb')

/-- **C05**. Debug-formatting a C++ string writes a double quote, then for each piece of the unique
decomposition of its bytes the escaped character or one `\xNN` per ill-formed byte, then a double
quote; nothing is dropped or repeated, because the pieces put together are the input. -/
theorem debug_faithful (t : Tables) (bs : List Nat) (hb : ∀ b ∈ bs, b < 256) :
    ∃ ps body, Pieces bs ps ∧ (∀ qs, Pieces bs qs → qs = ps) ∧
      (ps.flatMap (fun p => match p with | .char c => encode8 c | .bad l => l)) = bs ∧
      ShowsAll (ShowsPiece t.plain) ps body ∧ debug t bs = [34] ++ body ++ [34] := by
  obtain ⟨ps, hp, hs⟩ := debugLoop_spec t bs hb
  refine ⟨ps, _, hp, fun qs hq => pieces_unique hq hp, ?_, hs, rfl⟩
  clear hs hb
  induction hp with
  | nil => rfl
  | char _ _ ih => simp [ih]
  | bad _ _ _ ih => simp [ih]

-- `a"` then 0xFF then a truncated euro sign
example : debug ⟨fun _ => false, fun _ => true⟩ [0x61, 0x22, 0xFF, 0xE2, 0x82] =
    "\"a\\\"\\xff\\xe2\\x82\"".toList.map Char.toNat := by decide +kernel

end Verif.Utf8
