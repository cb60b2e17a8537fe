import Verif.Utf8.Model
import Verif.Utf8.Spec
namespace Verif.Utf8
open Spec

theorem encode8_ne_nil (c : Nat) : encode8 c ≠ [] := by
  unfold encode8; split <;> (try split) <;> (try split) <;> simp

/-- An encoding at the front is recognised. -/
theorem step_encode {c : Nat} (hc : IsScalar c) (rest : List Nat) :
    ∃ b0 tl, encode8 c = b0 :: tl ∧ step b0 (tl ++ rest) = .ok tl.length := by
  unfold IsScalar at hc
  unfold encode8
  by_cases h1 : c < 0x80
  · refine ⟨c, [], by simp [h1], by simp [step, h1]⟩
  · by_cases h2 : c < 0x800
    · refine ⟨0xC0 + c / 64, [0x80 + c % 64], by simp [h1, h2], ?_⟩
      have a1 : ¬ (0xC0 + c / 64 < 0x80) := by omega
      have a2 : 0xC2 ≤ 0xC0 + c / 64 ∧ 0xC0 + c / 64 ≤ 0xDF := by omega
      have a3 : isCont (0x80 + c % 64) = true := by
        simp only [isCont, Bool.and_eq_true, decide_eq_true_eq]; omega
      simp [step, a1, a2, a3]
    · by_cases h3 : c < 0x10000
      · refine ⟨0xE0 + c / 4096, [0x80 + c / 64 % 64, 0x80 + c % 64], by simp [h1, h2, h3], ?_⟩
        have a1 : ¬ (0xE0 + c / 4096 < 0x80) := by omega
        have a2 : ¬ (0xC2 ≤ 0xE0 + c / 4096 ∧ 0xE0 + c / 4096 ≤ 0xDF) := by omega
        have a3 : 0xE0 ≤ 0xE0 + c / 4096 ∧ 0xE0 + c / 4096 ≤ 0xEF := by omega
        have a4 : second3 (0xE0 + c / 4096) (0x80 + c / 64 % 64) = true := by
          simp only [second3, Bool.and_eq_true, Bool.or_eq_true, decide_eq_true_eq]; omega
        have a5 : isCont (0x80 + c % 64) = true := by
          simp only [isCont, Bool.and_eq_true, decide_eq_true_eq]; omega
        unfold step
        rw [if_neg a1, if_neg a2, if_pos a3]
        simp [a4, a5]
      · refine ⟨0xF0 + c / 262144, [0x80 + c / 4096 % 64, 0x80 + c / 64 % 64, 0x80 + c % 64],
          by simp [h1, h2, h3], ?_⟩
        have a1 : ¬ (0xF0 + c / 262144 < 0x80) := by omega
        have a2 : ¬ (0xC2 ≤ 0xF0 + c / 262144 ∧ 0xF0 + c / 262144 ≤ 0xDF) := by omega
        have a3 : ¬ (0xE0 ≤ 0xF0 + c / 262144 ∧ 0xF0 + c / 262144 ≤ 0xEF) := by omega
        have a3' : 0xF0 ≤ 0xF0 + c / 262144 ∧ 0xF0 + c / 262144 ≤ 0xF4 := by omega
        have a4 : second4 (0xF0 + c / 262144) (0x80 + c / 4096 % 64) = true := by
          simp only [second4, Bool.and_eq_true, Bool.or_eq_true, decide_eq_true_eq]; omega
        have a5 : isCont (0x80 + c / 64 % 64) = true := by
          simp only [isCont, Bool.and_eq_true, decide_eq_true_eq]; omega
        have a6 : isCont (0x80 + c % 64) = true := by
          simp only [isCont, Bool.and_eq_true, decide_eq_true_eq]; omega
        unfold step
        rw [if_neg a1, if_neg a2, if_neg a3, if_pos a3']
        simp [a4, a5, a6]

/-- Two-, three- and four-byte sequences passing the range tests are encodings. -/
theorem encode_two {b0 b1 : Nat} (h0 : 0xC2 ≤ b0 ∧ b0 ≤ 0xDF) (h1 : isCont b1 = true) :
    ∃ c, IsScalar c ∧ encode8 c = [b0, b1] := by
  simp only [isCont, Bool.and_eq_true, decide_eq_true_eq] at h1
  refine ⟨(b0 - 0xC0) * 64 + (b1 - 0x80), by unfold IsScalar; omega, ?_⟩
  have e1 : ¬ ((b0 - 0xC0) * 64 + (b1 - 0x80) < 0x80) := by omega
  have e2 : (b0 - 0xC0) * 64 + (b1 - 0x80) < 0x800 := by omega
  rw [encode8, if_neg e1, if_pos e2]
  simp only [List.cons.injEq, and_true]
  omega

theorem encode_three {b0 b1 b2 : Nat} (h0 : 0xE0 ≤ b0 ∧ b0 ≤ 0xEF) (h1 : second3 b0 b1 = true)
    (h2 : isCont b2 = true) : ∃ c, IsScalar c ∧ encode8 c = [b0, b1, b2] := by
  simp only [isCont, second3, Bool.and_eq_true, Bool.or_eq_true, decide_eq_true_eq] at h1 h2
  refine ⟨(b0 - 0xE0) * 4096 + (b1 - 0x80) * 64 + (b2 - 0x80), by unfold IsScalar; omega, ?_⟩
  have e1 : ¬ ((b0 - 0xE0) * 4096 + (b1 - 0x80) * 64 + (b2 - 0x80) < 0x80) := by omega
  have e2 : ¬ ((b0 - 0xE0) * 4096 + (b1 - 0x80) * 64 + (b2 - 0x80) < 0x800) := by omega
  have e3 : (b0 - 0xE0) * 4096 + (b1 - 0x80) * 64 + (b2 - 0x80) < 0x10000 := by omega
  rw [encode8, if_neg e1, if_neg e2, if_pos e3]
  simp only [List.cons.injEq, and_true]
  omega

theorem encode_four {b0 b1 b2 b3 : Nat} (h0 : 0xF0 ≤ b0 ∧ b0 ≤ 0xF4) (h1 : second4 b0 b1 = true)
    (h2 : isCont b2 = true) (h3 : isCont b3 = true) :
    ∃ c, IsScalar c ∧ encode8 c = [b0, b1, b2, b3] := by
  simp only [isCont, second4, Bool.and_eq_true, Bool.or_eq_true, decide_eq_true_eq] at h1 h2 h3
  refine ⟨(b0 - 0xF0) * 262144 + (b1 - 0x80) * 4096 + (b2 - 0x80) * 64 + (b3 - 0x80),
    by unfold IsScalar; omega, ?_⟩
  generalize hx : (b0 - 0xF0) * 262144 + (b1 - 0x80) * 4096 + (b2 - 0x80) * 64 + (b3 - 0x80) = x
  have e1 : ¬ (x < 0x80) := by omega
  have e2 : ¬ (x < 0x800) := by omega
  have e3 : ¬ (x < 0x10000) := by omega
  rw [encode8, if_neg e1, if_neg e2, if_neg e3]
  simp only [List.cons.injEq, and_true]
  omega

/-- An accepted step consumed an encoding. -/
theorem step_ok {b0 : Nat} {rest : List Nat} {n : Nat} (h : step b0 rest = .ok n) :
    n ≤ rest.length ∧ ∃ c, IsScalar c ∧ encode8 c = b0 :: rest.take n := by
  unfold step at h
  by_cases c1 : b0 < 0x80
  · rw [if_pos c1] at h; cases h
    exact ⟨Nat.zero_le _, b0, by unfold IsScalar; omega, by simp [encode8, c1]⟩
  rw [if_neg c1] at h
  by_cases c2 : 0xC2 ≤ b0 ∧ b0 ≤ 0xDF
  · rw [if_pos c2] at h
    match rest, h with
    | [], h => cases h
    | b1 :: r, h =>
      simp only at h
      by_cases d : isCont b1 = true
      · rw [if_pos d] at h; cases h
        obtain ⟨c, hc, he⟩ := encode_two c2 d
        exact ⟨by simp, c, hc, by simpa using he⟩
      · rw [if_neg d] at h; cases h
  rw [if_neg c2] at h
  by_cases c3 : 0xE0 ≤ b0 ∧ b0 ≤ 0xEF
  · rw [if_pos c3] at h
    match rest, h with
    | [], h => cases h
    | b1 :: r, h =>
      simp only at h
      by_cases d : second3 b0 b1 = true
      · rw [if_pos d] at h
        match r, h with
        | [], h => cases h
        | b2 :: r, h =>
          simp only at h
          by_cases d2 : isCont b2 = true
          · rw [if_pos d2] at h; cases h
            obtain ⟨c, hc, he⟩ := encode_three c3 d d2
            exact ⟨by simp, c, hc, by simpa using he⟩
          · rw [if_neg d2] at h; cases h
      · rw [if_neg d] at h; cases h
  rw [if_neg c3] at h
  by_cases c4 : 0xF0 ≤ b0 ∧ b0 ≤ 0xF4
  · rw [if_pos c4] at h
    match rest, h with
    | [], h => cases h
    | b1 :: r, h =>
      simp only at h
      by_cases d : second4 b0 b1 = true
      · rw [if_pos d] at h
        match r, h with
        | [], h => cases h
        | b2 :: r, h =>
          simp only at h
          by_cases d2 : isCont b2 = true
          · rw [if_pos d2] at h
            match r, h with
            | [], h => cases h
            | b3 :: r, h =>
              simp only at h
              by_cases d3 : isCont b3 = true
              · rw [if_pos d3] at h; cases h
                obtain ⟨c, hc, he⟩ := encode_four c4 d d2 d3
                exact ⟨by simp, c, hc, by simpa using he⟩
              · rw [if_neg d3] at h; cases h
          · rw [if_neg d2] at h; cases h
      · rw [if_neg d] at h; cases h
  · rw [if_neg c4] at h; cases h

theorem step_starts {b0 : Nat} {rest : List Nat} :
    StartsWithChar (b0 :: rest) ↔ ∃ n, step b0 rest = .ok n := by
  constructor
  · rintro ⟨c, r, hc, h⟩
    obtain ⟨b, tl, he, hs⟩ := step_encode hc r
    rw [he, List.cons_append] at h
    cases h
    exact ⟨_, hs⟩
  · rintro ⟨n, h⟩
    obtain ⟨hn, c, hc, he⟩ := step_ok h
    refine ⟨c, rest.drop n, hc, ?_⟩
    rw [he]; simp

/-! Incomplete beginnings. -/

/-- First byte of an encoding of length ≥ 2. -/
def isLead (b : Nat) : Bool := 0xC2 ≤ b && b ≤ 0xF4

theorem encode_shape (c : Nat) (hc : IsScalar c) :
    (∃ b0, encode8 c = [b0] ∧ b0 < 0x80) ∨
    (∃ b0 b1, encode8 c = [b0, b1] ∧ 0xC2 ≤ b0 ∧ b0 ≤ 0xDF ∧ isCont b1 = true) ∨
    (∃ b0 b1 b2, encode8 c = [b0, b1, b2] ∧ 0xE0 ≤ b0 ∧ b0 ≤ 0xEF ∧ second3 b0 b1 = true ∧ isCont b2 = true) ∨
    (∃ b0 b1 b2 b3, encode8 c = [b0, b1, b2, b3] ∧ 0xF0 ≤ b0 ∧ b0 ≤ 0xF4 ∧ second4 b0 b1 = true ∧
      isCont b2 = true ∧ isCont b3 = true) := by
  unfold IsScalar at hc
  unfold encode8
  by_cases h1 : c < 0x80
  · exact Or.inl ⟨c, by simp [h1], h1⟩
  by_cases h2 : c < 0x800
  · refine Or.inr (Or.inl ⟨_, _, by rw [if_neg h1, if_pos h2], by omega, by omega, ?_⟩)
    simp only [isCont, Bool.and_eq_true, decide_eq_true_eq]; omega
  by_cases h3 : c < 0x10000
  · refine Or.inr (Or.inr (Or.inl ⟨_, _, _, by rw [if_neg h1, if_neg h2, if_pos h3], by omega, by omega, ?_, ?_⟩))
    · simp only [second3, Bool.and_eq_true, Bool.or_eq_true, decide_eq_true_eq]; omega
    · simp only [isCont, Bool.and_eq_true, decide_eq_true_eq]; omega
  · refine Or.inr (Or.inr (Or.inr ⟨_, _, _, _, by rw [if_neg h1, if_neg h2, if_neg h3], by omega, by omega, ?_, ?_, ?_⟩))
    · simp only [second4, Bool.and_eq_true, Bool.or_eq_true, decide_eq_true_eq]; omega
    · simp only [isCont, Bool.and_eq_true, decide_eq_true_eq]; omega
    · simp only [isCont, Bool.and_eq_true, decide_eq_true_eq]; omega

/-- Exactly which byte strings are incomplete beginnings. -/
theorem incomplete_iff (p : List Nat) : Incomplete p ↔
    (∃ b0, p = [b0] ∧ 0xC2 ≤ b0 ∧ b0 ≤ 0xF4) ∨
    (∃ b0 b1, p = [b0, b1] ∧ 0xE0 ≤ b0 ∧ b0 ≤ 0xEF ∧ second3 b0 b1 = true) ∨
    (∃ b0 b1, p = [b0, b1] ∧ 0xF0 ≤ b0 ∧ b0 ≤ 0xF4 ∧ second4 b0 b1 = true) ∨
    (∃ b0 b1 b2, p = [b0, b1, b2] ∧ 0xF0 ≤ b0 ∧ b0 ≤ 0xF4 ∧ second4 b0 b1 = true ∧ isCont b2 = true) := by
  constructor
  · rintro ⟨hp, c, q, hc, hq, he⟩
    rcases encode_shape c hc with ⟨b0, h, _⟩ | ⟨b0, b1, h, h0, h0', h1⟩ |
      ⟨b0, b1, b2, h, h0, h0', h1, h2⟩ | ⟨b0, b1, b2, b3, h, h0, h0', h1, h2, h3⟩ <;> rw [h] at he
    · match p, hp, q, hq, he with
      | [x], _, [], hq, _ => exact absurd rfl hq
      | x :: y :: p, _, q, _, he => simp at he
    · match p, hp, q, hq, he with
      | [x], _, q, _, he => simp at he; exact Or.inl ⟨b0, by simp [he.1], h0, by omega⟩
      | [x, y], _, [], hq, _ => exact absurd rfl hq
      | x :: y :: z :: p, _, q, _, he => simp at he
    · match p, hp, q, hq, he with
      | [x], _, q, _, he => simp at he; exact Or.inl ⟨b0, by simp [he.1], by omega, by omega⟩
      | [x, y], _, q, _, he =>
        simp at he; exact Or.inr (Or.inl ⟨b0, b1, by simp [he.1, he.2.1], h0, h0', h1⟩)
      | [x, y, z], _, [], hq, _ => exact absurd rfl hq
      | x :: y :: z :: w :: p, _, q, _, he => simp at he
    · match p, hp, q, hq, he with
      | [x], _, q, _, he => simp at he; exact Or.inl ⟨b0, by simp [he.1], by omega, by omega⟩
      | [x, y], _, q, _, he =>
        simp at he; exact Or.inr (Or.inr (Or.inl ⟨b0, b1, by simp [he.1, he.2.1], h0, h0', h1⟩))
      | [x, y, z], _, q, _, he =>
        simp at he
        exact Or.inr (Or.inr (Or.inr ⟨b0, b1, b2, by simp [he.1, he.2.1, he.2.2.1], h0, h0', h1, h2⟩))
      | [x, y, z, w], _, [], hq, _ => exact absurd rfl hq
      | x :: y :: z :: w :: v :: p, _, q, _, he => simp at he
  · have hcont : isCont 0x80 = true := by decide
    rintro (⟨b0, rfl, h0, h0'⟩ | ⟨b0, b1, rfl, h0, h0', h1⟩ | ⟨b0, b1, rfl, h0, h0', h1⟩ |
      ⟨b0, b1, b2, rfl, h0, h0', h1, h2⟩)
    · refine ⟨by simp, ?_⟩
      by_cases a : b0 ≤ 0xDF
      · obtain ⟨c, hc, he⟩ := encode_two ⟨h0, a⟩ hcont
        exact ⟨c, [0x80], hc, by simp, by simp [he]⟩
      · by_cases b : b0 ≤ 0xEF
        · have : second3 b0 (if b0 = 0xE0 then 0xA0 else 0x80) = true := by
            simp only [second3, Bool.and_eq_true, Bool.or_eq_true, decide_eq_true_eq]; split <;> omega
          obtain ⟨c, hc, he⟩ := encode_three ⟨by omega, b⟩ this hcont
          exact ⟨c, [_, 0x80], hc, by simp, he⟩
        · have : second4 b0 (if b0 = 0xF0 then 0x90 else 0x80) = true := by
            simp only [second4, Bool.and_eq_true, Bool.or_eq_true, decide_eq_true_eq]; split <;> omega
          obtain ⟨c, hc, he⟩ := encode_four ⟨by omega, h0'⟩ this hcont hcont
          exact ⟨c, [_, 0x80, 0x80], hc, by simp, he⟩
    · obtain ⟨c, hc, he⟩ := encode_three ⟨h0, h0'⟩ h1 hcont
      exact ⟨by simp, c, [0x80], hc, by simp, he⟩
    · obtain ⟨c, hc, he⟩ := encode_four ⟨h0, h0'⟩ h1 hcont hcont
      exact ⟨by simp, c, [0x80, 0x80], hc, by simp, he⟩
    · obtain ⟨c, hc, he⟩ := encode_four ⟨h0, h0'⟩ h1 h2 hcont
      exact ⟨by simp, c, [0x80], hc, by simp, he⟩

theorem sec3_cont {b0 b1 : Nat} (h : second3 b0 b1 = true) : 0xE0 ≤ b0 ∧ b0 ≤ 0xEF := by
  simp only [second3, Bool.and_eq_true, Bool.or_eq_true, decide_eq_true_eq] at h; omega
theorem sec4_cont {b0 b1 : Nat} (h : second4 b0 b1 = true) : 0xF0 ≤ b0 ∧ b0 ≤ 0xF4 := by
  simp only [second4, Bool.and_eq_true, Bool.or_eq_true, decide_eq_true_eq] at h; omega

/-- A rejected step: where the reported error length comes from. -/
theorem step_bad {b0 : Nat} {rest : List Nat} {l : Option Nat} (h : step b0 rest = .bad l) :
    (l = none ∧ Incomplete (b0 :: rest)) ∨
    (∃ k, l = some k ∧ 1 ≤ k ∧ k ≤ rest.length + 1 ∧
      (Incomplete (b0 :: rest.take (k - 1)) ∨ (k = 1 ∧ ¬ Incomplete [b0])) ∧
      ∀ p s, Incomplete p → b0 :: rest = p ++ s → p.length ≤ k) := by
  have hshort : ∀ {p : List Nat}, Incomplete p → p.length ≤ 3 := by
    intro p hp
    rcases (incomplete_iff p).1 hp with ⟨_, rfl, _⟩ | ⟨_, _, rfl, _⟩ | ⟨_, _, rfl, _⟩ | ⟨_, _, _, rfl, _⟩ <;> simp
  unfold step at h
  by_cases c1 : b0 < 0x80
  · rw [if_pos c1] at h; cases h
  rw [if_neg c1] at h
  by_cases c2 : 0xC2 ≤ b0 ∧ b0 ≤ 0xDF
  · rw [if_pos c2] at h
    match rest, h with
    | [], h =>
      cases h
      exact Or.inl ⟨rfl, (incomplete_iff _).2 (Or.inl ⟨b0, rfl, by omega, by omega⟩)⟩
    | b1 :: r, h =>
      simp only at h
      by_cases d : isCont b1 = true
      · rw [if_pos d] at h; cases h
      · rw [if_neg d] at h; cases h
        refine Or.inr ⟨1, rfl, by omega, by simp,
          Or.inl ((incomplete_iff _).2 (Or.inl ⟨b0, rfl, by omega, by omega⟩)), ?_⟩
        intro p s hp he
        rcases (incomplete_iff p).1 hp with ⟨x, rfl, _⟩ | ⟨x, y, rfl, h1, h2, _⟩ | ⟨x, y, rfl, h1, h2, _⟩ |
          ⟨x, y, z, rfl, h1, h2, _⟩ <;> simp at he ⊢ <;> omega
  rw [if_neg c2] at h
  by_cases c3 : 0xE0 ≤ b0 ∧ b0 ≤ 0xEF
  · rw [if_pos c3] at h
    match rest, h with
    | [], h =>
      cases h
      exact Or.inl ⟨rfl, (incomplete_iff _).2 (Or.inl ⟨b0, rfl, by omega, by omega⟩)⟩
    | b1 :: r, h =>
      simp only at h
      by_cases d : second3 b0 b1 = true
      · rw [if_pos d] at h
        match r, h with
        | [], h =>
          cases h
          exact Or.inl ⟨rfl, (incomplete_iff _).2 (Or.inr (Or.inl ⟨b0, b1, rfl, c3.1, c3.2, d⟩))⟩
        | b2 :: r, h =>
          simp only at h
          by_cases d2 : isCont b2 = true
          · rw [if_pos d2] at h; cases h
          · rw [if_neg d2] at h; cases h
            refine Or.inr ⟨2, rfl, by omega, by simp,
              Or.inl ((incomplete_iff _).2 (Or.inr (Or.inl ⟨b0, b1, rfl, c3.1, c3.2, d⟩))), ?_⟩
            intro p s hp he
            rcases (incomplete_iff p).1 hp with ⟨x, rfl, _⟩ | ⟨x, y, rfl, h1, h2, _⟩ |
              ⟨x, y, rfl, h1, h2, _⟩ | ⟨x, y, z, rfl, h1, h2, _⟩ <;> simp at he ⊢ <;> omega
      · rw [if_neg d] at h; cases h
        refine Or.inr ⟨1, rfl, by omega, by simp,
          Or.inl ((incomplete_iff _).2 (Or.inl ⟨b0, rfl, by omega, by omega⟩)), ?_⟩
        intro p s hp he
        rcases (incomplete_iff p).1 hp with ⟨x, rfl, _⟩ | ⟨x, y, rfl, h1, h2, h3⟩ |
          ⟨x, y, rfl, h1, h2, _⟩ | ⟨x, y, z, rfl, h1, h2, _⟩ <;> simp at he ⊢
        · rw [← he.1, ← he.2.1] at h3; exact absurd h3 d
        · omega
        · omega
  rw [if_neg c3] at h
  by_cases c4 : 0xF0 ≤ b0 ∧ b0 ≤ 0xF4
  · rw [if_pos c4] at h
    match rest, h with
    | [], h =>
      cases h
      exact Or.inl ⟨rfl, (incomplete_iff _).2 (Or.inl ⟨b0, rfl, by omega, by omega⟩)⟩
    | b1 :: r, h =>
      simp only at h
      by_cases d : second4 b0 b1 = true
      · rw [if_pos d] at h
        match r, h with
        | [], h =>
          cases h
          exact Or.inl ⟨rfl, (incomplete_iff _).2 (Or.inr (Or.inr (Or.inl ⟨b0, b1, rfl, c4.1, c4.2, d⟩)))⟩
        | b2 :: r, h =>
          simp only at h
          by_cases d2 : isCont b2 = true
          · rw [if_pos d2] at h
            match r, h with
            | [], h =>
              cases h
              exact Or.inl ⟨rfl, (incomplete_iff _).2 (Or.inr (Or.inr (Or.inr
                ⟨b0, b1, b2, rfl, c4.1, c4.2, d, d2⟩)))⟩
            | b3 :: r, h =>
              simp only at h
              by_cases d3 : isCont b3 = true
              · rw [if_pos d3] at h; cases h
              · rw [if_neg d3] at h; cases h
                refine Or.inr ⟨3, rfl, by omega, by simp, Or.inl ((incomplete_iff _).2 (Or.inr (Or.inr (Or.inr
                  ⟨b0, b1, b2, rfl, c4.1, c4.2, d, d2⟩)))), ?_⟩
                intro p s hp _
                exact hshort hp
          · rw [if_neg d2] at h; cases h
            refine Or.inr ⟨2, rfl, by omega, by simp,
              Or.inl ((incomplete_iff _).2 (Or.inr (Or.inr (Or.inl ⟨b0, b1, rfl, c4.1, c4.2, d⟩)))), ?_⟩
            intro p s hp he
            rcases (incomplete_iff p).1 hp with ⟨x, rfl, _⟩ | ⟨x, y, rfl, h1, h2, _⟩ |
              ⟨x, y, rfl, h1, h2, _⟩ | ⟨x, y, z, rfl, h1, h2, h3, h4⟩ <;> simp at he ⊢
            rw [← he.2.2.1] at h4; exact absurd h4 d2
      · rw [if_neg d] at h; cases h
        refine Or.inr ⟨1, rfl, by omega, by simp,
          Or.inl ((incomplete_iff _).2 (Or.inl ⟨b0, rfl, by omega, by omega⟩)), ?_⟩
        intro p s hp he
        rcases (incomplete_iff p).1 hp with ⟨x, rfl, _⟩ | ⟨x, y, rfl, h1, h2, h3⟩ |
          ⟨x, y, rfl, h1, h2, h3⟩ | ⟨x, y, z, rfl, h1, h2, h3, _⟩ <;> simp at he ⊢
        · omega
        · rw [← he.1, ← he.2.1] at h3; exact absurd h3 d
        · rw [← he.1, ← he.2.1] at h3; exact absurd h3 d
  · rw [if_neg c4] at h; cases h
    refine Or.inr ⟨1, rfl, by omega, by simp, Or.inr ⟨rfl, ?_⟩, ?_⟩
    · intro hi
      rcases (incomplete_iff _).1 hi with ⟨x, hx, _⟩ | ⟨x, y, hx, _⟩ | ⟨x, y, hx, _⟩ | ⟨x, y, z, hx, _⟩ <;>
        simp at hx
      omega
    · intro p s hp he
      rcases (incomplete_iff p).1 hp with ⟨x, rfl, _⟩ | ⟨x, y, rfl, h1, h2, _⟩ |
        ⟨x, y, rfl, h1, h2, _⟩ | ⟨x, y, z, rfl, h1, h2, _⟩ <;> simp at he ⊢ <;> omega

/-- The bytes skipped by a rejected step form the maximal ill-formed subsequence. -/
theorem step_bad_maximal {b0 : Nat} {rest : List Nat} {l : Option Nat} (h : step b0 rest = .bad l) :
    MaximalIllFormed (match l with | none => b0 :: rest | some k => b0 :: rest.take (k - 1))
      (match l with | none => [] | some k => rest.drop (k - 1)) := by
  have hns : ¬ StartsWithChar (b0 :: rest) := by
    rw [step_starts]; rintro ⟨n, hn⟩; rw [h] at hn; cases hn
  rcases step_bad h with ⟨rfl, hi⟩ | ⟨k, rfl, hk1, hk2, hi, hmax⟩
  · refine ⟨by simpa using hns, ?_, Or.inl hi⟩
    intro p s _ he
    have := congrArg List.length he
    simp at this ⊢
    omega
  · refine ⟨by simpa using hns, ?_, ?_⟩
    · intro p s hp he
      have := hmax p s hp (by simpa using he)
      simp only [List.length_cons, List.length_take]
      omega
    · rcases hi with hi | ⟨rfl, hi⟩
      · exact Or.inl hi
      · exact Or.inr ⟨by simp, by simpa using hi⟩

/-- `step` never consumes nothing on an error with a length. -/
theorem step_bad_pos {b0 : Nat} {rest : List Nat} {k : Nat} (h : step b0 rest = .bad (some k)) :
    1 ≤ k ∧ k ≤ rest.length + 1 := by
  rcases step_bad h with ⟨h, _⟩ | ⟨k', hk, h1, h2, _⟩
  · cases h
  · cases hk; exact ⟨h1, h2⟩

end Verif.Utf8
