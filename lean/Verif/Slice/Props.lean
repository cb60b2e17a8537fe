import Verif.Slice.Model
/-!
# Slice iterators
-/
namespace Verif.Slice

/-- The slice's elements lie in the address space: `len` elements of `size` bytes at `ptr`, without
wrapping round. -/
def Fits (W size : Nat) (s : Slice) : Prop := s.ptr + size * s.len < W

/-- The iterator `it` points at position `i` of the slice (`i = len` is past the end). -/
def PointsAt (size : Nat) (s : Slice) (it : Iter) (i : Nat) : Prop :=
  i ≤ s.len ∧ it.pos = s.ptr + size * i ∧ it.stride = size

theorem mul_le {size i n : Nat} (h : i ≤ n) : size * i ≤ size * n := Nat.mul_le_mul_left _ h

theorem ptrAdd_ok {W pos k : Nat} (h : pos + k < W) : ptrAdd W pos (k % W) = pos + k := by
  rw [ptrAdd, Nat.mod_eq_of_lt (show k < W by omega), Nat.mod_eq_of_lt h]

/-- Adding a multiple of the stride, whatever the sign. -/
theorem ptrAdd_int {W pos size : Nat} {n : Int} {r : Nat} (hr : r < W)
    (h : (r : Int) = pos + size * n) : ptrAdd W pos (size * toSize W n % W) = r := by
  have hW : (0 : Int) < W := by omega
  have h1 : (toSize W n : Int) = n % W := by
    rw [toSize, Int.toNat_of_nonneg (Int.emod_nonneg _ (by omega))]
  have h2 : ((ptrAdd W pos (size * toSize W n % W) : Nat) : Int) = r := by
    simp only [ptrAdd, Int.natCast_emod, Int.natCast_add, Int.natCast_mul, h1]
    rw [Int.add_emod, Int.emod_emod_of_dvd _ (Int.dvd_refl _), ← Int.add_emod]
    have : (pos + (size : Int) * (n % W)) % W = (pos + size * n) % W := by
      rw [Int.add_emod, Int.mul_emod, Int.emod_emod_of_dvd _ (Int.dvd_refl _), ← Int.mul_emod, ← Int.add_emod]
    rw [this, ← h, Int.emod_eq_of_lt (by omega) (by omega)]
  exact Int.ofNat.inj h2

theorem ptrSub_int {W pos size : Nat} {n : Int} {r : Nat} (hr : r < W)
    (h : (r : Int) = pos - size * n) : ptrSub W pos (size * toSize W n % W) = r := by
  have hW : (0 : Int) < W := by omega
  have h1 : (toSize W n : Int) = n % W := by
    rw [toSize, Int.toNat_of_nonneg (Int.emod_nonneg _ (by omega))]
  have hlt : size * toSize W n % W < W := Nat.mod_lt _ (by omega)
  have h2 : ((ptrSub W pos (size * toSize W n % W) : Nat) : Int) = r := by
    simp only [ptrSub, Nat.mod_mod, Int.natCast_emod, Int.natCast_add, Int.natCast_sub (Nat.le_of_lt hlt), Int.natCast_mul, h1]
    have e : ((pos : Int) + (W - size * (n % W) % W)) % W = (pos - size * n) % W := by
      rw [show (pos : Int) + (W - size * (n % W) % W) = (pos - size * (n % W) % W) + W by omega, Int.add_emod_right]
      rw [Int.sub_emod, Int.emod_emod_of_dvd _ (Int.dvd_refl _), Int.mul_emod, Int.emod_emod_of_dvd _ (Int.dvd_refl _),
        ← Int.mul_emod, ← Int.sub_emod]
    rw [e, ← h, Int.emod_eq_of_lt (by omega) (by omega)]
  exact Int.ofNat.inj h2

theorem points_begin (size : Nat) (s : Slice) : PointsAt size s (s.begin size) 0 := ⟨by omega, by simp [Slice.begin], rfl⟩

theorem points_end {W size : Nat} {s : Slice} (h : Fits W size s) : PointsAt size s (s.end W size) s.len := by
  refine ⟨by omega, ?_, rfl⟩
  simp only [Slice.end, Slice.begin]
  exact ptrAdd_ok h

/-- **C07**, positions. On a slice of elements of positive size, iterators are exactly positions:
`begin` is position 0 and `end` position `len`; moving by any signed amount that stays within the
slice, in any of the spellings, moves the position by that amount; dereferencing and indexing give
the address of the element at the position, the same as `operator[]` of the slice; and differences
and comparisons of iterators are differences and comparisons of positions.  Missing: elements of size
zero, for which it is false (`slice_zero_size`). -/
theorem slice_iterator_positions_partial {W size : Nat} {s : Slice} (hsize : 0 < size) (hfit : Fits W size s) :
    PointsAt size s (s.begin size) 0 ∧ PointsAt size s (s.end W size) s.len ∧
    (∀ it i, PointsAt size s it i → i < s.len →
      PointsAt size s (it.inc W) (i + 1) ∧ s.index W size i = some it.deref ∧ it.deref = s.ptr + size * i) ∧
    (∀ it i, PointsAt size s it i → 0 < i → PointsAt size s (it.dec W) (i - 1)) ∧
    (∀ it i (n : Int) (j : Nat), PointsAt size s it i → (j : Int) = i + n → j ≤ s.len →
      PointsAt size s (it.add W n) j ∧ PointsAt size s (it.sub W (-n)) j ∧
      (j < s.len → s.index W size j = some (it.index W n))) ∧
    (∀ it i jt j, PointsAt size s it i → PointsAt size s jt j →
      it.diff jt = some ((i : Int) - j) ∧ (it.eq jt = true ↔ i = j) ∧ (it.ne jt = true ↔ i ≠ j) ∧
      (it.lt jt = true ↔ i < j) ∧ (it.le jt = true ↔ i ≤ j) ∧ (it.gt jt = true ↔ i > j) ∧ (it.ge jt = true ↔ i ≥ j)) := by
  have hbound : ∀ i, i ≤ s.len → s.ptr + size * i < W := by
    intro i hi
    have := mul_le (size := size) hi
    unfold Fits at hfit
    omega
  have hidx : ∀ i, i < s.len → s.index W size i = some (s.ptr + size * i) := by
    intro i hi
    have := hbound i (by omega)
    simp only [Slice.index, if_pos hi]
    rw [Nat.mod_eq_of_lt (show size * i < W by omega), Nat.mod_eq_of_lt this]
  refine ⟨points_begin _ _, points_end hfit, ?_, ?_, ?_, ?_⟩
  · rintro it i ⟨h1, h2, h3⟩ hi
    refine ⟨⟨by omega, ?_, h3⟩, by rw [hidx i hi, Iter.deref, h2], h2⟩
    simp only [Iter.inc, h2, h3, ptrAdd]
    have := hbound (i + 1) hi
    rw [Nat.mul_succ, ← Nat.add_assoc] at this ⊢
    exact Nat.mod_eq_of_lt this
  · rintro it i ⟨h1, h2, h3⟩ hi
    refine ⟨by omega, ?_, h3⟩
    obtain ⟨k, rfl⟩ : ∃ k, i = k + 1 := ⟨i - 1, by omega⟩
    simp only [Iter.dec, h2, h3, ptrSub, Nat.add_sub_cancel]
    have hb := hbound (k + 1) h1
    rw [Nat.mul_succ, ← Nat.add_assoc] at hb ⊢
    rw [Nat.mod_eq_of_lt (show size < W by omega), show s.ptr + size * k + size + (W - size) = s.ptr + size * k + W by omega,
      Nat.add_mod_right, Nat.mod_eq_of_lt (by omega)]
  · rintro it i n j ⟨h1, h2, h3⟩ hj hjl
    have hb := hbound j hjl
    have e : ((s.ptr + size * j : Nat) : Int) = (it.pos : Nat) + (size : Int) * n := by
      rw [h2]
      push_cast
      rw [hj, Int.mul_add]; omega
    have e2 : ((s.ptr + size * j : Nat) : Int) = (it.pos : Nat) - (size : Int) * (-n) := by
      rw [e, Int.mul_neg]; omega
    refine ⟨⟨hjl, ?_, h3⟩, ⟨hjl, ?_, h3⟩, ?_⟩
    · simp only [Iter.add, h3]; exact ptrAdd_int hb e
    · simp only [Iter.sub, h3]; exact ptrSub_int hb e2
    · intro hjl'
      rw [hidx j hjl', Iter.index, h3, ptrAdd_int hb e]
  · rintro it i jt j ⟨h1, h2, h3⟩ ⟨k1, k2, k3⟩
    have hlt : ∀ a b : Nat, s.ptr + size * a < s.ptr + size * b ↔ a < b := by
      intro a b
      rw [Nat.add_lt_add_iff_left]
      exact Nat.mul_lt_mul_left hsize
    have hle : ∀ a b : Nat, s.ptr + size * a ≤ s.ptr + size * b ↔ a ≤ b := by
      intro a b
      rw [Nat.add_le_add_iff_left]
      exact Nat.mul_le_mul_left_iff hsize
    have heq : ∀ a b : Nat, s.ptr + size * a = s.ptr + size * b ↔ a = b := by
      intro a b
      have := hle a b; have := hle b a; omega
    refine ⟨?_, ?_, ?_, ?_, ?_, ?_, ?_⟩
    · simp only [Iter.diff, h3, h2, k2]
      rw [if_neg (by omega)]
      congr 1
      have : (((s.ptr + size * i : Nat) : Int) - ((s.ptr + size * j : Nat) : Int)) = ((i : Int) - j) * size := by
        push_cast
        rw [Int.sub_mul, Int.mul_comm (i : Int), Int.mul_comm (j : Int)]; omega
      rw [this, Int.mul_tdiv_cancel _ (by omega)]
    · simp only [Iter.eq, h2, k2, beq_iff_eq, heq]
    · simp only [Iter.ne, h2, k2, bne_iff_ne, ne_eq, heq]
    · simp only [Iter.lt, h2, k2, decide_eq_true_eq, hlt]
    · simp only [Iter.le, h2, k2, decide_eq_true_eq, hle]
    · simp only [Iter.gt, h2, k2, decide_eq_true_eq, gt_iff_lt, hlt]
    · simp only [Iter.ge, h2, k2, decide_eq_true_eq, ge_iff_le, hle]

theorem walk_from {W size : Nat} {s : Slice} (hsize : 0 < size) (hfit : Fits W size s) :
    ∀ (n fuel : Nat) (it : Iter) (i : Nat), PointsAt size s it i → s.len - i = n → n < fuel →
      walk W fuel it (s.end W size) = some ((List.range' i n).map (fun k => s.ptr + size * k))
  | n, 0, it, i, _, _, h => by omega
  | 0, fuel + 1, it, i, hp, hn, _ => by
    obtain ⟨_, _, _, _, _, h6⟩ := slice_iterator_positions_partial hsize hfit
    have hne := (h6 it i _ _ hp (points_end hfit)).2.2.1
    have : i = s.len := by have := hp.1; omega
    have hf : it.ne (s.end W size) = false := by
      cases hc : it.ne (s.end W size) with
      | false => rfl
      | true => exact absurd this (hne.1 hc)
    simp [walk, hf]
  | n + 1, fuel + 1, it, i, hp, hn, hf => by
    obtain ⟨_, _, h3, _, _, h6⟩ := slice_iterator_positions_partial hsize hfit
    have hne := (h6 it i _ _ hp (points_end hfit)).2.2.1.2 (by omega)
    obtain ⟨k1, _, k3⟩ := h3 it i hp (by omega)
    simp only [walk, hne, if_true]
    rw [walk_from hsize hfit n fuel _ (i + 1) k1 (by omega) (by omega), k3]
    simp [List.range'_succ]

/-- **C07**, iteration. A loop from `begin` to `end` over a slice of elements of positive size
terminates and visits the elements' addresses in order, each once.  Missing: elements of size zero,
for which it is false (`slice_zero_size`). -/
theorem slice_iteration_partial {W size : Nat} {s : Slice} (hsize : 0 < size) (hfit : Fits W size s) (fuel : Nat)
    (hf : s.len < fuel) :
    walk W fuel (s.begin size) (s.end W size) = some ((List.range s.len).map (fun k => s.ptr + size * k)) ∧
    ∀ i j, i < s.len → j < s.len → s.ptr + size * i = s.ptr + size * j → i = j := by
  refine ⟨?_, ?_⟩
  · rw [walk_from hsize hfit s.len fuel _ 0 (points_begin _ _) (by omega) hf, List.range_eq_range']
  · intro i j _ _ h
    have : size * i = size * j := by omega
    exact Nat.eq_of_mul_eq_mul_left hsize this

/-- **C07**, bounds and null pointers. `at` throws exactly for indexes at or past the end and otherwise
gives what `operator[]` gives; a slice's pointer is never null, whichever way it was made. -/
theorem slice_at_and_null {W size : Nat} (s : Slice) (n : Nat) :
    (s.at W size n = none ↔ s.len ≤ n) ∧ (n < s.len → s.at W size n = some (s.index W size n) ∧ (s.index W size n).isSome) ∧
    (∀ align, 0 < align → (Slice.default align).ptr ≠ 0 ∧ (Slice.default align).len = 0) ∧
    (∀ align p count t, 0 < align → Slice.mk' align p count = some t → t.ptr ≠ 0 ∧ t.len = count ∧ (p ≠ 0 → t.ptr = p)) ∧
    (∀ align p count, Slice.mk' align p count = none ↔ p = 0 ∧ 0 < count) := by
  refine ⟨?_, ?_, ?_, ?_, ?_⟩
  · simp [Slice.at]
  · intro h
    have : ¬ n ≥ s.len := by omega
    simp [Slice.at, Slice.index, this, h]
  · intro align h
    exact ⟨by simp [Slice.default]; omega, rfl⟩
  · intro align p count t h ht
    simp only [Slice.mk'] at ht
    split at ht
    · next hc =>
      cases ht
      refine ⟨?_, rfl, ?_⟩
      · show (if p = 0 ∧ count = 0 then align else p) ≠ 0
        split
        · omega
        · rcases hc with hc | hc
          · exact hc
          · rename_i hn; intro hp; exact hn ⟨hp, hc⟩
      · intro hp; simp [hp]
    · cases ht
  · intro align p count
    simp only [Slice.mk']
    split
    · next hc => simp; omega
    · next hc => simp; omega

/-- **C07**, element access. `operator[]`, `front` and `back` of a slice denote the address of the
element meant, for elements of any size; they are refused exactly when there is no such element. -/
theorem slice_elements {W size : Nat} {s : Slice} (hfit : Fits W size s) :
    (∀ n, n < s.len → s.index W size n = some (s.ptr + size * n)) ∧ (∀ n, s.len ≤ n → s.index W size n = none) ∧
    (0 < s.len → s.front W size = some s.ptr ∧ s.back W size = some (s.ptr + size * (s.len - 1))) ∧
    (s.len = 0 → s.front W size = none ∧ s.back W size = none) := by
  have key : ∀ n, n < s.len → s.index W size n = some (s.ptr + size * n) := by
    intro n hn
    have h1 : size * n ≤ size * s.len := Nat.mul_le_mul_left _ (by omega)
    unfold Fits at hfit
    simp only [Slice.index, if_pos hn]
    rw [Nat.mod_eq_of_lt (a := size * n) (by omega), Nat.mod_eq_of_lt (by omega)]
  refine ⟨key, ?_, ?_, ?_⟩
  · intro n hn
    have : ¬ n < s.len := by omega
    simp [Slice.index, this]
  · intro h
    have : ¬ s.len = 0 := by omega
    refine ⟨?_, ?_⟩
    · simp only [Slice.front, if_neg this, key 0 h, Nat.mul_zero, Nat.add_zero]
    · simp only [Slice.back, if_neg this, key (s.len - 1) (by omega)]
  · intro h; simp [Slice.front, Slice.back, h]

/-- **C07**, where the claim fails: for an opaque Rust type of size zero the stride is zero, so a loop
from `begin` to `end` visits nothing however many elements the slice has, and subtracting iterators
divides by zero. -/
theorem slice_zero_size (W : Nat) (s : Slice) (h : s.ptr < W) :
    walk W 1 (s.begin 0) (s.end W 0) = some [] ∧ (s.end W 0).diff (s.begin 0) = none := by
  have : ptrAdd W s.ptr 0 = s.ptr := by rw [ptrAdd, Nat.add_zero, Nat.mod_eq_of_lt h]
  constructor
  · simp [walk, Iter.ne, Slice.end, Slice.begin, this]
  · simp [Iter.diff, Slice.end, Slice.begin]

-- non-vacuity
example : Fits (2 ^ 64) 8 ⟨4096, 3⟩ ∧
    walk (2 ^ 64) 4 (Slice.begin 8 ⟨4096, 3⟩) (Slice.end (2 ^ 64) 8 ⟨4096, 3⟩) = some [4096, 4104, 4112] ∧
    ((Slice.end (2 ^ 64) 8 ⟨4096, 3⟩).add (2 ^ 64) (-2)).deref = 4104 := by
  refine ⟨by unfold Fits; decide, ?_⟩
  decide +kernel
example : Fits (2 ^ 64) 8 ⟨4096, 3⟩ ∧ Slice.back (2 ^ 64) 8 ⟨4096, 3⟩ = some 4112 := by
  unfold Fits; decide +kernel
example : walk (2 ^ 64) 4 (Slice.begin 0 ⟨4096, 3⟩) (Slice.end (2 ^ 64) 0 ⟨4096, 3⟩) = some [] := by decide +kernel

end Verif.Slice
