/-!
# Counting the addresses with a property

Nothing here models code of /repo.
-/
namespace Verif

/-- Exactly `n` numbers satisfy `P`. -/
def Counts (P : Nat → Prop) (n : Nat) : Prop := ∃ L : List Nat, L.Nodup ∧ (∀ p, p ∈ L ↔ P p) ∧ L.length = n

theorem counts_congr {P Q : Nat → Prop} {n : Nat} (h : Counts P n) (hpq : ∀ p, Q p ↔ P p) : Counts Q n := by
  obtain ⟨L, h1, h2, h3⟩ := h
  exact ⟨L, h1, fun p => (h2 p).trans (hpq p).symm, h3⟩

theorem counts_zero_iff {P : Nat → Prop} : Counts P 0 ↔ ∀ p, ¬ P p := by
  constructor
  · rintro ⟨L, _, h2, h3⟩ p hp
    have := (h2 p).2 hp
    rw [List.length_eq_zero_iff.1 h3] at this; cases this
  · intro h
    exact ⟨[], by simp, fun p => by simp [h p], rfl⟩

theorem counts_pos {P : Nat → Prop} {n : Nat} (h : Counts P n) {p : Nat} (hp : P p) : n ≠ 0 := by
  rintro rfl; exact counts_zero_iff.1 h p hp

theorem counts_exists {P : Nat → Prop} {n : Nat} (h : Counts P n) (hn : n ≠ 0) : ∃ p, P p := by
  obtain ⟨L, _, h2, h3⟩ := h
  cases L with
  | nil => exact absurd h3.symm hn
  | cons p L => exact ⟨p, (h2 p).1 (by simp)⟩

theorem counts_add {P Q : Nat → Prop} {n o : Nat} (h : Counts P n) (ho : ¬ P o) (hq : ∀ p, Q p ↔ p = o ∨ P p) :
    Counts Q (n + 1) := by
  obtain ⟨L, h1, h2, h3⟩ := h
  refine ⟨o :: L, List.nodup_cons.2 ⟨fun hm => ho ((h2 o).1 hm), h1⟩, fun p => ?_, by simp [h3]⟩
  rw [hq, ← h2]; simp

theorem counts_remove {P Q : Nat → Prop} {n o : Nat} (h : Counts P n) (ho : P o) (hq : ∀ p, Q p ↔ P p ∧ p ≠ o) :
    Counts Q (n - 1) := by
  obtain ⟨L, h1, h2, h3⟩ := h
  refine ⟨L.erase o, h1.erase o, fun p => ?_, ?_⟩
  · rw [h1.mem_erase_iff, hq, h2]; exact And.comm
  · rw [List.length_erase_of_mem ((h2 o).2 ho), h3]

/-- Replacing one by another. -/
theorem counts_swap {P Q : Nat → Prop} {n o o' : Nat} (h : Counts P n) (ho : P o) (ho' : ¬ P o')
    (hq : ∀ p, Q p ↔ p = o' ∨ (P p ∧ p ≠ o)) : Counts Q n := by
  have h1 := counts_remove (Q := fun p => P p ∧ p ≠ o) h ho (fun _ => Iff.rfl)
  have h2 := counts_add (Q := Q) h1 (fun h' => ho' h'.1) hq
  have := counts_pos h ho
  rwa [Nat.sub_add_cancel (by omega)] at h2

theorem counts_one {P : Nat → Prop} {o : Nat} (h : Counts P 1) (ho : P o) : ∀ p, P p → p = o := by
  intro p hp
  have := counts_zero_iff.1 (counts_remove (Q := fun p => P p ∧ p ≠ o) h ho (fun _ => Iff.rfl)) p
  by_cases e : p = o
  · exact e
  · exact absurd ⟨hp, e⟩ this

theorem counts_more {P : Nat → Prop} {n o : Nat} (h : Counts P n) (ho : P o) (hn : 1 < n) : ∃ p, P p ∧ p ≠ o :=
  counts_exists (counts_remove (Q := fun p => P p ∧ p ≠ o) h ho (fun _ => Iff.rfl)) (by omega)

end Verif
