import Verif.UniquePtr.Spec
/-!
# C17
-/
namespace Verif.UniquePtr
open Verif Owner Spec

/-- What is at a variable. -/
theorem at_cases {s : State} {a : Vars} (h : Rel s a) (o : Nat) :
    (s.objs o = none ∧ a o = none) ∨ ∃ k p x, s.objs o = some (k, p) ∧ a o = some (k, x) ∧ asRef s p = .ok x ∧
      (p = none ↔ x = none) := by
  rcases h.objs o rfl with h' | ⟨k, h1, h2⟩ | ⟨k, i, v, h1, h2, h3⟩
  · exact Or.inl h'
  · exact Or.inr ⟨k, none, none, h1, h2, rfl, by simp⟩
  · exact Or.inr ⟨k, some i, some v, h1, h3, by simp [asRef, shimGet, Owner.get, h2], by simp⟩

/-- What is at a Rust variable. -/
theorem rust_cases {s : State} {a : Vars} (h : Rel s a) (o : Nat) :
    (this s o = .error .illegal ∧ refAt s o = .error .illegal ∧ (∀ x, a o ≠ some (.rust, x)) ∧
      ∀ p, s.objs o ≠ some (.rust, p)) ∨
    ∃ p x, s.objs o = some (.rust, p) ∧ a o = some (.rust, x) ∧ this s o = .ok p ∧ refAt s o = .ok x ∧
      (p = none ↔ x = none) := by
  rcases at_cases h o with ⟨h1, h2⟩ | ⟨k, p, x, h1, h2, h3, h4⟩
  · exact Or.inl ⟨by simp [this, h1], by simp [refAt, this, h1], by simp [h2], by simp [h1]⟩
  · cases k
    · exact Or.inr ⟨p, x, h1, h2, by simp [this, h1], by simp [refAt, this, h1, h3], h4⟩
    all_goals exact Or.inl ⟨by simp [this, h1], by simp [refAt, this, h1], by simp [h2], by simp [h1]⟩

/-- Setting aside what a variable owns by destroying it. -/
theorem drop_ok {s : State} {a : Vars} (h : Rel s a) {o : Nat} {k : Kind} {p : Option Nat} (ho : s.objs o = some (k, p)) :
    ∃ s', shimDrop s p = .ok s' ∧ RelX (upd none_skipped o true) s' a ∧ s'.objs = s.objs := by
  cases p with
  | none => exact ⟨s, rfl, rel_skip h (by intro k' i; rw [ho]; simp), rfl⟩
  | some i => exact rel_destroy h rfl ho

theorem optCmp_isOrd (x y : Option Nat) : IsOrd x y (optCmp x y) := by
  cases x <;> cases y <;> simp only [optCmp, IsOrd]
  next a b =>
    rcases Nat.lt_trichotomy a b with h | h | h
    · exact Or.inl ⟨h, Nat.compare_eq_lt.2 h⟩
    · exact Or.inr (Or.inl ⟨h, Nat.compare_eq_eq.2 h⟩)
    · exact Or.inr (Or.inr ⟨h, Nat.compare_eq_gt.2 h⟩)

theorem step_ok (s : State) (a : Vars) (op : Op) (h : Rel s a) : StepOk Rel step Step Legal s a op := by
  have free : ∀ {o}, s.objs o = none → RelX (upd none_skipped o true) s a :=
    fun ho => rel_skip h (by intro k i; rw [ho]; simp)
  have take : ∀ {o src p x l} (k : Kind), s.objs o = none → s.objs src = some (l, p) → a src = some (l, x) →
      RelX (upd none_skipped src true) (put s o k p) (upd a o (some (k, x))) := by
    intro o src p x l k ho hs ha
    have hne : src ≠ o := by rintro rfl; rw [ho] at hs; cases hs
    exact rel_take (free ho) rfl hne rfl hs ha k
  cases op with
  | null o =>
    rcases at_cases h o with ⟨h1, h2⟩ | ⟨k, p, x, h1, h2, _⟩
    · exact Or.inr ⟨h2, _, _, _, by simp [step, h1], .null h2, rel_put_null (free h1) rfl .rust⟩
    · exact Or.inl ⟨by simp [Legal, h2], by simp [step, h1]⟩
  | new o v =>
    rcases at_cases h o with ⟨h1, h2⟩ | ⟨k, p, x, h1, h2, _⟩
    · obtain ⟨s', k1, _, k3⟩ := rel_put_new (free h1) rfl .rust v
      exact Or.inr ⟨h2, _, _, _, by simp [step, h1, shimNew, k1], .new h2, k3⟩
    · exact Or.inl ⟨by simp [Legal, h2], by simp [step, h1]⟩
  | cxxMake o v =>
    rcases at_cases h o with ⟨h1, h2⟩ | ⟨k, p, x, h1, h2, _⟩
    · obtain ⟨s', k1, _, k3⟩ := rel_put_new (free h1) rfl .cxx v
      exact Or.inr ⟨h2, _, _, _, by simp [step, h1, shimNew, k1], .cxxMake h2, k3⟩
    · exact Or.inl ⟨by simp [Legal, h2], by simp [step, h1]⟩
  | isNull o =>
    rcases rust_cases h o with ⟨h1, h2, h3, _⟩ | ⟨p, x, h1, h2, h3, h4, h5⟩
    · exact Or.inl ⟨by simp [Legal, h3], by simp [step, h1]⟩
    · exact Or.inr ⟨⟨x, h2⟩, s, a, .bool (shimGet p).isNone, by simp [step, h3], .isNull h2 (by rw [← h5]; simp [shimGet]), h⟩
  | asRef o =>
    rcases rust_cases h o with ⟨h1, h2, h3, _⟩ | ⟨p, x, h1, h2, h3, h4, h5⟩
    · exact Or.inl ⟨by simp [Legal, h3], by simp [step, h2]⟩
    · exact Or.inr ⟨⟨x, h2⟩, s, a, _, by simp [step, h4], .asRef h2, h⟩
  | deref o =>
    rcases rust_cases h o with ⟨h1, h2, h3, _⟩ | ⟨p, x, h1, h2, h3, h4, h5⟩
    · exact Or.inl ⟨by simp [Legal, h3], by simp [step, h2]⟩
    · cases x with
      | none => exact Or.inr ⟨⟨_, h2⟩, s, a, _, by simp [step, h4], .derefNull h2, h⟩
      | some v => exact Or.inr ⟨⟨_, h2⟩, s, a, _, by simp [step, h4], .deref h2, h⟩
  | asMut o v =>
    rcases rust_cases h o with ⟨h1, h2, h3, _⟩ | ⟨p, x, h1, h2, h3, h4, h5⟩
    · exact Or.inl ⟨by simp [Legal, h3], by simp [step, h1]⟩
    · cases p with
      | none =>
        rw [h5.1 rfl] at h2
        exact Or.inr ⟨⟨_, h2⟩, s, a, _, by simp [step, h3, shimGet], .asMutNull h2, h⟩
      | some i =>
        obtain ⟨s', k1, k2⟩ := rel_write h h1 v
        cases x with
        | none => exact absurd (h5.2 rfl) (by simp)
        | some w => exact Or.inr ⟨⟨_, h2⟩, s', _, _, by simp [step, h3, shimGet, k1], .asMut h2, k2⟩
  | pinMut o v =>
    rcases rust_cases h o with ⟨h1, h2, h3, _⟩ | ⟨p, x, h1, h2, h3, h4, h5⟩
    · exact Or.inl ⟨by simp [Legal, h3], by simp [step, h1]⟩
    · cases p with
      | none =>
        rw [h5.1 rfl] at h2
        exact Or.inr ⟨⟨_, h2⟩, s, a, _, by simp [step, h3, shimGet], .pinMutNull h2, h⟩
      | some i =>
        obtain ⟨s', k1, k2⟩ := rel_write h h1 v
        cases x with
        | none => exact absurd (h5.2 rfl) (by simp)
        | some w => exact Or.inr ⟨⟨_, h2⟩, s', _, _, by simp [step, h3, shimGet, k1], .pinMut h2, k2⟩
  | drop o =>
    rcases rust_cases h o with ⟨h1, h2, h3, _⟩ | ⟨p, x, h1, h2, h3, h4, h5⟩
    · exact Or.inl ⟨by simp [Legal, h3], by simp [step, h1]⟩
    · obtain ⟨s', k1, k2, k3⟩ := drop_ok h h1
      exact Or.inr ⟨⟨x, h2⟩, _, _, _, by simp [step, h3, k1], .drop h2, rel_del k2 rfl⟩
  | cxxDestroy c =>
    rcases at_cases h c with ⟨h1, h2⟩ | ⟨k, p, x, h1, h2, _⟩
    · exact Or.inl ⟨by simp [Legal, h2], by simp [step, h1]⟩
    · cases k
      case cxx =>
        obtain ⟨s', k1, k2, k3⟩ := drop_ok h h1
        exact Or.inr ⟨⟨x, h2⟩, _, _, _, by simp [step, h1, k1], .cxxDestroy h2, rel_del k2 rfl⟩
      all_goals exact Or.inl ⟨by simp [Legal, h2], by simp [step, h1]⟩
  | intoRaw o hh =>
    rcases rust_cases h o with ⟨_, _, h3, h4⟩ | ⟨p, x, h1, h2, _⟩
    · refine Or.inl ⟨by simp [Legal, h3], ?_⟩
      simp only [step]
      split
      · next hs _ => exact absurd hs (h4 _)
      · rfl
    · rcases at_cases h hh with ⟨k1, k2⟩ | ⟨k, q, y, k1, k2, _⟩
      · exact Or.inr ⟨⟨⟨x, h2⟩, k2⟩, _, _, _, by simp [step, h1, k1, shimRelease], .intoRaw h2 k2,
          rel_del (take .raw k1 h1 h2) rfl⟩
      · exact Or.inl ⟨by simp [Legal, k2], by simp [step, h1, k1]⟩
  | toCxx o c =>
    rcases rust_cases h o with ⟨_, _, h3, h4⟩ | ⟨p, x, h1, h2, _⟩
    · refine Or.inl ⟨by simp [Legal, h3], ?_⟩
      simp only [step]
      split
      · next hs _ => exact absurd hs (h4 _)
      · rfl
    · rcases at_cases h c with ⟨k1, k2⟩ | ⟨k, q, y, k1, k2, _⟩
      · exact Or.inr ⟨⟨⟨x, h2⟩, k2⟩, _, _, _, by simp [step, h1, k1, shimRelease], .toCxx h2 k2,
          rel_del (take .cxx k1 h1 h2) rfl⟩
      · exact Or.inl ⟨by simp [Legal, k2], by simp [step, h1, k1]⟩
  | fromRaw o hh =>
    rcases at_cases h o with ⟨h1, h2⟩ | ⟨k, q, y, h1, h2, _⟩
    · rcases at_cases h hh with ⟨k1, k2⟩ | ⟨k, q, y, k1, k2, _⟩
      · exact Or.inl ⟨by simp [Legal, k2], by simp [step, h1, k1]⟩
      · cases k
        case raw => exact Or.inr ⟨⟨h2, _, k2⟩, _, _, _, by simp [step, h1, k1], .fromRaw h2 k2, rel_del (take .rust h1 k1 k2) rfl⟩
        all_goals exact Or.inl ⟨by simp [Legal, k2], by simp [step, h1, k1]⟩
    · exact Or.inl ⟨by simp [Legal, h2], by simp [step, h1]⟩
  | move o src =>
    rcases at_cases h o with ⟨h1, h2⟩ | ⟨k, q, y, h1, h2, _⟩
    · rcases at_cases h src with ⟨k1, k2⟩ | ⟨k, q, y, k1, k2, _⟩
      · exact Or.inl ⟨by simp [Legal, k2], by simp [step, h1, k1]⟩
      · cases k
        case rust => exact Or.inr ⟨⟨h2, _, k2⟩, _, _, _, by simp [step, h1, k1], .move h2 k2, rel_del (take .rust h1 k1 k2) rfl⟩
        all_goals exact Or.inl ⟨by simp [Legal, k2], by simp [step, h1, k1]⟩
    · exact Or.inl ⟨by simp [Legal, h2], by simp [step, h1]⟩
  | toRust o c =>
    rcases at_cases h o with ⟨h1, h2⟩ | ⟨k, q, y, h1, h2, _⟩
    · rcases at_cases h c with ⟨k1, k2⟩ | ⟨k, q, y, k1, k2, _⟩
      · exact Or.inl ⟨by simp [Legal, k2], by simp [step, h1, k1]⟩
      · cases k
        case cxx =>
          exact Or.inr ⟨⟨h2, _, k2⟩, _, _, _, by simp [step, h1, k1, shimRelease], .toRust h2 k2,
            rel_put_null (take .rust h1 k1 k2) rfl .cxx⟩
        all_goals exact Or.inl ⟨by simp [Legal, k2], by simp [step, h1, k1]⟩
    · exact Or.inl ⟨by simp [Legal, h2], by simp [step, h1]⟩
  | assign o src =>
    rcases at_cases h o with ⟨h1, h2⟩ | ⟨k, q, y, h1, h2, _⟩
    · exact Or.inl ⟨by simp [Legal, h2], by simp [step, h1]⟩
    · cases k
      case rust =>
        rcases at_cases h src with ⟨k1, k2⟩ | ⟨k, p, x, k1, k2, _⟩
        · exact Or.inl ⟨by simp [Legal, k2], by simp [step, h1, k1]⟩
        · cases k
          case rust =>
            by_cases hne : o = src
            · exact Or.inl ⟨by simp [Legal, hne], by simp [step, h1, k1, hne]⟩
            · obtain ⟨s', e1, e2, e3⟩ := drop_ok h h1
              exact Or.inr ⟨⟨⟨y, h2⟩, ⟨x, k2⟩, hne⟩, del (put s' o .rust p) src, _, _, by simp [step, h1, k1, hne, e1], .assign h2 k2 hne,
                rel_del (rel_take e2 rfl (Ne.symm hne) rfl (by rw [e3]; exact k1) k2 .rust) rfl⟩
          all_goals exact Or.inl ⟨by simp [Legal, k2], by simp [step, h1, k1]⟩
      all_goals exact Or.inl ⟨by simp [Legal, h2], by simp [step, h1]⟩
  | eq o p =>
    rcases rust_cases h o with ⟨_, h2, h3, _⟩ | ⟨q, x, h1, h2, h3, h4, h5⟩
    · refine Or.inl ⟨by simp [Legal, h3], ?_⟩
      rcases rust_cases h p with ⟨_, k2, _⟩ | ⟨_, _, _, _, _, k2, _⟩ <;> simp [step, h2, k2]
    · rcases rust_cases h p with ⟨_, k2, k3, _⟩ | ⟨_, y, _, k2, _, k4, _⟩
      · exact Or.inl ⟨by simp [Legal, k3], by simp [step, h4, k2]⟩
      · exact Or.inr ⟨⟨⟨x, h2⟩, y, k2⟩, s, a, _, by simp [step, h4, k4]; rfl, .eq h2 k2 (by simp), h⟩
  | cmp o p =>
    rcases rust_cases h o with ⟨_, h2, h3, _⟩ | ⟨q, x, h1, h2, h3, h4, h5⟩
    · refine Or.inl ⟨by simp [Legal, h3], ?_⟩
      rcases rust_cases h p with ⟨_, k2, _⟩ | ⟨_, _, _, _, _, k2, _⟩ <;> simp [step, h2, k2]
    · rcases rust_cases h p with ⟨_, k2, k3, _⟩ | ⟨_, y, _, k2, _, k4, _⟩
      · exact Or.inl ⟨by simp [Legal, k3], by simp [step, h4, k2]⟩
      · exact Or.inr ⟨⟨⟨x, h2⟩, y, k2⟩, s, a, _, by simp [step, h4, k4], .cmp h2 k2 (optCmp_isOrd x y), h⟩

/-- **C17**. Any history of unique pointers on both sides either breaks a rule of the languages, or runs
without undefined behaviour and shows exactly what variables holding values or null would show: is_null
exactly when nothing is owned, dereferencing panics exactly on null, ownership moves through into_raw,
from_raw and calls.  Every object was made once; it is destroyed exactly once or still owned by exactly
one variable. -/
theorem unique_ptr_histories (ops : List Op) :
    (∃ s a obs, runOps step init ops = .ok (s, obs) ∧ Runs Step (fun _ => none) ops a obs ∧
      (∀ p k x, a p = some (k, x) ↔ ∃ q, s.objs p = some (k, q) ∧ asRef s q = .ok x) ∧
      (∀ i, (∃ o k, s.objs o = some (k, some i) ∧ (∀ o' k', s.objs o' = some (k', some i) → o' = o) ∧
          s.heap i ≠ none ∧ s.made i = 1 ∧ s.drops i = 0) ∨
        ((∀ o k, s.objs o ≠ some (k, some i)) ∧ s.heap i = none ∧ s.drops i = s.made i ∧ s.made i ≤ 1))) ∨
    (runOps step init ops = .error .illegal ∧ BreaksRule Step Legal (fun _ => none) ops) := by
  rcases runs_ok step_ok ops init _ rel_init with ⟨s, a, obs, h1, h2, h3⟩ | h
  · refine Or.inl ⟨s, a, obs, h1, h2, ?_, ?_⟩
    · intro p k x
      rcases at_cases h3 p with ⟨k1, k2⟩ | ⟨k', q, y, k1, k2, k3, _⟩
      · simp [k1, k2]
      · rw [k1, k2]
        constructor
        · intro e; cases e; exact ⟨q, rfl, k3⟩
        · rintro ⟨q', e, e'⟩; cases e; rw [k3] at e'; cases e'; rfl
    · intro i
      rcases h3.acct i with ⟨k1, k2, k3⟩ | ⟨k1, k2, k3⟩
      · obtain ⟨_, o, k, _, ho⟩ := h3.owned i k1
        exact Or.inl ⟨o, k, ho, fun o' k' ho' => h3.uniq o' o _ _ i rfl rfl ho' ho, k1, k2, k3⟩
      · refine Or.inr ⟨?_, k1, k2.symm, k3⟩
        intro o k ho
        obtain ⟨v, hv, _⟩ := rel_get h3 ho
        simp [Owner.get, k1] at hv
  · exact Or.inr h

example : (runOps step init [.new 0 5, .null 1, .isNull 0, .isNull 1, .deref 1, .pinMut 0 6, .intoRaw 0 9, .fromRaw 2 9,
    .deref 2, .cmp 1 2, .toCxx 2 3, .toRust 4 3, .cxxDestroy 3, .new 5 7, .assign 5 4, .asRef 5, .drop 5, .drop 1]).map
      (fun r => (r.2, r.1.drops 0, r.1.drops 1)) =
    .ok ([.done, .done, .bool false, .bool true, .panicked, .done, .done, .done, .value (some 6), .ord .lt, .done, .done,
      .done, .done, .done, .value (some 6), .done, .done], 1, 1) := by decide +kernel

end Verif.UniquePtr
