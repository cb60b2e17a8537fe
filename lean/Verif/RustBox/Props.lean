import Verif.RustBox.Spec
/-!
# Histories of rust::Box
-/
namespace Verif.RustBox
open Verif Owner Spec

theorem skip_one (o : Nat) : upd (none_skipped) o false = none_skipped := by
  funext p; simp [upd_apply]

/-- Every legal operation succeeds as specified, every illegal one is refused. -/
theorem step_refines {s : State} {a : Vars} (h : Rel s a) (op : Op) :
    (¬ Legal a op ∧ step s op = .error .illegal) ∨
    (Legal a op ∧ ∃ s' a' b, step s op = .ok (s', b) ∧ Step a op a' b ∧ Rel s' a') := by
  have free : ∀ {o}, s.objs o = none → RelX (upd none_skipped o true) s a :=
    fun ho => rel_skip h (by intro k i; rw [ho]; simp)
  cases op with
  | new o v throws =>
    rcases rel_cases h o with ⟨h1, h2⟩ | ⟨k, h1, h2⟩ | ⟨k, i, w, h1, h2⟩
    · right
      refine ⟨h2, ?_⟩
      cases throws with
      | true =>
        obtain ⟨s', k1, k2, _⟩ := rel_alloc_dealloc h
        exact ⟨s', a, _, by simp [step, h1, build, k1], .newThrow h2, k2⟩
      | false =>
        obtain ⟨s', k1, k2, k3⟩ := rel_put_new (free h1) rfl .cxx v
        exact ⟨_, _, _, by simp [step, h1, build, k1], .new h2, k3⟩
    · exact Or.inl ⟨by simp [Legal, h2], by simp [step, h1]⟩
    · exact Or.inl ⟨by simp [Legal, h2], by simp [step, h1]⟩
  | inPlace o v throws =>
    rcases rel_cases h o with ⟨h1, h2⟩ | ⟨k, h1, h2⟩ | ⟨k, i, w, h1, h2⟩
    · right
      refine ⟨h2, ?_⟩
      cases throws with
      | true =>
        obtain ⟨s', k1, k2, _⟩ := rel_alloc_dealloc h
        exact ⟨s', a, _, by simp [step, h1, build, k1], .inPlaceThrow h2, k2⟩
      | false =>
        obtain ⟨s', k1, k2, k3⟩ := rel_put_new (free h1) rfl .cxx v
        exact ⟨_, _, _, by simp [step, h1, build, k1], .inPlace h2, k3⟩
    · exact Or.inl ⟨by simp [Legal, h2], by simp [step, h1]⟩
    · exact Or.inl ⟨by simp [Legal, h2], by simp [step, h1]⟩
  | moveCtor o src =>
    rcases rel_cases h o with ⟨h1, h2⟩ | ⟨k, h1, h2⟩ | ⟨k, i, w, h1, h2⟩
    · have key : ∀ p x, s.objs src = some (.cxx, p) → a src = some (.cxx, x) →
          ∃ s' a' b, step s (.moveCtor o src) = .ok (s', b) ∧ Step a (.moveCtor o src) a' b ∧ Rel s' a' := by
        intro p x k1 k2
        have hne : src ≠ o := by rintro rfl; rw [h1] at k1; cases k1
        exact ⟨_, _, _, by simp [step, h1, k1], .moveCtor h2 k2,
          rel_put_null (rel_take (free h1) rfl hne rfl k1 k2 .cxx) rfl .cxx⟩
      rcases rel_cases h src with ⟨k1, k2⟩ | ⟨k, k1, k2⟩ | ⟨k, i, w, k1, k2⟩
      · exact Or.inl ⟨by simp [Legal, k2], by simp [step, h1, k1]⟩
      · cases k
        · exact Or.inr ⟨⟨h2, _, k2⟩, key _ _ k1 k2⟩
        all_goals exact Or.inl ⟨by simp [Legal, k2], by simp [step, h1, k1]⟩
      · cases k
        · exact Or.inr ⟨⟨h2, _, k2⟩, key _ _ k1 k2⟩
        all_goals exact Or.inl ⟨by simp [Legal, k2], by simp [step, h1, k1]⟩
    · exact Or.inl ⟨by simp [Legal, h2], by simp [step, h1]⟩
    · exact Or.inl ⟨by simp [Legal, h2], by simp [step, h1]⟩
  | moveAssign o src =>
    have key : ∀ q y p x, s.objs o = some (.cxx, q) → a o = some (.cxx, y) → s.objs src = some (.cxx, p) → a src = some (.cxx, x) →
        ∃ s' a' b, step s (.moveAssign o src) = .ok (s', b) ∧ Step a (.moveAssign o src) a' b ∧ Rel s' a' := by
      intro q y p x h1 h2 k1 k2
      obtain ⟨s1, hx, ho, hs⟩ : ∃ s1, RelX (upd none_skipped o true) s1 a ∧ s1.objs = s.objs ∧
          step s (.moveAssign o src) = .ok (put (put s1 o .cxx p) src .cxx none, .done) := by
        cases q with
        | none => exact ⟨s, rel_skip h (by intro k i; rw [h1]; simp), rfl, by simp [step, h1, k1]⟩
        | some i =>
          obtain ⟨s1, e1, e2, e3⟩ := rel_destroy h rfl h1
          exact ⟨s1, e2, e3, by simp [step, h1, k1, e1, e3]⟩
      refine ⟨_, _, _, hs, .moveAssign h2 k2, ?_⟩
      by_cases hne : src = o
      · subst hne
        have := rel_put_null hx rfl .cxx
        rw [upd_upd]
        simpa [put, upd_upd] using this
      · exact rel_put_null (rel_take hx rfl hne rfl (by rw [ho]; exact k1) k2 .cxx) rfl .cxx
    rcases rel_cases h o with ⟨h1, h2⟩ | ⟨k, h1, h2⟩ | ⟨k, i, w, h1, h2⟩
    · exact Or.inl ⟨by simp [Legal, h2], by simp [step, h1]⟩
    all_goals
      cases k
      · rcases rel_cases h src with ⟨k1, k2⟩ | ⟨k, k1, k2⟩ | ⟨k, i, w, k1, k2⟩
        · exact Or.inl ⟨by simp [Legal, k2], by simp [step, h1, k1]⟩
        all_goals
          cases k
          · exact Or.inr ⟨⟨⟨_, h2⟩, _, k2⟩, key _ _ _ _ h1 h2 k1 k2⟩
          all_goals exact Or.inl ⟨by simp [Legal, k2], by simp [step, h1, k1]⟩
      all_goals exact Or.inl ⟨by simp [Legal, h2], by simp [step, h1]⟩
  | swap o src =>
    rcases rel_cases h o with ⟨h1, h2⟩ | ⟨k, h1, h2⟩ | ⟨k, i, w, h1, h2⟩
    · exact Or.inl ⟨by simp [Legal, h2], by simp [step, h1]⟩
    all_goals
      cases k
      · rcases rel_cases h src with ⟨k1, k2⟩ | ⟨k, k1, k2⟩ | ⟨k, i, w, k1, k2⟩
        · exact Or.inl ⟨by simp [Legal, k2], by simp [step, h1, k1]⟩
        all_goals
          cases k
          · exact Or.inr ⟨⟨⟨_, h2⟩, _, k2⟩, _, _, _, by simp [step, h1, k1], .swap h2 k2, rel_swap h h1 k1 h2 k2⟩
          all_goals exact Or.inl ⟨by simp [Legal, k2], by simp [step, h1, k1]⟩
      all_goals exact Or.inl ⟨by simp [Legal, h2], by simp [step, h1]⟩
  | intoRaw o p =>
    rcases rel_cases h o with ⟨h1, h2⟩ | ⟨k, h1, h2⟩ | ⟨k, i, w, h1, h2⟩
    · exact Or.inl ⟨by simp [Legal, h2], by simp [step, h1]⟩
    all_goals
      cases k
      · rcases rel_cases h p with ⟨k1, k2⟩ | ⟨k, k1, k2⟩ | ⟨k, i, w, k1, k2⟩
        · have hne : o ≠ p := by rintro rfl; rw [h1] at k1; cases k1
          exact Or.inr ⟨⟨⟨_, h2⟩, k2⟩, _, _, _, by simp [step, h1, k1], .intoRaw h2 k2,
            rel_put_null (rel_take (free k1) rfl hne rfl h1 h2 .raw) rfl .cxx⟩
        all_goals exact Or.inl ⟨by simp [Legal, k2], by simp [step, h1, k1]⟩
      all_goals exact Or.inl ⟨by simp [Legal, h2], by simp [step, h1]⟩
  | fromRaw o p =>
    rcases rel_cases h o with ⟨h1, h2⟩ | ⟨k, h1, h2⟩ | ⟨k, i, w, h1, h2⟩
    · rcases rel_cases h p with ⟨k1, k2⟩ | ⟨k, k1, k2⟩ | ⟨k, i, w, k1, k2⟩
      · exact Or.inl ⟨by simp [Legal, k2], by simp [step, h1, k1]⟩
      all_goals
        have hne : p ≠ o := by rintro rfl; rw [h1] at k1; cases k1
        cases k
        · exact Or.inl ⟨by simp [Legal, k2], by simp [step, h1, k1]⟩
        · exact Or.inr ⟨⟨h2, _, k2⟩, _, _, _, by simp [step, h1, k1], .fromRaw h2 k2,
            rel_del (rel_take (free h1) rfl hne rfl k1 k2 .cxx) rfl⟩
        · exact Or.inl ⟨by simp [Legal, k2], by simp [step, h1, k1]⟩
    · exact Or.inl ⟨by simp [Legal, h2], by simp [step, h1]⟩
    · exact Or.inl ⟨by simp [Legal, h2], by simp [step, h1]⟩
  | read o =>
    rcases rel_cases h o with ⟨h1, h2⟩ | ⟨k, h1, h2⟩ | ⟨k, i, w, h1, h2⟩
    · exact Or.inl ⟨by simp [Legal, h2], by simp [step, h1]⟩
    · exact Or.inl ⟨by simp [Legal, h2], by cases k <;> simp [step, h1]⟩
    · cases k
      · obtain ⟨v, k1, k2⟩ := rel_get h h1
        exact Or.inr ⟨⟨_, h2⟩, _, _, _, by simp [step, h1, k1], .read k2, h⟩
      all_goals exact Or.inl ⟨by simp [Legal, h2], by simp [step, h1]⟩
  | write o v =>
    rcases rel_cases h o with ⟨h1, h2⟩ | ⟨k, h1, h2⟩ | ⟨k, i, w, h1, h2⟩
    · exact Or.inl ⟨by simp [Legal, h2], by simp [step, h1]⟩
    · exact Or.inl ⟨by simp [Legal, h2], by cases k <;> simp [step, h1]⟩
    · cases k
      · obtain ⟨s', k1, k2⟩ := rel_write h h1 v
        exact Or.inr ⟨⟨_, h2⟩, _, _, _, by simp [step, h1, k1], .write h2, k2⟩
      all_goals exact Or.inl ⟨by simp [Legal, h2], by simp [step, h1]⟩
  | destroy o =>
    rcases rel_cases h o with ⟨h1, h2⟩ | ⟨k, h1, h2⟩ | ⟨k, i, w, h1, h2⟩
    · exact Or.inl ⟨by simp [Legal, h2], by simp [step, h1]⟩
    · cases k
      · exact Or.inr ⟨⟨_, h2⟩, _, _, _, by simp [step, h1], .destroy h2, rel_del (rel_skip h (by intro k i; rw [h1]; simp)) rfl⟩
      all_goals exact Or.inl ⟨by simp [Legal, h2], by simp [step, h1]⟩
    · cases k
      · obtain ⟨s', k1, k2, k3⟩ := rel_destroy h rfl h1
        exact Or.inr ⟨⟨_, h2⟩, _, _, _, by simp [step, h1, k1], .destroy h2, rel_del k2 rfl⟩
      all_goals exact Or.inl ⟨by simp [Legal, h2], by simp [step, h1]⟩
  | toRust o p =>
    rcases rel_cases h o with ⟨h1, h2⟩ | ⟨k, h1, h2⟩ | ⟨k, i, w, h1, h2⟩
    · exact Or.inl ⟨by simp [Legal, h2], by simp [step, h1]⟩
    · exact Or.inl ⟨by simp [Legal, h2], by cases k <;> simp [step, h1]⟩
    · cases k
      · rcases rel_cases h p with ⟨k1, k2⟩ | ⟨k, k1, k2⟩ | ⟨k, j, w, k1, k2⟩
        · have hne : o ≠ p := by rintro rfl; rw [h1] at k1; cases k1
          exact Or.inr ⟨⟨⟨_, h2⟩, k2⟩, _, _, _, by simp [step, h1, k1], .toRust h2 k2,
            rel_put_null (rel_take (free k1) rfl hne rfl h1 h2 .rust) rfl .cxx⟩
        all_goals exact Or.inl ⟨by simp [Legal, k2], by simp [step, h1, k1]⟩
      all_goals exact Or.inl ⟨by simp [Legal, h2], by simp [step, h1]⟩
  | toCxx o p =>
    rcases rel_cases h o with ⟨h1, h2⟩ | ⟨k, h1, h2⟩ | ⟨k, i, w, h1, h2⟩
    · rcases rel_cases h p with ⟨k1, k2⟩ | ⟨k, k1, k2⟩ | ⟨k, i, w, k1, k2⟩
      · exact Or.inl ⟨by simp [Legal, k2], by simp [step, h1, k1]⟩
      · exact Or.inl ⟨by simp [Legal, k2], by cases k <;> simp [step, h1, k1]⟩
      · have hne : p ≠ o := by rintro rfl; rw [h1] at k1; cases k1
        cases k
        · exact Or.inl ⟨by simp [Legal, k2], by simp [step, h1, k1]⟩
        · exact Or.inl ⟨by simp [Legal, k2], by simp [step, h1, k1]⟩
        · exact Or.inr ⟨⟨h2, _, k2⟩, _, _, _, by simp [step, h1, k1], .toCxx h2 k2,
            rel_del (rel_take (free h1) rfl hne rfl k1 k2 .cxx) rfl⟩
    · exact Or.inl ⟨by simp [Legal, h2], by simp [step, h1]⟩
    · exact Or.inl ⟨by simp [Legal, h2], by simp [step, h1]⟩
  | rustNew o v =>
    rcases rel_cases h o with ⟨h1, h2⟩ | ⟨k, h1, h2⟩ | ⟨k, i, w, h1, h2⟩
    · obtain ⟨s', k1, k2, k3⟩ := rel_put_new (free h1) rfl .rust v
      exact Or.inr ⟨h2, _, _, _, by simp [step, h1, build, k1], .rustNew h2, k3⟩
    · exact Or.inl ⟨by simp [Legal, h2], by simp [step, h1]⟩
    · exact Or.inl ⟨by simp [Legal, h2], by simp [step, h1]⟩
  | rustDrop o =>
    rcases rel_cases h o with ⟨h1, h2⟩ | ⟨k, h1, h2⟩ | ⟨k, i, w, h1, h2⟩
    · exact Or.inl ⟨by simp [Legal, h2], by simp [step, h1]⟩
    · exact Or.inl ⟨by simp [Legal, h2], by cases k <;> simp [step, h1]⟩
    · cases k
      · exact Or.inl ⟨by simp [Legal, h2], by simp [step, h1]⟩
      · exact Or.inl ⟨by simp [Legal, h2], by simp [step, h1]⟩
      · obtain ⟨s', k1, k2, k3⟩ := rel_destroy h rfl h1
        exact Or.inr ⟨⟨_, h2⟩, _, _, _, by simp [step, h1, k1], .rustDrop h2, rel_del k2 rfl⟩

theorem run_refines : ∀ (ops : List Op) (s : State) (a : Vars), Rel s a →
    (∃ s' a' obs, runOps step s ops = .ok (s', obs) ∧ Run a ops a' obs ∧ Rel s' a') ∨
    (runOps step s ops = .error .illegal ∧
      ∃ pre op post a' obs, ops = pre ++ op :: post ∧ Run a pre a' obs ∧ ¬ Legal a' op) := by
  intro ops
  induction ops with
  | nil => intro s a h; exact Or.inl ⟨s, a, [], rfl, .nil, h⟩
  | cons op ops ih =>
    intro s a h
    rcases step_refines h op with ⟨h1, h2⟩ | ⟨_, s', a', b, h1, h2, h3⟩
    · exact Or.inr ⟨by simp [runOps, h2], [], op, ops, a, [], rfl, .nil, h1⟩
    · rcases ih s' a' h3 with ⟨s'', a'', bs, k1, k2, k3⟩ | ⟨k1, pre, o, post, c, xs, k2, k3, k4⟩
      · exact Or.inl ⟨s'', a'', b :: bs, by simp [runOps, h1, k1], .cons h2 k2, k3⟩
      · exact Or.inr ⟨by simp [runOps, h1, k1], op :: pre, o, post, c, b :: xs, by simp [k2], .cons h2 k3, k4⟩

/-- **C08**. Any history of constructing (with constructors that may throw), moving, assigning,
swapping, `into_raw`, `from_raw`, dereferencing, destroying and passing boxes between C++ and Rust
either is one in which the program itself broke a rule, or runs without undefined behaviour and shows
what values held directly in variables would show.  At its end every object ever constructed is either
still in memory, not destroyed, and pointed to by exactly one variable, or has been destroyed exactly
once and its memory released; memory never holds anything else (so a throwing constructor's memory
was released, and no object was destroyed there); and if every variable is gone or null, all memory
has been released. -/
theorem box_histories (ops : List Op) :
    (∃ s a obs, runOps step init ops = .ok (s, obs) ∧ Run (fun _ => none) ops a obs ∧
      (∀ o k, (s.objs o = some (k, none) ↔ a o = some (k, none)) ∧
        ∀ v, a o = some (k, some v) ↔ ∃ i, s.objs o = some (k, some i) ∧ s.heap i = some (some v)) ∧
      (∀ i, (s.made i = 1 ∧ s.drops i = 0 ∧ ∃ v o k, s.heap i = some (some v) ∧ s.objs o = some (k, some i) ∧
          ∀ p l, s.objs p = some (l, some i) → p = o) ∨
        (s.heap i = none ∧ s.drops i = s.made i ∧ s.made i ≤ 1 ∧ ∀ o k, s.objs o ≠ some (k, some i))) ∧
      ((∀ o k i, s.objs o ≠ some (k, some i)) → ∀ i, s.heap i = none)) ∨
    (runOps step init ops = .error .illegal ∧
      ∃ pre op post a obs, ops = pre ++ op :: post ∧ Run (fun _ => none) pre a obs ∧ ¬ Legal a op) := by
  rcases run_refines ops init _ rel_init with ⟨s, a, obs, h1, h2, h3⟩ | h
  · have hcell : ∀ o k i, s.objs o = some (k, some i) → ∃ v, s.heap i = some (some v) ∧ a o = some (k, some v) := by
      intro o k i ho
      rcases h3.objs o rfl with ⟨j1, _⟩ | ⟨_, j1, _⟩ | ⟨k', i', v, j1, j2, j3⟩
      · rw [ho] at j1; cases j1
      · rw [ho] at j1; cases j1
      · rw [ho] at j1; cases j1; exact ⟨v, j2, j3⟩
    refine Or.inl ⟨s, a, obs, h1, h2, ?_, ?_, ?_⟩
    · intro o k
      rcases h3.objs o rfl with ⟨j1, j2⟩ | ⟨k', j1, j2⟩ | ⟨k', i', v, j1, j2, j3⟩
      · simp [j1, j2]
      · simp [j1, j2]
      · refine ⟨by simp [j1, j3], ?_⟩
        intro w
        simp only [j1, j3, Option.some.injEq, Prod.mk.injEq]
        constructor
        · rintro ⟨rfl, rfl⟩; exact ⟨i', ⟨rfl, rfl⟩, j2⟩
        · rintro ⟨i, ⟨rfl, rfl⟩, hv⟩; rw [j2] at hv; cases hv; exact ⟨rfl, rfl⟩
    · intro i
      rcases h3.acct i with ⟨j1, j2, j3⟩ | ⟨j1, j2, j3⟩
      · obtain ⟨_, o, k, _, ho⟩ := h3.owned i j1
        obtain ⟨v, hv, _⟩ := hcell o k i ho
        exact Or.inl ⟨j2, j3, v, o, k, hv, ho, fun p l hp => h3.uniq p o l k i rfl rfl hp ho⟩
      · refine Or.inr ⟨j1, j2.symm, j3, ?_⟩
        intro o k ho
        obtain ⟨v, hv, _⟩ := hcell o k i ho
        rw [j1] at hv; cases hv
    · intro hnone i
      cases hi : s.heap i with
      | none => rfl
      | some c =>
        obtain ⟨_, o, k, _, ho⟩ := h3.owned i (by simp [hi])
        exact absurd ho (hnone o k i)
  · exact Or.inr h


example : (runOps step init [.new 0 5 true, .new 0 5 false, .moveCtor 1 0, .read 1, .moveAssign 1 1, .inPlace 2 7 false,
    .moveAssign 1 2, .intoRaw 1 9, .destroy 1, .fromRaw 1 9, .write 1 8, .toRust 1 4, .toCxx 5 4, .read 5, .rustNew 6 3,
    .rustDrop 6, .destroy 5]).map (·.2) =
  .ok [.threw, .done, .done, .value 5, .done, .done, .done, .done, .done, .done, .done, .done, .done, .value 8, .done,
    .done, .done] := by decide +kernel

end Verif.RustBox
