import Verif.Exception.Spec
import Verif.Utf8.Props
/-!
# C10 and C11
-/
namespace Verif.Exception
open Verif Own Spec

def Obj.ptr : Obj → Option Nat
  | .err msg _ => msg
  | .exc p _ => p

/-- Which value an object shows, given what is in its buffer. -/
def Shows : Obj → Option (Allocator × List Nat) → Val → Prop
  | .err none _, none, v => v = .err none
  | .err (some _) len, some c, v => ∃ m, v = .err (some m) ∧ c = (.cxx, m ++ [0]) ∧ len = m.length + 1
  | .exc none len, none, v => len = 0 ∧ v = .exc []
  | .exc (some _) len, some c, v => ∃ t, v = .exc t ∧ c = (.rust, t) ∧ len = t.length ∧ Utf8.Spec.WellFormed8 t
  | _, _, _ => False

abbrev ERel (s : State) (a : Vars) : Prop := Rel Obj.ptr Shows s a

theorem strlen_cut (m : List Nat) : strlen (m ++ [0]) = some (cut m).length ∧ (m ++ [0]).take (cut m).length = cut m := by
  induction m with
  | nil => exact ⟨rfl, rfl⟩
  | cons b bs ih =>
    by_cases hb : b = 0
    · subst hb; exact ⟨rfl, rfl⟩
    · have hc : cut (b :: bs) = b :: cut bs := by simp [cut, hb]
      rw [hc]
      refine ⟨?_, ?_⟩
      · simp [strlen, hb, ih.1]
      · simp [ih.2]

/-- Reading an object of known kind. -/
theorem showing_err {h : Nat → Option (Allocator × List Nat)} {msg : Option Nat} {len : Nat} {x : Val}
    (hs : Showing Obj.ptr Shows h (.err msg len) x) :
    (msg = none ∧ x = .err none) ∨ ∃ i m, msg = some i ∧ h i = some (.cxx, m ++ [0]) ∧ len = m.length + 1 ∧ x = .err (some m) := by
  cases msg with
  | none => exact Or.inl ⟨rfl, hs⟩
  | some i =>
    obtain ⟨c, h1, m, h2, h3, h4⟩ := hs
    exact Or.inr ⟨i, m, rfl, by rw [h1, h3], h4, h2⟩

theorem showing_exc {h : Nat → Option (Allocator × List Nat)} {p : Option Nat} {len : Nat} {x : Val}
    (hs : Showing Obj.ptr Shows h (.exc p len) x) :
    (p = none ∧ len = 0 ∧ x = .exc []) ∨
    ∃ i t, p = some i ∧ h i = some (.rust, t) ∧ len = t.length ∧ x = .exc t ∧ Utf8.Spec.WellFormed8 t := by
  cases p with
  | none => exact Or.inl ⟨rfl, hs.1, hs.2⟩
  | some i =>
    obtain ⟨c, h1, t, h2, h3, h4, h5⟩ := hs
    exact Or.inr ⟨i, t, rfl, by rw [h1, h3], h4, h2, h5⟩

/-- The kinds of addresses. -/
theorem cases_addr {s : State} {a : Vars} (h : ERel s a) (p : Nat) :
    (s.objs p = none ∧ a p = none) ∨
    (∃ len, s.objs p = some (.err none len) ∧ a p = some (.err none)) ∨
    (∃ i m, s.objs p = some (.err (some i) (m.length + 1)) ∧ s.heap i = some (.cxx, m ++ [0]) ∧ a p = some (.err (some m))) ∨
    (∃ ptr len t, s.objs p = some (.exc ptr len) ∧ a p = some (.exc t) ∧
      ((ptr = none ∧ len = 0 ∧ t = []) ∨ ∃ i, ptr = some i ∧ s.heap i = some (.rust, t) ∧ len = t.length)) := by
  rcases rel_cases h (p := p) rfl with h' | ⟨o, x, h1, h2, h3⟩
  · exact Or.inl h'
  · cases o with
    | err msg len =>
      rcases showing_err h3 with ⟨rfl, rfl⟩ | ⟨i, m, rfl, k1, rfl, rfl⟩
      · exact Or.inr (Or.inl ⟨len, h1, h2⟩)
      · exact Or.inr (Or.inr (Or.inl ⟨i, m, h1, k1, h2⟩))
    | exc ptr len =>
      rcases showing_exc h3 with ⟨rfl, rfl, rfl⟩ | ⟨i, t, rfl, k1, rfl, rfl, _⟩
      · exact Or.inr (Or.inr (Or.inr ⟨none, 0, [], h1, h2, Or.inl ⟨rfl, rfl, rfl⟩⟩))
      · exact Or.inr (Or.inr (Or.inr ⟨some i, _, t, h1, h2, Or.inr ⟨i, rfl, k1, rfl⟩⟩))

/-- Making an error at a free address. -/
theorem make_err {s : State} {a : Vars} {o : Nat} (hx : RelX Obj.ptr Shows (upd noskip o true) s a) (m : List Nat) :
    ERel (put (alloc s (.cxx, m ++ [0])).1 o (.err (some s.next) (m.length + 1))) (store a o (.err (some m))) :=
  rel_noskip (rel_put_new (x := .err (some s.next) (m.length + 1)) (v := .err (some m)) hx (upd_same _ _ _) rfl
    ⟨m, rfl, rfl, rfl⟩)

theorem lossy_of (bytes : List Nat) : IsLossy bytes (Utf8.fromUtf8Lossy bytes) ∧
    Utf8.Spec.WellFormed8 (Utf8.fromUtf8Lossy bytes) := by
  obtain ⟨ps, h1, h2⟩ := Utf8.lossy_pieces bytes
  exact ⟨⟨ps, h1, h2⟩, by rw [h2]; exact Utf8.lossy_wf h1⟩

/-- Making an exception at a free address. -/
theorem make_exc {s : State} {a : Vars} {x : Nat} (h : ERel s a) (ho : s.objs x = none) (r : Bool) (bytes : List Nat) :
    ∃ s', rustAfterCall (exception s bytes).1 x r none (exception s bytes).2 = .ok (s', .threw) ∧
      ERel s' (store a x (.exc (Utf8.fromUtf8Lossy bytes))) := by
  have hx : RelX Obj.ptr Shows (upd noskip x true) s a := rel_skip h (by intro y hy; rw [ho] at hy; cases hy)
  unfold exception
  by_cases ht : (Utf8.fromUtf8Lossy bytes).length = 0
  · have ht' : Utf8.fromUtf8Lossy bytes = [] := List.length_eq_zero_iff.1 ht
    simp only [ht, if_true, rustAfterCall]
    refine ⟨_, rfl, ?_⟩
    rw [ht']
    exact rel_noskip (rel_put_null (x := .exc none 0) hx (upd_same _ _ _) rfl ⟨rfl, rfl⟩)
  · simp only [if_neg ht, rustAfterCall]
    refine ⟨_, rfl, ?_⟩
    exact rel_noskip (rel_put_new (x := .exc (some s.next) (Utf8.fromUtf8Lossy bytes).length)
      (v := .exc (Utf8.fromUtf8Lossy bytes)) hx (upd_same _ _ _) rfl ⟨_, rfl, rfl, rfl, (lossy_of bytes).2⟩)

/-- Freeing an error's buffer. -/
theorem delete_err {s : State} {a : Vars} (h : ERel s a) {o : Nat} {msg : Option Nat} {len : Nat}
    (ho : s.objs o = some (.err msg len)) :
    ∃ s', deleteArray s msg = .ok s' ∧ RelX Obj.ptr Shows (upd noskip o true) s' a ∧ s'.objs = s.objs := by
  rcases rel_cases h (p := o) rfl with ⟨h1, _⟩ | ⟨y, x, h1, h2, h3⟩
  · rw [ho] at h1; cases h1
  · rw [ho] at h1; cases h1
    rcases showing_err h3 with ⟨rfl, rfl⟩ | ⟨i, m, rfl, k1, rfl, rfl⟩
    · exact ⟨s, rfl, rel_skip h (by intro y hy; rw [ho] at hy; cases hy; rfl), rfl⟩
    · exact ⟨free s i, by simp [deleteArray, k1], rel_free h rfl ho rfl, rfl⟩

theorem drop_exc {s : State} {a : Vars} (h : ERel s a) {o : Nat} {ptr : Option Nat} {len : Nat}
    (ho : s.objs o = some (.exc ptr len)) :
    ∃ s' t, boxStr s ptr len = .ok t ∧ a o = some (.exc t) ∧ dropBoxStr s ptr len = .ok s' ∧
      RelX Obj.ptr Shows (upd noskip o true) s' a ∧ s'.objs = s.objs := by
  rcases rel_cases h (p := o) rfl with ⟨h1, _⟩ | ⟨y, x, h1, h2, h3⟩
  · rw [ho] at h1; cases h1
  · rw [ho] at h1; cases h1
    rcases showing_exc h3 with ⟨rfl, rfl, rfl⟩ | ⟨i, t, rfl, k1, rfl, rfl, _⟩
    · exact ⟨s, [], rfl, h2, rfl, rel_skip h (by intro y hy; rw [ho] at hy; cases hy; rfl), rfl⟩
    · exact ⟨free s i, t, by simp [boxStr, k1], h2, by simp [dropBoxStr, k1], rel_free h rfl ho rfl, rfl⟩

theorem rel_del' {s : State} {a : Vars} {o : Nat} (hx : RelX Obj.ptr Shows (upd noskip o true) s a) :
    ERel (del s o) (unset a o) := rel_noskip (rel_del hx (upd_same _ _ _))

theorem step_refines {s : State} {a : Vars} (h : ERel s a) (op : Op) (hsafe : Safe a op) :
    (¬ Legal a op ∧ step s op = .error .illegal) ∨
    (Legal a op ∧ ∃ s' a' b, step s op = .ok (s', b) ∧ Step a op a' b ∧ ERel s' a') := by
  have hnone : ∀ p, s.objs p = none ↔ a p = none := by
    intro p
    rcases rel_cases h (p := p) rfl with ⟨h1, h2⟩ | ⟨o, x, h1, h2, _⟩ <;> simp [h1, h2]
  have free : ∀ {o}, s.objs o = none → RelX Obj.ptr Shows (upd noskip o true) s a :=
    fun ho => rel_skip h (by intro y hy; rw [ho] at hy; cases hy)
  -- the errors among the addresses
  have herr : ∀ p, (∃ msg len m, s.objs p = some (.err msg len) ∧ a p = some (.err m)) ∨
      ((∀ msg len, s.objs p ≠ some (.err msg len)) ∧ ∀ m, a p ≠ some (.err m)) := by
    intro p
    rcases cases_addr h p with ⟨h1, h2⟩ | ⟨l, h1, h2⟩ | ⟨i, m, h1, _, h2⟩ | ⟨q, l, t, h1, h2, _⟩
    · exact Or.inr (by simp [h1, h2])
    · exact Or.inl ⟨_, _, _, h1, h2⟩
    · exact Or.inl ⟨_, _, _, h1, h2⟩
    · exact Or.inr (by simp [h1, h2])
  have hexc : ∀ p, (∃ q len t, s.objs p = some (.exc q len) ∧ a p = some (.exc t)) ∨
      ((∀ q len, s.objs p ≠ some (.exc q len)) ∧ ∀ m, a p ≠ some (.exc m)) := by
    intro p
    rcases cases_addr h p with ⟨h1, h2⟩ | ⟨l, h1, h2⟩ | ⟨i, m, h1, _, h2⟩ | ⟨q, l, t, h1, h2, _⟩
    · exact Or.inr (by simp [h1, h2])
    · exact Or.inr (by simp [h1, h2])
    · exact Or.inr (by simp [h1, h2])
    · exact Or.inl ⟨_, _, _, h1, h2⟩
  cases op with
  | callRust o r out =>
    cases ho : s.objs o with
    | some x =>
      left
      have : a o ≠ none := fun hc => by rw [(hnone o).2 hc] at ho; cases ho
      exact ⟨by cases out <;> simp [Legal, this], by simp [step, ho]⟩
    | none =>
      have hao := (hnone o).1 ho
      cases out with
      | ok v =>
        cases v <;> cases r
        · exact Or.inr ⟨by simp [Legal, hao], s, a, .returned none, by simp [step, ho, fits, tryRs, cxxAfterCall],
            .rustOk hao, h⟩
        · exact Or.inl ⟨by simp [Legal], by simp [step, ho, fits]⟩
        · exact Or.inl ⟨by simp [Legal], by simp [step, ho, fits]⟩
        · exact Or.inr ⟨by simp [Legal, hao], s, a, .returned (some _), by simp [step, ho, fits, tryRs, cxxAfterCall],
            .rustOk hao, h⟩
      | err m =>
        exact Or.inr ⟨hao, _, _, .threw, by simp [step, ho, tryRs, toCError, alloc, cxxAfterCall], .rustErr hao,
          make_err (free ho) m⟩
  | propagate o x =>
    cases ho : s.objs o with
    | some y =>
      left
      have : a o ≠ none := fun hc => by rw [(hnone o).2 hc] at ho; cases ho
      exact ⟨by simp [Legal, this], by simp [step, ho]⟩
    | none =>
      have hao := (hnone o).1 ho
      rcases hexc x with ⟨q, len, t, hx, hax⟩ | ⟨h1, h2⟩
      · right
        obtain ⟨s1, t', k1, k2, k3, k4, k5⟩ := drop_exc h hx
        have hox : o ≠ x := by rintro rfl; rw [ho] at hx; cases hx
        refine ⟨⟨hao, _, hax⟩, ?_⟩
        have hd := rel_del' k4
        have ho' : (del s1 x).objs o = none := by simp only [del, upd_ne _ _ hox, k5, ho]
        refine ⟨_, _, .threw, ?_, .propagate hao k2, make_err (rel_skip hd (by intro y hy; rw [ho'] at hy; cases hy)) t'⟩
        simp only [step, ho, hx, k1, k3, tryRs, toCError, cxxAfterCall]
        simp only [alloc, ho']
        simp
      · left
        refine ⟨by simp [Legal, h2], ?_⟩
        cases hx : s.objs x with
        | none => simp [step, ho, hx]
        | some y =>
          cases y with
          | err msg len => simp [step, ho, hx]
          | exc q l => exact absurd hx (h1 _ _)
  | callCxx x r out =>
    cases ho : s.objs x with
    | some y =>
      left
      have : a x ≠ none := fun hc => by rw [(hnone x).2 hc] at ho; cases ho
      exact ⟨by cases out <;> simp [Legal, this], by simp [step, ho]⟩
    | none =>
      have hao := (hnone x).1 ho
      cases out with
      | ret v =>
        cases v <;> cases r
        · exact Or.inr ⟨by simp [Legal, hao], s, a, .returned none, by simp [step, ho, fits, tryCatch, rustAfterCall],
            .cxxRet hao, h⟩
        · exact Or.inl ⟨by simp [Legal], by simp [step, ho, fits]⟩
        · exact Or.inl ⟨by simp [Legal], by simp [step, ho, fits]⟩
        · exact Or.inr ⟨by simp [Legal, hao], s, a, .returned (some _), by simp [step, ho, fits, tryCatch, rustAfterCall],
            .cxxRet hao, h⟩
      | throwErr o =>
        rcases cases_addr h o with ⟨h1, h2⟩ | ⟨l, h1, h2⟩ | ⟨i, m, h1, h3, h2⟩ | ⟨q, l, t, h1, h2, _⟩
        · exact Or.inl ⟨by simp [Legal, h2], by simp [step, ho, tryCatch, whatMem, h1]⟩
        · exact absurd h2 hsafe
        · right
          refine ⟨⟨hao, _, h2⟩, ?_⟩
          obtain ⟨s', k1, k2⟩ := make_exc h ho r (cut m)
          refine ⟨s', _, _, ?_, .cxxThrow hao h2 (lossy_of (cut m)).1, k2⟩
          simp only [step, ho, tryCatch, whatMem, h1, h3, fail, (strlen_cut m).1, (strlen_cut m).2, if_true]
          exact k1
        · exact Or.inl ⟨by simp [Legal, h2], by simp [step, ho, tryCatch, whatMem, h1]⟩
      | throwStd w =>
        right
        refine ⟨hao, ?_⟩
        obtain ⟨s', k1, k2⟩ := make_exc h ho r (cut w)
        refine ⟨s', _, _, ?_, .cxxThrowStd hao (lossy_of (cut w)).1, k2⟩
        simp only [step, ho, tryCatch, fail, (strlen_cut w).1, (strlen_cut w).2, if_true]
        exact k1
  | copyCtor o src =>
    cases ho : s.objs o with
    | some y =>
      left
      have : a o ≠ none := fun hc => by rw [(hnone o).2 hc] at ho; cases ho
      exact ⟨by simp [Legal, this], by simp [step, ho]⟩
    | none =>
      have hao := (hnone o).1 ho
      rcases cases_addr h src with ⟨h1, h2⟩ | ⟨l, h1, h2⟩ | ⟨i, m, h1, h3, h2⟩ | ⟨q, l, t, h1, h2, _⟩
      · exact Or.inl ⟨by simp [Legal, h2], by simp [step, ho, h1]⟩
      · exact Or.inr ⟨⟨hao, _, h2⟩, _, _, .done, by simp only [step, ho, h1], .copyCtor hao h2,
          rel_noskip (rel_put_null (x := .err none l) (free ho) (upd_same _ _ _) rfl rfl)⟩
      · refine Or.inr ⟨⟨hao, _, h2⟩, _, _, .done, ?_, .copyCtor hao h2, make_err (free ho) m⟩
        simp only [step, ho, h1, errorCopy, h3]
        simp [alloc, List.take_of_length_le]
      · exact Or.inl ⟨by simp [Legal, h2], by simp [step, ho, h1]⟩
  | moveCtor o src =>
    cases ho : s.objs o with
    | some y =>
      left
      have : a o ≠ none := fun hc => by rw [(hnone o).2 hc] at ho; cases ho
      exact ⟨by simp [Legal, this], by simp [step, ho]⟩
    | none =>
      have hao := (hnone o).1 ho
      rcases herr src with ⟨msg, len, m, h1, h2⟩ | ⟨h1, h2⟩
      · have hne : src ≠ o := by rintro rfl; rw [ho] at h1; cases h1
        refine Or.inr ⟨⟨hao, _, h2⟩, _, _, .done, by simp only [step, ho, h1]; rfl, .moveCtor hao h2, ?_⟩
        have hsh : Showing Obj.ptr Shows s.heap (.err msg len) (.err m) := by
          rcases rel_cases h (p := src) rfl with ⟨k1, _⟩ | ⟨y, x, k1, k2, k3⟩
          · rw [h1] at k1; cases k1
          · rw [h1] at k1; cases k1; rw [h2] at k2; cases k2; exact k3
        have := rel_take (x := .err msg len) (free ho) (upd_same _ _ _) hne (upd_ne _ _ hne) h1 rfl hsh
        have := rel_put_null (x := .err none 0) (v := .err none) this (upd_same _ _ _) rfl rfl
        have e : upd (upd (upd (upd noskip o true) o false) src true) src false = noskip := by
          funext q; simp [upd_apply]
        rwa [e] at this
      · left
        refine ⟨by simp [Legal, h2], ?_⟩
        cases hx : s.objs src with
        | none => simp [step, ho, hx]
        | some y =>
          cases y with
          | err msg len => exact absurd hx (h1 _ _)
          | exc q l => simp [step, ho, hx]
  | copyAssign o src =>
    rcases herr o with ⟨msg, len, m, h1, h2⟩ | ⟨h1, h2⟩
    · rcases herr src with ⟨msg', len', m', k1, k2⟩ | ⟨k1, k2⟩
      · right
        refine ⟨⟨⟨_, h2⟩, _, k2⟩, ?_⟩
        by_cases hne : o = src
        · subst hne
          refine ⟨s, store a o (.err m'), .done, by simp [step, h1], .copyAssign h2 k2, ?_⟩
          have : store a o (.err m') = a := by
            funext p; simp only [store]; split
            · next hp => rw [hp, k2]
            · rfl
          rw [this]; exact h
        · obtain ⟨s1, l1, l2, l3⟩ := delete_err h h1
          have hput := rel_put_null (x := .err none len) (v := .err none) l2 (upd_same _ _ _) rfl rfl
          have hrel : ERel (put s1 o (.err none len)) (store a o (.err none)) := rel_noskip hput
          have hsrc : (put s1 o (.err none len)).objs src = some (.err msg' len') := by
            simp only [put, upd_ne _ _ (Ne.symm hne), l3, k1]
          have hsrc' : store a o (.err none) src = some (.err m') := by
            simp only [store, if_neg (Ne.symm hne), k2]
          rcases rel_cases hrel (p := src) rfl with ⟨j1, _⟩ | ⟨y, x, j1, j2, j3⟩
          · rw [hsrc] at j1; cases j1
          · rw [hsrc] at j1; cases j1
            rw [hsrc'] at j2; cases j2
            have hset : ∀ v, store (store a o (.err none)) o v = store a o v := by
              intro v; funext p; simp only [store]; split <;> rfl
            rcases showing_err j3 with ⟨rfl, hm⟩ | ⟨i, mm, rfl, j4, rfl, hm⟩
            · cases hm
              exact ⟨_, _, .done, by simp only [step, h1, k1, ne_eq, hne, not_false_iff, if_true, l1, hsrc],
                .copyAssign h2 k2, hrel⟩
            · cases hm
              have hmake := make_err (o := o) (rel_skip hrel (by intro y hy; simp only [put, upd_same, Option.some.injEq] at hy; subst hy; rfl)) mm
              rw [hset] at hmake
              refine ⟨_, _, .done, ?_, .copyAssign h2 k2, hmake⟩
              simp only [step, h1, k1, ne_eq, hne, not_false_iff, if_true, l1, hsrc, errorCopy, j4]
              simp [alloc, List.take_of_length_le]
      · left
        refine ⟨by simp [Legal, k2], ?_⟩
        cases hx : s.objs src with
        | none => simp [step, h1, hx]
        | some y =>
          cases y with
          | err msg len => exact absurd hx (k1 _ _)
          | exc q l => simp [step, h1, hx]
    · left
      refine ⟨by simp [Legal, h2], ?_⟩
      cases hx : s.objs o with
      | none => simp [step, hx]
      | some y =>
        cases y with
        | err msg len => exact absurd hx (h1 _ _)
        | exc q l => simp [step, hx]
  | moveAssign o src =>
    rcases herr o with ⟨msg, len, m, h1, h2⟩ | ⟨h1, h2⟩
    · rcases herr src with ⟨msg', len', m', k1, k2⟩ | ⟨k1, k2⟩
      · right
        refine ⟨⟨⟨_, h2⟩, _, k2⟩, ?_⟩
        obtain ⟨s1, l1, l2, l3⟩ := delete_err h h1
        refine ⟨_, _, .done, by simp only [step, h1, k1, l1, l3]; rfl, .moveAssign h2 k2, ?_⟩
        by_cases hne : src = o
        · subst hne
          have := rel_noskip (rel_put_null (x := .err none 0) (v := .err none) l2 (upd_same _ _ _) rfl rfl)
          have e1 : put (put s1 src (.err msg' len')) src (.err none 0) = put s1 src (.err none 0) := by
            simp [put, upd_upd]
          have e2 : store (store a src (.err m')) src (.err none) = upd a src (some (.err none)) := by
            funext p; simp only [store, upd_apply]; split <;> rfl
          rw [e1, e2]; exact this
        · have hsh : Showing Obj.ptr Shows s1.heap (.err msg' len') (.err m') := by
            rcases l2.objs src (by rw [upd_ne _ _ hne]) with ⟨j1, _⟩ | ⟨y, x, j1, j2, j3⟩
            · rw [l3, k1] at j1; cases j1
            · rw [l3, k1] at j1; cases j1; rw [k2] at j2; cases j2; exact j3
          have := rel_take (x := .err msg' len') l2 (upd_same _ _ _) hne (upd_ne _ _ hne) (by rw [l3]; exact k1) rfl hsh
          have := rel_put_null (x := .err none 0) (v := .err none) this (upd_same _ _ _) rfl rfl
          have e : upd (upd (upd (upd noskip o true) o false) src true) src false = noskip := by
            funext q; simp [upd_apply]
          rwa [e] at this
      · left
        refine ⟨by simp [Legal, k2], ?_⟩
        cases hx : s.objs src with
        | none => simp [step, h1, hx]
        | some y =>
          cases y with
          | err msg len => exact absurd hx (k1 _ _)
          | exc q l => simp [step, h1, hx]
    · left
      refine ⟨by simp [Legal, h2], ?_⟩
      cases hx : s.objs o with
      | none => simp [step, hx]
      | some y =>
        cases y with
        | err msg len => exact absurd hx (h1 _ _)
        | exc q l => simp [step, hx]
  | what o =>
    rcases cases_addr h o with ⟨h1, h2⟩ | ⟨l, h1, h2⟩ | ⟨i, m, h1, h3, h2⟩ | ⟨q, l, t, h1, h2, _⟩
    · exact Or.inl ⟨by simp [Legal, h2], by simp [step, whatMem, h1]⟩
    · exact Or.inr ⟨⟨_, h2⟩, s, a, _, by simp [step, whatMem, h1], .whatNull h2, h⟩
    · refine Or.inr ⟨⟨_, h2⟩, s, a, _, ?_, .what h2, h⟩
      simp only [step, whatMem, h1, h3, cstr, (strlen_cut m).1, (strlen_cut m).2]
    · exact Or.inl ⟨by simp [Legal, h2], by simp [step, whatMem, h1]⟩
  | destroy o =>
    rcases herr o with ⟨msg, len, m, h1, h2⟩ | ⟨h1, h2⟩
    · obtain ⟨s1, l1, l2, l3⟩ := delete_err h h1
      exact Or.inr ⟨⟨_, h2⟩, _, _, .done, by simp only [step, h1, l1], .destroy h2, rel_del' l2⟩
    · left
      refine ⟨by simp [Legal, h2], ?_⟩
      cases hx : s.objs o with
      | none => simp [step, hx]
      | some y =>
        cases y with
        | err msg len => exact absurd hx (h1 _ _)
        | exc q l => simp [step, hx]
  | excWhat x =>
    rcases hexc x with ⟨q, len, t, h1, h2⟩ | ⟨h1, h2⟩
    · obtain ⟨_, t', k1, k2, _⟩ := drop_exc h h1
      exact Or.inr ⟨⟨_, h2⟩, s, a, _, by simp only [step, h1, k1], .excWhat k2, h⟩
    · left
      refine ⟨by simp [Legal, h2], ?_⟩
      cases hx : s.objs x with
      | none => simp [step, hx]
      | some y =>
        cases y with
        | err msg len => simp [step, hx]
        | exc q l => exact absurd hx (h1 _ _)
  | excDrop x =>
    rcases hexc x with ⟨q, len, t, h1, h2⟩ | ⟨h1, h2⟩
    · obtain ⟨s1, t', k1, k2, k3, k4, k5⟩ := drop_exc h h1
      exact Or.inr ⟨⟨_, h2⟩, _, _, .done, by simp only [step, h1, k3], .excDrop k2, rel_del' k4⟩
    · left
      refine ⟨by simp [Legal, h2], ?_⟩
      cases hx : s.objs x with
      | none => simp [step, hx]
      | some y =>
        cases y with
        | err msg len => simp [step, hx]
        | exc q l => exact absurd hx (h1 _ _)

/-- Runs in which no moved-from error is thrown. -/
inductive SafeRun : Vars → List Op → Prop
  | nil : SafeRun a []
  | cons : Safe a op → (∀ b x, Step a op b x → SafeRun b ops) → SafeRun a (op :: ops)

theorem run_refines : ∀ (ops : List Op) (s : State) (a : Vars), ERel s a → SafeRun a ops →
    (∃ s' a' obs, runOps step s ops = .ok (s', obs) ∧ Run a ops a' obs ∧ ERel s' a') ∨
    (runOps step s ops = .error .illegal ∧
      ∃ pre op post a' obs, ops = pre ++ op :: post ∧ Run a pre a' obs ∧ ¬ Legal a' op) := by
  intro ops
  induction ops with
  | nil => intro s a h _; exact Or.inl ⟨s, a, [], rfl, .nil, h⟩
  | cons op ops ih =>
    intro s a h hsafe
    cases hsafe with
    | cons hop hrest =>
      rcases step_refines h op hop with ⟨h1, h2⟩ | ⟨_, s', a', b, h1, h2, h3⟩
      · exact Or.inr ⟨by simp [runOps, h2], [], op, ops, a, [], rfl, .nil, h1⟩
      · rcases ih s' a' h3 (hrest _ _ h2) with ⟨s'', a'', bs, k1, k2, k3⟩ | ⟨k1, pre, o, post, c, xs, k2, k3, k4⟩
        · exact Or.inl ⟨s'', a'', b :: bs, by simp [runOps, h1, k1], .cons h2 k2, k3⟩
        · exact Or.inr ⟨by simp [runOps, h1, k1], op :: pre, o, post, c, b :: xs, by simp [k2], .cons h2 k3, k4⟩

/-- **C10, C11**. Any history of fallible calls in both directions, of errors propagated through
either language, and of copying, moving, assigning, reading and destroying the errors and exceptions
they produce, either is one in which the program itself broke a rule, or runs without undefined
behaviour (no buffer read after being freed, freed twice, or freed by the wrong allocator) and shows
exactly what messages held directly in variables would show; every buffer left belongs to exactly one
error or exception, none is left when these are gone, and every exception's text is well-formed UTF-8.
Missing: programs in which C++ throws a moved-from `rust::Error` into Rust, see
`moved_from_error_thrown`. -/
theorem error_histories_partial (ops : List Op) (hsafe : SafeRun (fun _ => none) ops) :
    (∃ s a obs, runOps step init ops = .ok (s, obs) ∧ Run (fun _ => none) ops a obs ∧
      (∀ i, s.heap i ≠ none → ∃ p o, s.objs p = some o ∧ o.ptr = some i ∧
        ∀ q o', s.objs q = some o' → o'.ptr = some i → q = p) ∧
      ((∀ p o, s.objs p = some o → o.ptr = none) → ∀ i, s.heap i = none) ∧
      (∀ p, a p = none ↔ s.objs p = none) ∧
      (∀ p t, a p = some (.exc t) → Utf8.Spec.WellFormed8 t)) ∨
    (runOps step init ops = .error .illegal ∧
      ∃ pre op post a obs, ops = pre ++ op :: post ∧ Run (fun _ => none) pre a obs ∧ ¬ Legal a op) := by
  rcases run_refines ops init _ rel_init hsafe with ⟨s, a, obs, h1, h2, h3⟩ | h
  · refine Or.inl ⟨s, a, obs, h1, h2, (rel_accounts h3).1, (rel_accounts h3).2, ?_, ?_⟩
    · intro p
      rcases rel_cases h3 (p := p) rfl with ⟨k1, k2⟩ | ⟨o, x, k1, k2, _⟩ <;> simp [k1, k2]
    · intro p t hp
      rcases rel_cases h3 (p := p) rfl with ⟨k1, k2⟩ | ⟨o, x, k1, k2, k3⟩
      · rw [hp] at k2; cases k2
      · rw [hp] at k2; cases k2
        cases o with
        | err msg len =>
          rcases showing_err k3 with ⟨_, hx⟩ | ⟨_, _, _, _, _, hx⟩ <;> cases hx
        | exc q len =>
          rcases showing_exc k3 with ⟨_, _, hx⟩ | ⟨_, _, _, _, _, hx, hw⟩
          · cases hx; exact ⟨[], by simp, rfl⟩
          · cases hx; exact hw
  · exact Or.inr h

/-- **C10**, where the claim fails: a moved-from error's `what()` is a null pointer, not an empty
string, whatever its message was. -/
theorem error_moved_from_what_null (m : List Nat) :
    (runOps step init [.callRust 0 false (.err m), .moveCtor 1 0, .what 0, .what 1]).map (·.2) =
      .ok [.threw, .done, .what none, .what (some (cut m))] := by
  simp [runOps, step, init, tryRs, toCError, alloc, cxxAfterCall, put, upd, whatMem, cstr, (strlen_cut m).1,
    (strlen_cut m).2, Except.map]

/-- **C11**, where the claim fails: C++ code that throws a moved-from `rust::Error` into Rust makes the
bridge take the length of a null C string. -/
theorem moved_from_error_thrown (m : List Nat) (r : Bool) :
    runOps step init [.callRust 0 false (.err m), .moveCtor 1 0, .callCxx 2 r (.throwErr 0)] = .error .ub := by
  simp [runOps, step, init, tryRs, toCError, alloc, cxxAfterCall, put, upd, tryCatch, whatMem, fail]

theorem takeWhile_encode : ∀ (cs : List Nat), (∀ c ∈ cs, Utf8.Spec.IsScalar c) →
    cut (cs.flatMap Utf8.Spec.encode8) = (cs.takeWhile (· ≠ 0)).flatMap Utf8.Spec.encode8
  | [], _ => rfl
  | c :: cs, h => by
    have hc := h c (by simp)
    by_cases h0 : c = 0
    · subst h0; rfl
    · have hnz : ∀ b ∈ Utf8.Spec.encode8 c, b ≠ 0 := by
        intro b hb
        unfold Utf8.Spec.encode8 at hb
        unfold Utf8.Spec.IsScalar at hc
        split at hb
        · simp at hb; omega
        · split at hb
          · simp at hb; omega
          · split at hb
            · simp at hb; omega
            · simp at hb; omega
      have ih := takeWhile_encode cs (fun d hd => h d (by simp [hd]))
      rw [List.flatMap_cons, List.takeWhile_cons_of_pos (by simpa using h0), List.flatMap_cons, ← ih]
      have : ∀ (xs ys : List Nat), (∀ b ∈ xs, b ≠ 0) → cut (xs ++ ys) = xs ++ cut ys := by
        intro xs ys hx
        unfold cut
        rw [List.takeWhile_append_of_pos (by intro b hb; simpa using hx b hb)]
      exact this _ _ hnz

/-- **C11**, end to end: if a Rust function fails with the text `m`, C++ lets the exception through and
Rust calls that C++ code, then the Rust caller's `Err` holds exactly `m` up to its first NUL. -/
theorem error_round_trip (m : List Nat) (hm : Utf8.Spec.WellFormed8 m) (r r' : Bool) :
    (runOps step init [.callRust 0 r (.err m), .callCxx 1 r' (.throwErr 0), .destroy 0, .excWhat 1]).map (·.2) =
      .ok [.threw, .threw, .done, .text (cut m)] := by
  have hl : Utf8.fromUtf8Lossy (cut m) = cut m := by
    obtain ⟨cs, h1, h2⟩ := hm
    have hw : Utf8.Spec.WellFormed8 (cut m) := by
      refine ⟨cs.takeWhile (· ≠ 0), ?_, by rw [h2]; exact takeWhile_encode cs h1⟩
      intro c hc; exact h1 c (List.takeWhile_subset _ hc)
    obtain ⟨ps, hp, he⟩ := Utf8.lossy_pieces (cut m)
    obtain ⟨ds, hd, h⟩ := hw
    rw [he, Utf8.pieces_unique hp (h ▸ Utf8.pieces_wf hd), Utf8.lossy_id, h]
  by_cases h0 : cut m = []
  · have e : strlen (m ++ [0]) = some 0 := by rw [(strlen_cut m).1, h0]; rfl
    rw [h0] at hl
    simp [runOps, step, init, tryRs, toCError, alloc, cxxAfterCall, put, upd, tryCatch, whatMem, fail, e, exception, hl,
      rustAfterCall, deleteArray, del, Own.free, boxStr, h0, Except.map]
  · have hlen : (cut m).length ≠ 0 := fun hc => h0 (List.length_eq_zero_iff.1 hc)
    simp [runOps, step, init, tryRs, toCError, alloc, cxxAfterCall, put, upd, tryCatch, whatMem, fail, (strlen_cut m).1,
      (strlen_cut m).2, exception, hl, hlen, rustAfterCall, deleteArray, del, Own.free, boxStr, Except.map]

-- non-vacuity
example : (runOps step init [.callRust 0 true (.err [104, 105]), .copyCtor 1 0, .moveAssign 0 0, .copyAssign 0 1, .what 0,
    .callCxx 2 true (.throwErr 0), .destroy 0, .propagate 0 2, .destroy 1, .what 0, .callCxx 3 false (.throwStd []),
    .excWhat 3, .callCxx 4 true (.ret (some 5)), .excDrop 3, .destroy 0]).map (·.2) =
  .ok [.threw, .done, .done, .done, .what (some [104, 105]), .threw, .done, .threw, .done, .what (some [104, 105]), .threw,
    .text [], .returned (some 5), .done, .done] := by decide +kernel

example : SafeRun (fun _ => none) [.callRust 0 true (.err [104]), .moveCtor 1 0, .callCxx 2 false (.throwErr 1)] := by
  refine .cons trivial fun b x h1 => .cons trivial fun c y h2 => .cons ?_ fun _ _ _ => .nil
  cases h1
  cases h2
  rename_i hs
  simp [store] at hs
  subst hs
  simp [Safe, store]

end Verif.Exception
