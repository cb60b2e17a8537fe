import Verif.CxxVector.Spec
/-!
# C15
-/
namespace Verif.CxxVector
open Verif Spec

structure Rel (s : State) (a : World) : Prop where
  vecs : s.vecs = fun v => (a.vecs v).map (List.map some)
  vals : s.vals = fun o => (a.vals o).map some
  next : s.next = a.next
  log : s.log = a.released
  leaks : s.leaks = 0

theorem rel_init : Rel init start := ⟨rfl, rfl, rfl, rfl, rfl⟩

theorem upd_vec (a : World) (v : Nat) (x : Option (List Nat)) :
    upd (fun v => (a.vecs v).map (List.map some)) v (x.map (List.map (some : Nat → Obj))) =
      fun p => ((setVec a v x).vecs p).map (List.map some) := by
  funext p; simp only [upd_apply, setVec]; split <;> simp_all

theorem upd_val (a : World) (o : Nat) (x : Option Nat) :
    upd (fun v => (a.vals v).map (some : Nat → Obj)) o (x.map some) = fun p => ((setVal a o x).vals p).map some := by
  funext p; simp only [upd_apply, setVal]; split <;> simp_all

theorem destroyAll_eq (xs : List Nat) : ∀ s : State, destroyAll s (xs.map some) = { s with log := xs.reverse ++ s.log } := by
  induction xs with
  | nil => intro s; rfl
  | cons x xs ih =>
    intro s
    show destroyAll (destroy s (some x)) (xs.map some) = _
    rw [ih]; simp [destroy]

theorem get_in {xs : List Nat} {pos : Nat} (h : pos < xs.length) : get (xs.map some) pos = .ok (some (some xs[pos])) := by
  simp [get, len, shimSize, shimGetUnchecked, h]

theorem get_out {xs : List Nat} {pos : Nat} (h : xs.length ≤ pos) : get (xs.map some) pos = .ok none := by
  simp [get, len, shimSize, Nat.not_lt.2 h]

theorem asSlice_eq (xs : List Nat) : asSlice (xs.map some) = .ok (xs.map some) := by
  cases xs with
  | nil => rfl
  | cons x xs => simp [asSlice, len, shimSize, shimGetUnchecked, readSlice, List.take_of_length_le]

theorem list_end (xs : List Nat) : xs = [] ∨ ∃ ys y, xs = ys ++ [y] := by
  rcases List.eq_nil_or_concat xs with h | ⟨ys, y, h⟩
  · exact Or.inl h
  · exact Or.inr ⟨ys, y, by simpa using h⟩

theorem step_ok (s : State) (a : World) (op : Op) (h : Rel s a) : StepOk Rel step Step Legal s a op := by
  have hvec : ∀ v, s.vecs v = (a.vecs v).map (List.map some) := fun v => by rw [h.vecs]
  have hval : ∀ v, s.vals v = (a.vals v).map some := fun v => by rw [h.vals]
  cases op with
  | new v =>
    cases hv : a.vecs v with
    | some xs => exact Or.inl ⟨by simp [Legal, hv], by simp [step, hvec, hv]⟩
    | none =>
      refine Or.inr ⟨hv, { s with vecs := upd s.vecs v (some []) }, _, _, by simp [step, hvec, hv], .new hv, ⟨?_, h.vals, h.next, h.log, h.leaks⟩⟩
      show upd s.vecs v _ = _
      rw [h.vecs]; exact upd_vec a v (some [])
  | len v =>
    cases hv : a.vecs v with
    | none => exact Or.inl ⟨by simp [Legal, hv], by simp [step, hvec, hv]⟩
    | some xs => exact Or.inr ⟨⟨xs, hv⟩, s, a, _, by simp [step, hvec, hv, len, shimSize], .len hv, h⟩
  | isEmpty v =>
    cases hv : a.vecs v with
    | none => exact Or.inl ⟨by simp [Legal, hv], by simp [step, hvec, hv]⟩
    | some xs =>
      exact Or.inr ⟨⟨xs, hv⟩, s, a, .bool (isEmpty (xs.map some)), by simp [step, hvec, hv],
        .isEmpty hv (by simp [isEmpty, len, shimSize]), h⟩
  | get v pos =>
    cases hv : a.vecs v with
    | none => exact Or.inl ⟨by simp [Legal, hv], by simp [step, hvec, hv]⟩
    | some xs =>
      by_cases hp : pos < xs.length
      · exact Or.inr ⟨⟨xs, hv⟩, s, a, _, by simp [step, hvec, hv, get_in hp], .get hv hp, h⟩
      · exact Or.inr ⟨⟨xs, hv⟩, s, a, _, by simp [step, hvec, hv, get_out (Nat.not_lt.1 hp)], .getOut hv (Nat.not_lt.1 hp), h⟩
  | asSlice v =>
    cases hv : a.vecs v with
    | none => exact Or.inl ⟨by simp [Legal, hv], by simp [step, hvec, hv]⟩
    | some xs => exact Or.inr ⟨⟨xs, hv⟩, s, a, _, by simp [step, hvec, hv, asSlice_eq], .asSlice hv, h⟩
  | push v o =>
    cases hv : a.vecs v with
    | none => exact Or.inl ⟨by simp [Legal, hv], by simp [step, hvec, hv]⟩
    | some xs =>
      cases ho : a.vals o with
      | none => exact Or.inl ⟨by simp [Legal, ho], by simp [step, hvec, hv, hval, ho]⟩
      | some x =>
        refine Or.inr ⟨⟨⟨xs, hv⟩, x, ho⟩, { s with vecs := upd s.vecs v (some (xs.map some ++ [some x])), vals := upd s.vals o none }, _, _,
          by simp [step, hvec, hv, hval, ho, push, shimPushBack, moveFrom, destroySlot, destroy, forget], .push hv ho, ⟨?_, ?_, h.next, h.log, h.leaks⟩⟩
        · show upd s.vecs v _ = _
          rw [h.vecs]; have := upd_vec a v (some (xs ++ [x])); simpa [setVal] using this
        · show upd s.vals o _ = _
          rw [h.vals]; exact upd_val a o none
  | pop v o =>
    cases hv : a.vecs v with
    | none => exact Or.inl ⟨by simp [Legal, hv], by simp [step, hvec, hv]⟩
    | some xs =>
      cases ho : a.vals o with
      | some x => exact Or.inl ⟨by simp [Legal, ho], by simp [step, hvec, hv, hval, ho]⟩
      | none =>
        rcases list_end xs with rfl | ⟨ys, y, rfl⟩
        · refine Or.inr ⟨⟨⟨_, hv⟩, ho⟩, s, a, .elem none, ?_, .popEmpty hv ho, h⟩
          have e1 : upd s.vecs v (some []) = s.vecs := by
            funext p; simp only [upd_apply]; split
            · next e => subst e; simp [hvec, hv]
            · rfl
          have e2 : upd s.vals o none = s.vals := by
            funext p; simp only [upd_apply]; split
            · next e => subst e; simp [hval, ho]
            · rfl
          simp [step, hvec, hv, hval, ho, pop, isEmpty, len, shimSize, e1, e2]
        · refine Or.inr ⟨⟨⟨_, hv⟩, ho⟩, { s with vecs := upd s.vecs v (some (ys.map some)), vals := upd s.vals o (some (some y)) }, _, .elem (some (some y)),
            by simp [step, hvec, hv, hval, ho, pop, isEmpty, len, shimSize, shimPopBack, moveFrom, destroy], .pop hv ho,
            ⟨?_, ?_, h.next, h.log, h.leaks⟩⟩
          · show upd s.vecs v _ = _
            rw [h.vecs]; exact upd_vec a v (some ys)
          · show upd s.vals o _ = _
            rw [h.vals]; exact upd_val a o (some y)
  | swap v pos o =>
    cases hv : a.vecs v with
    | none => exact Or.inl ⟨by simp [Legal, hv], by simp [step, hvec, hv]⟩
    | some xs =>
      cases ho : a.vals o with
      | none => exact Or.inl ⟨by simp [Legal, ho], by simp [step, hvec, hv, hval, ho]⟩
      | some y =>
        by_cases hp : pos < xs.length
        · refine Or.inr ⟨⟨⟨xs, hv⟩, y, ho⟩, { s with vecs := upd s.vecs v (some ((xs.map some).set pos (some y))), vals := upd s.vals o (some (some xs[pos])) }, _, .elem (some (some xs[pos])),
            by simp [step, hvec, hv, hval, ho, get_in hp], .swap hv ho hp, ⟨?_, ?_, h.next, h.log, h.leaks⟩⟩
          · show upd s.vecs v _ = _
            rw [h.vecs]; have := upd_vec a v (some (xs.set pos y)); simpa [setVal, List.map_set] using this
          · show upd s.vals o _ = _
            rw [h.vals]; exact upd_val a o (some _)
        · exact Or.inr ⟨⟨⟨xs, hv⟩, y, ho⟩, s, a, _, by simp [step, hvec, hv, hval, ho, get_out (Nat.not_lt.1 hp)],
            .swapOut hv ho (Nat.not_lt.1 hp), h⟩
  | make o =>
    cases ho : a.vals o with
    | some x => exact Or.inl ⟨by simp [Legal, ho], by simp [step, hval, ho]⟩
    | none =>
      refine Or.inr ⟨ho, { s with vals := upd s.vals o (some (some s.next)), next := s.next + 1 }, _, _, by simp [step, hval, ho], .make ho, ⟨h.vecs, ?_, by simp [h.next], h.log, h.leaks⟩⟩
      show upd s.vals o _ = _
      rw [h.vals, h.next]; exact upd_val a o (some _)
  | dropVal o =>
    cases ho : a.vals o with
    | none => exact Or.inl ⟨by simp [Legal, ho], by simp [step, hval, ho]⟩
    | some x =>
      refine Or.inr ⟨⟨x, ho⟩, { s with log := x :: s.log, vals := upd s.vals o none }, _, _, by simp [step, hval, ho, destroy], .dropVal ho, ⟨h.vecs, ?_, h.next, by simp [release, setVal, h.log], h.leaks⟩⟩
      show upd s.vals o _ = _
      rw [h.vals]; exact upd_val a o none
  | dropVec v =>
    cases hv : a.vecs v with
    | none => exact Or.inl ⟨by simp [Legal, hv], by simp [step, hvec, hv]⟩
    | some xs =>
      refine Or.inr ⟨⟨xs, hv⟩, { s with log := xs.reverse ++ s.log, vecs := upd s.vecs v none }, _, _, by simp [step, hvec, hv, destroyAll_eq], .dropVec hv, ⟨?_, h.vals, h.next, by simp [release, setVec, h.log], h.leaks⟩⟩
      show upd s.vecs v _ = _
      rw [h.vecs]; exact upd_vec a v none
  | cxxPush v =>
    cases hv : a.vecs v with
    | none => exact Or.inl ⟨by simp [Legal, hv], by simp [step, hvec, hv]⟩
    | some xs =>
      refine Or.inr ⟨⟨xs, hv⟩, { s with vecs := upd s.vecs v (some (xs.map some ++ [some s.next])), next := s.next + 1 }, _, _, by simp [step, hvec, hv], .cxxPush hv, ⟨?_, h.vals, by simp [h.next], h.log, h.leaks⟩⟩
      show upd s.vecs v _ = _
      rw [h.vecs, h.next]; have := upd_vec a v (some (xs ++ [a.next])); simpa using this
  | cxxPop v =>
    cases hv : a.vecs v with
    | none => exact Or.inl ⟨by simp [Legal, hv], by simp [step, hvec, hv]⟩
    | some xs =>
      rcases list_end xs with rfl | ⟨ys, y, rfl⟩
      · exact Or.inl ⟨by simp [Legal, hv], by simp [step, hvec, hv]⟩
      · refine Or.inr ⟨⟨ys, y, hv⟩, { s with log := y :: s.log, vecs := upd s.vecs v (some (ys.map some)) }, _, _, by simp [step, hvec, hv, destroy], .cxxPop hv, ⟨?_, h.vals, h.next, by simp [release, setVec, h.log], h.leaks⟩⟩
        show upd s.vecs v _ = _
        rw [h.vecs]; exact upd_vec a v (some ys)
  | cxxClear v =>
    cases hv : a.vecs v with
    | none => exact Or.inl ⟨by simp [Legal, hv], by simp [step, hvec, hv]⟩
    | some xs =>
      refine Or.inr ⟨⟨xs, hv⟩, { s with log := xs.reverse ++ s.log, vecs := upd s.vecs v (some []) }, _, _, by simp [step, hvec, hv, destroyAll_eq], .cxxClear hv, ⟨?_, h.vals, h.next, by simp [release, setVec, h.log], h.leaks⟩⟩
      show upd s.vecs v _ = _
      rw [h.vecs]; exact upd_vec a v (some [])

/-! ### Every resource is in one place, or released once -/

structure Home (a : World) : Prop where
  bound : ∀ i pl, At a i pl → i < a.next
  rbound : ∀ i, i ∈ a.released → i < a.next
  uniq : ∀ i pl pl', At a i pl → At a i pl' → pl = pl'
  nodup : a.released.Nodup
  disj : ∀ i pl, At a i pl → i ∉ a.released
  total : ∀ i, i < a.next → i ∈ a.released ∨ ∃ pl, At a i pl

theorem home_start : Home start := by
  refine ⟨?_, by simp [start], ?_, by simp [start], ?_, by simp [start]⟩ <;>
  · intro i pl h; cases pl <;> simp [At, start] at h ⊢

theorem at_nodup {a : World} (h : Home a) {v : Nat} {xs : List Nat} (hv : a.vecs v = some xs) : xs.Nodup := by
  rw [List.Nodup, List.pairwise_iff_getElem]
  intro i j hi hj hij e
  have := h.uniq xs[i] (.vec v i) (.vec v j) ⟨xs, hv, by simp [hi]⟩ ⟨xs, hv, by simp [e, hj]⟩
  simp at this; omega

/-- A renaming of places, with the places that vanish, keeps the invariant. -/
theorem home_move {a b : World} (h : Home a) (f : Place → Place)
    (out : List Nat) (hout : out.Nodup) (hn : b.next = a.next) (hr : b.released = out ++ a.released)
    (h1 : ∀ i pl, At b i pl → ∃ q, pl = f q ∧ At a i q ∧ i ∉ out)
    (h2 : ∀ i q, At a i q → i ∉ out → At b i (f q))
    (h3 : ∀ i, i ∈ out → ∃ q, At a i q) : Home b := by
  refine ⟨?_, ?_, ?_, ?_, ?_, ?_⟩
  · intro i pl hi; obtain ⟨q, _, k, _⟩ := h1 i pl hi; rw [hn]; exact h.bound i q k
  · intro i hi
    rw [hr, List.mem_append] at hi
    rw [hn]
    rcases hi with hi | hi
    · obtain ⟨q, k⟩ := h3 i hi; exact h.bound i q k
    · exact h.rbound i hi
  · intro i pl pl' hi hi'
    obtain ⟨q, rfl, k, _⟩ := h1 i pl hi
    obtain ⟨q', rfl, k', _⟩ := h1 i pl' hi'
    rw [h.uniq i q q' k k']
  · rw [hr, List.nodup_append]
    refine ⟨hout, h.nodup, ?_⟩
    intro i hi j hj e
    subst e
    obtain ⟨q, k⟩ := h3 i hi
    exact h.disj i q k hj
  · intro i pl hi
    obtain ⟨q, _, k, k'⟩ := h1 i pl hi
    rw [hr, List.mem_append]
    rintro (e | e)
    · exact k' e
    · exact h.disj i q k e
  · intro i hi
    rw [hn] at hi
    rw [hr, List.mem_append]
    by_cases ho : i ∈ out
    · exact Or.inl (Or.inl ho)
    · rcases h.total i hi with k | ⟨q, k⟩
      · exact Or.inl (Or.inr k)
      · exact Or.inr ⟨f q, h2 i q k ho⟩

/-- One new resource in one new place. -/
theorem home_new {a b : World} (h : Home a) (pl : Place) (hn : b.next = a.next + 1) (hr : b.released = a.released)
    (h1 : ∀ i q, At b i q ↔ (q = pl ∧ i = a.next) ∨ At a i q) (h2 : ∀ i, ¬ At a i pl) : Home b := by
  refine ⟨?_, ?_, ?_, hr ▸ h.nodup, ?_, ?_⟩
  · intro i q hi
    rcases (h1 i q).1 hi with ⟨_, rfl⟩ | k
    · omega
    · have := h.bound i q k; omega
  · intro i hi; rw [hr] at hi; have := h.rbound i hi; omega
  · intro i q q' hi hi'
    rcases (h1 i q).1 hi with ⟨e3, e4⟩ | k <;> rcases (h1 i q').1 hi' with ⟨e1, e2⟩ | k'
    · exact e3.trans e1.symm
    · have := h.bound _ _ k'; omega
    · have := h.bound _ _ k; omega
    · exact h.uniq i q q' k k'
  · intro i q hi hm
    rw [hr] at hm
    rcases (h1 i q).1 hi with ⟨_, rfl⟩ | k
    · have := h.rbound _ hm; omega
    · exact h.disj i q k hm
  · intro i hi
    rw [hn] at hi
    rw [hr]
    by_cases e : i = a.next
    · exact Or.inr ⟨pl, (h1 i pl).2 (Or.inl ⟨rfl, e⟩)⟩
    · rcases h.total i (by omega) with k | ⟨q, k⟩
      · exact Or.inl k
      · exact Or.inr ⟨q, (h1 i q).2 (Or.inr k)⟩

theorem at_vec {a : World} {i v pos : Nat} : At a i (.vec v pos) ↔ ∃ xs, a.vecs v = some xs ∧ xs[pos]? = some i := Iff.rfl
theorem at_val {a : World} {i o : Nat} : At a i (.val o) ↔ a.vals o = some i := Iff.rfl

theorem uniq_vv {a : World} (h : Home a) {i v w p q : Nat} {xs ys : List Nat} (h1 : a.vecs v = some xs) (h2 : xs[p]? = some i)
    (h3 : a.vecs w = some ys) (h4 : ys[q]? = some i) : v = w ∧ p = q := by
  have := h.uniq i (.vec v p) (.vec w q) ⟨xs, h1, h2⟩ ⟨ys, h3, h4⟩
  simpa using this

theorem uniq_vo {a : World} (h : Home a) {i v p o : Nat} {xs : List Nat} (h1 : a.vecs v = some xs) (h2 : xs[p]? = some i)
    (h3 : a.vals o = some i) : False := by
  have := h.uniq i (.vec v p) (.val o) ⟨xs, h1, h2⟩ h3
  simp at this

theorem home_step {a b : World} {op : Op} {x : Obs} (h : Home a) (hs : Step a op b x) : Home b := by
  cases hs with
  | len _ | isEmpty _ _ | get _ _ | getOut _ _ | asSlice _ | popEmpty _ _ | swapOut _ _ _ => exact h
  | new hv =>
    refine home_move h id [] (by simp) rfl rfl ?_ ?_ (by simp)
    · intro i pl hi
      refine ⟨pl, rfl, ?_⟩
      cases pl <;> simp only [at_vec, at_val, setVec, setVal] at hi ⊢ <;> grind
    · intro i pl; cases pl <;> simp only [at_vec, at_val, setVec, setVal, id] <;> grind
  | @push v xs o x hv ho =>
    refine home_move h (fun pl => match pl with | .val p => if p = o then .vec v xs.length else .val p | pl => pl)
      [] (by simp) rfl rfl ?_ ?_ (by simp)
    · intro i pl; cases pl <;> simp only [at_vec, at_val, setVec, setVal] 
      · next v' pos =>
        intro hh
        by_cases e : v' = v ∧ pos = xs.length
        · refine ⟨.val o, ?_⟩
          grind [at_vec, at_val]
        · refine ⟨.vec v' pos, ?_⟩
          grind [at_vec, at_val]
      · next o' =>
        intro hh
        refine ⟨.val o', ?_⟩
        grind [at_vec, at_val]
    · intro i pl; cases pl <;> simp only [at_vec, at_val, setVec, setVal]
      · grind [at_vec, at_val]
      · split <;> simp only [at_vec, at_val, setVec, setVal] <;> grind [at_vec, at_val]
  | @pop v xs x o hv ho =>
    refine home_move h (fun pl => match pl with | .vec w p => if w = v ∧ p = xs.length then .val o else .vec w p | pl => pl)
      [] (by simp) rfl rfl ?_ ?_ (by simp)
    · intro i pl; cases pl <;> simp only [at_vec, at_val, setVec, setVal] 
      · next v' pos =>
        intro hh
        refine ⟨.vec v' pos, ?_⟩
        grind [at_vec, at_val]
      · next o' =>
        intro hh
        by_cases e : o' = o
        · refine ⟨.vec v xs.length, ?_⟩
          grind [at_vec, at_val]
        · refine ⟨.val o', ?_⟩
          grind [at_vec, at_val]
    · intro i pl; cases pl <;> simp only [at_vec, at_val, setVec, setVal]
      · split <;> simp only [at_vec, at_val, setVec, setVal] <;> grind [at_vec, at_val]
      · grind [at_vec, at_val]
  | @swap v xs o y pos hv ho hp =>
    refine home_move h (fun pl => match pl with | .vec w p => if w = v ∧ p = pos then .val o else .vec w p | .val p => if p = o then .vec v pos else .val p)
      [] (by simp) rfl rfl ?_ ?_ (by simp)
    · intro i pl; cases pl <;> simp only [at_vec, at_val, setVec, setVal] 
      · next v' pos' =>
        intro hh
        by_cases e : v' = v ∧ pos' = pos
        · refine ⟨.val o, ?_⟩
          grind [at_vec, at_val]
        · refine ⟨.vec v' pos', ?_⟩
          grind [at_vec, at_val]
      · next o' =>
        intro hh
        by_cases e : o' = o
        · refine ⟨.vec v pos, ?_⟩
          grind [at_vec, at_val]
        · refine ⟨.val o', ?_⟩
          grind [at_vec, at_val]
    · intro i pl; cases pl <;> simp only [at_vec, at_val, setVec, setVal]
      · split <;> simp only [at_vec, at_val, setVec, setVal] <;> grind [at_vec, at_val]
      · split <;> simp only [at_vec, at_val, setVec, setVal] <;> grind [at_vec, at_val]
  | @make o ho =>
    refine home_new h (.val o) rfl rfl ?_ ?_
    · intro i pl; cases pl <;> simp only [at_vec, at_val, setVec, setVal] <;> grind [at_vec, at_val]
    · intro i; simp [at_val, ho]
  | @cxxPush v xs hv =>
    refine home_new h (.vec v xs.length) rfl rfl ?_ ?_
    · intro i pl; cases pl <;> simp only [at_vec, at_val, setVec, setVal] <;> grind [at_vec, at_val]
    · intro i; simp [at_vec, hv]
  | @dropVal o x ho =>
    have hu := fun pl h' => h.uniq x pl (.val o) h' ho
    refine home_move h id [x] (by simp) rfl rfl ?_ ?_ ?_
    · intro i pl hi
      refine ⟨pl, rfl, ?_⟩
      cases pl
      · next v' p =>
        refine ⟨hi, ?_⟩
        have := hu (.vec v' p)
        simp only [at_vec, release, setVal] at hi this ⊢
        intro e
        simp only [List.mem_singleton] at e
        subst e
        simpa using this hi
      · next p =>
        have := hu (.val p)
        simp only [at_val, release, setVal] at hi this ⊢
        grind
    · intro i pl; cases pl <;> simp only [at_vec, at_val, setVec, setVal, release, id] <;> grind [at_vec, at_val]
    · intro i hi; simp at hi; subst hi; exact ⟨.val o, ho⟩
  | @dropVec v xs hv =>
    refine home_move h id xs.reverse (List.pairwise_reverse.2 ((at_nodup h hv).imp Ne.symm)) rfl rfl ?_ ?_ ?_
    · intro i pl hi
      have u1 := @uniq_vv a h i
      have u2 := @uniq_vo a h i
      have hm : i ∈ xs.reverse → ∃ p, xs[p]? = some i := fun k => List.mem_iff_getElem?.1 (List.mem_reverse.1 k)
      refine ⟨pl, rfl, ?_⟩
      cases pl <;> simp only [at_vec, at_val, setVec, setVal, release] at hi ⊢ <;> grind
    · intro i pl; cases pl <;> simp only [at_vec, at_val, setVec, setVal, release, id] <;> grind [at_vec, at_val]
    · intro i hi
      obtain ⟨k, hk, e⟩ := List.getElem_of_mem (List.mem_reverse.1 hi)
      exact ⟨.vec v k, xs, hv, by simp [hk, e]⟩
  | @cxxClear v xs hv =>
    refine home_move h id xs.reverse (List.pairwise_reverse.2 ((at_nodup h hv).imp Ne.symm)) rfl rfl ?_ ?_ ?_
    · intro i pl hi
      have u1 := @uniq_vv a h i
      have u2 := @uniq_vo a h i
      have hm : i ∈ xs.reverse → ∃ p, xs[p]? = some i := fun k => List.mem_iff_getElem?.1 (List.mem_reverse.1 k)
      refine ⟨pl, rfl, ?_⟩
      cases pl <;> simp only [at_vec, at_val, setVec, setVal, release] at hi ⊢ <;> grind
    · intro i pl; cases pl <;> simp only [at_vec, at_val, setVec, setVal, release, id] <;> grind [at_vec, at_val]
    · intro i hi
      obtain ⟨k, hk, e⟩ := List.getElem_of_mem (List.mem_reverse.1 hi)
      exact ⟨.vec v k, xs, hv, by simp [hk, e]⟩
  | @cxxPop v xs x hv =>
    refine home_move h id [x] (by simp) rfl rfl ?_ ?_ ?_
    · intro i pl hi
      have u1 := @uniq_vv a h i
      have u2 := @uniq_vo a h i
      have hm : (xs ++ [x])[xs.length]? = some x := by simp
      have hm' : ∀ k : Nat, xs[k]? = some i → (xs ++ [x])[k]? = some i ∧ k ≠ xs.length := by
        intro k hk
        obtain ⟨hlt, e⟩ := List.getElem?_eq_some_iff.1 hk
        exact ⟨by rw [List.getElem?_append_left hlt]; exact hk, by omega⟩
      refine ⟨pl, rfl, ?_⟩
      cases pl <;> simp only [at_vec, at_val, setVec, setVal, release] at hi ⊢ <;> grind
    · intro i pl; cases pl <;> simp only [at_vec, at_val, setVec, setVal, release, id] <;> grind [at_vec, at_val]
    · intro i hi; simp at hi; subst hi; exact ⟨.vec v xs.length, _, hv, by simp⟩

theorem home_runs {a b : World} {ops : List Op} {obs : List Obs} (h : Runs Step a ops b obs) : Home a → Home b := by
  induction h with
  | nil => exact id
  | cons hs _ ih => exact fun ha => ih (home_step ha hs)

/-- **C15**, histories.  Any history of vectors and values, on both sides of the bridge, either breaks a
rule of the languages, or runs without undefined behaviour and shows what lists of resources would show:
`get` gives element `i` exactly when `i` is in range, `push` appends, `pop` takes the last one.  No object
is forgotten without its destructor; every resource ever made was either released once and is nowhere, or
was not released and is in exactly one place. -/
theorem cxx_vector_histories (ops : List Op) :
    (∃ s a obs, runOps step init ops = .ok (s, obs) ∧ Runs Step start ops a obs ∧
      (∀ v, s.vecs v = (a.vecs v).map (List.map some)) ∧ (∀ o, s.vals o = (a.vals o).map some) ∧ s.leaks = 0 ∧
      ∀ i, i < a.next → (s.log.count i = 1 ∧ ∀ pl, ¬ At a i pl) ∨
        (s.log.count i = 0 ∧ ∃ pl, At a i pl ∧ ∀ pl', At a i pl' → pl' = pl)) ∨
    (runOps step init ops = .error .illegal ∧ BreaksRule Step Legal start ops) := by
  rcases runs_ok step_ok ops init _ rel_init with ⟨s, a, obs, h1, h2, h3⟩ | h
  · refine Or.inl ⟨s, a, obs, h1, h2, fun v => by rw [h3.vecs], fun o => by rw [h3.vals], h3.leaks, ?_⟩
    have hh := home_runs h2 home_start
    intro i hi
    rw [h3.log]
    by_cases hm : i ∈ a.released
    · exact Or.inl ⟨hh.nodup.count.trans (by simp [hm]), fun pl hp => hh.disj i pl hp hm⟩
    · obtain ⟨pl, hp⟩ := (hh.total i hi).resolve_left hm
      exact Or.inr ⟨List.count_eq_zero.2 hm, pl, hp, fun pl' hp' => hh.uniq i pl' pl hp' hp⟩
  · exact Or.inr h

example : (runOps step init [.new 0, .make 0, .push 0 0, .make 0, .push 0 0, .cxxPush 0, .len 0, .get 0 1, .get 0 3, .asSlice 0, .pop 0 1,
    .swap 0 0 1, .cxxPop 0, .dropVec 0, .dropVal 1]).map (fun r => (r.2, r.1.log)) =
    .ok ([.done, .done, .done, .done, .done, .done, .size 3, .elem (some (some 1)), .elem none, .elems [some 0, some 1, some 2],
      .elem (some (some 2)), .elem (some (some 0)), .done, .done, .done], [0, 2, 1]) := by decide +kernel

/-! ### Iterators -/

/-- The specification of `n` calls of `next` on a vector: elements in order, then `None` forever. -/
def yields (xs : List Obj) (n : Nat) : List (Option (Nat × Obj)) :=
  (List.range n).map fun i => xs[i]?.map fun x => (i, x)

theorem next_in {xs : List Obj} {i : Nat} (h : i < xs.length) : next xs ⟨i⟩ = .ok (⟨i + 1⟩, some (i, xs[i])) := by
  simp [next, get, len, shimSize, shimGetUnchecked, h]

theorem next_out {xs : List Obj} {i : Nat} (h : xs.length ≤ i) : next xs ⟨i⟩ = .ok (⟨i⟩, none) := by
  simp [next, get, len, shimSize, Nat.not_lt.2 h]

theorem nexts_out (f : Obj → Obj) {xs : List Obj} {i : Nat} (h : xs.length ≤ i) (n : Nat) :
    nexts f n xs ⟨i⟩ = .ok (xs, ⟨i⟩, List.replicate n none) := by
  induction n with
  | zero => rfl
  | succ n ih => simp [nexts, next_out h, ih, List.replicate_succ]

theorem nexts_eq (f : Obj → Obj) : ∀ (n : Nat) (pre post : List Obj),
    nexts f n (pre ++ post) ⟨pre.length⟩ = .ok (pre ++ (post.take n).map f ++ post.drop n, ⟨pre.length + min n post.length⟩,
      (List.range n).map fun i => post[i]?.map fun x => (pre.length + i, x)) := by
  intro n
  induction n with
  | zero => intro pre post; simp [nexts]
  | succ n ih =>
    intro pre post
    cases post with
    | nil => 
      rw [nexts_out f (by simp)]
      simp only [List.append_nil, List.take_nil, List.map_nil, List.drop_nil, List.length_nil, Nat.min_zero, Nat.add_zero,
        List.getElem?_nil, Option.map_none, Except.ok.injEq, Prod.mk.injEq, true_and]
      exact (List.eq_replicate_iff.2 ⟨by simp, by simp⟩).symm
    | cons x post =>
      have h1 : next (pre ++ x :: post) ⟨pre.length⟩ = .ok (⟨pre.length + 1⟩, some (pre.length, x)) := by
        rw [next_in (by simp)]; simp
      have h2 : (pre ++ x :: post).set pre.length (f x) = (pre ++ [f x]) ++ post := by simp
      have h3 := ih (pre ++ [f x]) post
      simp only [List.length_append, List.length_cons, List.length_nil, Nat.zero_add] at h3
      simp only [nexts, h1, h2, h3]
      simp only [List.append_assoc, List.take_succ_cons, List.map_cons, List.drop_succ_cons, List.range_succ_eq_map,
        List.map_map, List.length_cons, Except.ok.injEq, Prod.mk.injEq, List.singleton_append, List.cons_append, true_and, Iter.mk.injEq,
        List.getElem?_cons_zero, Option.map_some, Nat.add_zero, List.cons.injEq]
      refine ⟨by simp, by omega, ?_⟩
      apply List.map_congr_left
      intro i _
      simp [Nat.add_comm, Nat.add_left_comm]

/-- **C15**, iteration.  After any number `n` of calls of `next`, an iterator over any vector has yielded
element 0, element 1, … each once and in order, then `None` for ever; `len()` and `size_hint()` are
exactly the number of elements still to come and never underflow; the references handed out by `iter_mut`
are to those same positions, so writing `f` through each changes the first `n` elements and no others. -/
theorem cxx_vector_iteration (f : Obj → Obj) (xs : List Obj) (n : Nat) :
    ∃ it, nexts f n xs iter = .ok ((xs.take n).map f ++ xs.drop n, it, yields xs n) ∧
      remaining ((xs.take n).map f ++ xs.drop n) it = .ok (xs.drop n).length ∧
      sizeHint ((xs.take n).map f ++ xs.drop n) it = .ok ((xs.drop n).length, some (xs.drop n).length) := by
  have h := nexts_eq f n [] xs
  simp only [List.nil_append, List.length_nil, Nat.zero_add] at h
  refine ⟨_, h, ?_⟩
  have : remaining ((xs.take n).map f ++ xs.drop n) ⟨min n xs.length⟩ = .ok (xs.drop n).length := by
    simp only [remaining, len, shimSize, List.length_append, List.length_map, List.length_take, List.length_drop]
    rw [if_pos (by omega)]
    congr 1; omega
  exact ⟨this, by simp only [sizeHint, this]⟩

example : (nexts (fun _ => none) 2 [some 4, some 5, some 6] iter).map (fun r => (r.1, r.2.2)) =
    .ok ([none, none, some 6], [some (0, some 4), some (1, some 5)]) := by decide +kernel
example : (nexts id 5 [some 4, some 5, some 6] iter).map (fun r => r.2.2) =
    .ok [some (0, some 4), some (1, some 5), some (2, some 6), none, none] := by decide +kernel

end Verif.CxxVector
