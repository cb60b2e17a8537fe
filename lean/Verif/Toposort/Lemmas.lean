import Verif.Toposort.Model
namespace Verif.Toposort
open Verif.Syntax

section graph
variable (succ : Nat → List (Option Nat)) (n : Nat)

/-- Edge of the containment graph. -/
def Edge (i j : Nat) : Prop := some j ∈ succ i

def Cyclic : Prop := ∃ i, Relation.TransGen (Edge succ) i i

/-- Invariant of the search state. -/
structure Inv (st : St) : Prop where
  vis : ∀ i, st.marks i = some .visited ↔ i ∈ st.sorted
  nodup : st.sorted.Nodup
  range : ∀ i ∈ st.sorted, i < n
  order : st.errors = [] → ∀ pre i post, st.sorted = pre ++ i :: post → ∀ j, Edge succ i j → j ∈ pre
  err : st.errors ≠ [] → Cyclic succ

/-- What a step may change. -/
structure Grows (st st' : St) : Prop where
  visiting : ∀ i, st'.marks i = some .visiting ↔ st.marks i = some .visiting
  sorted : ∃ new, st'.sorted = st.sorted ++ new
  errors : ∃ new, st'.errors = st.errors ++ new

theorem Grows.refl (st : St) : Grows st st := ⟨fun _ => Iff.rfl, ⟨[], by simp⟩, ⟨[], by simp⟩⟩
theorem Grows.trans {a b c : St} (h1 : Grows a b) (h2 : Grows b c) : Grows a c := by
  obtain ⟨n1, e1⟩ := h1.sorted; obtain ⟨n2, e2⟩ := h2.sorted
  obtain ⟨m1, f1⟩ := h1.errors; obtain ⟨m2, f2⟩ := h2.errors
  exact ⟨fun i => (h2.visiting i).trans (h1.visiting i), ⟨n1 ++ n2, by simp [e2, e1]⟩,
    ⟨m1 ++ m2, by simp [f2, f1]⟩⟩

theorem Grows.mem_sorted {a b : St} (h : Grows a b) {i : Nat} (hi : i ∈ a.sorted) : i ∈ b.sorted := by
  obtain ⟨n1, e1⟩ := h.sorted; rw [e1]; simp [hi]

theorem Grows.errors_nil {a b : St} (h : Grows a b) (hb : b.errors = []) : a.errors = [] := by
  obtain ⟨n1, e1⟩ := h.errors; rw [hb] at e1
  exact (List.append_eq_nil_iff.1 e1.symm).1

/-- All nodes being visited lead to `i`. -/
def Stack (st : St) (i : Nat) : Prop :=
  ∀ v, st.marks v = some .visiting → Relation.TransGen (Edge succ) v i

/-- Contract of `visit`. -/
def VisitOk (v : Nat → St → Option (St × Bool)) : Prop :=
  ∀ i st st' ok, i < n → Inv succ n st → Stack succ st i → v i st = some (st', ok) →
    Inv succ n st' ∧ Grows st st' ∧
    (st.marks i ≠ some .visiting → i ∈ st'.sorted) ∧
    (ok = false → Cyclic succ ∧ (st.marks i = some .visiting ∨ st'.errors ≠ [])) ∧
    (ok = true → i ∈ st'.sorted)

theorem visitFields_ok {v : Nat → St → Option (St × Bool)} (hv : VisitOk succ n v) (i : Nat) :
    ∀ (fs : List (Option Nat)) (st st' : St) (ok ok' : Bool),
      (∀ j, some j ∈ fs → Edge succ i j ∧ j < n) → Inv succ n st →
      (∀ w, st.marks w = some .visiting → w = i ∨ Relation.TransGen (Edge succ) w i) →
      (ok = false → st.errors ≠ []) →
      visitFields v i fs st ok = some (st', ok') →
      Inv succ n st' ∧ Grows st st' ∧ (ok' = false → st'.errors ≠ []) ∧
      (st'.errors = [] → ∀ j, some j ∈ fs → j ∈ st'.sorted) := by
  intro fs
  induction fs with
  | nil =>
    intro st st' ok ok' _ hinv _ hok h
    simp only [visitFields, Option.some.injEq, Prod.mk.injEq] at h
    obtain ⟨rfl, rfl⟩ := h
    exact ⟨hinv, Grows.refl _, hok, by simp⟩
  | cons f fs ih =>
    intro st st' ok ok' hfs hinv hstack hok h
    cases f with
    | none =>
      simp only [visitFields] at h
      obtain ⟨a, b, c, d⟩ := ih st st' ok ok' (fun j hj => hfs j (by simp [hj])) hinv hstack hok h
      exact ⟨a, b, c, fun he j hj => d he j (by simpa using hj)⟩
    | some j =>
      simp only [visitFields] at h
      obtain ⟨hij, hjn⟩ := hfs j (by simp)
      have hst : Stack succ st j := by
        intro w hw
        rcases hstack w hw with rfl | ht
        · exact Relation.TransGen.single hij
        · exact Relation.TransGen.tail ht hij
      cases hvj : v j st with
      | none => simp [hvj] at h
      | some p =>
        obtain ⟨s1, b⟩ := p
        obtain ⟨hinv1, hg1, hs1, hf1, ht1⟩ := hv j st s1 b hjn hinv hst hvj
        rw [hvj] at h
        cases b with
        | true =>
          simp only at h
          obtain ⟨a, b, c, d⟩ := ih s1 st' ok ok' (fun j hj => hfs j (by simp [hj])) hinv1
            (fun w hw => hstack w ((hg1.visiting w).1 hw))
            (fun ho he => hok ho (hg1.errors_nil he)) h
          refine ⟨a, hg1.trans b, c, ?_⟩
          intro he k hk
          rcases List.mem_cons.1 hk with hk | hk
          · cases hk; exact b.mem_sorted (ht1 rfl)
          · exact d he k hk
        | false =>
          simp only at h
          have hcyc := (hf1 rfl).1
          have hinv2 : Inv succ n { s1 with errors := s1.errors ++ [i] } :=
            ⟨hinv1.vis, hinv1.nodup, hinv1.range, by simp, fun _ => hcyc⟩
          have hg2 : Grows st { s1 with errors := s1.errors ++ [i] } :=
            hg1.trans ⟨fun _ => Iff.rfl, ⟨[], by simp⟩, ⟨[i], rfl⟩⟩
          obtain ⟨a, b, c, d⟩ := ih { s1 with errors := s1.errors ++ [i] } st' false ok'
            (fun j hj => hfs j (by simp [hj])) hinv2
            (fun w hw => hstack w ((hg1.visiting w).1 hw)) (by simp) h
          refine ⟨a, hg2.trans b, c, ?_⟩
          intro he
          have := b.errors_nil he
          simp at this

theorem visit_ok (hsucc : ∀ i j, Edge succ i j → j < n) (depth : Nat) :
    VisitOk succ n (visit succ depth) := by
  induction depth with
  | zero => intro i st st' ok _ _ _ h; simp [visit] at h
  | succ depth ih =>
    intro i st st' ok hi hinv hstack h
    simp only [visit] at h
    cases hm : st.marks i with
    | some m =>
      cases m with
      | visiting =>
        simp only [hm, Option.some.injEq, Prod.mk.injEq] at h
        obtain ⟨rfl, rfl⟩ := h
        exact ⟨hinv, Grows.refl _, by simp, fun _ => ⟨⟨i, hstack i hm⟩, Or.inl rfl⟩, by simp⟩
      | visited =>
        simp only [hm, Option.some.injEq, Prod.mk.injEq] at h
        obtain ⟨rfl, rfl⟩ := h
        have := (hinv.vis i).1 hm
        exact ⟨hinv, Grows.refl _, fun _ => this, by simp, fun _ => this⟩
    | none =>
      simp only [hm] at h
      cases hf : visitFields (visit succ depth) i (succ i) (st.mark i .visiting) true with
      | none => simp [hf] at h
      | some p =>
        obtain ⟨s1, b⟩ := p
        simp only [hf, Option.some.injEq, Prod.mk.injEq] at h
        obtain ⟨rfl, rfl⟩ := h
        have hnot : i ∉ st.sorted := by
          intro hc; rw [← hinv.vis] at hc; rw [hm] at hc; cases hc
        have hinv0 : Inv succ n (st.mark i .visiting) := by
          refine ⟨?_, hinv.nodup, hinv.range, hinv.order, hinv.err⟩
          intro j
          simp only [St.mark]
          by_cases hji : j = i
          · subst hji; simp [hnot]
          · simp [hji, hinv.vis]
        obtain ⟨hi1, hg1, hf1, ho1⟩ := visitFields_ok succ n ih i (succ i) (st.mark i .visiting) s1
          true b (fun j hj => ⟨hj, hsucc i j hj⟩) hinv0
          (by
            intro w hw
            simp only [St.mark] at hw
            by_cases hwi : w = i
            · exact Or.inl hwi
            · simp [hwi] at hw; exact Or.inr (hstack w hw))
          (by simp) hf
        have hvi : s1.marks i = some .visiting := (hg1.visiting i).2 (by simp [St.mark])
        have hnot1 : i ∉ s1.sorted := by
          intro hc; rw [← hi1.vis] at hc; rw [hvi] at hc; cases hc
        have hmem : ∃ new, s1.sorted = st.sorted ++ new := hg1.sorted
        obtain ⟨new, hnew⟩ := hmem
        obtain ⟨enew, henew⟩ := hg1.errors
        refine ⟨⟨?_, ?_, ?_, ?_, ?_⟩, ⟨?_, ?_, ?_⟩, ?_, ?_, ?_⟩
        · intro j
          simp only [St.mark, List.mem_append, List.mem_singleton]
          by_cases hji : j = i
          · simp [hji]
          · simp [hji, hi1.vis]
        · simp only [St.mark]
          rw [List.nodup_append]
          refine ⟨hi1.nodup, by simp, ?_⟩
          intro a ha b hb
          simp only [List.mem_singleton] at hb
          subst hb
          intro hab; subst hab; exact hnot1 ha
        · intro j hj
          simp only [St.mark, List.mem_append, List.mem_singleton] at hj
          rcases hj with hj | rfl
          · exact hi1.range j hj
          · exact hi
        · intro he pre k post hk j hj
          simp only [St.mark] at hk he
          rcases List.append_eq_append_iff.1 hk with ⟨as, h1, h2⟩ | ⟨bs, h1, h2⟩
          · -- pre = s1.sorted ++ as, [i] = as ++ k :: post
            cases as with
            | nil =>
              simp only [List.nil_append, List.cons.injEq] at h2
              simp only [List.append_nil] at h1
              obtain ⟨rfl, _⟩ := h2
              rw [h1]
              exact ho1 he j hj
            | cons a as => simp at h2
          · -- s1.sorted = pre ++ bs, k :: post = bs ++ [i]
            cases bs with
            | nil =>
              simp only [List.nil_append, List.cons.injEq] at h2
              simp only [List.append_nil] at h1
              obtain ⟨rfl, _⟩ := h2
              rw [← h1]
              exact ho1 he j hj
            | cons b bs =>
              simp only [List.cons_append, List.cons.injEq] at h2
              obtain ⟨rfl, _⟩ := h2
              exact hi1.order he pre k bs h1 j hj
        · intro he; exact hi1.err he
        · intro j
          simp only [St.mark]
          by_cases hji : j = i
          · subst hji; simp [hm]
          · simp only [hji, if_false]
            rw [hg1.visiting]
            simp [St.mark, hji]
        · exact ⟨new ++ [i], by simp only [St.mark, hnew]; simp⟩
        · exact ⟨enew, by simp only [St.mark, henew]⟩
        · intro _; simp [St.mark]
        · intro hb
          have hne := hf1 hb
          exact ⟨hi1.err hne, Or.inr (by simpa [St.mark] using hne)⟩
        · intro _; simp [St.mark]

theorem visitAll_ok (hsucc : ∀ i j, Edge succ i j → j < n) (depth : Nat) :
    ∀ (is : List Nat) (st st' : St), (∀ i ∈ is, i < n) → Inv succ n st →
      (∀ i, st.marks i ≠ some .visiting) → visitAll succ depth is st = some st' →
      Inv succ n st' ∧ Grows st st' ∧ ∀ i ∈ is, i ∈ st'.sorted := by
  intro is
  induction is with
  | nil =>
    intro st st' _ hinv _ h
    simp only [visitAll, Option.some.injEq] at h; subst h
    exact ⟨hinv, Grows.refl _, by simp⟩
  | cons i is ih =>
    intro st st' hr hinv hnv h
    simp only [visitAll] at h
    cases hv : visit succ depth i st with
    | none => simp [hv] at h
    | some p =>
      obtain ⟨s1, b⟩ := p
      simp only [hv] at h
      obtain ⟨h1, h2, h3, _, _⟩ := visit_ok succ n hsucc depth i st s1 b (hr i (by simp)) hinv
        (fun w hw => absurd hw (hnv w)) hv
      obtain ⟨a, b, c⟩ := ih s1 st' (fun j hj => hr j (by simp [hj])) h1
        (fun j hj => hnv j ((h2.visiting j).1 hj)) h
      refine ⟨a, h2.trans b, ?_⟩
      intro j hj
      rcases List.mem_cons.1 hj with rfl | hj
      · exact b.mem_sorted (h3 (hnv _))
      · exact c j hj

/-! #### Termination -/

/-- Number of nodes below `n` not yet marked. -/
def unmarked (st : St) : Nat := ((List.range n).filter (fun i => (st.marks i).isNone)).length

/-- Marks are never removed. -/
def Mono (st st' : St) : Prop := ∀ i, (st.marks i).isSome → (st'.marks i).isSome

theorem filter_length_le {α : Type} (p q : α → Bool) (l : List α) (h : ∀ a ∈ l, p a → q a) :
    (l.filter p).length ≤ (l.filter q).length := by
  induction l with
  | nil => simp
  | cons a l ih =>
    have := ih (fun b hb => h b (by simp [hb]))
    by_cases hp : p a
    · have hq := h a (by simp) hp
      simp [hp, hq]; exact this
    · by_cases hq : q a <;> simp [hp, hq] <;> omega

theorem filter_length_lt {α : Type} (p q : α → Bool) (l : List α) (h : ∀ a ∈ l, p a → q a)
    (x : α) (hx : x ∈ l) (hq : q x) (hp : ¬ p x) :
    (l.filter p).length < (l.filter q).length := by
  induction l with
  | nil => cases hx
  | cons a l ih =>
    have hle := filter_length_le p q l (fun b hb => h b (by simp [hb]))
    rcases List.mem_cons.1 hx with rfl | hx
    · simp [hp, hq]; omega
    · have := ih (fun b hb => h b (by simp [hb])) hx
      by_cases hpa : p a
      · have hqa := h a (by simp) hpa
        simp [hpa, hqa]; exact this
      · by_cases hqa : q a <;> simp [hpa, hqa] <;> omega

theorem unmarked_mono {st st' : St} (h : Mono st st') : unmarked n st' ≤ unmarked n st := by
  apply filter_length_le
  intro i _ hi
  cases hm : st.marks i with
  | none => rfl
  | some m =>
    have := h i (by simp [hm])
    rw [Option.isSome_iff_exists] at this
    obtain ⟨x, hx⟩ := this
    simp [hx] at hi

theorem unmarked_mark {st : St} {i : Nat} {m : Mark} (hi : i < n) (hm : st.marks i = none) :
    unmarked n (st.mark i m) < unmarked n st := by
  apply filter_length_lt _ _ _ _ i (by simp [hi]) (by simp [hm]) (by simp [St.mark])
  intro j _ hj
  simp only [St.mark] at hj
  by_cases hji : j = i
  · simp [hji] at hj
  · simpa [hji] using hj

/-- Termination contract. -/
def Total (v : Nat → St → Option (St × Bool)) (k : Nat) : Prop :=
  ∀ i st, i < n → unmarked n st < k → ∃ r, v i st = some r ∧ Mono st r.1

theorem visitFields_total {v : Nat → St → Option (St × Bool)} {k : Nat} (hv : Total n v k) (i : Nat) :
    ∀ (fs : List (Option Nat)) (st : St) (ok : Bool), (∀ j, some j ∈ fs → j < n) →
      unmarked n st < k → ∃ r, visitFields v i fs st ok = some r ∧ Mono st r.1 := by
  intro fs
  induction fs with
  | nil => intro st ok _ _; exact ⟨(st, ok), rfl, fun _ h => h⟩
  | cons f fs ih =>
    intro st ok hfs hu
    cases f with
    | none => exact ih st ok (fun j hj => hfs j (by simp [hj])) hu
    | some j =>
      obtain ⟨⟨s1, b⟩, h1, h2⟩ := hv j st (hfs j (by simp)) hu
      have hu1 : unmarked n s1 < k := Nat.lt_of_le_of_lt (unmarked_mono n h2) hu
      simp only [visitFields, h1]
      cases b with
      | true =>
        obtain ⟨r, hr, hm⟩ := ih s1 ok (fun j hj => hfs j (by simp [hj])) hu1
        exact ⟨r, hr, fun x hx => hm x (h2 x hx)⟩
      | false =>
        obtain ⟨r, hr, hm⟩ := ih { s1 with errors := s1.errors ++ [i] } false
          (fun j hj => hfs j (by simp [hj])) hu1
        exact ⟨r, hr, fun x hx => hm x (h2 x hx)⟩

theorem visit_total (hsucc : ∀ i j, Edge succ i j → j < n) (depth : Nat) :
    Total n (visit succ depth) depth := by
  induction depth with
  | zero => intro i st _ h; omega
  | succ depth ih =>
    intro i st hi hu
    simp only [visit]
    cases hm : st.marks i with
    | some m =>
      cases m
      · exact ⟨(st, false), rfl, fun _ h => h⟩
      · exact ⟨(st, true), rfl, fun _ h => h⟩
    | none =>
      have hlt := unmarked_mark n (m := .visiting) hi hm
      obtain ⟨⟨s1, b⟩, h1, h2⟩ := visitFields_total n ih i (succ i) (st.mark i .visiting) true
        (fun j hj => hsucc i j hj) (by omega)
      simp only [h1]
      refine ⟨_, rfl, ?_⟩
      intro x hx
      simp only [St.mark]
      by_cases hxi : x = i
      · simp [hxi]
      · simp only [hxi, if_false]
        apply h2
        simp [St.mark, hxi, hx]

theorem visitAll_total (hsucc : ∀ i j, Edge succ i j → j < n) (depth : Nat) :
    ∀ (is : List Nat) (st : St), (∀ i ∈ is, i < n) → unmarked n st < depth →
      ∃ st', visitAll succ depth is st = some st' := by
  intro is
  induction is with
  | nil => intro st _ _; exact ⟨st, rfl⟩
  | cons i is ih =>
    intro st hr hu
    obtain ⟨⟨s1, b⟩, h1, h2⟩ := visit_total succ n hsucc depth i st (hr i (by simp)) hu
    simp only [visitAll, h1]
    exact ih s1 (fun j hj => hr j (by simp [hj])) (Nat.lt_of_le_of_lt (unmarked_mono n h2) hu)

end graph

/-! #### Lookup of struct names -/

theorem structsGet_go (name : Ident) : ∀ (ss : List Struct) (k : Nat) (acc : Option Nat) (j : Nat),
    structsGet.go name ss k acc = some j →
      acc = some j ∨ ∃ s, k ≤ j ∧ ss[j - k]? = some s ∧ s.name.rust = name := by
  intro ss
  induction ss with
  | nil => intro k acc j h; exact Or.inl h
  | cons s ss ih =>
    intro k acc j h
    simp only [structsGet.go] at h
    rcases ih _ _ _ h with h | ⟨t, h1, h2, h3⟩
    · by_cases hs : s.name.rust = name
      · simp only [hs, if_true, Option.some.injEq] at h
        subst h
        exact Or.inr ⟨s, Nat.le_refl _, by simp, hs⟩
      · simp only [hs, if_false] at h; exact Or.inl h
    · refine Or.inr ⟨t, by omega, ?_, h3⟩
      have : j - k = (j - (k + 1)) + 1 := by omega
      rw [this]; simpa using h2

theorem structsGet_go_some (name : Ident) : ∀ (ss : List Struct) (k : Nat) (acc : Option Nat),
    (acc.isSome ∨ ∃ s ∈ ss, s.name.rust = name) → (structsGet.go name ss k acc).isSome := by
  intro ss
  induction ss with
  | nil => intro k acc h; simpa [structsGet.go] using h
  | cons s ss ih =>
    intro k acc h
    simp only [structsGet.go]
    apply ih
    by_cases hs : s.name.rust = name
    · simp [hs]
    · simp only [hs, if_false]
      rcases h with h | ⟨t, ht, htn⟩
      · exact Or.inl h
      · rcases List.mem_cons.1 ht with rfl | ht
        · exact absurd htn hs
        · exact Or.inr ⟨t, ht, htn⟩

theorem structsGet_some {ss : List Struct} {name : Ident} {j : Nat} (h : structsGet ss name = some j) :
    ∃ s, ss[j]? = some s ∧ s.name.rust = name := by
  rcases structsGet_go name ss 0 none j h with h | ⟨s, _, h2, h3⟩
  · cases h
  · exact ⟨s, by simpa using h2, h3⟩

theorem structsGet_lt {ss : List Struct} {name : Ident} {j : Nat} (h : structsGet ss name = some j) :
    j < ss.length := by
  obtain ⟨s, hs, _⟩ := structsGet_some h
  exact (List.getElem?_eq_some_iff.1 hs).1

theorem names_inj {ss : List Struct} (hnd : (ss.map (·.name.rust)).Nodup) {i j : Nat} {s t : Struct}
    (hi : ss[i]? = some s) (hj : ss[j]? = some t) (h : s.name.rust = t.name.rust) : i = j := by
  have hi' : (ss.map (·.name.rust))[i]? = some s.name.rust := by rw [List.getElem?_map, hi]; rfl
  have hj' : (ss.map (·.name.rust))[j]? = some s.name.rust := by rw [List.getElem?_map, hj, h]; rfl
  have hlt := (List.getElem?_eq_some_iff.1 hi').1
  exact (List.getElem?_inj hlt hnd).1 (hi'.trans hj'.symm)

end Verif.Toposort
