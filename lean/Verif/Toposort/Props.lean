import Verif.Toposort.Lemmas
/-!
# Property C21: order of struct definitions
-/
namespace Verif.Toposort
open Verif.Syntax

/-! ### Specification -/

/-- `s` has a field whose type is the plain name of `t`. -/
def HasField (s t : Struct) : Prop := ∃ f ∈ s.fields, ∃ g, f.ty = .ident ⟨t.name.rust, g⟩

/-- A value of the type contains a value of the struct named `x` inside its own storage: it is that
struct, or an array of such values. -/
def Inside (x : Ident) : Ty → Prop
  | .ident t => t.rust = x
  | .array inner _ => Inside x inner
  | _ => False

/-- `s` contains `t` by value (C++ needs the definition of `t` before the definition of `s`). -/
def ContainsByValue (s t : Struct) : Prop := ∃ f ∈ s.fields, Inside t.name.rust f.ty

/-- `rel` restricted to the structs of the bridge has a cycle. -/
def HasCycle (ss : List Struct) (rel : Struct → Struct → Prop) : Prop :=
  ∃ s, Relation.TransGen (fun a b => a ∈ ss ∧ b ∈ ss ∧ rel a b) s s

/-- Every struct comes after those it depends on. -/
def InOrder (ss sorted : List Struct) (rel : Struct → Struct → Prop) : Prop :=
  ∀ pre s post, sorted = pre ++ s :: post → ∀ t ∈ ss, rel s t → t ∈ pre

/-! ### Lemmas -/

theorem perm_of_nodup {α : Type} : ∀ {l₁ l₂ : List α}, l₁.Nodup → l₂.Nodup →
    (∀ x, x ∈ l₁ ↔ x ∈ l₂) → l₁.Perm l₂ := by
  intro l₁
  induction l₁ with
  | nil =>
    intro l₂ _ _ h
    cases l₂ with
    | nil => exact List.Perm.refl _
    | cons a l => exact absurd ((h a).2 (by simp)) (by simp)
  | cons a l₁ ih =>
    intro l₂ h1 h2 h
    obtain ⟨s, t, rfl⟩ := List.append_of_mem ((h a).1 (by simp))
    refine List.Perm.trans (List.Perm.cons a (ih (List.nodup_cons.1 h1).2 ?_ ?_))
      List.perm_middle.symm
    · have := (List.perm_middle (a := a) (l₁ := s) (l₂ := t)).nodup_iff.1 h2
      exact (List.nodup_cons.1 this).2
    · intro x
      have ha : a ∉ s ++ t :=
        (List.nodup_cons.1 ((List.perm_middle (a := a) (l₁ := s) (l₂ := t)).nodup_iff.1 h2)).1
      have ha1 := (List.nodup_cons.1 h1).1
      have hx := h x
      simp only [List.mem_cons, List.mem_append] at hx ha ⊢
      constructor
      · intro hm
        rcases hx.1 (Or.inr hm) with h | rfl | h
        · exact Or.inl h
        · exact absurd hm ha1
        · exact Or.inr h
      · intro hm
        rcases hx.2 (hm.elim Or.inl (Or.inr ∘ Or.inr)) with rfl | h
        · exact absurd hm ha
        · exact h

theorem range_filterMap_get (ss : List Struct) :
    (List.range ss.length).filterMap (fun i => ss[i]?) = ss := by
  induction ss with
  | nil => rfl
  | cons s ss ih =>
    rw [List.length_cons, List.range_succ_eq_map, List.filterMap_cons]
    simp only [List.getElem?_cons_zero, List.filterMap_map]
    congr 1

theorem targets_edge {ss : List Struct} (hnd : (ss.map (·.name.rust)).Nodup) {i j : Nat}
    {s t : Struct} (hi : ss[i]? = some s) (hj : ss[j]? = some t) :
    Edge (targets ss) i j ↔ HasField s t := by
  unfold Edge targets HasField
  simp only [hi, List.mem_map]
  constructor
  · rintro ⟨f, hf, h⟩
    refine ⟨f, hf, ?_⟩
    cases hty : f.ty <;> simp only [hty, fieldTarget] at h <;> try (cases h; done)
    rename_i nt
    obtain ⟨t', ht', hn⟩ := structsGet_some h
    rw [hj] at ht'; cases ht'
    exact ⟨nt.generics, by rw [hn]⟩
  · rintro ⟨f, hf, g, hty⟩
    refine ⟨f, hf, ?_⟩
    simp only [hty, fieldTarget]
    have hs : (structsGet ss t.name.rust).isSome :=
      structsGet_go_some _ _ _ _ (Or.inr ⟨t, List.mem_of_getElem? hj, rfl⟩)
    obtain ⟨k, hk⟩ := Option.isSome_iff_exists.1 hs
    obtain ⟨t', ht', hn⟩ := structsGet_some hk
    rw [hk, names_inj hnd ht' hj hn]

theorem targets_lt {ss : List Struct} {i j : Nat} (h : Edge (targets ss) i j) : j < ss.length := by
  unfold Edge targets at h
  cases hi : ss[i]? with
  | none => simp [hi] at h
  | some s =>
    simp only [hi, List.mem_map] at h
    obtain ⟨f, _, hf⟩ := h
    cases hty : f.ty <;> simp only [hty, fieldTarget] at hf <;> try (cases hf; done)
    exact structsGet_lt hf

theorem targets_src {ss : List Struct} {i j : Nat} (h : Edge (targets ss) i j) : i < ss.length := by
  unfold Edge targets at h
  cases hi : ss[i]? with
  | none => simp [hi] at h
  | some s => exact (List.getElem?_eq_some_iff.1 hi).1

theorem init_inv (succ : Nat → List (Option Nat)) (n : Nat) :
    Inv succ n ⟨[], fun _ => none, []⟩ :=
  ⟨by simp, by simp, by simp, by simp, by simp⟩

/-- **C21** (termination).  The depth-first search ends on every list of structs, cyclic or not. -/
theorem sort_terminates (ss : List Struct) : (sort ss).isSome := by
  obtain ⟨st, hst⟩ := visitAll_total (targets ss) ss.length (fun i j h => targets_lt h)
    (ss.length + 1) (List.range ss.length) ⟨[], fun _ => none, []⟩ (by simp)
    (by
      unfold unmarked
      have := List.length_filter_le (fun i => ((fun _ => none : Nat → Option Mark) i).isNone)
        (List.range ss.length)
      simp only [List.length_range] at this
      exact Nat.lt_succ_of_le this)
  simp [sort, hst]

theorem transGen_indices {ss : List Struct} (hnd : (ss.map (·.name.rust)).Nodup) {i j : Nat}
    (h : Relation.TransGen (Edge (targets ss)) i j) :
    ∃ s t, ss[i]? = some s ∧ ss[j]? = some t ∧
      Relation.TransGen (fun a b => a ∈ ss ∧ b ∈ ss ∧ HasField a b) s t := by
  induction h with
  | single h =>
    rename_i k
    have h1 := targets_src h
    have h2 := targets_lt h
    refine ⟨ss[i], ss[k], by simp, by simp, .single ⟨by simp, by simp, ?_⟩⟩
    exact (targets_edge hnd (by simp) (by simp)).1 h
  | tail _ h ih =>
    rename_i k l _
    obtain ⟨s, t, hs, ht, hst⟩ := ih
    have h2 := targets_lt h
    refine ⟨s, ss[l], hs, by simp, .tail hst ⟨List.mem_of_getElem? ht, by simp, ?_⟩⟩
    exact (targets_edge hnd ht (by simp)).1 h

theorem transGen_structs {ss : List Struct} (hnd : (ss.map (·.name.rust)).Nodup) {s t : Struct}
    (h : Relation.TransGen (fun a b => a ∈ ss ∧ b ∈ ss ∧ HasField a b) s t) :
    ∃ i j, ss[i]? = some s ∧ ss[j]? = some t ∧ Relation.TransGen (Edge (targets ss)) i j := by
  induction h with
  | single h =>
    obtain ⟨h1, h2, h3⟩ := h
    obtain ⟨i, hi⟩ := List.getElem?_of_mem h1
    obtain ⟨j, hj⟩ := List.getElem?_of_mem h2
    exact ⟨i, j, hi, hj, .single ((targets_edge hnd hi hj).2 h3)⟩
  | tail _ h ih =>
    obtain ⟨i, j, hi, hj, hij⟩ := ih
    obtain ⟨_, h2, h3⟩ := h
    obtain ⟨k, hk⟩ := List.getElem?_of_mem h2
    exact ⟨i, k, hi, hk, .tail hij ((targets_edge hnd hj hk).2 h3)⟩

/-- **C21** (with arrays left out).  For distinct struct names: every struct is emitted exactly
once; if no error was reported each struct comes after every struct that is the plain type of one
of its fields; and an error is reported exactly when these plain fields form a cycle.
Missing from the full claim: containment through arrays (`array_field_out_of_order`,
`array_cycle_accepted`). -/
theorem structs_in_order_partial (ss : List Struct) (hnd : (ss.map (·.name.rust)).Nodup)
    (sorted : List Struct) (errs : Nat) (h : sort ss = some (sorted, errs)) :
    sorted.Perm ss ∧ (errs = 0 → InOrder ss sorted HasField) ∧ (errs = 0 ↔ ¬ HasCycle ss HasField) := by
  unfold sort at h
  cases hv : visitAll (targets ss) (ss.length + 1) (List.range ss.length) ⟨[], fun _ => none, []⟩ with
  | none => simp [hv] at h
  | some st =>
    simp only [hv, Option.map_some, Option.some.injEq, Prod.mk.injEq] at h
    obtain ⟨rfl, rfl⟩ := h
    obtain ⟨hinv, _, hall⟩ := visitAll_ok (targets ss) ss.length (fun i j h => targets_lt h)
      (ss.length + 1) (List.range ss.length) _ st (by simp) (init_inv _ _) (by simp) hv
    have hperm : st.sorted.Perm (List.range ss.length) :=
      perm_of_nodup hinv.nodup List.nodup_range
        (fun x => ⟨fun hx => by simpa using hinv.range x hx, fun hx => hall x hx⟩)
    have hin : st.errors.length = 0 → InOrder ss (st.sorted.filterMap fun i => ss[i]?) HasField := by
      intro he pre s post hp t ht hst
      rw [List.filterMap_eq_append_iff] at hp
      obtain ⟨l1, l2, hl, h1, h2⟩ := hp
      rw [List.filterMap_eq_cons_iff] at h2
      obtain ⟨l3, i, l4, hl2, hnone, hi, hrest⟩ := h2
      have hl3 : l3 = [] := by
        cases l3 with
        | nil => rfl
        | cons x l3 =>
          have hx := hnone x (by simp)
          have : x < ss.length := hinv.range x (by rw [hl, hl2]; simp)
          simp [this] at hx
      subst hl3
      obtain ⟨j, hj⟩ := List.getElem?_of_mem ht
      have hedge := (targets_edge hnd hi hj).2 hst
      have hjl := hinv.order (List.length_eq_zero_iff.1 he) l1 i l4 (by rw [hl, hl2]; simp) j hedge
      rw [← h1, List.mem_filterMap]
      exact ⟨j, hjl, hj⟩
    refine ⟨?_, hin, ?_⟩
    · have := hperm.filterMap (fun i => ss[i]?)
      rwa [range_filterMap_get] at this
    · constructor
      · intro he ⟨s, hs⟩
        obtain ⟨i, j, hi, hj, hij⟩ := transGen_structs hnd hs
        have hijeq : i = j := names_inj hnd hi hj rfl
        subst hijeq
        -- along an edge the position in the sorted list strictly decreases
        have hord := hinv.order (List.length_eq_zero_iff.1 he)
        have hdec : ∀ a b, Edge (targets ss) a b → st.sorted.idxOf b < st.sorted.idxOf a := by
          intro a b hab
          have ha : a ∈ st.sorted := hall a (by simpa using targets_src hab)
          obtain ⟨pre, post, hsp, hnp⟩ := List.eq_append_cons_of_mem ha
          have hb := hord pre a post hsp b hab
          rw [hsp, List.idxOf_append, List.idxOf_append, if_pos hb, if_neg hnp]
          have := List.idxOf_lt_length_of_mem hb
          omega
        have htr : ∀ a b, Relation.TransGen (Edge (targets ss)) a b →
            st.sorted.idxOf b < st.sorted.idxOf a := by
          intro a b hab
          induction hab with
          | single h => exact hdec _ _ h
          | tail _ h ih => exact Nat.lt_trans (hdec _ _ h) ih
        exact absurd (htr i i hij) (Nat.lt_irrefl _)
      · intro hnc
        by_cases he : st.errors = []
        · simp [he]
        · exfalso
          apply hnc
          obtain ⟨i, hi⟩ := hinv.err he
          obtain ⟨s, t, hs, ht, hst⟩ := transGen_indices hnd hi
          rw [hs] at ht; cases ht
          exact ⟨s, hst⟩

/-- **C21** for bridges in which no struct field is an array: the full claim, about containment by
value. -/
theorem structs_in_order_no_arrays_partial (ss : List Struct)
    (hnd : (ss.map (·.name.rust)).Nodup)
    (hna : ∀ s ∈ ss, ∀ f ∈ s.fields, ∀ t n, f.ty ≠ .array t n)
    (sorted : List Struct) (errs : Nat) (h : sort ss = some (sorted, errs)) :
    sorted.Perm ss ∧ (errs = 0 → InOrder ss sorted ContainsByValue) ∧
    (errs = 0 ↔ ¬ HasCycle ss ContainsByValue) := by
  have key : ∀ s ∈ ss, ∀ t, ContainsByValue s t ↔ HasField s t := by
    intro s hs t
    constructor
    · rintro ⟨f, hf, hin⟩
      refine ⟨f, hf, ?_⟩
      cases hty : f.ty with
      | ident nt =>
        rw [hty] at hin
        exact ⟨nt.generics, by simp only [Inside] at hin; rw [← hin]⟩
      | array a n => exact absurd hty (hna s hs f hf a n)
      | _ => rw [hty] at hin; exact hin.elim
    · rintro ⟨f, hf, g, hty⟩
      exact ⟨f, hf, by rw [hty]; simp [Inside]⟩
  obtain ⟨h1, h2, h3⟩ := structs_in_order_partial ss hnd sorted errs h
  refine ⟨h1, ?_, ?_⟩
  · intro he pre s post hp t ht hst
    have hs : s ∈ ss := h1.mem_iff.1 (by rw [hp]; simp)
    exact h2 he pre s post hp t ht ((key s hs t).1 hst)
  · have : (fun a b => a ∈ ss ∧ b ∈ ss ∧ ContainsByValue a b) =
        (fun a b => a ∈ ss ∧ b ∈ ss ∧ HasField a b) := by
      funext a b
      apply propext
      exact ⟨fun ⟨ha, hb, hc⟩ => ⟨ha, hb, (key a ha b).1 hc⟩, fun ⟨ha, hb, hc⟩ => ⟨ha, hb, (key a ha b).2 hc⟩⟩
    rw [h3]
    unfold HasCycle
    rw [this]

/-! ### Where the claim fails of the code -/

private def mk (name : String) (fields : List Ty) : Struct :=
  ⟨[], ⟨[], name, name⟩, [], fields.map (fun t => ⟨⟨[], "f", "f"⟩, t⟩)⟩

/-- `struct A { f: [B; 2] }  struct B { f: u8 }`: no error, and `A` is emitted before `B`. -/
theorem array_field_out_of_order :
    let A := mk "A" [.array (.named "B") 2]
    let B := mk "B" [.named "u8"]
    sort [A, B] = some ([A, B], 0) ∧ ContainsByValue A B ∧
      ¬ InOrder [A, B] [A, B] ContainsByValue := by
  intro A B
  have hc : ContainsByValue A B := ⟨⟨⟨[], "f", "f"⟩, .array (.named "B") 2⟩, by simp [A, mk], rfl⟩
  refine ⟨rfl, hc, ?_⟩
  intro h
  have := h [] A [B] rfl B (by simp) hc
  cases this

/-- `struct A { f: [A; 1] }`: infinitely large, yet no error is reported. -/
theorem array_cycle_accepted :
    let A := mk "A" [.array (.named "A") 1]
    sort [A] = some ([A], 0) ∧ HasCycle [A] ContainsByValue := by
  intro A
  have hc : ContainsByValue A A := ⟨⟨⟨[], "f", "f"⟩, .array (.named "A") 1⟩, by simp [A, mk], rfl⟩
  exact ⟨rfl, A, .single ⟨by simp, by simp, hc⟩⟩

/-! ### Concrete instances -/

/-- Three structs declared in the wrong order are sorted; a cycle of two is reported. -/
example :
    let A := mk "A" [.named "B", .named "C"]
    let B := mk "B" [.named "C"]
    let C := mk "C" [.named "u8"]
    sort [A, B, C] = some ([C, B, A], 0) ∧ ([A, B, C].map (·.name.rust)).Nodup := by
  intro A B C
  exact ⟨rfl, by decide⟩

example :
    let A := mk "A" [.named "B"]
    let B := mk "B" [.named "A"]
    ∃ sorted, sort [A, B] = some (sorted, 2) ∧ HasCycle [A, B] HasField := by
  intro A B
  refine ⟨_, rfl, A, .tail (b := B) (.single ⟨by simp, by simp, ?_⟩) ⟨by simp, by simp, ?_⟩⟩
  · exact ⟨⟨⟨[], "f", "f"⟩, .named "B"⟩, by simp [A, mk], [], rfl⟩
  · exact ⟨⟨⟨[], "f", "f"⟩, .named "A"⟩, by simp [B, mk], [], rfl⟩

end Verif.Toposort
