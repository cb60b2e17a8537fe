import Verif.Ordered.Model
/-!
# Property C23: ordered set and ordered map
-/
namespace Verif.Ordered

/-! ### Specification -/

/-- Elements in order of first appearance, without repeats. -/
def firstOccurrences {α : Type} [DecidableEq α] : List α → List α
  | [] => []
  | x :: xs => x :: (firstOccurrences xs).filter (· ≠ x)

/-- For each position, whether the element did not occur earlier. -/
def newFlags {α : Type} [DecidableEq α] (xs : List α) : List Bool :=
  (List.range xs.length).map fun i => decide (∀ j, j < i → xs[j]? ≠ xs[i]?)

/-- The value most recently given to key `k`, if any. -/
def lastValue {κ ν : Type} [DecidableEq κ] (h : List (κ × ν)) (k : κ) : Option ν :=
  (h.reverse.find? (fun e => decide (e.1 = k))).map (·.2)

/-! ### Lemmas -/

/-- `==` decides equality on the elements satisfying `P`. -/
def EqOn {α : Type} [BEq α] (P : α → Prop) : Prop := ∀ a b, P a → P b → ((a == b) = true ↔ a = b)

theorem EqOn.lawful {α : Type} [BEq α] [LawfulBEq α] (P : α → Prop) : EqOn P :=
  fun _ _ _ _ => beq_iff_eq

theorem EqOn.contains {α : Type} [BEq α] {P : α → Prop} (h : EqOn P) {x : α} {l : List α}
    (hx : P x) (hl : ∀ a ∈ l, P a) : l.contains x = true ↔ x ∈ l := by
  induction l with
  | nil => simp
  | cons a l ih =>
    rw [List.contains_cons, Bool.or_eq_true, ih (fun b hb => hl b (by simp [hb])),
      h x a hx (hl a (by simp)), List.mem_cons]

theorem firstOccurrences_mem {α : Type} [DecidableEq α] (xs : List α) (x : α) :
    x ∈ firstOccurrences xs ↔ x ∈ xs := by
  induction xs with
  | nil => simp [firstOccurrences]
  | cons a xs ih =>
    simp only [firstOccurrences, List.mem_cons, List.mem_filter, ih, decide_eq_true_eq]
    by_cases h : x = a <;> simp [h]

theorem firstOccurrences_append {α : Type} [DecidableEq α] (xs : List α) (x : α) :
    firstOccurrences (xs ++ [x]) =
      if x ∈ xs then firstOccurrences xs else firstOccurrences xs ++ [x] := by
  induction xs with
  | nil => simp [firstOccurrences]
  | cons a xs ih =>
    simp only [List.cons_append, firstOccurrences, ih]
    by_cases hxa : x = a
    · subst hxa
      by_cases hx : x ∈ xs <;> simp [hx, List.filter_append]
    · by_cases hx : x ∈ xs <;> simp [hx, hxa, List.filter_append]

theorem firstOccurrences_nodup {α : Type} [DecidableEq α] (xs : List α) :
    (firstOccurrences xs).Nodup := by
  induction xs with
  | nil => simp [firstOccurrences]
  | cons a xs ih =>
    simp only [firstOccurrences, List.nodup_cons, List.mem_filter]
    exact ⟨by simp, ih.filter _⟩

theorem newFlags_append {α : Type} [DecidableEq α] (xs : List α) (x : α) :
    newFlags (xs ++ [x]) = newFlags xs ++ [decide (x ∉ xs)] := by
  unfold newFlags
  rw [List.length_append, List.length_singleton, List.range_succ, List.map_append]
  congr 1
  · apply List.map_congr_left
    intro i hi
    rw [List.mem_range] at hi
    rw [decide_eq_decide]
    constructor
    · intro h j hj
      have := h j hj
      rwa [List.getElem?_append_left hi, List.getElem?_append_left (by omega)] at this
    · intro h j hj
      rw [List.getElem?_append_left hi, List.getElem?_append_left (by omega)]
      exact h j hj
  · simp only [List.map_cons, List.map_nil]
    congr 1
    rw [decide_eq_decide]
    rw [show (xs ++ [x])[xs.length]? = some x by simp]
    constructor
    · intro h hx
      obtain ⟨j, hj, rfl⟩ := List.getElem_of_mem hx
      apply h j hj
      rw [List.getElem?_append_left hj]
      simp
    · intro h j hj he
      rw [List.getElem?_append_left hj] at he
      exact h (List.mem_of_getElem? he)

/-- `insertAll` on an appended history. -/
theorem insertAll_append {α : Type} [BEq α] (s : OSet α) (xs ys : List α) :
    s.insertAll (xs ++ ys) =
      (((s.insertAll xs).1.insertAll ys).1, (s.insertAll xs).2 ++ ((s.insertAll xs).1.insertAll ys).2) := by
  induction xs generalizing s with
  | nil => simp [OSet.insertAll]
  | cons x xs ih => simp [OSet.insertAll, ih]

/-- List induction from the end. -/
theorem snoc_induction {α : Type} {P : List α → Prop} (nil : P [])
    (snoc : ∀ xs x, P xs → P (xs ++ [x])) (xs : List α) : P xs := by
  have : ∀ l : List α, P l.reverse := by
    intro l
    induction l with
    | nil => exact nil
    | cons a l ih => rw [List.reverse_cons]; exact snoc _ _ ih
  simpa using this xs.reverse

/-! ### C23 -/

/-- **C23** (set), for any element type whose `==` decides equality on the inserted elements: after
any history of insertions the set iterates over the inserted elements in first-insertion order,
each once, and each `insert` returned whether its element was new. -/
theorem ordered_set_refines_on {α : Type} [BEq α] [DecidableEq α] {P : α → Prop} (hP : EqOn P)
    (xs : List α) (hxs : ∀ x ∈ xs, P x) :
    ((OSet.new : OSet α).insertAll xs).1.iter = firstOccurrences xs ∧
    ((OSet.new : OSet α).insertAll xs).2 = newFlags xs ∧
    (((OSet.new : OSet α).insertAll xs).1.isEmpty = true ↔ xs = []) := by
  have key : ((OSet.new : OSet α).insertAll xs).1.vec = firstOccurrences xs ∧
      (∀ x, x ∈ ((OSet.new : OSet α).insertAll xs).1.set ↔ x ∈ xs) ∧
      ((OSet.new : OSet α).insertAll xs).2 = newFlags xs := by
    revert hxs
    induction xs using snoc_induction with
    | nil => intro _; simp [OSet.insertAll, OSet.new, firstOccurrences, newFlags]
    | snoc xs x ih =>
      intro hxs
      obtain ⟨h1, h2, h3⟩ := ih (fun y hy => hxs y (by simp [hy]))
      rw [insertAll_append]
      have hc : ((OSet.new : OSet α).insertAll xs).1.set.contains x = true ↔ x ∈ xs := by
        rw [hP.contains (hxs x (by simp)) (fun a ha => hxs a (by simp [(h2 a).1 ha])), h2]
      simp only [OSet.insertAll, OSet.insert]
      by_cases hx : x ∈ xs
      · have hc' := hc.2 hx
        simp only [hc', Bool.not_true, Bool.false_eq_true, if_false]
        refine ⟨by rw [h1, firstOccurrences_append, if_pos hx], ?_, by
          rw [h3, newFlags_append]; simp [hx]⟩
        intro y; rw [h2]; simp
        intro h; rw [h]; exact hx
      · have hc' : ((OSet.new : OSet α).insertAll xs).1.set.contains x = false := by
          rw [Bool.eq_false_iff]; exact fun h => hx (hc.1 h)
        simp only [hc', Bool.not_false, if_true]
        refine ⟨by rw [h1, firstOccurrences_append, if_neg hx], ?_, by
          rw [h3, newFlags_append]; simp [hx]⟩
        intro y; simp [h2, or_comm]
  refine ⟨key.1, key.2.2, ?_⟩
  unfold OSet.isEmpty
  rw [key.1]
  cases xs <;> simp [firstOccurrences]

/-- **C23** (set).  See `ordered_set_refines_on`; here `==` is lawful. -/
theorem ordered_set_refines {α : Type} [DecidableEq α] (xs : List α) :
    ((OSet.new : OSet α).insertAll xs).1.iter = firstOccurrences xs ∧
    ((OSet.new : OSet α).insertAll xs).2 = newFlags xs ∧
    (((OSet.new : OSet α).insertAll xs).1.isEmpty = true ↔ xs = []) :=
  ordered_set_refines_on (P := fun _ => True) (EqOn.lawful _) xs (by simp)

/-- **C23** (set, in elementary terms): no duplicates, exactly the inserted elements. -/
theorem ordered_set_elements {α : Type} [DecidableEq α] (xs : List α) :
    ((OSet.new : OSet α).insertAll xs).1.iter.Nodup ∧
    ∀ x, x ∈ ((OSet.new : OSet α).insertAll xs).1.iter ↔ x ∈ xs := by
  rw [(ordered_set_refines xs).1]
  exact ⟨firstOccurrences_nodup xs, firstOccurrences_mem xs⟩

theorem mapInsertAll_append {κ ν : Type} [BEq κ] (m : OMap κ ν) (xs ys : List (κ × ν)) :
    m.insertAll (xs ++ ys) = (m.insertAll xs).bind (fun r => (r.1.insertAll ys).map
      (fun r' => (r'.1, r.2 ++ r'.2))) := by
  induction xs generalizing m with
  | nil => simp [OMap.insertAll, Option.bind]
  | cons x xs ih =>
    simp only [List.cons_append, OMap.insertAll]
    cases m.insert x.1 x.2 with
    | none => simp
    | some p =>
      obtain ⟨m', o⟩ := p
      simp only [ih]
      cases m'.insertAll xs with
      | none => simp
      | some p' =>
        obtain ⟨m'', os⟩ := p'
        simp
        cases m''.insertAll ys <;> simp

theorem lastValue_snoc {κ ν : Type} [DecidableEq κ] (h : List (κ × ν)) (k k' : κ) (v : ν) :
    lastValue (h ++ [(k, v)]) k' = if k = k' then some v else lastValue h k' := by
  unfold lastValue
  rw [List.reverse_append]
  by_cases hk : k = k' <;> simp [hk]

/-- Values returned by `insert`: what the key was mapped to just before. -/
def previousValues {κ ν : Type} [DecidableEq κ] (h : List (κ × ν)) : List (Option ν) :=
  (List.range h.length).map fun i => (h[i]?).bind fun e => lastValue (h.take i) e.1

theorem previousValues_snoc {κ ν : Type} [DecidableEq κ] (h : List (κ × ν)) (e : κ × ν) :
    previousValues (h ++ [e]) = previousValues h ++ [lastValue h e.1] := by
  unfold previousValues
  rw [List.length_append, List.length_singleton, List.range_succ, List.map_append]
  congr 1
  · apply List.map_congr_left
    intro i hi
    rw [List.mem_range] at hi
    rw [List.getElem?_append_left hi, List.take_append_of_le_length (by omega)]
  · simp

/-- **C23** (map).  Any history of insertions into an ordered map runs without panicking; the keys
iterate in first-insertion order, each once; each key maps to its last value; each `insert`
returned the value it replaced; `contains_key` tells whether the key was ever inserted. -/
theorem ordered_map_refines {κ ν : Type} [DecidableEq κ] (h : List (κ × ν)) :
    ∃ m outs, (OMap.new : OMap κ ν).insertAll h = some (m, outs) ∧
      m.keys = firstOccurrences (h.map (·.1)) ∧
      (∀ k v, (k, v) ∈ m.iter ↔ lastValue h k = some v) ∧
      outs = previousValues h ∧
      (∀ k, m.containsKey k = true ↔ k ∈ h.map (·.1)) := by
  suffices H : ∃ m outs, (OMap.new : OMap κ ν).insertAll h = some (m, outs) ∧
      m.keys = firstOccurrences (h.map (·.1)) ∧
      (∀ i k v, m.vec[i]? = some (k, v) → lastValue h k = some v) ∧
      outs = previousValues h ∧
      (∀ k i, m.map.lookup k = some i ↔ (m.vec.map (·.1))[i]? = some k) ∧
      (∀ k, lastValue h k = none ↔ k ∉ h.map (·.1)) by
    obtain ⟨m, outs, h1, h2, h3, h4, h5, h6⟩ := H
    refine ⟨m, outs, h1, h2, ?_, h4, ?_⟩
    · intro k v
      constructor
      · intro hm
        obtain ⟨i, hi⟩ := List.getElem?_of_mem hm
        exact h3 i k v hi
      · intro hl
        have hk : k ∈ h.map (·.1) := by
          by_cases hk : k ∈ h.map (·.1)
          · exact hk
          · rw [(h6 k).2 hk] at hl; cases hl
        rw [← firstOccurrences_mem, ← h2] at hk
        unfold OMap.keys at hk
        rw [List.mem_map] at hk
        obtain ⟨⟨k', v'⟩, hkv, rfl⟩ := hk
        obtain ⟨i, hi⟩ := List.getElem?_of_mem hkv
        have := h3 i k' v' hi
        simp only at hl
        rw [this] at hl
        cases hl
        exact hkv
    · intro k
      rw [← firstOccurrences_mem, ← h2]
      unfold OMap.containsKey OMap.keys
      constructor
      · intro hs
        obtain ⟨i, hi⟩ := Option.isSome_iff_exists.1 hs
        exact List.mem_of_getElem? ((h5 k i).1 hi)
      · intro hm
        obtain ⟨i, hi⟩ := List.getElem?_of_mem hm
        rw [(h5 k i).2 hi]; rfl
  induction h using snoc_induction with
  | nil => refine ⟨OMap.new, [], rfl, ?_⟩; simp [OMap.new, OMap.keys, firstOccurrences, previousValues, lastValue]
  | snoc h e ih =>
    obtain ⟨k, v⟩ := e
    obtain ⟨m, outs, h1, h2, h3, h4, h5, h6⟩ := ih
    have hnd : (m.vec.map (·.1)).Nodup := by
      have := firstOccurrences_nodup (h.map (·.1))
      rw [← h2] at this; exact this
    have h6' : ∀ k', lastValue (h ++ [(k, v)]) k' = none ↔ k' ∉ (h ++ [(k, v)]).map (·.1) := by
      intro k'
      rw [lastValue_snoc]
      by_cases hk : k = k'
      · simp [hk]
      · simp only [hk, if_false, h6]
        simp [Ne.symm hk]
    rw [mapInsertAll_append, h1]
    simp only [Option.bind_some, OMap.insertAll, OMap.insert]
    cases hl : m.map.lookup k with
    | some i =>
      have hi := (h5 k i).1 hl
      rw [List.getElem?_map] at hi
      cases he : m.vec[i]? with
      | none => rw [he] at hi; cases hi
      | some p =>
        obtain ⟨k', v'⟩ := p
        rw [he] at hi
        simp only [Option.map_some, Option.some.injEq] at hi
        subst hi
        have hilt : i < m.vec.length := (List.getElem?_eq_some_iff.1 he).1
        have hkmem : k' ∈ h.map (·.1) := by
          rw [← firstOccurrences_mem, ← h2]
          exact List.mem_of_getElem? ((h5 k' i).1 hl)
        have hkeys : (m.vec.set i (k', v)).map (·.1) = m.vec.map (·.1) := by
          rw [List.map_set]
          apply List.ext_getElem?
          intro j
          rw [List.getElem?_set]
          split
          · rename_i hij; subst hij
            have hg : m.vec[i] = (k', v') := (List.getElem?_eq_some_iff.1 he).2
            simp [hilt, hg]
          · rfl
        refine ⟨⟨m.map, m.vec.set i (k', v)⟩, outs ++ [some v'], by simp only [he, Option.map_some],
          ?_, ?_, ?_, ?_, h6'⟩
        · unfold OMap.keys
          simp only [hkeys, List.map_append, List.map_cons, List.map_nil]
          rw [firstOccurrences_append, if_pos hkmem]; exact h2
        · intro j k'' v'' hj
          simp only [List.getElem?_set] at hj
          rw [lastValue_snoc]
          split at hj
          · rename_i hij
            simp [hilt, hij.symm ▸ hilt] at hj
            simp [hj.1, hj.2]
          · rename_i hij
            have hne : k' ≠ k'' := by
              intro hkk
              subst hkk
              have a1 : (m.vec.map (·.1))[i]? = some k' := (h5 k' i).1 hl
              have a2 : (m.vec.map (·.1))[j]? = some k' := by rw [List.getElem?_map, hj]; rfl
              apply hij
              have := (h5 k' j).2 a2
              rw [hl] at this
              exact Option.some.inj this
            rw [if_neg hne]
            exact h3 j k'' v'' hj
        · rw [h4, previousValues_snoc]
          have := h3 i k' v' he
          simp [this]
        · intro k'' j
          simp only [hkeys]
          exact h5 k'' j
    | none =>
      have hknot : k ∉ h.map (·.1) := by
        intro hk
        rw [← firstOccurrences_mem, ← h2] at hk
        obtain ⟨i, hi⟩ := List.getElem?_of_mem hk
        rw [(h5 k i).2 hi] at hl; cases hl
      refine ⟨_, _, rfl, ?_, ?_, ?_, ?_, h6'⟩
      · unfold OMap.keys at h2 ⊢
        simp only [List.map_append, List.map_cons, List.map_nil]
        rw [firstOccurrences_append, if_neg hknot, h2]
      · intro j k'' v'' hj
        rw [lastValue_snoc]
        simp only at hj
        by_cases hjl : j < m.vec.length
        · rw [List.getElem?_append_left hjl] at hj
          have hkk : k ≠ k'' := by
            intro hkk; subst hkk
            have a2 : (m.vec.map (·.1))[j]? = some k := by rw [List.getElem?_map, hj]; rfl
            rw [(h5 k j).2 a2] at hl; cases hl
          rw [if_neg hkk]
          exact h3 j k'' v'' hj
        · rw [List.getElem?_append_right (by omega)] at hj
          have := List.mem_of_getElem? hj
          simp at this
          simp [this.1, this.2]
      · rw [h4, previousValues_snoc, (h6 k).2 hknot]
      · intro k'' j
        simp only [List.lookup_cons, List.map_append, List.map_cons, List.map_nil]
        by_cases hkk : k'' = k
        · subst hkk
          simp only [beq_self_eq_true, Option.some.injEq]
          constructor
          · intro hj; subst hj; simp
          · intro hj
            by_cases hjl : j < (m.vec.map (·.1)).length
            · rw [List.getElem?_append_left hjl] at hj
              rw [(h5 k'' j).2 hj] at hl; cases hl
            · rw [List.getElem?_append_right (by omega)] at hj
              have := (List.getElem?_eq_some_iff.1 hj).1
              simp at this hjl
              omega
        · have hb : (k'' == k) = false := by simpa using hkk
          simp only [hb]
          rw [h5]
          by_cases hjl : j < (m.vec.map (·.1)).length
          · rw [List.getElem?_append_left hjl]
          · rw [List.getElem?_append_right (by omega), List.getElem?_eq_none (by omega)]
            constructor
            · intro hc; cases hc
            · intro hc
              have := List.mem_of_getElem? hc
              simp at this
              exact absurd this hkk

/-! ### Concrete instances -/

example : ((OSet.new : OSet Nat).insertAll [3, 1, 3, 2, 1]).1.iter = [3, 1, 2] ∧
    ((OSet.new : OSet Nat).insertAll [3, 1, 3, 2, 1]).2 = [true, true, false, true, false] := by
  decide

example : ((OMap.new : OMap Nat Char).insertAll [(1, 'a'), (2, 'b'), (1, 'c')]).map
    (fun r => (r.1.iter, r.2)) = some ([(1, 'c'), (2, 'b')], [none, none, some 'a']) := by decide

end Verif.Ordered
