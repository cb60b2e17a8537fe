import Verif.RustVec.Spec
/-!
# Histories of rust::Vec
-/
namespace Verif.RustVec
open Verif Buffer Spec

/-! ## Elements: every live element sits in exactly one place -/

/-- The element at index `k` of the vector at `o`. -/
def slot (T : Table Elem) (o k : Nat) : Option Elem := (T o).bind (·[k]?)

/-- Element bookkeeping agrees with the vectors' contents. -/
structure EInv (T : Table Elem) (live : Nat → Bool) (next : Nat) : Prop where
  uniq : ∀ o k p l e f, slot T o k = some e → slot T p l = some f → e.id = f.id → o = p ∧ k = l
  live_iff : ∀ i, live i = true ↔ ∃ o k e, slot T o k = some e ∧ e.id = i
  bound : ∀ i, live i = true → i < next

theorem einv_init : EInv (fun _ => none) (fun _ => false) 0 :=
  ⟨fun _ _ _ _ _ _ h => by simp [slot] at h, fun _ => by simp [slot], fun _ h => by simp at h⟩

theorem slot_upd_same (T : Table Elem) (o k : Nat) (v : Option (List Elem)) : slot (upd T o v) o k = v.bind (·[k]?) := by
  simp [slot]
theorem slot_upd_ne (T : Table Elem) {o p : Nat} (k : Nat) (v : Option (List Elem)) (h : p ≠ o) :
    slot (upd T o v) p k = slot T p k := by
  simp [slot, upd_ne _ _ h]
theorem slot_of {T : Table Elem} {o : Nat} {es : List Elem} (h : T o = some es) (k : Nat) : slot T o k = es[k]? := by
  simp [slot, h]

/-- Renaming the objects. -/
theorem einv_rename {T T' : Table Elem} {live : Nat → Bool} {n : Nat} (h : EInv T live n) (f : Nat → Nat)
    (hf : ∀ p k e, slot T' p k = some e → slot T (f p) k = some e)
    (hi : ∀ p q k l e e', slot T' p k = some e → slot T' q l = some e' → f p = f q → p = q)
    (hs : ∀ q k e, slot T q k = some e → ∃ p, slot T' p k = some e) : EInv T' live n := by
  refine ⟨?_, ?_, h.bound⟩
  · intro o k p l e g h1 h2 he
    obtain ⟨k1, k2⟩ := h.uniq _ _ _ _ _ _ (hf _ _ _ h1) (hf _ _ _ h2) he
    exact ⟨hi _ _ _ _ _ _ h1 h2 k1, k2⟩
  · intro i
    rw [h.live_iff]
    constructor
    · rintro ⟨o, k, e, h1, h2⟩
      obtain ⟨p, hp⟩ := hs _ _ _ h1
      exact ⟨p, k, e, hp, h2⟩
    · rintro ⟨o, k, e, h1, h2⟩
      exact ⟨f o, k, e, hf _ _ _ h1, h2⟩

theorem einv_congr {T T' : Table Elem} {live : Nat → Bool} {n : Nat} (h : EInv T live n)
    (he : ∀ p k, slot T' p k = slot T p k) : EInv T' live n :=
  einv_rename h id (fun p k e hs => by rw [id, ← he]; exact hs) (fun p q _ _ _ _ _ _ hpq => hpq)
    (fun q k e hs => ⟨q, by rw [he]; exact hs⟩)

/-- Appending a new element. -/
theorem einv_append {T : Table Elem} {live : Nat → Bool} {n : Nat} (h : EInv T live n) {o : Nat} {es : List Elem}
    (ho : T o = some es) (v : Nat) : EInv (upd T o (some (es ++ [⟨n, v⟩]))) (upd live n true) (n + 1) := by
  have key : ∀ p k e, slot (upd T o (some (es ++ [⟨n, v⟩]))) p k = some e →
      slot T p k = some e ∨ (p = o ∧ k = es.length ∧ e.id = n) := by
    intro p k e hs
    by_cases hp : p = o
    · subst hp
      rw [slot_upd_same] at hs
      simp only [Option.bind_some] at hs
      by_cases hk : k < es.length
      · rw [List.getElem?_append_left hk] at hs
        exact Or.inl (by rw [slot_of ho]; exact hs)
      · rw [List.getElem?_append_right (by omega)] at hs
        by_cases hk' : k = es.length
        · subst hk'; simp at hs; exact Or.inr ⟨rfl, rfl, by rw [← hs]⟩
        · rw [List.getElem?_eq_none (by simp; omega)] at hs; cases hs
    · rw [slot_upd_ne _ _ _ hp] at hs; exact Or.inl hs
  have old : ∀ p k e, slot T p k = some e → e.id < n := by
    intro p k e hs
    exact h.bound _ ((h.live_iff e.id).2 ⟨p, k, e, hs, rfl⟩)
  have keep : ∀ p k e, slot T p k = some e → slot (upd T o (some (es ++ [⟨n, v⟩]))) p k = some e := by
    intro p k e hs
    by_cases hp : p = o
    · subst hp
      rw [slot_of ho] at hs
      have hk : k < es.length := by
        rcases Nat.lt_or_ge k es.length with hk | hk
        · exact hk
        · rw [List.getElem?_eq_none hk] at hs; cases hs
      rw [slot_upd_same]
      simp only [Option.bind_some]
      rw [List.getElem?_append_left hk]; exact hs
    · rw [slot_upd_ne _ _ _ hp]; exact hs
  refine ⟨?_, ?_, ?_⟩
  · intro p k q l e f h1 h2 he
    rcases key _ _ _ h1 with k1 | ⟨k1, k1', k1''⟩ <;> rcases key _ _ _ h2 with k2 | ⟨k2, k2', k2''⟩
    · exact h.uniq _ _ _ _ _ _ k1 k2 he
    · have := old _ _ _ k1; omega
    · have := old _ _ _ k2; omega
    · subst k1 k2 k1' k2'; exact ⟨rfl, rfl⟩
  · intro i
    by_cases hi : i = n
    · subst hi
      simp only [upd_same, true_iff]
      exact ⟨o, es.length, ⟨i, v⟩, by rw [slot_upd_same]; simp, rfl⟩
    · rw [upd_ne _ _ hi, h.live_iff]
      constructor
      · rintro ⟨p, k, e, h1, h2⟩; exact ⟨p, k, e, keep _ _ _ h1, h2⟩
      · rintro ⟨p, k, e, h1, h2⟩
        rcases key _ _ _ h1 with k1 | ⟨_, _, k1⟩
        · exact ⟨p, k, e, k1, h2⟩
        · omega
  · intro i hi
    by_cases hin : i = n
    · omega
    · rw [upd_ne _ _ hin] at hi
      have := h.bound i hi; omega

/-- Dropping distinct live elements succeeds and kills exactly them. -/
theorem dropElems_ok : ∀ (es : List Elem) (live : Nat → Bool), (es.map (·.id)).Nodup →
    (∀ e ∈ es, live e.id = true) →
    ∃ l, dropElems live es = .ok l ∧ ∀ i, l i = true ↔ live i = true ∧ ∀ e ∈ es, e.id ≠ i
  | [], live, _, _ => ⟨live, rfl, by simp⟩
  | e :: es, live, hn, hl => by
    rw [List.map_cons, List.nodup_cons] at hn
    have h2 : ∀ f ∈ es, upd live e.id false f.id = true := by
      intro f hf
      have : f.id ≠ e.id := fun h => hn.1 (by rw [← h]; exact List.mem_map.2 ⟨f, hf, rfl⟩)
      rw [upd_ne _ _ this]; exact hl f (by simp [hf])
    obtain ⟨l, k1, k2⟩ := dropElems_ok es (upd live e.id false) hn.2 h2
    refine ⟨l, by simp [dropElems, hl e (by simp), k1], ?_⟩
    intro i
    rw [k2]
    by_cases hi : i = e.id
    · subst hi; simp
    · rw [upd_ne _ _ hi]
      simp [Ne.symm hi]

theorem einv_nodup {T : Table Elem} {live : Nat → Bool} {n : Nat} (h : EInv T live n) {o : Nat} {es : List Elem}
    (ho : T o = some es) : (es.map (·.id)).Nodup := by
  rw [List.Nodup, List.pairwise_iff_getElem]
  intro i j hi hj hij he
  rw [List.length_map] at hi hj
  simp only [List.getElem_map] at he
  have := h.uniq o i o j es[i] es[j] (by rw [slot_of ho]; simp) (by rw [slot_of ho]; simp) he
  omega

/-- Dropping the elements from index `k` on. -/
theorem einv_drop {T : Table Elem} {live : Nat → Bool} {n : Nat} (h : EInv T live n) {o : Nat} {es : List Elem}
    (ho : T o = some es) (k : Nat) :
    ∃ l, dropElems live (es.drop k) = .ok l ∧ EInv (upd T o (some (es.take k))) l n := by
  have hnd := einv_nodup h ho
  have hsub : ((es.drop k).map (·.id)).Nodup := by
    rw [List.map_drop]; exact hnd.sublist (List.drop_sublist _ _)
  obtain ⟨l, h1, h2⟩ := dropElems_ok (es.drop k) live hsub (by
    intro e he
    obtain ⟨j, hj⟩ := List.mem_iff_getElem?.1 (List.mem_of_mem_drop he)
    exact (h.live_iff _).2 ⟨o, j, e, by rw [slot_of ho]; exact hj, rfl⟩)
  refine ⟨l, h1, ?_, ?_, ?_⟩
  · have sub : ∀ p j e, slot (upd T o (some (es.take k))) p j = some e → slot T p j = some e := by
      intro p j e hs
      by_cases hp : p = o
      · subst hp
        rw [slot_upd_same] at hs
        simp only [Option.bind_some] at hs
        rw [slot_of ho]
        rw [List.getElem?_take] at hs
        split at hs
        · exact hs
        · cases hs
      · rw [slot_upd_ne _ _ _ hp] at hs; exact hs
    intro p j q l' e f k1 k2 he
    exact h.uniq _ _ _ _ _ _ (sub _ _ _ k1) (sub _ _ _ k2) he
  · intro i
    rw [h2, h.live_iff]
    constructor
    · rintro ⟨⟨p, j, e, hs, rfl⟩, hne⟩
      refine ⟨p, j, e, ?_, rfl⟩
      by_cases hp : p = o
      · subst hp
        rw [slot_of ho] at hs
        rw [slot_upd_same]
        simp only [Option.bind_some]
        rw [List.getElem?_take]
        have hjk : j < k := by
          rcases Nat.lt_or_ge j k with hjk | hjk
          · exact hjk
          · exfalso
            refine hne e ?_ rfl
            refine List.mem_iff_getElem?.2 ⟨j - k, ?_⟩
            rw [List.getElem?_drop, show k + (j - k) = j by omega]; exact hs
        rw [if_pos hjk]; exact hs
      · rw [slot_upd_ne _ _ _ hp]; exact hs
    · rintro ⟨p, j, e, hs, rfl⟩
      by_cases hp : p = o
      · subst hp
        rw [slot_upd_same] at hs
        simp only [Option.bind_some] at hs
        rw [List.getElem?_take] at hs
        by_cases hjk : j < k
        · rw [if_pos hjk] at hs
          refine ⟨⟨p, j, e, by rw [slot_of ho]; exact hs, rfl⟩, ?_⟩
          intro f hf hfe
          obtain ⟨m, hm⟩ := List.mem_iff_getElem?.1 hf
          rw [List.getElem?_drop] at hm
          have := h.uniq p (k + m) p j f e (by rw [slot_of ho]; exact hm) (by rw [slot_of ho]; exact hs) hfe
          omega
        · rw [if_neg hjk] at hs; cases hs
      · rw [slot_upd_ne _ _ _ hp] at hs
        refine ⟨⟨p, j, e, hs, rfl⟩, ?_⟩
        intro f hf hfe
        obtain ⟨m, hm⟩ := List.mem_iff_getElem?.1 (List.mem_of_mem_drop hf)
        have := h.uniq o m p j f e (by rw [slot_of ho]; exact hm) hs hfe
        exact hp this.1.symm
  · intro i hi
    exact h.bound i ((h2 i).1 hi).1

/-- Assigning to an element keeps its identity. -/
theorem einv_set {T : Table Elem} {live : Nat → Bool} {n : Nat} (h : EInv T live n) {o : Nat} {es : List Elem}
    (ho : T o = some es) {k : Nat} {e : Elem} (hk : es[k]? = some e) (v : Nat) :
    EInv (upd T o (some (es.set k { e with val := v }))) live n := by
  have hkl : k < es.length := by
    rcases Nat.lt_or_ge k es.length with hk' | hk'
    · exact hk'
    · rw [List.getElem?_eq_none hk'] at hk; cases hk
  -- same identities in the same places
  have key : ∀ p j, (slot (upd T o (some (es.set k { e with val := v }))) p j).map (·.id) = (slot T p j).map (·.id) := by
    intro p j
    by_cases hp : p = o
    · subst hp
      rw [slot_upd_same, slot_of ho]
      simp only [Option.bind_some]
      rw [List.getElem?_set]
      by_cases hkj : k = j
      · subst hkj
        rw [if_pos rfl, if_pos hkl, hk]; rfl
      · rw [if_neg hkj]
    · rw [slot_upd_ne _ _ _ hp]
  have key1 : ∀ {x y : Option Elem} {e : Elem}, x.map (·.id) = y.map (·.id) → x = some e → ∃ f, y = some f ∧ f.id = e.id := by
    intro x y e hxy hx
    subst hx
    cases y with
    | none => cases hxy
    | some f => simp at hxy; exact ⟨f, rfl, hxy.symm⟩
  refine ⟨?_, ?_, h.bound⟩
  · intro p j q l x y h1 h2 he
    obtain ⟨f, h3, h4⟩ := key1 (key p j) h1
    obtain ⟨g, h5, h6⟩ := key1 (key q l) h2
    exact h.uniq _ _ _ _ _ _ h3 h5 (by rw [h4, h6, he])
  · intro i
    rw [h.live_iff]
    constructor
    · rintro ⟨p, j, x, h1, h2⟩
      obtain ⟨f, h3, h4⟩ := key1 (key p j).symm h1
      exact ⟨p, j, f, h3, by rw [h4, h2]⟩
    · rintro ⟨p, j, x, h1, h2⟩
      obtain ⟨f, h3, h4⟩ := key1 (key p j) h1
      exact ⟨p, j, f, h3, by rw [h4, h2]⟩

/-! ## Representation -/

/-- State `s` with vectors of elements `T`. -/
structure TRel (s : State) (T : Table Elem) : Prop where
  mem : Buffer.Rel s.mem T
  el : EInv T s.live s.nextId

/-- State `s` represents the vectors `a`. -/
def VRel (s : State) (a : Vecs) : Prop := ∃ T, TRel s T ∧ ∀ o, a o = (T o).map (·.map (·.val))

theorem vrel_init : VRel init (fun _ => none) := ⟨fun _ => none, ⟨rel_init, einv_init⟩, fun _ => rfl⟩

theorem this_ok {s : State} {o : Nat} {r : Repr} (h : s.mem.objs o = some r) : this s o = .ok r := by simp [this, h]

theorem holds_len {h : Nat → Option (Buf Elem)} {r : Repr} {es : List Elem} (hh : Holds h r es) : r.len = es.length := by
  unfold Holds at hh
  cases hb : r.buf with
  | none => rw [hb] at hh; simp [hh.1, hh.2.1]
  | some i => rw [hb] at hh; obtain ⟨_, _, h2, _⟩ := hh; exact h2

theorem reserveTotal_ok {s : State} {T : Table Elem} (h : TRel s T) {o : Nat} {es : List Elem} (ho : T o = some es)
    (n slack : Nat) : ∃ s' r', reserveTotal s o n slack = .ok s' ∧ TRel s' T ∧ s'.mem.objs o = some r' ∧ n ≤ r'.cap ∧
      r'.len = es.length ∧ s'.live = s.live ∧ s'.nextId = s.nextId ∧
      ∀ p, p ≠ o → s'.mem.objs p = s.mem.objs p := by
  cases hr : s.mem.objs o with
  | none => rw [(rel_none h.mem o).1 hr] at ho; cases ho
  | some r =>
    obtain ⟨es', ho', hh⟩ := rel_some h.mem hr
    rw [ho] at ho'; cases ho'
    have hlen := holds_len hh
    simp only [reserveTotal, this_ok hr]
    by_cases hc : n > r.cap
    · obtain ⟨m, r', h1, h2, h3, h4⟩ := rel_reserve h.mem hr (n - r.len) slack
      have hobjs : m.objs = s.mem.objs := by
        unfold Buffer.reserve at h1
        by_cases hcc : r.cap - r.len < n - r.len
        · rw [if_pos hcc] at h1
          cases hb : r.buf with
          | none => simp only [hb, alloc, Except.ok.injEq, Prod.mk.injEq] at h1; rw [← h1.1]
          | some j =>
            simp only [hb, alloc] at h1
            cases hj : s.mem.heap j with
            | none => simp [hj] at h1
            | some b =>
              simp only [hj, free] at h1
              split at h1
              · cases h1
              · next hf =>
                split at hf
                · cases hf
                · simp only [Except.ok.injEq, Prod.mk.injEq] at h1 hf
                  rw [← h1.1, ← hf]
        · rw [if_neg hcc] at h1
          simp only [Except.ok.injEq, Prod.mk.injEq] at h1
          rw [← h1.1]
      rw [if_pos hc]
      simp only [h1]
      refine ⟨_, r', rfl, ⟨h2, h.el⟩, by simp [place], by omega, by omega, rfl, rfl, ?_⟩
      intro p hp
      simp [place, upd_ne _ _ hp, hobjs]
    · rw [if_neg hc]
      exact ⟨s, r, rfl, h, hr, by omega, hlen, rfl, rfl, fun _ _ => rfl⟩

/-- The value of an argument that does not live in the vector being extended. -/
theorem emplaceBack_ok {s : State} {T : Table Elem} (h : TRel s T) {o : Nat} {es : List Elem} (ho : T o = some es)
    (arg : Arg) (slack : Nat) (v : Option Nat)
    (harg : ∀ s', TRel s' T → (∀ p, p ≠ o → s'.mem.objs p = s.mem.objs p) → arg.get s' = .ok v) :
    ∃ s', (match v with
      | none => emplaceBack s o arg slack = .ok (s', true) ∧ TRel s' T ∧ ∃ r, s'.mem.objs o = some r ∧ 0 < r.cap
      | some v => emplaceBack s o arg slack = .ok (s', false) ∧
          TRel s' (upd T o (some (es ++ [⟨s.nextId, v⟩])))) := by
  cases hr : s.mem.objs o with
  | none => rw [(rel_none h.mem o).1 hr] at ho; cases ho
  | some r =>
    obtain ⟨es', ho', hh⟩ := rel_some h.mem hr
    rw [ho] at ho'; cases ho'
    have hlen := holds_len hh
    obtain ⟨s1, r1, h1, h2, h3, h4, h5, h6, h7, h8⟩ := reserveTotal_ok h ho (r.len + 1) slack
    have hg := harg s1 h2 h8
    simp only [emplaceBack, this_ok hr, h1, this_ok h3, hg]
    cases v with
    | none => exact ⟨s1, rfl, h2, r1, h3, by omega⟩
    | some v =>
      obtain ⟨m, k1, k2, k3⟩ := rel_push h2.mem h3 (by omega) ⟨s1.nextId, v⟩ ho
      rw [show r.len = r1.len by omega]
      simp only [k1]
      refine ⟨_, rfl, ?_⟩
      rw [← h7]
      exact ⟨k3, einv_append h2.el ho v⟩

theorem copyBack_ok {s : State} {T : Table Elem} (h : TRel s T) {o : Nat} {es : List Elem} (ho : T o = some es)
    (f : Option Nat) (slack : Nat) (vs : List Nat) :
    ∃ s' es' b, copyBack s o f slack vs = .ok (s', b) ∧ TRel s' (upd T o (some (es ++ es'))) ∧
      (b = true ↔ Throws f vs) ∧ (b = false → es'.map (·.val) = vs) ∧
      (b = true → ∃ r, s'.mem.objs o = some r ∧ 0 < r.cap) := by
  induction vs generalizing s T es f with
  | nil =>
    refine ⟨s, [], false, rfl, ?_, by simp [Throws], by simp, by simp⟩
    rw [List.append_nil, ← ho, upd_self]; exact h
  | cons v vs ih =>
    simp only [copyBack]
    by_cases hf : f = some 0
    · subst hf
      obtain ⟨s', h1⟩ := emplaceBack_ok h ho .throws slack none (fun _ _ _ => rfl)
      simp only [if_pos, h1.1]
      refine ⟨s', [], true, rfl, ?_, ?_, by simp, fun _ => h1.2.2⟩
      · rw [List.append_nil, ← ho, upd_self]; exact h1.2.1
      · simp [Throws]
    · obtain ⟨s', h1⟩ := emplaceBack_ok h ho (.value v) slack (some v) (fun _ _ _ => rfl)
      simp only [if_neg hf, h1.1]
      obtain ⟨s'', es', b, k1, k2, k3, k4, k5⟩ := ih h1.2 (upd_same _ _ _) (f.map (· - 1))
      refine ⟨s'', ⟨s.nextId, v⟩ :: es', b, k1, ?_, ?_, ?_, k5⟩
      · rw [upd_upd, List.append_assoc] at k2; exact k2
      · rw [k3]
        unfold Throws
        constructor
        · rintro ⟨k, h2, h3⟩
          cases f with
          | none => simp at h2
          | some j =>
            simp at h2 hf
            exact ⟨j, rfl, by simp; omega⟩
        · rintro ⟨k, rfl, h3⟩
          simp at hf h3
          exact ⟨k - 1, rfl, by omega⟩
      · intro hb
        rw [List.map_cons, k4 hb]

/-- Dropping the vector at `o`: its elements and its buffer are gone. -/
theorem dropVec_ok {s : State} {T : Table Elem} (h : TRel s T) {o : Nat} {es : List Elem} (ho : T o = some es) :
    ∃ s1, dropVec s o = .ok s1 ∧ RelX (some o) s1.mem T ∧ EInv (upd T o none) s1.live s1.nextId ∧
      s1.mem.objs = s.mem.objs ∧ (∀ r i, s.mem.objs o = some r → r.buf = some i → s1.mem.heap i = none) ∧
      (∀ q r' es', q ≠ o → s.mem.objs q = some r' → Holds s.mem.heap r' es' → Holds s1.mem.heap r' es') := by
  cases hr : s.mem.objs o with
  | none => rw [(rel_none h.mem o).1 hr] at ho; cases ho
  | some r =>
    obtain ⟨es', ho', hh⟩ := rel_some h.mem hr
    rw [ho] at ho'; cases ho'
    obtain ⟨l, h1, h2⟩ := einv_drop h.el ho 0
    obtain ⟨m, k1, k2, k3, k4, k5⟩ := rel_drop h.mem hr
    simp only [List.drop_zero] at h1
    simp only [dropVec, this_ok hr, holds_elemsOf hh, h1, k1]
    refine ⟨_, rfl, k2, ?_, k3, ?_, k5⟩
    rotate_left
    · intro r' i hr' hb
      cases hr'
      unfold dropRepr free at k1
      rw [hb] at k1
      simp only at k1
      split at k1
      · cases k1
      · simp only [Except.ok.injEq] at k1; rw [← k1]; simp
    refine einv_congr h2 ?_
    intro p k
    by_cases hp : p = o
    · subst hp; simp [slot_upd_same]
    · simp [slot_upd_ne _ _ _ hp]

/-- Building a vector where none is. -/
theorem construct_ok {s : State} {T : Table Elem} {o : Nat} (hm : RelX (some o) s.mem T)
    (he : EInv (upd T o none) s.live s.nextId) (f : Option Nat) (slack : Nat) (vs : List Nat) :
    ∃ s' b, construct s o f slack vs = .ok (s', b) ∧ (b = true ↔ Throws f vs) ∧
      (b = false → ∃ es, TRel s' (upd T o (some es)) ∧ es.map (·.val) = vs) ∧
      (b = true → RelX (some o) s'.mem T ∧ EInv (upd T o none) s'.live s'.nextId ∧
        ∃ r i, s'.mem.objs o = some r ∧ r.buf = some i ∧ s'.mem.heap i = none) := by
  have h0 : TRel { s with mem := place s.mem o emptyRepr } (upd T o (some [])) := by
    refine ⟨rel_place_empty hm, ?_⟩
    refine einv_congr he ?_
    intro p k
    by_cases hp : p = o
    · subst hp; simp [slot_upd_same]
    · simp [slot_upd_ne _ _ _ hp]
  obtain ⟨s1, r1, h1, h2, h3, h4, h5, h6, h7, h8⟩ := reserveTotal_ok h0 (upd_same _ _ _) vs.length slack
  obtain ⟨s2, es', b, k1, k2, k3, k4, k5⟩ := copyBack_ok h2 (upd_same _ _ _) f slack vs
  simp only [construct, h1, k1]
  rw [List.nil_append, upd_upd] at k2
  cases b with
  | false =>
    refine ⟨s2, false, rfl, k3, fun _ => ⟨es', k2, k4 rfl⟩, by simp⟩
  | true =>
    obtain ⟨s3, j1, j2, j3, j4, j5, j6⟩ := dropVec_ok k2 (upd_same _ _ _)
    simp only [j1]
    refine ⟨s3, true, rfl, k3, by simp, fun _ => ⟨?_, ?_, ?_⟩⟩
    · refine ⟨?_, j2.uniq, j2.owned⟩
      intro p hp
      have := j2.objs p hp
      rwa [upd_ne _ _ (by simpa using hp)] at this
    · rw [upd_upd] at j3; exact j3
    · -- the capacity was not zero, so there was a buffer, and it is free now
      obtain ⟨r, e1, e2⟩ := k5 rfl
      obtain ⟨es2, _, hh⟩ := rel_some k2.mem e1
      cases hb : r.buf with
      | none => unfold Holds at hh; rw [hb] at hh; omega
      | some i => exact ⟨r, i, by rw [j4, e1], hb, j5 r i e1 hb⟩

theorem some_of_vrel {T : Table Elem} {a : Vecs} (hv : ∀ o, a o = (T o).map (·.map (·.val))) {o : Nat} {es : List Elem}
    (h : T o = some es) : a o = some (es.map (·.val)) := by rw [hv, h]; rfl

theorem none_of_vrel {T : Table Elem} {a : Vecs} (hv : ∀ o, a o = (T o).map (·.map (·.val))) {o : Nat} : a o = none ↔ T o = none := by
  rw [hv]; cases T o <;> simp

theorem upd_vrel {T : Table Elem} {a : Vecs} (hv : ∀ o, a o = (T o).map (·.map (·.val))) (o : Nat) (es : Option (List Elem)) :
    ∀ p, upd a o (es.map (·.map (·.val))) p = (upd T o es p).map (·.map (·.val)) := by
  intro p
  by_cases hp : p = o
  · subst hp; simp
  · simp [upd_ne _ _ hp, hv]

/-- Moving the elements of `src` into `o`, which has none. -/
theorem einv_move {T : Table Elem} {live : Nat → Bool} {n : Nat} {o src : Nat} (h : EInv (upd T o none) live n) (hne : o ≠ src)
    {es : List Elem} (hs : T src = some es) : EInv (upd (upd T o (some es)) src (some [])) live n := by
  refine einv_rename h (fun p => if p = o then src else p) ?_ ?_ ?_
  · intro p k e hp
    by_cases hps : p = src
    · subst hps; simp [slot_upd_same] at hp
    · rw [slot_upd_ne _ _ _ hps] at hp
      by_cases hpo : p = o
      · subst hpo
        rw [slot_upd_same] at hp
        simp only [if_pos]
        rw [slot_upd_ne _ _ _ (Ne.symm hne), slot_of hs]; exact hp
      · rw [slot_upd_ne _ _ _ hpo] at hp
        simp only [if_neg hpo]
        rw [slot_upd_ne _ _ _ hpo]; exact hp
  · intro p q k l e e' hp hq hpq
    have hps : p ≠ src := by rintro rfl; simp [slot_upd_same] at hp
    have hqs : q ≠ src := by rintro rfl; simp [slot_upd_same] at hq
    by_cases hpo : p = o <;> by_cases hqo : q = o <;> simp [hpo, hqo] at hpq ⊢
    · exact absurd hpq.symm hqs
    · exact absurd hpq hps
    · exact hpq
  · intro q k e hq
    have hqo : q ≠ o := by rintro rfl; simp [slot_upd_same] at hq
    rw [slot_upd_ne _ _ _ hqo] at hq
    by_cases hqs : q = src
    · subst hqs
      refine ⟨o, ?_⟩
      rw [slot_upd_ne _ _ _ hne, slot_upd_same]
      rw [slot_of hs] at hq; exact hq
    · refine ⟨q, ?_⟩
      rw [slot_upd_ne _ _ _ hqs, slot_upd_ne _ _ _ hqo]; exact hq

theorem einv_swap {T : Table Elem} {live : Nat → Bool} {n : Nat} {o p : Nat} (h : EInv T live n)
    {es fs : List Elem} (ho : T o = some es) (hp : T p = some fs) : EInv (upd (upd T o (some fs)) p (some es)) live n := by
  have key : ∀ q k, slot (upd (upd T o (some fs)) p (some es)) q k = slot T (if q = p then o else if q = o then p else q) k := by
    intro q k
    by_cases hqp : q = p
    · subst hqp; simp [slot_upd_same, slot_of ho]
    · rw [slot_upd_ne _ _ _ hqp]
      by_cases hqo : q = o
      · subst hqo; simp [slot_upd_same, slot_of hp, hqp]
      · rw [slot_upd_ne _ _ _ hqo]; simp [hqp, hqo]
  refine einv_rename h (fun q => if q = p then o else if q = o then p else q) ?_ ?_ ?_
  · intro q k e hq; rw [key] at hq; exact hq
  · intro q1 q2 _ _ _ _ _ _ hq; grind
  · intro q k e hq
    refine ⟨if q = p then o else if q = o then p else q, ?_⟩
    rw [key]
    rw [← hq]; congr 1; grind

/-- What reading through an argument that refers to an element gives. -/
theorem cell_get {s : State} {T : Table Elem} (h : TRel s T) {p : Nat} {r : Repr} {es : List Elem}
    (hr : s.mem.objs p = some r) (hp : T p = some es) {k : Nat} {e : Elem} (hk : es[k]? = some e) :
    (Arg.cell r.buf k).get s = .ok (some e.val) := by
  obtain ⟨es', hp', hh⟩ := rel_some h.mem hr
  rw [hp] at hp'; cases hp'
  cases hb : r.buf with
  | none => unfold Holds at hh; rw [hb] at hh; simp [hh.1] at hk
  | some i =>
    obtain ⟨rest, h1, _⟩ := holds_buf hh hb
    have hkl : k < es.length := by
      rcases Nat.lt_or_ge k es.length with hk' | hk'
      · exact hk'
      · rw [List.getElem?_eq_none hk'] at hk; cases hk
    have : (es.map some ++ rest)[k]? = some (some e) := by
      rw [List.getElem?_append_left (by simpa using hkl), List.getElem?_map, hk]; rfl
    simp only [Arg.get, h1, this]

theorem rel_obj {s : State} {T : Table Elem} (h : TRel s T) {o : Nat} {es : List Elem} (ho : T o = some es) :
    ∃ r, s.mem.objs o = some r ∧ Holds s.mem.heap r es := by
  cases hr : s.mem.objs o with
  | none => rw [(rel_none h.mem o).1 hr] at ho; cases ho
  | some r =>
    obtain ⟨es', ho', hh⟩ := rel_some h.mem hr
    rw [ho] at ho'; cases ho'
    exact ⟨r, rfl, hh⟩

theorem truncate_ok {s : State} {T : Table Elem} (h : TRel s T) {o : Nat} {es : List Elem} (ho : T o = some es) (n : Nat) :
    ∃ s', truncate s o n = .ok s' ∧ TRel s' (upd T o (some (es.take n))) := by
  obtain ⟨r, hr, hh⟩ := rel_obj h ho
  have hlen := holds_len hh
  simp only [truncate, this_ok hr, holds_elemsOf hh]
  by_cases hn : n > r.len
  · rw [if_pos hn]
    refine ⟨s, rfl, ?_⟩
    rw [List.take_of_length_le (by omega), ← ho, upd_self]; exact h
  · rw [if_neg hn]
    obtain ⟨l, h1, h2⟩ := einv_drop h.el ho n
    simp only [h1]
    exact ⟨_, rfl, ⟨rel_truncate h.mem hr ho (by omega), h2⟩⟩

/-- Every safe legal operation succeeds as specified, every illegal one is refused. -/
theorem step_refines {s : State} {a : Vecs} (h : VRel s a) (op : Op) (hsafe : Safe op) :
    (¬ Legal a op ∧ step s op = .error .illegal) ∨
    (Legal a op ∧ ∃ s' a' b, step s op = .ok (s', b) ∧ Step a op a' b ∧ VRel s' a') := by
  obtain ⟨T, ht, hv⟩ := h
  have hnone : ∀ o, s.mem.objs o = none → a o = none := fun o ho => (none_of_vrel hv).2 ((rel_none ht.mem o).1 ho)
  have hsome : ∀ o r, s.mem.objs o = some r → ∃ es, T o = some es ∧ a o = some (es.map (·.val)) ∧ Holds s.mem.heap r es := by
    intro o r ho
    obtain ⟨es, h1, h2⟩ := rel_some ht.mem ho
    exact ⟨es, h1, some_of_vrel hv h1, h2⟩
  have hfree : ∀ o, s.mem.objs o = none → RelX (some o) s.mem T ∧ EInv (upd T o none) s.live s.nextId := by
    intro o ho
    refine ⟨rel_skip ht.mem ho, ?_⟩
    rw [← (rel_none ht.mem o).1 ho, upd_self]; exact ht.el
  cases op with
  | ctor o =>
    simp only [Legal, step]
    cases ho : s.mem.objs o with
    | some r => obtain ⟨es, _, h2, _⟩ := hsome o r ho; exact Or.inl ⟨by simp [h2], rfl⟩
    | none =>
      refine Or.inr ⟨hnone o ho, _, _, _, rfl, .ctor (hnone o ho), upd T o (some []), ⟨rel_place_empty (hfree o ho).1, ?_⟩,
        upd_vrel hv o (some [])⟩
      refine einv_congr (hfree o ho).2 ?_
      intro p k
      by_cases hp : p = o
      · subst hp; simp [slot_upd_same]
      · simp [slot_upd_ne _ _ _ hp]
  | initList o vs f c =>
    simp only [Legal, step]
    cases ho : s.mem.objs o with
    | some r => obtain ⟨es, _, h2, _⟩ := hsome o r ho; exact Or.inl ⟨by simp [h2], rfl⟩
    | none =>
      refine Or.inr ⟨hnone o ho, ?_⟩
      obtain ⟨s', b, h1, h2, h3, h4⟩ := construct_ok (hfree o ho).1 (hfree o ho).2 f c vs
      rw [h1]
      cases b with
      | false =>
        obtain ⟨es, k1, k2⟩ := h3 rfl
        refine ⟨_, _, _, rfl, .initList (hnone o ho) (by rw [← h2]; simp), upd T o (some es), k1, ?_⟩
        rw [← k2]; exact upd_vrel hv o (some es)
      | true =>
        obtain ⟨k1, k2, _⟩ := h4 rfl
        refine ⟨_, _, _, rfl, .initListThrow (hnone o ho) (h2.1 rfl), upd T o none, ⟨rel_remove k1, k2⟩, ?_⟩
        have := upd_vrel hv o none
        rwa [Option.map_none, ← hnone o ho, upd_self] at this
  | copyCtor o src f c =>
    simp only [Legal, step]
    cases ho : s.mem.objs o with
    | some r => obtain ⟨es, _, h2, _⟩ := hsome o r ho; exact Or.inl ⟨by simp [h2], rfl⟩
    | none =>
      cases hs : s.mem.objs src with
      | none => exact Or.inl ⟨by simp [hnone src hs], by simp [elems, this, hs]⟩
      | some rs =>
        obtain ⟨es0, e1, e2, e3⟩ := hsome src rs hs
        refine Or.inr ⟨⟨hnone o ho, by simp [e2]⟩, ?_⟩
        obtain ⟨s', b, h1, h2, h3, h4⟩ := construct_ok (hfree o ho).1 (hfree o ho).2 f c (es0.map (·.val))
        simp only [elems, this_ok hs, holds_elemsOf e3, h1]
        cases b with
        | false =>
          obtain ⟨es, k1, k2⟩ := h3 rfl
          refine ⟨_, _, _, rfl, .copyCtor (hnone o ho) e2 (by rw [← h2]; simp), upd T o (some es), k1, ?_⟩
          rw [← k2]; exact upd_vrel hv o (some es)
        | true =>
          obtain ⟨k1, k2, _⟩ := h4 rfl
          refine ⟨_, _, _, rfl, .copyCtorThrow (hnone o ho) e2 (h2.1 rfl), upd T o none, ⟨rel_remove k1, k2⟩, ?_⟩
          have := upd_vrel hv o none
          rwa [Option.map_none, ← hnone o ho, upd_self] at this
  | moveCtor o src =>
    simp only [Legal, step]
    cases ho : s.mem.objs o with
    | some r => obtain ⟨es, _, h2, _⟩ := hsome o r ho; exact Or.inl ⟨by simp [h2], rfl⟩
    | none =>
      cases hs : s.mem.objs src with
      | none => exact Or.inl ⟨by simp [hnone src hs], rfl⟩
      | some rs =>
        obtain ⟨es0, e1, e2, e3⟩ := hsome src rs hs
        have hne : o ≠ src := by rintro rfl; rw [ho] at hs; cases hs
        refine Or.inr ⟨⟨hnone o ho, by simp [e2]⟩, _, _, _, rfl, .moveCtor (hnone o ho) e2,
          upd (upd T o (some es0)) src (some []), ⟨rel_move (hfree o ho).1 hne hs e1, einv_move (hfree o ho).2 hne e1⟩, ?_⟩
        exact upd_vrel (upd_vrel hv o (some es0)) src (some [])
  | copyAssign o src f c =>
    simp only [Safe] at hsafe
    subst hsafe
    simp only [Legal, step]
    cases ho : s.mem.objs o with
    | none => exact Or.inl ⟨by simp [hnone o ho], rfl⟩
    | some ro =>
      cases hs : s.mem.objs src with
      | none => exact Or.inl ⟨by simp [hnone src hs], rfl⟩
      | some rs =>
        obtain ⟨fs, f1, f2, f3⟩ := hsome o ro ho
        obtain ⟨es0, e1, e2, e3⟩ := hsome src rs hs
        refine Or.inr ⟨⟨by simp [f2], by simp [e2]⟩, ?_⟩
        by_cases hne : o = src
        · subst hne
          refine ⟨s, _, _, by simp, .copyAssign f2 f2, T, ht, ?_⟩
          rw [← f2, upd_self]; exact hv
        · obtain ⟨s1, h1, h2, h3, h4, h5, h6⟩ := dropVec_ok ht f1
          have hs1 : s1.mem.objs src = some rs := by rw [h4, hs]
          obtain ⟨s', b, j1, j2, j3, j4⟩ := construct_ok h2 h3 none c (es0.map (·.val))
          simp only [ne_eq, hne, not_false_iff, if_true, h1, elems, this_ok hs1,
            holds_elemsOf (h6 src rs es0 (Ne.symm hne) hs e3), j1]
          cases b with
          | false =>
            obtain ⟨es, k1, k2⟩ := j3 rfl
            refine ⟨_, _, _, rfl, .copyAssign f2 e2, upd T o (some es), k1, ?_⟩
            rw [← k2]; exact upd_vrel hv o (some es)
          | true => obtain ⟨k, hk, _⟩ := j2.1 rfl; cases hk
  | moveAssign o src =>
    simp only [Legal, step]
    cases ho : s.mem.objs o with
    | none => exact Or.inl ⟨by simp [hnone o ho], rfl⟩
    | some ro =>
      cases hs : s.mem.objs src with
      | none => exact Or.inl ⟨by simp [hnone src hs], rfl⟩
      | some rs =>
        obtain ⟨fs, f1, f2, f3⟩ := hsome o ro ho
        obtain ⟨es0, e1, e2, e3⟩ := hsome src rs hs
        refine Or.inr ⟨⟨by simp [f2], by simp [e2]⟩, ?_⟩
        obtain ⟨s1, h1, h2, h3, h4, h5, h6⟩ := dropVec_ok ht f1
        have hs1 : s1.mem.objs src = some rs := by rw [h4, hs]
        simp only [h1, hs1]
        by_cases hne : o = src
        · subst hne
          refine ⟨_, _, _, rfl, .moveAssign f2 e2, upd T o (some []), ⟨?_, ?_⟩, ?_⟩
          · have := rel_place_empty h2
            simpa [place, upd_upd, emptyRepr] using this
          · refine einv_congr h3 ?_
            intro p k
            by_cases hp : p = o
            · subst hp; simp [slot_upd_same]
            · simp [slot_upd_ne _ _ _ hp]
          · rw [upd_upd]; exact upd_vrel hv o (some [])
        · refine ⟨_, _, _, rfl, .moveAssign f2 e2, upd (upd T o (some es0)) src (some []),
            ⟨rel_move h2 hne hs1 e1, einv_move h3 hne e1⟩, ?_⟩
          exact upd_vrel (upd_vrel hv o (some es0)) src (some [])
  | push o v c =>
    simp only [Legal, step]
    cases ho : s.mem.objs o with
    | none => exact Or.inl ⟨by simp [hnone o ho], by simp [emplaceBack, this, ho]⟩
    | some r =>
      obtain ⟨es, f1, f2, f3⟩ := hsome o r ho
      obtain ⟨s', h1⟩ := emplaceBack_ok ht f1 (.value v) c (some v) (fun _ _ _ => rfl)
      simp only [h1.1]
      refine Or.inr ⟨by simp [f2], _, _, _, rfl, .push f2, _, h1.2, ?_⟩
      have := upd_vrel hv o (some (es ++ [⟨s.nextId, v⟩]))
      rwa [Option.map_some, List.map_append] at this
  | pushThrow o c =>
    simp only [Legal, step]
    cases ho : s.mem.objs o with
    | none => exact Or.inl ⟨by simp [hnone o ho], by simp [emplaceBack, this, ho]⟩
    | some r =>
      obtain ⟨es, f1, f2, f3⟩ := hsome o r ho
      obtain ⟨s', h1⟩ := emplaceBack_ok ht f1 .throws c none (fun _ _ _ => rfl)
      simp only [h1.1]
      exact Or.inr ⟨by simp [f2], _, _, _, rfl, .pushThrow f2, T, h1.2.1, hv⟩
  | pushFrom o p k c =>
    simp only [Safe] at hsafe
    simp only [Legal, step]
    cases ho : s.mem.objs o with
    | none => exact Or.inl ⟨by simp [hnone o ho], rfl⟩
    | some r =>
      cases hp : s.mem.objs p with
      | none => exact Or.inl ⟨by simp [hnone p hp], rfl⟩
      | some rp =>
        obtain ⟨es, f1, f2, f3⟩ := hsome o r ho
        obtain ⟨es0, e1, e2, e3⟩ := hsome p rp hp
        have hlen := holds_len e3
        by_cases hk : k < rp.len
        · obtain ⟨e, he⟩ : ∃ e, es0[k]? = some e := ⟨es0[k], by simp⟩
          obtain ⟨s', h1⟩ := emplaceBack_ok ht f1 (.cell rp.buf k) c (some e.val) (by
            intro s' hs' ho'
            exact cell_get hs' (by rw [ho' p (Ne.symm hsafe), hp]) e1 he)
          simp only [if_pos hk, h1.1]
          refine Or.inr ⟨⟨by simp [f2], _, e2, by simp; omega⟩, _, _, _, rfl,
            .pushFrom (v := e.val) f2 e2 (by rw [List.getElem?_map, he]; rfl), _, h1.2, ?_⟩
          have := upd_vrel hv o (some (es ++ [⟨s.nextId, e.val⟩]))
          rwa [Option.map_some, List.map_append] at this
        · simp only [if_neg hk]
          refine Or.inl ⟨?_, trivial⟩
          rintro ⟨_, vs, h1, h2⟩
          rw [e2] at h1; cases h1
          simp at h2; omega
  | set o k v =>
    simp only [Legal, step]
    cases ho : s.mem.objs o with
    | none => exact Or.inl ⟨by simp [hnone o ho], rfl⟩
    | some r =>
      obtain ⟨es, f1, f2, f3⟩ := hsome o r ho
      have hlen := holds_len f3
      by_cases hk : k < r.len
      · obtain ⟨e, he⟩ : ∃ e, es[k]? = some e := ⟨es[k], by simp⟩
        obtain ⟨m, h1, h2⟩ := rel_set ht.mem ho f1 (k := k) (by omega) { e with val := v }
        simp only [if_pos hk, holds_elemsOf f3, he, h1]
        refine Or.inr ⟨⟨_, f2, by simp; omega⟩, _, _, _, rfl, .set f2 (by simp; omega), _, ⟨h2, einv_set ht.el f1 he v⟩, ?_⟩
        simpa [List.map_set] using upd_vrel hv o (some (es.set k { e with val := v }))
      · simp only [if_neg hk]
        refine Or.inl ⟨?_, trivial⟩
        rintro ⟨vs, h1, h2⟩
        rw [f2] at h1; cases h1
        simp at h2; omega
  | «at» o k =>
    simp only [Legal, step]
    cases ho : s.mem.objs o with
    | none => exact Or.inl ⟨by simp [hnone o ho], rfl⟩
    | some r =>
      obtain ⟨es, f1, f2, f3⟩ := hsome o r ho
      have hlen := holds_len f3
      refine Or.inr ⟨by simp [f2], ?_⟩
      by_cases hk : k ≥ r.len
      · simp only [if_pos hk]
        exact ⟨_, _, _, rfl, .atThrow f2 (by rw [List.getElem?_eq_none]; simp; omega), T, ht, hv⟩
      · obtain ⟨e, he⟩ : ∃ e, es[k]? = some e := ⟨es[k], by simp⟩
        simp only [if_neg hk, cell_get ht ho f1 he]
        exact ⟨_, _, _, rfl, .at f2 (by rw [List.getElem?_map, he]; rfl), T, ht, hv⟩
  | reserve o n c =>
    simp only [Legal, step]
    cases ho : s.mem.objs o with
    | none => exact Or.inl ⟨by simp [hnone o ho], by simp [reserveTotal, this, ho]⟩
    | some r =>
      obtain ⟨es, f1, f2, f3⟩ := hsome o r ho
      obtain ⟨s', r', h1, h2, _⟩ := reserveTotal_ok ht f1 n c
      simp only [h1]
      exact Or.inr ⟨by simp [f2], _, _, _, rfl, .reserve f2, T, h2, hv⟩
  | truncate o n =>
    simp only [Legal, step]
    cases ho : s.mem.objs o with
    | none => exact Or.inl ⟨by simp [hnone o ho], by simp [truncate, this, ho]⟩
    | some r =>
      obtain ⟨es, f1, f2, f3⟩ := hsome o r ho
      obtain ⟨s', h1, h2⟩ := truncate_ok ht f1 n
      simp only [h1]
      refine Or.inr ⟨by simp [f2], _, _, _, rfl, .truncate f2, _, h2, ?_⟩
      simpa [List.map_take] using upd_vrel hv o (some (es.take n))
  | clear o =>
    simp only [Legal, step]
    cases ho : s.mem.objs o with
    | none => exact Or.inl ⟨by simp [hnone o ho], by simp [truncate, this, ho]⟩
    | some r =>
      obtain ⟨es, f1, f2, f3⟩ := hsome o r ho
      obtain ⟨s', h1, h2⟩ := truncate_ok ht f1 0
      simp only [h1]
      refine Or.inr ⟨by simp [f2], _, _, _, rfl, .clear f2, _, h2, ?_⟩
      simpa using upd_vrel hv o (some (es.take 0))
  | swap o p =>
    simp only [Legal, step]
    cases ho : s.mem.objs o with
    | none => exact Or.inl ⟨by simp [hnone o ho], rfl⟩
    | some ro =>
      cases hp : s.mem.objs p with
      | none => exact Or.inl ⟨by simp [hnone p hp], rfl⟩
      | some rp =>
        obtain ⟨es, f1, f2, f3⟩ := hsome o ro ho
        obtain ⟨fs, e1, e2, e3⟩ := hsome p rp hp
        refine Or.inr ⟨⟨by simp [f2], by simp [e2]⟩, _, _, _, rfl, .swap f2 e2, _,
          ⟨rel_swap ht.mem ho hp f1 e1, einv_swap ht.el f1 e1⟩, ?_⟩
        exact upd_vrel (upd_vrel hv o (some fs)) p (some es)
  | read o =>
    simp only [Legal, step]
    cases ho : s.mem.objs o with
    | none => exact Or.inl ⟨by simp [hnone o ho], by simp [elems, this, ho]⟩
    | some r =>
      obtain ⟨es, f1, f2, f3⟩ := hsome o r ho
      simp only [elems, this_ok ho, holds_elemsOf f3]
      exact Or.inr ⟨by simp [f2], _, _, _, rfl, .read f2, T, ht, hv⟩
  | destroy o =>
    simp only [Legal, step]
    cases ho : s.mem.objs o with
    | none => exact Or.inl ⟨by simp [hnone o ho], by simp [dropVec, this, ho]⟩
    | some r =>
      obtain ⟨es, f1, f2, f3⟩ := hsome o r ho
      obtain ⟨s1, h1, h2, h3, h4, h5, h6⟩ := dropVec_ok ht f1
      simp only [h1]
      exact Or.inr ⟨by simp [f2], _, _, _, rfl, .destroy f2, upd T o none, ⟨rel_remove h2, h3⟩, upd_vrel hv o none⟩

theorem run_refines : ∀ (ops : List Op) (s : State) (a : Vecs), VRel s a → (∀ op ∈ ops, Safe op) →
    (∃ s' a' obs, runOps step s ops = .ok (s', obs) ∧ Run a ops a' obs ∧ VRel s' a') ∨
    (runOps step s ops = .error .illegal ∧
      ∃ pre op post a' obs, ops = pre ++ op :: post ∧ Run a pre a' obs ∧ ¬ Legal a' op) := by
  intro ops
  induction ops with
  | nil => intro s a h _; exact Or.inl ⟨s, a, [], rfl, .nil, h⟩
  | cons op ops ih =>
    intro s a h hu
    rcases step_refines h op (hu op (by simp)) with ⟨h1, h2⟩ | ⟨_, s', a', b, h1, h2, h3⟩
    · exact Or.inr ⟨by simp [runOps, h2], [], op, ops, a, [], rfl, .nil, h1⟩
    · rcases ih s' a' h3 (fun x hx => hu x (by simp [hx])) with ⟨s'', a'', bs, k1, k2, k3⟩ | ⟨k1, pre, o, post, c, xs, k2, k3, k4⟩
      · exact Or.inl ⟨s'', a'', b :: bs, by simp [runOps, h1, k1], .cons h2 k2, k3⟩
      · exact Or.inr ⟨by simp [runOps, h1, k1], op :: pre, o, post, c, b :: xs, by simp [k2], .cons h2 k3, k4⟩

/-- **C09** (partial). Any history of operations on any number of `rust::Vec` objects, except for
copy-assignments whose element copy throws and `push_back` of a reference into the same vector, either
is one in which the program itself broke a precondition, or runs without undefined behaviour, shows
exactly what independent sequences would show, and ends in a state where no two live vectors share a
buffer, an element is alive exactly when it sits in a live vector, in one place only, every buffer
belongs to a live vector, and so neither elements nor buffers are left when no vector is.
Missing: the two exceptions, of which the full claim is false (`vec_push_own_element`,
`vec_copy_assign_throw`). -/
theorem vec_histories_partial (ops : List Op) (hsafe : ∀ op ∈ ops, Safe op) :
    (∃ s a obs, runOps step init ops = .ok (s, obs) ∧ Run (fun _ => none) ops a obs ∧
      (∀ o, s.mem.objs o = none ↔ a o = none) ∧
      (∀ o r, s.mem.objs o = some r → ∃ es, elemsOf s.mem r = .ok es ∧ a o = some (es.map (·.val))) ∧
      (∀ o p r r' i, s.mem.objs o = some r → s.mem.objs p = some r' → r.buf = some i → r'.buf = some i → o = p) ∧
      (∀ o p r r' es fs (k l : Nat) (e f : Elem), s.mem.objs o = some r → s.mem.objs p = some r' → elemsOf s.mem r = .ok es →
        elemsOf s.mem r' = .ok fs → es[k]? = some e → fs[l]? = some f → e.id = f.id → o = p ∧ k = l) ∧
      (∀ i, s.live i = true ↔ ∃ o r es e, s.mem.objs o = some r ∧ elemsOf s.mem r = .ok es ∧ e ∈ es ∧ e.id = i) ∧
      (∀ i, s.mem.heap i ≠ none → ∃ o r, s.mem.objs o = some r ∧ r.buf = some i) ∧
      ((∀ o, s.mem.objs o = none) → (∀ i, s.mem.heap i = none) ∧ ∀ i, s.live i = false)) ∨
    (runOps step init ops = .error .illegal ∧
      ∃ pre op post a obs, ops = pre ++ op :: post ∧ Run (fun _ => none) pre a obs ∧ ¬ Legal a op) := by
  rcases run_refines ops init _ vrel_init hsafe with ⟨s, a, obs, h1, h2, T, ht, hv⟩ | h
  · have hel : ∀ o r es, s.mem.objs o = some r → elemsOf s.mem r = .ok es → T o = some es := by
      intro o r es ho he
      obtain ⟨es', k1, k2⟩ := rel_some ht.mem ho
      rw [holds_elemsOf k2] at he; cases he
      exact k1
    have hlive : ∀ i, s.live i = true ↔ ∃ o r es e, s.mem.objs o = some r ∧ elemsOf s.mem r = .ok es ∧ e ∈ es ∧ e.id = i := by
      intro i
      rw [ht.el.live_iff]
      constructor
      · rintro ⟨o, k, e, hs, he⟩
        cases hT : T o with
        | none => simp [slot, hT] at hs
        | some es =>
          obtain ⟨r, hr, hh⟩ := rel_obj ht hT
          rw [slot_of hT] at hs
          exact ⟨o, r, es, e, hr, holds_elemsOf hh, List.mem_iff_getElem?.2 ⟨k, hs⟩, he⟩
      · rintro ⟨o, r, es, e, hr, hes, hm, he⟩
        obtain ⟨k, hk⟩ := List.mem_iff_getElem?.1 hm
        exact ⟨o, k, e, by rw [slot_of (hel o r es hr hes)]; exact hk, he⟩
    refine Or.inl ⟨s, a, obs, h1, h2, ?_, ?_, ?_, ?_, hlive, ?_, ?_⟩
    · intro o; rw [rel_none ht.mem, none_of_vrel hv]
    · intro o r hr
      obtain ⟨es, k1, k2⟩ := rel_some ht.mem hr
      exact ⟨es, holds_elemsOf k2, some_of_vrel hv k1⟩
    · intro o p r r' i; exact ht.mem.uniq o p r r' i (by simp) (by simp)
    · intro o p r r' es fs k l e f h3 h4 h5 h6 h7 h8 h9
      exact ht.el.uniq o k p l e f (by rw [slot_of (hel o r es h3 h5)]; exact h7)
        (by rw [slot_of (hel p r' fs h4 h6)]; exact h8) h9
    · intro i hi
      obtain ⟨_, p, r, _, k1, k2⟩ := ht.mem.owned i hi
      exact ⟨p, r, k1, k2⟩
    · intro hnone
      refine ⟨rel_no_leak ht.mem hnone, ?_⟩
      intro i
      cases hi : s.live i with
      | false => rfl
      | true =>
        obtain ⟨o, r, _, _, hr, _⟩ := (hlive i).1 hi
        rw [hnone o] at hr; cases hr
  · exact Or.inr h

/-- **C09**, the exception of pushing an element of the vector itself: in any state reached by safe
operations, `v.push_back(v[k])` appends that value when there is spare capacity, and reads freed
memory otherwise. -/
theorem vec_push_own_element (ops : List Op) (hsafe : ∀ op ∈ ops, Safe op) (s : State) (obs : List Obs)
    (hrun : runOps step init ops = .ok (s, obs)) (o k slack : Nat) (r : Repr) (es : List Elem)
    (ho : s.mem.objs o = some r) (he : elemsOf s.mem r = .ok es) (hk : k < es.length) :
    (r.len < r.cap → ∃ s' r' es' e, step s (.pushFrom o o k slack) = .ok (s', .done) ∧ s'.mem.objs o = some r' ∧
      elemsOf s'.mem r' = .ok es' ∧ es[k]? = some e ∧ es'.map (·.val) = es.map (·.val) ++ [e.val]) ∧
    (r.len = r.cap → step s (.pushFrom o o k slack) = .error .ub) := by
  rcases run_refines ops init _ vrel_init hsafe with ⟨s0, a, obs0, h1, h2, T, ht, hv⟩ | ⟨h1, _⟩
  · rw [hrun] at h1
    cases h1
    obtain ⟨es', k1, k2⟩ := rel_some ht.mem ho
    rw [holds_elemsOf k2] at he; cases he
    have hlen := holds_len k2
    have hkr : k < r.len := by omega
    obtain ⟨e, hek⟩ : ∃ e, es[k]? = some e := ⟨es[k], by simp⟩
    constructor
    · intro hc
      have hres : reserveTotal s o (r.len + 1) slack = .ok s := by
        simp only [reserveTotal, this_ok ho]
        rw [if_neg (by omega)]
      obtain ⟨m, j1, j2, j3⟩ := rel_push ht.mem ho hc ⟨s.nextId, e.val⟩ k1
      obtain ⟨r', hr', hh'⟩ := rel_obj (s := ⟨_, upd s.live s.nextId true, s.nextId + 1⟩)
        ⟨j3, einv_append ht.el k1 e.val⟩ (upd_same _ _ _)
      refine ⟨_, r', _, e, ?_, hr', holds_elemsOf hh', hek, by rw [List.map_append]; rfl⟩
      simp only [step, ho, if_pos hkr, emplaceBack, this_ok ho, hres, cell_get ht ho k1 hek, j1]
      rfl
    · intro hc
      simp only [step, ho, if_pos hkr, emplaceBack, this_ok ho, reserveTotal]
      rw [if_pos (by omega)]
      cases hb : r.buf with
      | none => unfold Holds at k2; rw [hb] at k2; omega
      | some i =>
        obtain ⟨rest, m1, m2, m3⟩ := holds_buf k2 hb
        have hi : i < s.mem.next := (ht.mem.owned i (by simp [m1])).1
        simp only [Buffer.reserve]
        rw [if_pos (by omega)]
        simp only [hb, m1, alloc, free, upd_ne _ _ (show i ≠ s.mem.next by omega)]
        simp [place, this, Arg.get]
  · rw [hrun] at h1; cases h1

/-- **C09**, the exception of copy-assignment: in any state reached by safe operations, if copying an
element throws, the exception leaves the assigned-to vector in a state in which its own destructor is
undefined behaviour (its buffer has been freed already). -/
theorem vec_copy_assign_throw (ops : List Op) (hsafe : ∀ op ∈ ops, Safe op) (s : State) (obs : List Obs)
    (hrun : runOps step init ops = .ok (s, obs)) (o src k slack : Nat) (ro rs : Repr) (es : List Elem) (hne : o ≠ src)
    (ho : s.mem.objs o = some ro) (hs : s.mem.objs src = some rs) (he : elemsOf s.mem rs = .ok es) (hk : k < es.length) :
    ∃ s', step s (.copyAssign o src (some k) slack) = .ok (s', .threw) ∧ s'.mem.objs o ≠ none ∧
      step s' (.destroy o) = .error .ub := by
  rcases run_refines ops init _ vrel_init hsafe with ⟨s0, a, obs0, h1, h2, T, ht, hv⟩ | ⟨h1, _⟩
  · rw [hrun] at h1
    cases h1
    obtain ⟨es', k1, k2⟩ := rel_some ht.mem hs
    rw [holds_elemsOf k2] at he; cases he
    obtain ⟨fs, f1, f2⟩ := rel_some ht.mem ho
    obtain ⟨s1, h1, h2, h3, h4, h5, h6⟩ := dropVec_ok ht f1
    have hs1 : s1.mem.objs src = some rs := by rw [h4, hs]
    obtain ⟨s', b, j1, j2, j3, j4⟩ := construct_ok h2 h3 (some k) slack (es.map (·.val))
    have hb : b = true := j2.2 ⟨k, rfl, by simpa using hk⟩
    subst hb
    obtain ⟨_, _, r, i, m1, m2, m3⟩ := j4 rfl
    refine ⟨s', ?_, by simp [m1], ?_⟩
    · simp only [step, ho, hs, ne_eq, hne, not_false_iff, if_true, h1, elems, this_ok hs1,
        holds_elemsOf (h6 src rs es (Ne.symm hne) hs k2), j1]
    · simp [step, dropVec, this_ok m1, elemsOf, m2, m3]
  · rw [hrun] at h1; cases h1

/-- **C09**, `reserve`. In any state reached by safe operations, `reserve(n)` on a live vector leaves
it with capacity at least `n` and keeps every vector's elements (identity included). -/
theorem vec_reserve_capacity (ops : List Op) (hsafe : ∀ op ∈ ops, Safe op) (s : State) (obs : List Obs)
    (hrun : runOps step init ops = .ok (s, obs)) (o n slack : Nat) (r : Repr) (ho : s.mem.objs o = some r) :
    ∃ s' r', step s (.reserve o n slack) = .ok (s', .done) ∧ s'.mem.objs o = some r' ∧ n ≤ r'.cap ∧
      ∀ p rp es, s.mem.objs p = some rp → elemsOf s.mem rp = .ok es →
        ∃ rp', s'.mem.objs p = some rp' ∧ elemsOf s'.mem rp' = .ok es := by
  rcases run_refines ops init _ vrel_init hsafe with ⟨s0, a, obs0, h1, h2, T, ht, hv⟩ | ⟨h1, _⟩
  · rw [hrun] at h1
    cases h1
    obtain ⟨es, k1, k2⟩ := rel_some ht.mem ho
    obtain ⟨s', r', j1, j2, j3, j4, _⟩ := reserveTotal_ok ht k1 n slack
    refine ⟨s', r', by simp [step, j1], j3, j4, ?_⟩
    intro p rp fs hp hf
    obtain ⟨fs', m1, m2⟩ := rel_some ht.mem hp
    rw [holds_elemsOf m2] at hf; cases hf
    obtain ⟨rp', n1, n2⟩ := rel_obj j2 m1
    exact ⟨rp', n1, holds_elemsOf n2⟩
  · rw [hrun] at h1; cases h1


-- construction, a throwing copy, pushes across a reallocation, truncation, self-move, swap, destruction
example : (runOps step init [.initList 0 [1, 2] none 0, .copyCtor 1 0 (some 1) 0, .copyCtor 1 0 none 0, .push 0 3 0,
    .pushFrom 1 0 2 0, .set 1 0 9, .at 1 2, .at 1 3, .truncate 0 1, .read 0, .swap 0 1, .read 0, .copyAssign 1 0 none 0,
    .moveAssign 0 0, .read 0, .pushThrow 1 0, .read 1, .clear 1, .destroy 1, .destroy 0]).map (·.2) =
  .ok [.done, .threw, .done, .done, .done, .done, .value 3, .threw, .done, .values [1], .done, .values [9, 2, 3], .done,
    .done, .values [], .threw, .values [9, 2, 3], .done, .done, .done] := by decide +kernel

-- the exceptions are reachable
example : (runOps step init [.initList 0 [1] none 0, .pushFrom 0 0 0 0]).map (·.2) = .error .ub := by decide +kernel
example : (runOps step init [.initList 0 [1] none 0, .initList 1 [2, 3] none 0, .copyAssign 0 1 (some 1) 0]).map (·.2) =
    .ok [.done, .done, .threw] ∧
  (runOps step init [.initList 0 [1] none 0, .initList 1 [2, 3] none 0, .copyAssign 0 1 (some 1) 0, .destroy 0]).map (·.2) =
    .error .ub := by decide +kernel

end Verif.RustVec
