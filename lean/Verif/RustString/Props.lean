import Verif.RustString.Spec
import Verif.Utf8.Props
/-!
# C02, C03
-/
namespace Verif.RustString
open Verif Utf8 Utf8.Spec Spec

/-- `r` is a string with contents `bs` in heap `h`. -/
def Holds (h : Nat → Option Buf) (r : Repr) (bs : List Nat) : Prop :=
  match r.buf with
  | none => bs = [] ∧ r.len = 0 ∧ r.cap = 0
  | some i => ∃ rest, h i = some (bs.map some ++ rest) ∧ r.len = bs.length ∧ r.cap = bs.length + rest.length

/-- The machine state `s` represents the strings `a`, where the object at `skip` is being rebuilt:
every other live object holds its string in a buffer of its own, and there are no other buffers. -/
structure RelX (skip : Option Nat) (s : State) (a : Strings) : Prop where
  objs : ∀ p, some p ≠ skip → (s.objs p = none ∧ a p = none) ∨
    ∃ r bs, s.objs p = some r ∧ a p = some bs ∧ Holds s.heap r bs ∧ WellFormed8 bs
  uniq : ∀ p q r r' i, some p ≠ skip → some q ≠ skip → s.objs p = some r → s.objs q = some r' →
    r.buf = some i → r'.buf = some i → p = q
  owned : ∀ i, s.heap i ≠ none → i < s.next ∧ ∃ p r, some p ≠ skip ∧ s.objs p = some r ∧ r.buf = some i

abbrev Rel := RelX none

theorem rel_init : Rel init (fun _ => none) :=
  ⟨fun _ _ => Or.inl ⟨rfl, rfl⟩, fun _ _ _ _ _ _ _ h => by simp [init] at h, fun _ h => by simp [init] at h⟩

theorem holds_bytesOf {s : State} {r : Repr} {bs : List Nat} (h : Holds s.heap r bs) : bytesOf s r = .ok bs := by
  unfold Holds at h
  unfold bytesOf
  cases hb : r.buf with
  | none => rw [hb] at h; simp [h.1, h.2.1]
  | some i =>
    rw [hb] at h
    obtain ⟨rest, h1, h2, _⟩ := h
    simp only [h1, h2]
    have : (List.map some bs ++ rest).take bs.length = bs.map some := by
      rw [List.take_append_of_le_length (by simp), List.take_of_length_le (by simp)]
    rw [this]
    simp [List.filterMap_map]

theorem rel_none {s : State} {a : Strings} (h : Rel s a) (o : Nat) : s.objs o = none ↔ a o = none := by
  rcases h.objs o (by simp) with ⟨h1, h2⟩ | ⟨r, bs, h1, h2, _⟩ <;> simp [h1, h2]

theorem rel_some {s : State} {a : Strings} (h : Rel s a) {o : Nat} {r : Repr} (hr : s.objs o = some r) :
    ∃ bs, a o = some bs ∧ Holds s.heap r bs ∧ WellFormed8 bs := by
  rcases h.objs o (by simp) with ⟨h1, _⟩ | ⟨r', bs, h1, h2, h3, h4⟩
  · rw [h1] at hr; cases hr
  · rw [h1] at hr; cases hr; exact ⟨bs, h2, h3, h4⟩

/-- An address with no object can be treated as being built. -/
theorem rel_skip {s : State} {a : Strings} (h : Rel s a) {o : Nat} (ho : s.objs o = none) :
    RelX (some o) s a := by
  refine ⟨fun p _ => h.objs p (by simp), fun p q r r' i _ _ => h.uniq p q r r' i (by simp) (by simp), ?_⟩
  intro i hi
  obtain ⟨h1, p, r, _, hp, hb⟩ := h.owned i hi
  refine ⟨h1, p, r, ?_, hp, hb⟩
  intro he
  injection he with he
  rw [he, ho] at hp; cases hp

theorem holds_buf {h : Nat → Option Buf} {r : Repr} {bs : List Nat} (hh : Holds h r bs) {i : Nat}
    (hb : r.buf = some i) : ∃ rest, h i = some (bs.map some ++ rest) ∧ r.len = bs.length ∧
      r.cap = bs.length + rest.length := by
  unfold Holds at hh; rw [hb] at hh; exact hh

/-- Holding is unaffected by changes to other buffers. -/
theorem holds_upd {h : Nat → Option Buf} {r : Repr} {bs : List Nat} (hh : Holds h r bs) {i : Nat}
    (hne : r.buf ≠ some i) (v : Option Buf) : Holds (upd h i v) r bs := by
  unfold Holds at hh ⊢
  cases hb : r.buf with
  | none => rw [hb] at hh; exact hh
  | some j =>
    rw [hb] at hh
    have : j ≠ i := fun e => hne (by rw [hb, e])
    simp only [upd_ne _ _ this]
    exact hh

/-- Dropping the string of object `o` frees its buffer and leaves the rest alone. -/
theorem rel_drop {s : State} {a : Strings} (h : Rel s a) {o : Nat} {r : Repr} (hr : s.objs o = some r) :
    ∃ s1, dropRepr s r = .ok s1 ∧ RelX (some o) s1 a ∧ s1.objs = s.objs ∧ s1.next = s.next ∧
      (∀ q r' bs, q ≠ o → s.objs q = some r' → Holds s.heap r' bs → Holds s1.heap r' bs) := by
  obtain ⟨bs, _, hh, _⟩ := rel_some h hr
  unfold dropRepr
  cases hb : r.buf with
  | none =>
    refine ⟨s, rfl, ⟨fun p _ => h.objs p (by simp), fun p q r r' i _ _ => h.uniq p q r r' i (by simp) (by simp), ?_⟩,
      rfl, rfl, fun _ _ _ _ _ hh => hh⟩
    intro i hi
    obtain ⟨h1, p, r', _, hp, hb'⟩ := h.owned i hi
    refine ⟨h1, p, r', ?_, hp, hb'⟩
    intro he
    injection he with he
    rw [he, hr] at hp
    cases hp
    rw [hb] at hb'; cases hb'
  | some i =>
    obtain ⟨rest, h1, _⟩ := holds_buf hh hb
    have hfree : free s i = .ok { s with heap := upd s.heap i none } := by simp [free, h1]
    simp only [hfree]
    have hkeep : ∀ q r' bs, q ≠ o → s.objs q = some r' → Holds s.heap r' bs → Holds (upd s.heap i none) r' bs := by
      intro q r' bs hq hr' hh'
      refine holds_upd hh' ?_ none
      intro hb'
      exact hq (h.uniq q o r' r i (by simp) (by simp) hr' hr hb' hb)
    refine ⟨_, rfl, ⟨?_, ?_, ?_⟩, rfl, rfl, hkeep⟩
    · intro p hp
      rcases h.objs p (by simp) with h' | ⟨r', bs', h2, h3, h4, h5⟩
      · exact Or.inl h'
      · exact Or.inr ⟨r', bs', h2, h3, hkeep p r' bs' (fun e => hp (by rw [e])) h2 h4, h5⟩
    · intro p q r r' i _ _; exact h.uniq p q r r' i (by simp) (by simp)
    · intro j hj
      have hji : j ≠ i := by intro e; simp [e] at hj
      simp only [upd_ne _ _ hji] at hj
      obtain ⟨h2, p, r', _, hp, hb'⟩ := h.owned j hj
      refine ⟨h2, p, r', ?_, hp, hb'⟩
      intro he
      injection he with he
      rw [he, hr] at hp
      cases hp
      rw [hb] at hb'; injection hb' with e; exact hji e.symm

/-- Finishing an object with a string that has no buffer. -/
theorem rel_place_empty {s : State} {a : Strings} {o : Nat} (h : RelX (some o) s a) :
    Rel (place s o ⟨none, 0, 0⟩) (upd a o (some [])) := by
  refine ⟨?_, ?_, ?_⟩
  · intro p _
    by_cases hp : p = o
    · subst hp
      exact Or.inr ⟨⟨none, 0, 0⟩, [], by simp [place], by simp, ⟨rfl, rfl, rfl⟩, wf_nil⟩
    · rcases h.objs p (by simpa using hp) with ⟨h1, h2⟩ | ⟨r, bs, h1, h2, h3, h4⟩
      · exact Or.inl ⟨by simp [place, upd_ne _ _ hp, h1], by simp [upd_ne _ _ hp, h2]⟩
      · exact Or.inr ⟨r, bs, by simp [place, upd_ne _ _ hp, h1], by simp [upd_ne _ _ hp, h2], h3, h4⟩
  · intro p q r r' i _ _ hp hq hb hb'
    have hpo : p ≠ o := by
      rintro rfl; simp [place] at hp; rw [← hp] at hb; cases hb
    have hqo : q ≠ o := by
      rintro rfl; simp [place] at hq; rw [← hq] at hb'; cases hb'
    simp only [place, upd_ne _ _ hpo] at hp
    simp only [place, upd_ne _ _ hqo] at hq
    exact h.uniq p q r r' i (by simpa using hpo) (by simpa using hqo) hp hq hb hb'
  · intro i hi
    obtain ⟨h1, p, r, hp, h2, h3⟩ := h.owned i hi
    have hpo : p ≠ o := by simpa using hp
    exact ⟨h1, p, r, by simp, by simp [place, upd_ne _ _ hpo, h2], h3⟩

/-- Finishing an object with a freshly allocated buffer. -/
theorem rel_place_fresh {s : State} {a : Strings} {o : Nat} (h : RelX (some o) s a) {bs : List Nat}
    (hw : WellFormed8 bs) (rest : Buf) :
    Rel (place (alloc s (bs.map some ++ rest)).1 o ⟨some (alloc s (bs.map some ++ rest)).2, bs.length, bs.length + rest.length⟩)
      (upd a o (some bs)) := by
  have hfresh : s.heap s.next = none := by
    cases hn : s.heap s.next with
    | none => rfl
    | some b => exact absurd (h.owned s.next (by simp [hn])).1 (by omega)
  have hne : ∀ p r, some p ≠ some o → s.objs p = some r → r.buf ≠ some s.next := by
    intro p r hp hr hb
    rcases h.objs p hp with ⟨h1, _⟩ | ⟨r', bs', h1, _, h3, _⟩
    · rw [h1] at hr; cases hr
    · rw [h1] at hr; cases hr
      obtain ⟨rest', h4, _⟩ := holds_buf h3 hb
      rw [hfresh] at h4; cases h4
  refine ⟨?_, ?_, ?_⟩
  · intro p _
    by_cases hp : p = o
    · subst hp
      refine Or.inr ⟨_, bs, upd_same _ _ _, by simp, ?_, hw⟩
      exact ⟨rest, by simp [alloc, place], rfl, rfl⟩
    · rcases h.objs p (by simpa using hp) with ⟨h1, h2⟩ | ⟨r, bs', h1, h2, h3, h4⟩
      · exact Or.inl ⟨by simp [place, alloc, upd_ne _ _ hp, h1], by simp [upd_ne _ _ hp, h2]⟩
      · exact Or.inr ⟨r, bs', by simp [place, alloc, upd_ne _ _ hp, h1], by simp [upd_ne _ _ hp, h2],
          holds_upd h3 (hne p r (by simpa using hp) h1) _, h4⟩
  · intro p q r r' i _ _ hp hq hb hb'
    simp only [place, alloc] at hp hq
    by_cases hpo : p = o <;> by_cases hqo : q = o
    · rw [hpo, hqo]
    · subst hpo
      simp at hp; subst hp
      simp only [alloc, Option.some.injEq] at hb; subst hb
      rw [upd_ne _ _ hqo] at hq
      exact absurd hb' (hne q r' (by simpa using hqo) hq)
    · subst hqo
      simp at hq; subst hq
      simp only [alloc, Option.some.injEq] at hb'; subst hb'
      rw [upd_ne _ _ hpo] at hp
      exact absurd hb (hne p r (by simpa using hpo) hp)
    · rw [upd_ne _ _ hpo] at hp
      rw [upd_ne _ _ hqo] at hq
      exact h.uniq p q r r' i (by simpa using hpo) (by simpa using hqo) hp hq hb hb'
  · intro i hi
    simp only [place, alloc] at hi ⊢
    by_cases hin : i = s.next
    · subst hin
      exact ⟨by omega, o, _, by simp, upd_same _ _ _, rfl⟩
    · rw [upd_ne _ _ hin] at hi
      obtain ⟨h1, p, r, hp, h2, h3⟩ := h.owned i hi
      have hpo : p ≠ o := by simpa using hp
      exact ⟨by omega, p, r, by simp, by simp [upd_ne _ _ hpo, h2], h3⟩

/-- `fromBytes` finishes an object. -/
theorem rel_fromBytes {s : State} {a : Strings} {o : Nat} (h : RelX (some o) s a) {bs : List Nat}
    (hw : WellFormed8 bs) : Rel (place (fromBytes s bs).1 o (fromBytes s bs).2) (upd a o (some bs)) := by
  unfold fromBytes
  by_cases hl : bs.length = 0
  · have : bs = [] := by simpa using hl
    subst this
    simpa using rel_place_empty h
  · have := rel_place_fresh h hw []
    simp only [List.append_nil, List.length_nil, Nat.add_zero] at this
    simp only [hl, if_false]
    exact this

/-- Moving a finished string into the object being built. -/
theorem rel_move {s : State} {a : Strings} {o src : Nat} (h : RelX (some o) s a) (hne : o ≠ src) {rs : Repr}
    {bs : List Nat} (hr : s.objs src = some rs) (ha : a src = some bs) :
    Rel (place (place s o rs) src ⟨none, 0, 0⟩) (upd (upd a o (some bs)) src (some [])) := by
  obtain ⟨hh, hw⟩ : Holds s.heap rs bs ∧ WellFormed8 bs := by
    rcases h.objs src (by simpa using hne.symm) with ⟨h1, _⟩ | ⟨r', bs', h1, h2, h3, h4⟩
    · rw [h1] at hr; cases hr
    · rw [h1] at hr; rw [h2] at ha; cases hr; cases ha; exact ⟨h3, h4⟩
  refine ⟨?_, ?_, ?_⟩
  · intro p _
    by_cases hps : p = src
    · subst hps
      exact Or.inr ⟨⟨none, 0, 0⟩, [], by simp [place], by simp, ⟨rfl, rfl, rfl⟩, wf_nil⟩
    · by_cases hpo : p = o
      · subst hpo
        exact Or.inr ⟨rs, bs, by simp [place, upd_ne _ _ hps], by simp [upd_ne _ _ hps], hh, hw⟩
      · rcases h.objs p (by simpa using hpo) with ⟨h1, h2⟩ | ⟨r, bs', h1, h2, h3, h4⟩
        · exact Or.inl ⟨by simp [place, upd_ne _ _ hps, upd_ne _ _ hpo, h1], by simp [upd_ne _ _ hps, upd_ne _ _ hpo, h2]⟩
        · exact Or.inr ⟨r, bs', by simp [place, upd_ne _ _ hps, upd_ne _ _ hpo, h1],
            by simp [upd_ne _ _ hps, upd_ne _ _ hpo, h2], h3, h4⟩
  · intro p q r r' i _ _ hp hq hb hb'
    simp only [place] at hp hq
    have hps : p ≠ src := by rintro rfl; simp at hp; rw [← hp] at hb; cases hb
    have hqs : q ≠ src := by rintro rfl; simp at hq; rw [← hq] at hb'; cases hb'
    rw [upd_ne _ _ hps] at hp
    rw [upd_ne _ _ hqs] at hq
    by_cases hpo : p = o <;> by_cases hqo : q = o
    · rw [hpo, hqo]
    · subst hpo
      simp at hp; subst hp
      rw [upd_ne _ _ hqo] at hq
      exact absurd (h.uniq src q rs r' i (by simpa using hne.symm) (by simpa using hqo) hr hq hb hb') (Ne.symm hqs)
    · subst hqo
      simp at hq; subst hq
      rw [upd_ne _ _ hpo] at hp
      exact absurd (h.uniq src p rs r i (by simpa using hne.symm) (by simpa using hpo) hr hp hb' hb) (Ne.symm hps)
    · rw [upd_ne _ _ hpo] at hp
      rw [upd_ne _ _ hqo] at hq
      exact h.uniq p q r r' i (by simpa using hpo) (by simpa using hqo) hp hq hb hb'
  · intro i hi
    obtain ⟨h1, p, r, hp, h2, h3⟩ := h.owned i hi
    have hpo : p ≠ o := by simpa using hp
    refine ⟨h1, ?_⟩
    by_cases hps : p = src
    · subst hps
      rw [hr] at h2; cases h2
      exact ⟨o, rs, by simp, by simp [place, upd_ne _ _ hne], h3⟩
    · exact ⟨p, r, by simp, by simp [place, upd_ne _ _ hps, upd_ne _ _ hpo, h2], h3⟩

/-- `reserve` keeps everything and provides the room asked for. -/
theorem rel_reserve {s : State} {a : Strings} (h : Rel s a) {o : Nat} {r : Repr} (hr : s.objs o = some r)
    (additional slack : Nat) :
    ∃ s' r', reserve s r additional slack = .ok (s', r') ∧ Rel (place s' o r') a ∧ r'.len = r.len ∧
      r'.len + additional ≤ r'.cap := by
  obtain ⟨bs, ha, hh, hw⟩ := rel_some h hr
  have haa : upd a o (some bs) = a := by rw [← ha]; exact upd_self a o
  unfold reserve
  by_cases hc : r.cap - r.len < additional
  · rw [if_pos hc]
    obtain ⟨s1, hd, hx, ho1, hn1, _⟩ := rel_drop h hr
    cases hb : r.buf with
    | none =>
      unfold Holds at hh
      rw [hb] at hh
      obtain ⟨rfl, hl, hcap⟩ := hh
      unfold dropRepr at hd
      rw [hb] at hd
      cases hd
      have := rel_place_fresh hx hw (List.replicate (r.len + additional + slack) none)
      rw [haa] at this
      refine ⟨_, _, rfl, ?_, rfl, ?_⟩
      · simpa [hl, alloc] using this
      · simp
    | some j =>
      obtain ⟨rest, h1, h2, h3⟩ := holds_buf hh hb
      unfold dropRepr at hd
      rw [hb] at hd
      simp only [free, h1, Except.ok.injEq] at hd
      subst hd
      have hj : j < s.next := (h.owned j (by simp [h1])).1
      have := rel_place_fresh hx hw (rest ++ List.replicate (r.len + additional + slack - (bs.map some ++ rest).length) none)
      rw [haa] at this
      have hnj : j ≠ s.next := by omega
      simp only [h1, alloc, free, upd_ne _ _ hnj]
      refine ⟨_, _, rfl, ?_, rfl, ?_⟩
      · simp only [alloc, place] at this ⊢
        rw [upd_comm _ _ _ (Ne.symm hnj)]
        have hcapeq : r.len + additional + slack =
            bs.length + (rest ++ List.replicate (r.len + additional + slack - (bs.map some ++ rest).length) (none : Option Nat)).length := by
          simp; omega
        rw [List.append_assoc]
        rw [← hcapeq, ← h2] at this
        exact this
      · simp
  · rw [if_neg hc]
    refine ⟨s, r, rfl, ?_, rfl, ?_⟩
    · have : place s o r = s := by simp only [place]; rw [← hr, upd_self]
      rw [this]; exact h
    · unfold Holds at hh
      cases hb : r.buf with
      | none => rw [hb] at hh; omega
      | some i => obtain ⟨rest, _, h2, h3⟩ := holds_buf hh hb; omega

/-- Writing past the contents keeps everything. -/
theorem rel_poke {s : State} {a : Strings} (h : Rel s a) {o : Nat} {r : Repr} (hr : s.objs o = some r)
    (hc : r.len < r.cap) (v : Nat) {bs : List Nat} (ha : a o = some bs) :
    ∃ s', poke s r r.len v = .ok s' ∧ Rel s' a ∧ s'.objs = s.objs ∧
      bytesOf s' { r with len := r.len + 1 } = .ok (bs ++ [v]) := by
  obtain ⟨bs', ha', hh, hw⟩ := rel_some h hr
  rw [ha] at ha'; cases ha'
  unfold poke
  cases hb : r.buf with
  | none => unfold Holds at hh; rw [hb] at hh; omega
  | some i =>
    obtain ⟨rest, h1, h2, h3⟩ := holds_buf hh hb
    match rest, h1, h3 with
    | [], _, h3 => simp at h3; omega
    | x :: rest, h1, h3 =>
      have hset : (bs.map some ++ x :: rest).set bs.length (some v) = bs.map some ++ some v :: rest := by
        rw [List.set_append_right _ _ (by simp)]
        simp
      simp only [h1, h2, hset]
      rw [if_pos (by simp)]
      refine ⟨_, rfl, ⟨?_, ?_, ?_⟩, rfl, ?_⟩
      · intro p _
        rcases h.objs p (by simp) with h' | ⟨r', bs', k1, k2, k3, k4⟩
        · exact Or.inl h'
        · refine Or.inr ⟨r', bs', k1, k2, ?_, k4⟩
          by_cases hpo : p = o
          · subst hpo
            rw [hr] at k1; rw [ha] at k2; cases k1; cases k2
            unfold Holds
            rw [hb]
            exact ⟨some v :: rest, by simp, h2, by simpa using h3⟩
          · refine holds_upd k3 ?_ _
            intro hb'
            exact hpo (h.uniq p o r' r i (by simp) (by simp) k1 hr hb' hb)
      · intro p q r r' i hp hq; exact h.uniq p q r r' i hp hq
      · intro j hj
        refine h.owned j ?_
        by_cases hji : j = i
        · subst hji; simp [h1]
        · simpa [upd_ne _ _ hji] using hj
      · apply holds_bytesOf
        unfold Holds
        simp only [hb]
        exact ⟨rest, by simp, by simp [h2], by simp [h3]; omega⟩

/-- UTF-16 operations are given 16-bit units. -/
def Op.units : Op → List Nat
  | .ctorUnits _ us => us
  | .ctorLossy16 _ us => us
  | _ => []

theorem legal_iff {s : State} {a : Strings} (h : Rel s a) (o : Nat) : a o ≠ none ↔ ∃ r, s.objs o = some r := by
  rw [ne_eq, ← rel_none h]
  cases s.objs o <;> simp

/-- Every legal operation succeeds as specified, every illegal one is refused. -/
theorem step_refines {s : State} {a : Strings} (h : Rel s a) (op : Op) (hu : ∀ u ∈ op.units, u < 0x10000) :
    (¬ Legal a op ∧ step s op = .error .illegal) ∨
    (Legal a op ∧ ∃ s' a' b, step s op = .ok (s', b) ∧ Step a op a' b ∧ Rel s' a') := by
  cases op with
  | ctor o =>
    simp only [Legal, step]
    cases ho : s.objs o with
    | some r => exact Or.inl ⟨by rw [← rel_none h]; simp [ho], rfl⟩
    | none =>
      have ha := (rel_none h o).1 ho
      exact Or.inr ⟨ha, _, _, _, rfl, .ctor ha, rel_place_empty (rel_skip h ho)⟩
  | ctorBytes o bs =>
    simp only [Legal, step]
    cases ho : s.objs o with
    | some r => exact Or.inl ⟨by rw [← rel_none h]; simp [ho], rfl⟩
    | none =>
      have ha := (rel_none h o).1 ho
      refine Or.inr ⟨ha, ?_⟩
      have hg := string_std_gate bs
      by_cases hw : WellFormed8 bs
      · rw [(hg.1 bs).2 ⟨hw, rfl⟩]
        exact ⟨_, _, _, rfl, .ctorBytes ha hw, rel_fromBytes (rel_skip h ho) hw⟩
      · rw [hg.2.2 hw]
        exact ⟨_, _, _, rfl, .ctorBytesThrow ha hw, h⟩
  | ctorUnits o us =>
    simp only [Legal, step]
    cases ho : s.objs o with
    | some r => exact Or.inl ⟨by rw [← rel_none h]; simp [ho], rfl⟩
    | none =>
      have ha := (rel_none h o).1 ho
      refine Or.inr ⟨ha, ?_⟩
      have hg := string_utf16_gate us us.length hu
      simp only [List.take_length] at hg
      by_cases hw : WellFormed16 us
      · obtain ⟨cs, h1, h2⟩ := hw
        rw [(hg.1 _).2 ⟨cs, h1, h2, rfl⟩]
        exact ⟨_, _, _, rfl, .ctorUnits ha h1 h2, rel_fromBytes (rel_skip h ho) ⟨cs, h1, rfl⟩⟩
      · rw [hg.2.1.2 hw]
        exact ⟨_, _, _, rfl, .ctorUnitsThrow ha hw, h⟩
  | ctorLossy o bs =>
    simp only [Legal, step]
    cases ho : s.objs o with
    | some r => exact Or.inl ⟨by rw [← rel_none h]; simp [ho], rfl⟩
    | none =>
      have ha := (rel_none h o).1 ho
      obtain ⟨ps, h1, h2⟩ := lossy_pieces bs
      refine Or.inr ⟨ha, _, _, _, rfl, .ctorLossy ha h1, ?_⟩
      rw [h2]
      exact rel_fromBytes (rel_skip h ho) (lossy_wf h1)
  | ctorLossy16 o us =>
    simp only [Legal, step]
    cases ho : s.objs o with
    | some r => exact Or.inl ⟨by rw [← rel_none h]; simp [ho], rfl⟩
    | none =>
      have ha := (rel_none h o).1 ho
      obtain ⟨t, h1, hw, ⟨cs, h2, _, h3⟩, _⟩ := string_lossy16_total us us.length hu
      simp only [stringLossy16, slice, List.take_length, Except.ok.injEq] at h1 h2
      rw [h1]
      refine Or.inr ⟨ha, _, _, _, rfl, .ctorLossy16 ha h2, ?_⟩
      rw [← h3]
      exact rel_fromBytes (rel_skip h ho) hw
  | copyCtor o src =>
    simp only [Legal, step]
    cases ho : s.objs o with
    | some r => exact Or.inl ⟨by rw [← rel_none h]; simp [ho], rfl⟩
    | none =>
      cases hs : s.objs src with
      | none => exact Or.inl ⟨by rw [← rel_none h, ne_eq, ← rel_none h]; simp [hs], rfl⟩
      | some rs =>
        have ha := (rel_none h o).1 ho
        obtain ⟨bs, hb, hh, hw⟩ := rel_some h hs
        simp only [holds_bytesOf hh]
        exact Or.inr ⟨⟨ha, by simp [hb]⟩, _, _, _, rfl, .copyCtor ha hb, rel_fromBytes (rel_skip h ho) hw⟩
  | moveCtor o src =>
    simp only [Legal, step]
    cases ho : s.objs o with
    | some r => exact Or.inl ⟨by rw [← rel_none h]; simp [ho], rfl⟩
    | none =>
      cases hs : s.objs src with
      | none => exact Or.inl ⟨by rw [← rel_none h, ne_eq, ← rel_none h]; simp [hs], rfl⟩
      | some rs =>
        have ha := (rel_none h o).1 ho
        obtain ⟨bs, hb, hh, hw⟩ := rel_some h hs
        have hne : o ≠ src := by rintro rfl; rw [ho] at hs; cases hs
        exact Or.inr ⟨⟨ha, by simp [hb]⟩, _, _, _, rfl, .moveCtor ha hb, rel_move (rel_skip h ho) hne hs hb⟩
  | copyAssign o src =>
    simp only [Legal, step]
    cases ho : s.objs o with
    | none => exact Or.inl ⟨by rw [ne_eq, ← rel_none h]; simp [ho], rfl⟩
    | some ro =>
      cases hs : s.objs src with
      | none => exact Or.inl ⟨by rw [ne_eq, ne_eq, ← rel_none h src]; simp [hs], rfl⟩
      | some rs =>
        obtain ⟨b, hbo, hho, _⟩ := rel_some h ho
        obtain ⟨bs, hb, hh, hw⟩ := rel_some h hs
        refine Or.inr ⟨⟨by simp [hbo], by simp [hb]⟩, ?_⟩
        by_cases hne : o = src
        · subst hne
          rw [hbo] at hb; cases hb
          refine ⟨s, _, _, by simp, .copyAssign hbo hbo, ?_⟩
          rw [← hbo, upd_self]; exact h
        · obtain ⟨s1, hd, hx, ho1, _, hkeep⟩ := rel_drop h ho
          simp only [ne_eq, hne, not_false_iff, if_true, hd, holds_bytesOf (hkeep src rs bs (Ne.symm hne) hs hh)]
          exact ⟨_, _, _, rfl, .copyAssign hbo hb, rel_fromBytes hx hw⟩
  | moveAssign o src =>
    simp only [Legal, step]
    cases ho : s.objs o with
    | none => exact Or.inl ⟨by rw [ne_eq, ← rel_none h]; simp [ho], rfl⟩
    | some ro =>
      cases hs : s.objs src with
      | none => exact Or.inl ⟨by rw [ne_eq, ne_eq, ← rel_none h src]; simp [hs], rfl⟩
      | some rs =>
        obtain ⟨b, hbo, hho, _⟩ := rel_some h ho
        obtain ⟨bs, hb, hh, hw⟩ := rel_some h hs
        refine Or.inr ⟨⟨by simp [hbo], by simp [hb]⟩, ?_⟩
        obtain ⟨s1, hd, hx, ho1, _, _⟩ := rel_drop h ho
        simp only [hd, ho1, hs]
        refine ⟨_, _, _, rfl, .moveAssign hbo hb, ?_⟩
        by_cases hne : o = src
        · subst hne
          have := rel_place_empty hx
          rw [upd_upd]
          simpa [place, upd_upd] using this
        · exact rel_move hx hne (by rw [ho1, hs]) hb
  | reserve o n slack =>
    simp only [Legal, step]
    cases ho : s.objs o with
    | none => exact Or.inl ⟨by rw [ne_eq, ← rel_none h]; simp [ho], rfl⟩
    | some r =>
      obtain ⟨b, hbo, hho, _⟩ := rel_some h ho
      refine Or.inr ⟨by simp [hbo], ?_⟩
      by_cases hc : r.cap < n
      · obtain ⟨s', r', h1, h2, _⟩ := rel_reserve h ho (n - r.len) slack
        simp only [hc, if_true, h1]
        exact ⟨_, _, _, rfl, .reserve hbo, h2⟩
      · simp only [hc, if_false]
        exact ⟨_, _, _, rfl, .reserve hbo, h⟩
  | cStr o slack =>
    simp only [Legal, step]
    cases ho : s.objs o with
    | none => exact Or.inl ⟨by rw [ne_eq, ← rel_none h]; simp [ho], rfl⟩
    | some r =>
      obtain ⟨b, hbo, hho, _⟩ := rel_some h ho
      refine Or.inr ⟨by simp [hbo], ?_⟩
      obtain ⟨s', r', h1, h2, h3, h4⟩ := rel_reserve h ho 1 slack
      obtain ⟨s'', k1, k2, k3, k4⟩ := rel_poke h2 (r := r') (by simp [place]) (by omega) 0 hbo
      -- `poke` and `bytesOf` look only at the heap
      have e1 : ∃ t, poke s' r' r.len 0 = .ok t ∧ place t o r' = s'' ∧ t.heap = s''.heap := by
        rw [h3] at k1
        unfold poke at k1 ⊢
        cases hb : r'.buf with
        | none => rw [hb] at k1; cases k1
        | some i =>
          rw [hb] at k1
          simp only [place] at k1
          cases hi : s'.heap i with
          | none => rw [hi] at k1; cases k1
          | some bf =>
            simp only [hi] at k1 ⊢
            by_cases hl : r.len < bf.length
            · rw [if_pos hl] at k1 ⊢
              cases k1
              exact ⟨_, rfl, rfl, rfl⟩
            · rw [if_neg hl] at k1; cases k1
      obtain ⟨t, t1, t2, t3⟩ := e1
      have e2 : bytesOf t { r' with len := r.len + 1 } = .ok (b ++ [0]) := by
        rw [← h3, ← k4]
        unfold bytesOf
        rw [t3]
      simp only [h1, t1, e2]
      refine ⟨_, _, _, rfl, .cStr hbo, ?_⟩
      rw [t2]; exact k2
  | swap o p =>
    simp only [Legal, step]
    cases ho : s.objs o with
    | none => exact Or.inl ⟨by rw [ne_eq, ← rel_none h]; simp [ho], rfl⟩
    | some ro =>
      cases hs : s.objs p with
      | none => exact Or.inl ⟨by rw [ne_eq, ne_eq, ← rel_none h p]; simp [hs], rfl⟩
      | some rp =>
        obtain ⟨b, hbo, hho, hwo⟩ := rel_some h ho
        obtain ⟨c, hbp, hhp, hwp⟩ := rel_some h hs
        refine Or.inr ⟨⟨by simp [hbo], by simp [hbp]⟩, _, _, _, rfl, .swap hbo hbp, ?_⟩
        by_cases hne : o = p
        · subst hne
          rw [ho] at hs; cases hs
          rw [hbo] at hbp; cases hbp
          have : place (place s o ro) o ro = s := by simp only [place]; rw [upd_upd, ← ho, upd_self]
          rw [this, upd_upd, ← hbo, upd_self]
          exact h
        · have hget : ∀ q r, (place (place s o rp) p ro).objs q = some r →
              ∃ q', s.objs q' = some r ∧ ((q = p ∧ q' = o) ∨ (q = o ∧ q' = p) ∨ (q ≠ p ∧ q ≠ o ∧ q' = q)) := by
            intro q r hq
            simp only [place] at hq
            by_cases hqp : q = p
            · subst hqp; simp at hq; subst hq; exact ⟨o, ho, Or.inl ⟨rfl, rfl⟩⟩
            · rw [upd_ne _ _ hqp] at hq
              by_cases hqo : q = o
              · subst hqo; simp at hq; subst hq; exact ⟨p, hs, Or.inr (Or.inl ⟨rfl, rfl⟩)⟩
              · rw [upd_ne _ _ hqo] at hq; exact ⟨q, hq, Or.inr (Or.inr ⟨hqp, hqo, rfl⟩)⟩
          refine ⟨?_, ?_, ?_⟩
          · intro q _
            by_cases hqp : q = p
            · subst hqp
              exact Or.inr ⟨ro, b, by simp [place], by simp, hho, hwo⟩
            · by_cases hqo : q = o
              · subst hqo
                exact Or.inr ⟨rp, c, by simp [place, upd_ne _ _ hqp], by simp [upd_ne _ _ hqp], hhp, hwp⟩
              · rcases h.objs q (by simp) with ⟨h1, h2⟩ | ⟨r, bs', h1, h2, h3, h4⟩
                · exact Or.inl ⟨by simp [place, upd_ne _ _ hqp, upd_ne _ _ hqo, h1], by simp [upd_ne _ _ hqp, upd_ne _ _ hqo, h2]⟩
                · exact Or.inr ⟨r, bs', by simp [place, upd_ne _ _ hqp, upd_ne _ _ hqo, h1],
                    by simp [upd_ne _ _ hqp, upd_ne _ _ hqo, h2], h3, h4⟩
          · intro q1 q2 r r' i _ _ h1 h2 hb hb'
            obtain ⟨q1', k1, c1⟩ := hget q1 r h1
            obtain ⟨q2', k2, c2⟩ := hget q2 r' h2
            have := h.uniq q1' q2' r r' i (by simp) (by simp) k1 k2 hb hb'
            omega
          · intro i hi
            obtain ⟨h1, q, r, _, h2, h3⟩ := h.owned i hi
            refine ⟨h1, ?_⟩
            by_cases hqp : q = p
            · subst hqp; rw [hs] at h2; cases h2
              exact ⟨o, rp, by simp, by simp [place, upd_ne _ _ hne], h3⟩
            · by_cases hqo : q = o
              · subst hqo; rw [ho] at h2; cases h2
                exact ⟨p, ro, by simp, by simp [place], h3⟩
              · exact ⟨q, r, by simp, by simp [place, upd_ne _ _ hqp, upd_ne _ _ hqo, h2], h3⟩
  | read o =>
    simp only [Legal, step]
    cases ho : s.objs o with
    | none => exact Or.inl ⟨by rw [ne_eq, ← rel_none h]; simp [ho], rfl⟩
    | some r =>
      obtain ⟨b, hbo, hho, _⟩ := rel_some h ho
      simp only [holds_bytesOf hho]
      exact Or.inr ⟨by simp [hbo], _, _, _, rfl, .read hbo, h⟩
  | destroy o =>
    simp only [Legal, step]
    cases ho : s.objs o with
    | none => exact Or.inl ⟨by rw [ne_eq, ← rel_none h]; simp [ho], rfl⟩
    | some r =>
      obtain ⟨b, hbo, hho, _⟩ := rel_some h ho
      obtain ⟨s1, hd, hx, ho1, _, _⟩ := rel_drop h ho
      simp only [hd]
      refine Or.inr ⟨by simp [hbo], _, _, _, rfl, .destroy hbo, ⟨?_, ?_, ?_⟩⟩
      · intro p _
        by_cases hp : p = o
        · subst hp; exact Or.inl ⟨by simp, by simp⟩
        · rcases hx.objs p (by simpa using hp) with ⟨h1, h2⟩ | ⟨r, bs', h1, h2, h3, h4⟩
          · exact Or.inl ⟨by simp [upd_ne _ _ hp, h1], by simp [upd_ne _ _ hp, h2]⟩
          · exact Or.inr ⟨r, bs', by simp [upd_ne _ _ hp, h1], by simp [upd_ne _ _ hp, h2], h3, h4⟩
      · intro p q r r' i _ _ hp hq hb hb'
        have hpo : p ≠ o := by rintro rfl; simp at hp
        have hqo : q ≠ o := by rintro rfl; simp at hq
        simp only [upd_ne _ _ hpo] at hp
        simp only [upd_ne _ _ hqo] at hq
        exact hx.uniq p q r r' i (by simpa using hpo) (by simpa using hqo) hp hq hb hb'
      · intro i hi
        obtain ⟨h1, p, r, hp, h2, h3⟩ := hx.owned i hi
        have hpo : p ≠ o := by simpa using hp
        exact ⟨h1, p, r, by simp, by simp [upd_ne _ _ hpo, h2], h3⟩

theorem run_refines (ops : List Op) : ∀ (s : State) (a : Strings), Rel s a →
    (∀ op ∈ ops, ∀ u ∈ op.units, u < 0x10000) →
    (∃ s' a' bs, runOps step s ops = .ok (s', bs) ∧ Run a ops a' bs ∧ Rel s' a') ∨
    (runOps step s ops = .error .illegal ∧
      ∃ pre op post b xs, ops = pre ++ op :: post ∧ Run a pre b xs ∧ ¬ Legal b op) := by
  induction ops with
  | nil => intro s a h _; exact Or.inl ⟨s, a, [], rfl, .nil, h⟩
  | cons op ops ih =>
    intro s a h hu
    rcases step_refines h op (hu op (by simp)) with ⟨h1, h2⟩ | ⟨_, s', a', b, h1, h2, h3⟩
    · exact Or.inr ⟨by simp [runOps, h2], [], op, ops, a, [], rfl, .nil, h1⟩
    · rcases ih s' a' h3 (fun x hx => hu x (by simp [hx])) with ⟨s'', a'', bs, k1, k2, k3⟩ | ⟨k1, pre, o, post, c, xs, k2, k3, k4⟩
      · exact Or.inl ⟨s'', a'', b :: bs, by simp [runOps, h1, k1], .cons h2 k2, k3⟩
      · exact Or.inr ⟨by simp [runOps, h1, k1], op :: pre, o, post, c, b :: xs, by simp [k2], .cons h2 k3, k4⟩

/-- **C02**. Any history of operations on any number of `rust::String` objects either is one in which
the program itself used an object that does not exist (or built one over an existing one), or runs
without undefined behaviour, shows exactly what independent byte strings would show, and ends in a
state where every live object holds well-formed UTF-8, no two live objects share a buffer, every
allocated buffer belongs to a live object, and so nothing is allocated when no object is left. -/
theorem string_histories (ops : List Op) (hu : ∀ op ∈ ops, ∀ u ∈ op.units, u < 0x10000) :
    (∃ s a obs, runOps step init ops = .ok (s, obs) ∧ Run (fun _ => none) ops a obs ∧
      (∀ o, s.objs o = none ↔ a o = none) ∧
      (∀ o r, s.objs o = some r → ∃ bs, bytesOf s r = .ok bs ∧ a o = some bs ∧ WellFormed8 bs) ∧
      (∀ o p r r' i, s.objs o = some r → s.objs p = some r' → r.buf = some i → r'.buf = some i → o = p) ∧
      (∀ i, s.heap i ≠ none → ∃ o r, s.objs o = some r ∧ r.buf = some i) ∧
      ((∀ o, s.objs o = none) → ∀ i, s.heap i = none)) ∨
    (runOps step init ops = .error .illegal ∧
      ∃ pre op post a obs, ops = pre ++ op :: post ∧ Run (fun _ => none) pre a obs ∧ ¬ Legal a op) := by
  rcases run_refines ops init _ rel_init hu with ⟨s, a, obs, h1, h2, h3⟩ | h
  · refine Or.inl ⟨s, a, obs, h1, h2, rel_none h3, ?_, ?_, ?_, ?_⟩
    · intro o r hr
      obtain ⟨bs, k1, k2, k3⟩ := rel_some h3 hr
      exact ⟨bs, holds_bytesOf k2, k1, k3⟩
    · intro o p r r' i; exact h3.uniq o p r r' i (by simp) (by simp)
    · intro i hi
      obtain ⟨_, p, r, _, k1, k2⟩ := h3.owned i hi
      exact ⟨p, r, k1, k2⟩
    · intro hnone i
      cases hi : s.heap i with
      | none => rfl
      | some b =>
        obtain ⟨_, p, r, _, k1, _⟩ := h3.owned i (by simp [hi])
        rw [hnone p] at k1; cases k1
  · exact Or.inr h

theorem lossy16_of_wf {cs : List Nat} (h : ∀ c ∈ cs, IsScalar c) : Lossy16 (cs.flatMap encode16) cs := by
  induction cs with
  | nil => exact .nil
  | cons c cs ih => exact .char (h c (by simp)) (ih (fun x hx => h x (by simp [hx])))

/-- The specification leaves no choice: an operation has at most one outcome. -/
theorem spec_deterministic {a b c : Strings} {op : Op} {x y : Obs} (h : Spec.Step a op b x) (h' : Spec.Step a op c y) :
    b = c ∧ x = y := by
  cases h
  case ctorUnits cs h1 h2 h3 =>
    cases h' with
    | ctorUnits _ h4 h5 =>
      rw [h3] at h5
      have e1 := lossy16_of_wf h2
      rw [h5] at e1
      rw [lossy16_unique e1 (lossy16_of_wf h4)]
      exact ⟨rfl, rfl⟩
    | ctorUnitsThrow _ h4 => exact absurd ⟨cs, h2, h3⟩ h4
  case ctorUnitsThrow h1 h2 =>
    cases h' with
    | ctorUnits _ h4 h5 => exact absurd ⟨_, h4, h5⟩ h2
    | ctorUnitsThrow _ _ => exact ⟨rfl, rfl⟩
  case ctorLossy h1 h2 =>
    cases h' with
    | ctorLossy _ h3 => rw [pieces_unique h2 h3]; exact ⟨rfl, rfl⟩
  case ctorLossy16 h1 h2 =>
    cases h' with
    | ctorLossy16 _ h3 => rw [lossy16_unique h2 h3]; exact ⟨rfl, rfl⟩
  all_goals (cases h' <;> simp_all)

/-- **C03**. In any reachable state, `c_str()` on a live string succeeds, returns memory that starts
with the string's bytes followed by a zero byte, and leaves every string as it was. -/
theorem string_c_str (ops : List Op) (hu : ∀ op ∈ ops, ∀ u ∈ op.units, u < 0x10000) (s : State) (obs : List Obs)
    (hrun : runOps step init ops = .ok (s, obs)) (o slack : Nat) (r : Repr) (ho : s.objs o = some r) :
    ∃ s' bs, bytesOf s r = .ok bs ∧ step s (.cStr o slack) = .ok (s', .bytes (bs ++ [0])) ∧
      ∀ p rp, s.objs p = some rp → ∃ rp', s'.objs p = some rp' ∧ bytesOf s' rp' = bytesOf s rp := by
  rcases run_refines ops init _ rel_init hu with ⟨s0, a, obs0, h1, h2, h3⟩ | ⟨h1, _⟩
  · rw [hrun] at h1
    cases h1
    obtain ⟨bs, k1, k2, k3⟩ := rel_some h3 ho
    rcases step_refines h3 (.cStr o slack) (by simp [Op.units]) with ⟨hl, _⟩ | ⟨_, s', a', b, j1, j2, j3⟩
    · exact absurd (by simp [Legal, k1]) hl
    · cases j2 with
      | cStr hbs =>
        rw [k1] at hbs; cases hbs
        refine ⟨s', bs, holds_bytesOf k2, j1, ?_⟩
        intro p rp hp
        obtain ⟨cs, m1, m2, _⟩ := rel_some h3 hp
        cases hp' : s'.objs p with
        | none => rw [(rel_none j3 p).1 hp'] at m1; cases m1
        | some rp' =>
          obtain ⟨ds, n1, n2, _⟩ := rel_some j3 hp'
          rw [m1] at n1; cases n1
          exact ⟨rp', rfl, by rw [holds_bytesOf n2, holds_bytesOf m2]⟩
  · rw [hrun] at h1; cases h1

/-- **C02**, `reserve`. In any reachable state, `reserve(n)` on a live string leaves it with capacity
at least `n` (and at least its length). -/
theorem string_reserve_capacity (ops : List Op) (hu : ∀ op ∈ ops, ∀ u ∈ op.units, u < 0x10000) (s : State)
    (obs : List Obs) (hrun : runOps step init ops = .ok (s, obs)) (o n slack : Nat) (r : Repr) (ho : s.objs o = some r) :
    ∃ s' r', step s (.reserve o n slack) = .ok (s', .done) ∧ s'.objs o = some r' ∧ n ≤ r'.cap ∧ r'.len ≤ r'.cap := by
  rcases run_refines ops init _ rel_init hu with ⟨s0, a, obs0, h1, h2, h3⟩ | ⟨h1, _⟩
  · rw [hrun] at h1
    cases h1
    obtain ⟨bs, k1, k2, k3⟩ := rel_some h3 ho
    have hlen : r.len ≤ r.cap := by
      unfold Holds at k2
      cases hb : r.buf with
      | none => rw [hb] at k2; omega
      | some i => obtain ⟨rest, _, e2, e3⟩ := holds_buf k2 hb; omega
    simp only [step, ho]
    by_cases hc : r.cap < n
    · obtain ⟨s', r', j1, j2, j3, j4⟩ := rel_reserve h3 ho (n - r.len) slack
      simp only [hc, if_true, j1]
      exact ⟨_, r', rfl, by simp [place], by omega, by omega⟩
    · simp only [hc, if_false]
      exact ⟨_, r, rfl, ho, by omega, hlen⟩
  · rw [hrun] at h1; cases h1

-- a history with construction, a rejected construction, copy, self-move, c_str, swap and destruction
example : (runOps step init [.ctorBytes 0 [0xC3, 0xA9], .ctorBytes 1 [0xFF], .copyCtor 1 0, .moveAssign 0 0, .read 0,
    .cStr 1 5, .swap 0 1, .read 0, .reserve 0 9 0, .copyAssign 1 0, .read 1, .destroy 0, .read 1, .destroy 1]).map (·.2) =
  .ok [.done, .threw, .done, .done, .bytes [], .bytes [0xC3, 0xA9, 0], .done, .bytes [0xC3, 0xA9], .done, .done,
    .bytes [0xC3, 0xA9], .done, .bytes [0xC3, 0xA9], .done] := by decide +kernel

end Verif.RustString
