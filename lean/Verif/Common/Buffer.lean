import Verif.Common.Fn
/-!
# Growable buffers in a heap

The representation shared by Rust's `Vec<T>` (and so `rust::Vec<T>`): buffer, length, capacity.
`alloc::vec::Vec` itself is standard library code; this file is the explicit model of the part of it
that cxx relies on, and belongs to the trusted base.  Cells hold values of any type.
-/
namespace Verif.Buffer
open Verif

/-- A heap buffer: one cell per element of capacity, `none` while uninitialised. -/
abbrev Buf (α : Type) := List (Option α)

/-- Buffer, length, capacity.  `buf = none` is the dangling pointer of a vector with capacity 0. -/
structure Repr where
  buf : Option Nat
  len : Nat
  cap : Nat
  deriving DecidableEq

structure State (α : Type) where
  heap : Nat → Option (Buf α)
  /-- Addresses at and above `next` have never been allocated. -/
  next : Nat
  objs : Nat → Option Repr

def init {α : Type} : State α := ⟨fun _ => none, 0, fun _ => none⟩

variable {α : Type}

def alloc (s : State α) (b : Buf α) : State α × Nat :=
  ({ s with heap := upd s.heap s.next (some b), next := s.next + 1 }, s.next)

def free (s : State α) (i : Nat) : Except Fault (State α) :=
  match s.heap i with
  | none => .error .ub
  | some _ => .ok { s with heap := upd s.heap i none }

/-- The elements of a vector: `len` initialised cells at its buffer. -/
def elemsOf (s : State α) (r : Repr) : Except Fault (List α) :=
  match r.buf with
  | none => if r.len = 0 then .ok [] else .error .ub
  | some i =>
    match s.heap i with
    | none => .error .ub
    | some b =>
      let cells := b.take r.len
      if cells.length = r.len ∧ cells.all (·.isSome) then .ok (cells.filterMap id) else .error .ub

/-- Release the buffer of a vector (not its elements). -/
def dropRepr (s : State α) (r : Repr) : Except Fault (State α) :=
  match r.buf with
  | none => .ok s
  | some i => free s i

/-- `Vec::reserve`: when the spare capacity is too small, move to a larger buffer.  The new capacity
is at least what is needed; how much more is up to the allocator (`slack`).  The old buffer's cells
are copied and the old buffer freed. -/
def reserve (s : State α) (r : Repr) (additional slack : Nat) : Except Fault (State α × Repr) :=
  if r.cap - r.len < additional then
    let cap := r.len + additional + slack
    match r.buf with
    | none =>
      let (s', i) := alloc s (List.replicate cap none)
      .ok (s', ⟨some i, r.len, cap⟩)
    | some j =>
      match s.heap j with
      | none => .error .ub
      | some b =>
        let (s', i) := alloc s (b ++ List.replicate (cap - b.length) none)
        match free s' j with
        | .error e => .error e
        | .ok s'' => .ok (s'', ⟨some i, r.len, cap⟩)
  else .ok (s, r)

/-- Store a value in a cell of a vector's buffer. -/
def poke (s : State α) (r : Repr) (k : Nat) (v : α) : Except Fault (State α) :=
  match r.buf with
  | none => .error .ub
  | some i =>
    match s.heap i with
    | none => .error .ub
    | some b => if k < b.length then .ok { s with heap := upd s.heap i (some (b.set k (some v))) } else .error .ub

def place (s : State α) (o : Nat) (r : Repr) : State α := { s with objs := upd s.objs o (some r) }

/-! ## Lemmas -/

abbrev Table (α : Type) := Nat → Option (List α)

/-- `r` is a vector with contents `bs` in heap `h`. -/
def Holds (h : Nat → Option (Buf α)) (r : Repr) (bs : List α) : Prop :=
  match r.buf with
  | none => bs = [] ∧ r.len = 0 ∧ r.cap = 0
  | some i => ∃ rest, h i = some (bs.map some ++ rest) ∧ r.len = bs.length ∧ r.cap = bs.length + rest.length

/-- The machine state `s` represents the vectors `a`, where the object at `skip` is being rebuilt:
every other live object holds its vector in a buffer of its own, and there are no other buffers. -/
structure RelX (skip : Option Nat) (s : State α) (a : Table α) : Prop where
  objs : ∀ p, some p ≠ skip → (s.objs p = none ∧ a p = none) ∨
    ∃ r bs, s.objs p = some r ∧ a p = some bs ∧ Holds s.heap r bs
  uniq : ∀ p q r r' i, some p ≠ skip → some q ≠ skip → s.objs p = some r → s.objs q = some r' →
    r.buf = some i → r'.buf = some i → p = q
  owned : ∀ i, s.heap i ≠ none → i < s.next ∧ ∃ p r, some p ≠ skip ∧ s.objs p = some r ∧ r.buf = some i

abbrev Rel {α : Type} (s : State α) (a : Table α) : Prop := RelX none s a

theorem rel_init : Rel (init : State α) (fun _ => none) :=
  ⟨fun _ _ => Or.inl ⟨rfl, rfl⟩, fun _ _ _ _ _ _ _ h => by simp [init] at h, fun _ h => by simp [init] at h⟩

theorem holds_elemsOf {s : State α} {r : Repr} {bs : List α} (h : Holds s.heap r bs) : elemsOf s r = .ok bs := by
  unfold Holds at h
  unfold elemsOf
  cases hb : r.buf with
  | none => rw [hb] at h; simp [h.1, h.2.1]
  | some i =>
    rw [hb] at h
    obtain ⟨rest, h1, h2, _⟩ := h
    simp only [h1, h2]
    have : (List.map some bs ++ rest).take bs.length = bs.map some := by
      rw [List.take_append_of_le_length (by simp), List.take_of_length_le (by simp)]
    rw [this]
    simp [List.filterMap_map]

theorem rel_none {s : State α} {a : Table α} (h : Rel s a) (o : Nat) : s.objs o = none ↔ a o = none := by
  rcases h.objs o (by simp) with ⟨h1, h2⟩ | ⟨r, bs, h1, h2, _⟩ <;> simp [h1, h2]

theorem rel_some {s : State α} {a : Table α} (h : Rel s a) {o : Nat} {r : Repr} (hr : s.objs o = some r) :
    ∃ bs, a o = some bs ∧ Holds s.heap r bs := by
  rcases h.objs o (by simp) with ⟨h1, _⟩ | ⟨r', bs, h1, h2, h3⟩
  · rw [h1] at hr; cases hr
  · rw [h1] at hr; cases hr; exact ⟨bs, h2, h3⟩

/-- An address with no object can be treated as being built. -/
theorem rel_skip {s : State α} {a : Table α} (h : Rel s a) {o : Nat} (ho : s.objs o = none) :
    RelX (some o) s a := by
  refine ⟨fun p _ => h.objs p (by simp), fun p q r r' i _ _ => h.uniq p q r r' i (by simp) (by simp), ?_⟩
  intro i hi
  obtain ⟨h1, p, r, _, hp, hb⟩ := h.owned i hi
  refine ⟨h1, p, r, ?_, hp, hb⟩
  intro he
  injection he with he
  rw [he, ho] at hp; cases hp

theorem holds_buf {h : Nat → Option (Buf α)} {r : Repr} {bs : List α} (hh : Holds h r bs) {i : Nat}
    (hb : r.buf = some i) : ∃ rest, h i = some (bs.map some ++ rest) ∧ r.len = bs.length ∧
      r.cap = bs.length + rest.length := by
  unfold Holds at hh; rw [hb] at hh; exact hh

/-- Holding is unaffected by changes to other buffers. -/
theorem holds_upd {h : Nat → Option (Buf α)} {r : Repr} {bs : List α} (hh : Holds h r bs) {i : Nat}
    (hne : r.buf ≠ some i) (v : Option (Buf α)) : Holds (upd h i v) r bs := by
  unfold Holds at hh ⊢
  cases hb : r.buf with
  | none => rw [hb] at hh; exact hh
  | some j =>
    rw [hb] at hh
    have : j ≠ i := fun e => hne (by rw [hb, e])
    simp only [upd_ne _ _ this]
    exact hh

/-- Dropping the vector of object `o` frees its buffer and leaves the rest alone. -/
theorem rel_drop {s : State α} {a : Table α} (h : Rel s a) {o : Nat} {r : Repr} (hr : s.objs o = some r) :
    ∃ s1, dropRepr s r = .ok s1 ∧ RelX (some o) s1 a ∧ s1.objs = s.objs ∧ s1.next = s.next ∧
      (∀ q r' bs, q ≠ o → s.objs q = some r' → Holds s.heap r' bs → Holds s1.heap r' bs) := by
  obtain ⟨bs, _, hh⟩ := rel_some h hr
  unfold dropRepr
  cases hb : r.buf with
  | none =>
    refine ⟨s, rfl, ⟨fun p _ => h.objs p (by simp), fun p q r r' i _ _ => h.uniq p q r r' i (by simp) (by simp), ?_⟩,
      rfl, rfl, fun _ _ _ _ _ hh => hh⟩
    intro i hi
    obtain ⟨h1, p, r', _, hp, hb'⟩ := h.owned i hi
    refine ⟨h1, p, r', ?_, hp, hb'⟩
    intro he
    injection he with he
    rw [he, hr] at hp
    cases hp
    rw [hb] at hb'; cases hb'
  | some i =>
    obtain ⟨rest, h1, _⟩ := holds_buf hh hb
    have hfree : free s i = .ok { s with heap := upd s.heap i none } := by simp [free, h1]
    simp only [hfree]
    have hkeep : ∀ q r' bs, q ≠ o → s.objs q = some r' → Holds s.heap r' bs → Holds (upd s.heap i none) r' bs := by
      intro q r' bs hq hr' hh'
      refine holds_upd hh' ?_ none
      intro hb'
      exact hq (h.uniq q o r' r i (by simp) (by simp) hr' hr hb' hb)
    refine ⟨_, rfl, ⟨?_, ?_, ?_⟩, rfl, rfl, hkeep⟩
    · intro p hp
      rcases h.objs p (by simp) with h' | ⟨r', bs', h2, h3, h4⟩
      · exact Or.inl h'
      · exact Or.inr ⟨r', bs', h2, h3, hkeep p r' bs' (fun e => hp (by rw [e])) h2 h4⟩
    · intro p q r r' i _ _; exact h.uniq p q r r' i (by simp) (by simp)
    · intro j hj
      have hji : j ≠ i := by intro e; simp [e] at hj
      simp only [upd_ne _ _ hji] at hj
      obtain ⟨h2, p, r', _, hp, hb'⟩ := h.owned j hj
      refine ⟨h2, p, r', ?_, hp, hb'⟩
      intro he
      injection he with he
      rw [he, hr] at hp
      cases hp
      rw [hb] at hb'; injection hb' with e; exact hji e.symm

/-- Finishing an object with a vector that has no buffer. -/
theorem rel_place_empty {s : State α} {a : Table α} {o : Nat} (h : RelX (some o) s a) :
    Rel (place s o ⟨none, 0, 0⟩) (upd a o (some [])) := by
  refine ⟨?_, ?_, ?_⟩
  · intro p _
    by_cases hp : p = o
    · subst hp
      exact Or.inr ⟨⟨none, 0, 0⟩, [], by simp [place], by simp, ⟨rfl, rfl, rfl⟩⟩
    · rcases h.objs p (by simpa using hp) with ⟨h1, h2⟩ | ⟨r, bs, h1, h2, h3⟩
      · exact Or.inl ⟨by simp [place, upd_ne _ _ hp, h1], by simp [upd_ne _ _ hp, h2]⟩
      · exact Or.inr ⟨r, bs, by simp [place, upd_ne _ _ hp, h1], by simp [upd_ne _ _ hp, h2], h3⟩
  · intro p q r r' i _ _ hp hq hb hb'
    have hpo : p ≠ o := by
      rintro rfl; simp [place] at hp; rw [← hp] at hb; cases hb
    have hqo : q ≠ o := by
      rintro rfl; simp [place] at hq; rw [← hq] at hb'; cases hb'
    simp only [place, upd_ne _ _ hpo] at hp
    simp only [place, upd_ne _ _ hqo] at hq
    exact h.uniq p q r r' i (by simpa using hpo) (by simpa using hqo) hp hq hb hb'
  · intro i hi
    obtain ⟨h1, p, r, hp, h2, h3⟩ := h.owned i hi
    have hpo : p ≠ o := by simpa using hp
    exact ⟨h1, p, r, by simp, by simp [place, upd_ne _ _ hpo, h2], h3⟩

/-- Finishing an object with a freshly allocated buffer. -/
theorem rel_place_fresh {s : State α} {a : Table α} {o : Nat} (h : RelX (some o) s a) {bs : List α} (rest : Buf α) :
    Rel (place (alloc s (bs.map some ++ rest)).1 o ⟨some (alloc s (bs.map some ++ rest)).2, bs.length, bs.length + rest.length⟩)
      (upd a o (some bs)) := by
  have hfresh : s.heap s.next = none := by
    cases hn : s.heap s.next with
    | none => rfl
    | some b => exact absurd (h.owned s.next (by simp [hn])).1 (by omega)
  have hne : ∀ p r, some p ≠ some o → s.objs p = some r → r.buf ≠ some s.next := by
    intro p r hp hr hb
    rcases h.objs p hp with ⟨h1, _⟩ | ⟨r', bs', h1, _, h3⟩
    · rw [h1] at hr; cases hr
    · rw [h1] at hr; cases hr
      obtain ⟨rest', h4, _⟩ := holds_buf h3 hb
      rw [hfresh] at h4; cases h4
  refine ⟨?_, ?_, ?_⟩
  · intro p _
    by_cases hp : p = o
    · subst hp
      refine Or.inr ⟨_, bs, upd_same _ _ _, by simp, ?_⟩
      exact ⟨rest, by simp [alloc, place], rfl, rfl⟩
    · rcases h.objs p (by simpa using hp) with ⟨h1, h2⟩ | ⟨r, bs', h1, h2, h3⟩
      · exact Or.inl ⟨by simp [place, alloc, upd_ne _ _ hp, h1], by simp [upd_ne _ _ hp, h2]⟩
      · exact Or.inr ⟨r, bs', by simp [place, alloc, upd_ne _ _ hp, h1], by simp [upd_ne _ _ hp, h2],
          holds_upd h3 (hne p r (by simpa using hp) h1) _⟩
  · intro p q r r' i _ _ hp hq hb hb'
    simp only [place, alloc] at hp hq
    by_cases hpo : p = o <;> by_cases hqo : q = o
    · rw [hpo, hqo]
    · subst hpo
      simp at hp; subst hp
      simp only [alloc, Option.some.injEq] at hb; subst hb
      rw [upd_ne _ _ hqo] at hq
      exact absurd hb' (hne q r' (by simpa using hqo) hq)
    · subst hqo
      simp at hq; subst hq
      simp only [alloc, Option.some.injEq] at hb'; subst hb'
      rw [upd_ne _ _ hpo] at hp
      exact absurd hb (hne p r (by simpa using hpo) hp)
    · rw [upd_ne _ _ hpo] at hp
      rw [upd_ne _ _ hqo] at hq
      exact h.uniq p q r r' i (by simpa using hpo) (by simpa using hqo) hp hq hb hb'
  · intro i hi
    simp only [place, alloc] at hi ⊢
    by_cases hin : i = s.next
    · subst hin
      exact ⟨by omega, o, _, by simp, upd_same _ _ _, rfl⟩
    · rw [upd_ne _ _ hin] at hi
      obtain ⟨h1, p, r, hp, h2, h3⟩ := h.owned i hi
      have hpo : p ≠ o := by simpa using hp
      exact ⟨by omega, p, r, by simp, by simp [upd_ne _ _ hpo, h2], h3⟩

/-- Moving a finished vector into the object being built. -/
theorem rel_move {s : State α} {a : Table α} {o src : Nat} (h : RelX (some o) s a) (hne : o ≠ src) {rs : Repr}
    {bs : List α} (hr : s.objs src = some rs) (ha : a src = some bs) :
    Rel (place (place s o rs) src ⟨none, 0, 0⟩) (upd (upd a o (some bs)) src (some [])) := by
  have hh : Holds s.heap rs bs := by
    rcases h.objs src (by simpa using hne.symm) with ⟨h1, _⟩ | ⟨r', bs', h1, h2, h3⟩
    · rw [h1] at hr; cases hr
    · rw [h1] at hr; rw [h2] at ha; cases hr; cases ha; exact h3
  refine ⟨?_, ?_, ?_⟩
  · intro p _
    by_cases hps : p = src
    · subst hps
      exact Or.inr ⟨⟨none, 0, 0⟩, [], by simp [place], by simp, ⟨rfl, rfl, rfl⟩⟩
    · by_cases hpo : p = o
      · subst hpo
        exact Or.inr ⟨rs, bs, by simp [place, upd_ne _ _ hps], by simp [upd_ne _ _ hps], hh⟩
      · rcases h.objs p (by simpa using hpo) with ⟨h1, h2⟩ | ⟨r, bs', h1, h2, h3⟩
        · exact Or.inl ⟨by simp [place, upd_ne _ _ hps, upd_ne _ _ hpo, h1], by simp [upd_ne _ _ hps, upd_ne _ _ hpo, h2]⟩
        · exact Or.inr ⟨r, bs', by simp [place, upd_ne _ _ hps, upd_ne _ _ hpo, h1],
            by simp [upd_ne _ _ hps, upd_ne _ _ hpo, h2], h3⟩
  · intro p q r r' i _ _ hp hq hb hb'
    simp only [place] at hp hq
    have hps : p ≠ src := by rintro rfl; simp at hp; rw [← hp] at hb; cases hb
    have hqs : q ≠ src := by rintro rfl; simp at hq; rw [← hq] at hb'; cases hb'
    rw [upd_ne _ _ hps] at hp
    rw [upd_ne _ _ hqs] at hq
    by_cases hpo : p = o <;> by_cases hqo : q = o
    · rw [hpo, hqo]
    · subst hpo
      simp at hp; subst hp
      rw [upd_ne _ _ hqo] at hq
      exact absurd (h.uniq src q rs r' i (by simpa using hne.symm) (by simpa using hqo) hr hq hb hb') (Ne.symm hqs)
    · subst hqo
      simp at hq; subst hq
      rw [upd_ne _ _ hpo] at hp
      exact absurd (h.uniq src p rs r i (by simpa using hne.symm) (by simpa using hpo) hr hp hb' hb) (Ne.symm hps)
    · rw [upd_ne _ _ hpo] at hp
      rw [upd_ne _ _ hqo] at hq
      exact h.uniq p q r r' i (by simpa using hpo) (by simpa using hqo) hp hq hb hb'
  · intro i hi
    obtain ⟨h1, p, r, hp, h2, h3⟩ := h.owned i hi
    have hpo : p ≠ o := by simpa using hp
    refine ⟨h1, ?_⟩
    by_cases hps : p = src
    · subst hps
      rw [hr] at h2; cases h2
      exact ⟨o, rs, by simp, by simp [place, upd_ne _ _ hne], h3⟩
    · exact ⟨p, r, by simp, by simp [place, upd_ne _ _ hps, upd_ne _ _ hpo, h2], h3⟩

/-- `reserve` keeps everything and provides the room asked for. -/
theorem rel_reserve {s : State α} {a : Table α} (h : Rel s a) {o : Nat} {r : Repr} (hr : s.objs o = some r)
    (additional slack : Nat) :
    ∃ s' r', reserve s r additional slack = .ok (s', r') ∧ Rel (place s' o r') a ∧ r'.len = r.len ∧
      r'.len + additional ≤ r'.cap := by
  obtain ⟨bs, ha, hh⟩ := rel_some h hr
  have haa : upd a o (some bs) = a := by rw [← ha]; exact upd_self a o
  unfold reserve
  by_cases hc : r.cap - r.len < additional
  · rw [if_pos hc]
    obtain ⟨s1, hd, hx, ho1, hn1, _⟩ := rel_drop h hr
    cases hb : r.buf with
    | none =>
      unfold Holds at hh
      rw [hb] at hh
      obtain ⟨rfl, hl, hcap⟩ := hh
      unfold dropRepr at hd
      rw [hb] at hd
      cases hd
      have := rel_place_fresh (bs := []) hx (List.replicate (r.len + additional + slack) none)
      rw [haa] at this
      refine ⟨_, _, rfl, ?_, rfl, ?_⟩
      · simpa [hl, alloc] using this
      · simp
    | some j =>
      obtain ⟨rest, h1, h2, h3⟩ := holds_buf hh hb
      unfold dropRepr at hd
      rw [hb] at hd
      simp only [free, h1, Except.ok.injEq] at hd
      subst hd
      have hj : j < s.next := (h.owned j (by simp [h1])).1
      have := rel_place_fresh (bs := bs) hx (rest ++ List.replicate (r.len + additional + slack - (bs.map some ++ rest).length) none)
      rw [haa] at this
      have hnj : j ≠ s.next := by omega
      simp only [h1, alloc, free, upd_ne _ _ hnj]
      refine ⟨_, _, rfl, ?_, rfl, ?_⟩
      · simp only [alloc, place] at this ⊢
        rw [upd_comm _ _ _ (Ne.symm hnj)]
        have hcapeq : r.len + additional + slack =
            bs.length + (rest ++ List.replicate (r.len + additional + slack - (bs.map some ++ rest).length) (none : Option α)).length := by
          simp; omega
        rw [List.append_assoc]
        rw [← hcapeq, ← h2] at this
        exact this
      · simp
  · rw [if_neg hc]
    refine ⟨s, r, rfl, ?_, rfl, ?_⟩
    · have : place s o r = s := by simp only [place]; rw [← hr, upd_self]
      rw [this]; exact h
    · unfold Holds at hh
      cases hb : r.buf with
      | none => rw [hb] at hh; omega
      | some i => obtain ⟨rest, _, h2, h3⟩ := holds_buf hh hb; omega

/-- Changing the contents of a vector in place. -/
theorem rel_modify {s : State α} {a : Table α} (h : Rel s a) {o : Nat} {r : Repr} (hr : s.objs o = some r)
    {i : Nat} (hb : r.buf = some i) (bs' : List α) (rest' : Buf α) :
    Rel (place { s with heap := upd s.heap i (some (bs'.map some ++ rest')) } o
      ⟨some i, bs'.length, bs'.length + rest'.length⟩) (upd a o (some bs')) := by
  obtain ⟨bs, ha, hh⟩ := rel_some h hr
  obtain ⟨rest, h1, h2, h3⟩ := holds_buf hh hb
  refine ⟨?_, ?_, ?_⟩
  · intro p _
    by_cases hpo : p = o
    · subst hpo
      exact Or.inr ⟨_, bs', upd_same _ _ _, by simp, ⟨rest', upd_same _ _ _, rfl, rfl⟩⟩
    · rcases h.objs p (by simp) with ⟨k1, k2⟩ | ⟨r', cs, k1, k2, k3⟩
      · exact Or.inl ⟨by simp [place, upd_ne _ _ hpo, k1], by simp [upd_ne _ _ hpo, k2]⟩
      · refine Or.inr ⟨r', cs, by simp [place, upd_ne _ _ hpo, k1], by simp [upd_ne _ _ hpo, k2], ?_⟩
        refine holds_upd k3 ?_ _
        intro hb'
        exact hpo (h.uniq p o r' r i (by simp) (by simp) k1 hr hb' hb)
  · intro p q r1 r2 j _ _ hp hq hb1 hb2
    simp only [place] at hp hq
    by_cases hpo : p = o <;> by_cases hqo : q = o
    · rw [hpo, hqo]
    · subst hpo
      simp at hp; subst hp
      simp only [Option.some.injEq] at hb1; subst hb1
      rw [upd_ne _ _ hqo] at hq
      exact h.uniq p q r r2 i (by simp) (by simp) hr hq hb hb2
    · subst hqo
      simp at hq; subst hq
      simp only [Option.some.injEq] at hb2; subst hb2
      rw [upd_ne _ _ hpo] at hp
      exact h.uniq p q r1 r i (by simp) (by simp) hp hr hb1 hb
    · rw [upd_ne _ _ hpo] at hp
      rw [upd_ne _ _ hqo] at hq
      exact h.uniq p q r1 r2 j (by simp) (by simp) hp hq hb1 hb2
  · intro j hj
    have hj' : s.heap j ≠ none := by
      by_cases hji : j = i
      · subst hji; simp [h1]
      · simpa [place, upd_ne _ _ hji] using hj
    obtain ⟨k1, p, r', _, k2, k3⟩ := h.owned j hj'
    refine ⟨k1, ?_⟩
    by_cases hpo : p = o
    · subst hpo
      rw [hr] at k2; cases k2
      rw [hb] at k3; cases k3
      exact ⟨p, _, by simp, upd_same _ _ _, rfl⟩
    · exact ⟨p, r', by simp, by simp [place, upd_ne _ _ hpo, k2], k3⟩

/-- Appending to a vector with room. -/
theorem rel_push {s : State α} {a : Table α} (h : Rel s a) {o : Nat} {r : Repr} (hr : s.objs o = some r)
    (hc : r.len < r.cap) (v : α) {bs : List α} (ha : a o = some bs) :
    ∃ s', poke s r r.len v = .ok s' ∧ s'.objs = s.objs ∧
      Rel (place s' o { r with len := r.len + 1 }) (upd a o (some (bs ++ [v]))) := by
  obtain ⟨bs', ha', hh⟩ := rel_some h hr
  rw [ha] at ha'; cases ha'
  unfold poke
  cases hb : r.buf with
  | none => unfold Holds at hh; rw [hb] at hh; omega
  | some i =>
    obtain ⟨rest, h1, h2, h3⟩ := holds_buf hh hb
    match rest, h1, h3 with
    | [], _, h3 => simp at h3; omega
    | x :: rest, h1, h3 =>
      have hset : (bs.map some ++ x :: rest).set bs.length (some v) = (bs ++ [v]).map some ++ rest := by
        rw [List.set_append_right _ _ (by simp)]
        simp
      simp only [h1, h2, hset]
      rw [if_pos (by simp)]
      refine ⟨_, rfl, rfl, ?_⟩
      have := rel_modify h hr hb (bs ++ [v]) rest
      have e : (⟨some i, (bs ++ [v]).length, (bs ++ [v]).length + rest.length⟩ : Repr) = ⟨some i, bs.length + 1, r.cap⟩ := by
        simp [h3]; omega
      rw [e] at this
      exact this

/-- Shortening a vector. -/
theorem rel_truncate {s : State α} {a : Table α} (h : Rel s a) {o : Nat} {r : Repr} (hr : s.objs o = some r)
    {bs : List α} (ha : a o = some bs) {n : Nat} (hn : n ≤ bs.length) :
    Rel (place s o { r with len := n }) (upd a o (some (bs.take n))) := by
  obtain ⟨bs', ha', hh⟩ := rel_some h hr
  rw [ha] at ha'; cases ha'
  cases hb : r.buf with
  | none =>
    unfold Holds at hh; rw [hb] at hh
    obtain ⟨rfl, hl, hcap⟩ := hh
    simp at hn; subst hn
    have e1 : ({ buf := none, len := 0, cap := r.cap } : Repr) = r := by
      cases r; simp_all
    rw [e1]
    have e2 : place s o r = s := by simp only [place]; rw [← hr, upd_self]
    rw [e2]
    simp only [List.take_nil]
    rw [← ha, upd_self]; exact h
  | some i =>
    obtain ⟨rest, h1, h2, h3⟩ := holds_buf hh hb
    have := rel_modify h hr hb (bs.take n) ((bs.drop n).map some ++ rest)
    have e : (bs.take n).map some ++ ((bs.drop n).map some ++ rest) = bs.map some ++ rest := by
      rw [← List.append_assoc, ← List.map_append, List.take_append_drop]
    rw [e, ← h1, upd_self] at this
    have e2 : (⟨some i, (bs.take n).length, (bs.take n).length + ((bs.drop n).map some ++ rest).length⟩ : Repr)
        = ⟨some i, n, r.cap⟩ := by
      simp [h3]; omega
    rw [e2] at this
    exact this

/-- Overwriting an element. -/
theorem rel_set {s : State α} {a : Table α} (h : Rel s a) {o : Nat} {r : Repr} (hr : s.objs o = some r)
    {bs : List α} (ha : a o = some bs) {k : Nat} (hk : k < bs.length) (v : α) :
    ∃ s', poke s r k v = .ok s' ∧ Rel s' (upd a o (some (bs.set k v))) := by
  obtain ⟨bs', ha', hh⟩ := rel_some h hr
  rw [ha] at ha'; cases ha'
  unfold poke
  cases hb : r.buf with
  | none => unfold Holds at hh; rw [hb] at hh; simp [hh.1] at hk
  | some i =>
    obtain ⟨rest, h1, h2, h3⟩ := holds_buf hh hb
    have hset : (bs.map some ++ rest).set k (some v) = (bs.set k v).map some ++ rest := by
      rw [List.set_append_left _ _ (by simpa using hk), List.map_set]
    simp only [h1, hset]
    rw [if_pos (by simp; omega)]
    refine ⟨_, rfl, ?_⟩
    have := rel_modify h hr hb (bs.set k v) rest
    have e : (⟨some i, (bs.set k v).length, (bs.set k v).length + rest.length⟩ : Repr) = r := by
      cases r; simp_all
    rw [e] at this
    simp only [place] at this
    rw [← hr, upd_self] at this
    exact this

theorem rel_swap {s : State α} {a : Table α} (h : Rel s a) {o p : Nat} {ro rp : Repr} {b c : List α}
    (ho : s.objs o = some ro) (hp : s.objs p = some rp) (ha : a o = some b) (hc : a p = some c) :
    Rel (place (place s o rp) p ro) (upd (upd a o (some c)) p (some b)) := by
  obtain ⟨b', ha', hho⟩ := rel_some h ho
  rw [ha] at ha'; cases ha'
  obtain ⟨c', hc', hhp⟩ := rel_some h hp
  rw [hc] at hc'; cases hc'
  by_cases hne : o = p
  · subst hne
    rw [ho] at hp; cases hp
    rw [ha] at hc; cases hc
    have : place (place s o ro) o ro = s := by simp only [place]; rw [upd_upd, ← ho, upd_self]
    rw [this, upd_upd, ← ha, upd_self]; exact h
  · -- the object table after the swap, looked up through the transposition
    have key : ∀ q, ∃ q', (upd (upd s.objs o (some rp)) p (some ro)) q = s.objs q' ∧
        (upd (upd a o (some c)) p (some b)) q = a q' ∧
        ((q = o ∧ q' = p) ∨ (q = p ∧ q' = o) ∨ (q ≠ o ∧ q ≠ p ∧ q' = q)) := by
      intro q
      by_cases h1 : q = p
      · subst h1; exact ⟨o, by simp [ho], by simp [ha], by simp⟩
      · by_cases h2 : q = o
        · subst h2; exact ⟨p, by simp [upd_ne _ _ h1, hp], by simp [upd_ne _ _ h1, hc], by simp⟩
        · exact ⟨q, by simp [upd_ne _ _ h1, upd_ne _ _ h2], by simp [upd_ne _ _ h1, upd_ne _ _ h2], by simp [h1, h2]⟩
    refine ⟨?_, ?_, ?_⟩
    · intro q _
      obtain ⟨q', e1, e2, _⟩ := key q
      simp only [place]
      rw [e1, e2]
      exact h.objs q' (by simp)
    · intro q1 q2 r1 r2 i _ _ k1 k2 k3 k4
      simp only [place] at k1 k2
      obtain ⟨q1', e1, _, c1⟩ := key q1
      obtain ⟨q2', e2, _, c2⟩ := key q2
      rw [e1] at k1; rw [e2] at k2
      have := h.uniq q1' q2' r1 r2 i (by simp) (by simp) k1 k2 k3 k4
      omega
    · intro i hi
      obtain ⟨k1, q, r, _, k2, k3⟩ := h.owned i hi
      refine ⟨k1, ?_⟩
      by_cases h1 : q = o
      · subst h1
        exact ⟨p, ro, by simp, by simp [place], by rw [ho] at k2; cases k2; exact k3⟩
      · by_cases h2 : q = p
        · subst h2
          exact ⟨o, rp, by simp, by simp [place, upd_ne _ _ hne], by rw [hp] at k2; cases k2; exact k3⟩
        · exact ⟨q, r, by simp, by simp [place, upd_ne _ _ h1, upd_ne _ _ h2, k2], k3⟩

/-- The object being rebuilt is gone. -/
theorem rel_remove {s : State α} {a : Table α} {o : Nat} (h : RelX (some o) s a) :
    Rel { s with objs := upd s.objs o none } (upd a o none) := by
  refine ⟨?_, ?_, ?_⟩
  · intro p _
    by_cases hpo : p = o
    · subst hpo; exact Or.inl ⟨by simp, by simp⟩
    · rcases h.objs p (by simpa using hpo) with ⟨k1, k2⟩ | ⟨r', cs, k1, k2, k3⟩
      · exact Or.inl ⟨by simp [upd_ne _ _ hpo, k1], by simp [upd_ne _ _ hpo, k2]⟩
      · exact Or.inr ⟨r', cs, by simp [upd_ne _ _ hpo, k1], by simp [upd_ne _ _ hpo, k2], k3⟩
  · intro p q r1 r2 j _ _ hp hq hb1 hb2
    have hpo : p ≠ o := by rintro rfl; simp at hp
    have hqo : q ≠ o := by rintro rfl; simp at hq
    simp only [upd_ne _ _ hpo] at hp
    simp only [upd_ne _ _ hqo] at hq
    exact h.uniq p q r1 r2 j (by simpa using hpo) (by simpa using hqo) hp hq hb1 hb2
  · intro i hi
    obtain ⟨k1, q, r, hq, k2, k3⟩ := h.owned i hi
    have hqo : q ≠ o := by simpa using hq
    exact ⟨k1, q, r, by simp, by simp [upd_ne _ _ hqo, k2], k3⟩

/-- With no objects left, no buffer is left. -/
theorem rel_no_leak {s : State α} {a : Table α} (h : Rel s a) (hn : ∀ o, s.objs o = none) (i : Nat) :
    s.heap i = none := by
  cases hi : s.heap i with
  | none => rfl
  | some b =>
    obtain ⟨_, p, r, _, hp, _⟩ := h.owned i (by simp [hi])
    rw [hn p] at hp; cases hp

end Verif.Buffer
