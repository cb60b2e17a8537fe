import Verif.SharedPtr.Spec
import Verif.Common.Counts
/-!
# C16
-/
namespace Verif.SharedPtr
open Verif Spec

abbrev SRef (vars : Nat → Option Var) (i p : Nat) : Prop := vars p = some (.shared (some i))
abbrev WRef (vars : Nat → Option Var) (i p : Nat) : Prop := vars p = some (.weak (some i))

/-- A block's counts are the numbers of variables. -/
def BlockOk (a : World) (i : Nat) : Option Block → Prop
  | none => (∀ p, ¬ SRef a.vars i p) ∧ ∀ p, ¬ WRef a.vars i p
  | some b => Counts (SRef a.vars i) b.strong ∧ Counts (WRef a.vars i) b.weak ∧ i < a.next ∧
      b.obj = (if b.strong = 0 then none else some (a.val i)) ∧ (b.strong ≠ 0 ∨ b.weak ≠ 0)

structure Rel (s : State) (a : World) : Prop where
  vars : s.vars = a.vars
  next : s.next = a.next
  block : ∀ i, BlockOk a i (s.blocks i)
  drops : ∀ i, (s.drops i = 1 ∧ i < a.next ∧ ¬ Alive a i) ∨ (s.drops i = 0 ∧ (a.next ≤ i ∨ Alive a i))

theorem rel_init : Rel init start :=
  ⟨rfl, rfl, fun i => by simp [init, start, BlockOk], fun i => Or.inr ⟨rfl, Or.inl (Nat.zero_le _)⟩⟩

theorem setVar_vars (a : World) (o : Nat) (v : Option Var) : (setVar a o v).vars = upd a.vars o v := by
  funext p; simp [setVar, upd_apply]

theorem srefs_set {a : World} {o i p : Nat} {v : Option Var} :
    SRef (setVar a o v).vars i p ↔ (p = o ∧ v = some (.shared (some i))) ∨ (p ≠ o ∧ SRef a.vars i p) := by
  simp only [SRef, setVar]; split <;> simp_all

theorem wrefs_set {a : World} {o i p : Nat} {v : Option Var} :
    WRef (setVar a o v).vars i p ↔ (p = o ∧ v = some (.weak (some i))) ∨ (p ≠ o ∧ WRef a.vars i p) := by
  simp only [WRef, setVar]; split <;> simp_all

/-- A change of a variable that does not concern block `i`. -/
theorem block_frame {a : World} {i o : Nat} {v : Option Var} {b : Option Block} (h : BlockOk a i b)
    (h1 : a.vars o ≠ some (.shared (some i))) (h2 : a.vars o ≠ some (.weak (some i)))
    (h3 : v ≠ some (.shared (some i))) (h4 : v ≠ some (.weak (some i))) : BlockOk (setVar a o v) i b := by
  have e1 : ∀ p, SRef (setVar a o v).vars i p ↔ SRef a.vars i p := by
    intro p; rw [srefs_set]; by_cases hp : p = o <;> simp_all
  have e2 : ∀ p, WRef (setVar a o v).vars i p ↔ WRef a.vars i p := by
    intro p; rw [wrefs_set]; by_cases hp : p = o <;> simp_all
  cases b with
  | none => exact ⟨fun p => mt (e1 p).1 (h.1 p), fun p => mt (e2 p).1 (h.2 p)⟩
  | some b => exact ⟨counts_congr h.1 e1, counts_congr h.2.1 e2, h.2.2⟩

theorem alive_frame {a : World} {i o : Nat} {v : Option Var} (h1 : a.vars o ≠ some (.shared (some i)))
    (h3 : v ≠ some (.shared (some i))) : Alive (setVar a o v) i ↔ Alive a i := by
  constructor
  · rintro ⟨p, hp⟩
    rcases srefs_set.1 hp with ⟨_, h⟩ | ⟨_, h⟩
    · exact absurd h h3
    · exact ⟨p, h⟩
  · rintro ⟨p, hp⟩
    refine ⟨p, srefs_set.2 (Or.inr ⟨?_, hp⟩)⟩
    rintro rfl; exact h1 hp

theorem sref_block {s : State} {a : World} (h : Rel s a) {o i : Nat} (ho : SRef a.vars i o) :
    ∃ b, s.blocks i = some b ∧ b.strong ≠ 0 ∧ b.obj = some (a.val i) := by
  have := h.block i
  cases hb : s.blocks i with
  | none => rw [hb] at this; exact absurd ho (this.1 o)
  | some b =>
    rw [hb] at this
    have hs := counts_pos this.1 ho
    exact ⟨b, rfl, hs, by rw [this.2.2.2.1, if_neg hs]⟩

theorem wref_block {s : State} {a : World} (h : Rel s a) {o i : Nat} (ho : WRef a.vars i o) :
    ∃ b, s.blocks i = some b ∧ b.weak ≠ 0 := by
  have := h.block i
  cases hb : s.blocks i with
  | none => rw [hb] at this; exact absurd ho (this.2 o)
  | some b => rw [hb] at this; exact ⟨b, rfl, counts_pos this.2.1 ho⟩

/-- A new null variable. -/
theorem add_null {s : State} {a : World} (h : Rel s a) {o : Nat} (ho : a.vars o = none) {v : Var}
    (hv : v = .shared none ∨ v = .weak none) : Rel (put s o v) (setVar a o (some v)) := by
  have hs : ∀ i, some v ≠ some (Var.shared (some i)) := by rcases hv with rfl | rfl <;> simp
  have hw : ∀ i, some v ≠ some (Var.weak (some i)) := by rcases hv with rfl | rfl <;> simp
  refine ⟨by rw [setVar_vars, ← h.vars]; rfl, h.next, fun i => ?_, fun i => ?_⟩
  · exact block_frame (h.block i) (by simp [ho]) (by simp [ho]) (hs i) (hw i)
  · rcases h.drops i with ⟨h1, h2, h3⟩ | ⟨h1, h2⟩
    · exact Or.inl ⟨h1, h2, mt (alive_frame (by simp [ho]) (hs i)).1 h3⟩
    · exact Or.inr ⟨h1, h2.imp id (alive_frame (by simp [ho]) (hs i)).2⟩

theorem alive_bind_sref {a : World} {o j i : Nat} (ho : a.vars o = none) (ha : Alive a i) :
    Alive (setVar a o (some (.shared (some i)))) j ↔ Alive a j := by
  by_cases hj : j = i
  · subst hj
    constructor
    · intro _; exact ha
    · intro _; exact ⟨o, srefs_set.2 (Or.inl ⟨rfl, rfl⟩)⟩
  · exact alive_frame (by simp [ho]) (by simp [Ne.symm hj])

/-- One more shared pointer. -/
theorem add_shared {s : State} {a : World} (h : Rel s a) {o i : Nat} {b : Block} (ho : a.vars o = none)
    (hb : s.blocks i = some b) (hs : b.strong ≠ 0) :
    Rel (put (setBlock s i { b with strong := b.strong + 1 }) o (.shared (some i))) (setVar a o (some (.shared (some i)))) := by
  have hi := h.block i
  rw [hb] at hi
  have halive : Alive a i := counts_exists hi.1 hs
  refine ⟨by rw [setVar_vars, ← h.vars]; rfl, h.next, fun j => ?_, fun j => ?_⟩
  · by_cases hj : j = i
    · subst hj
      simp only [put, setBlock, upd_same]
      refine ⟨counts_add hi.1 (o := o) (by simp [SRef, ho]) ?_, counts_congr hi.2.1 ?_, hi.2.2.1, ?_, Or.inl (by simp)⟩
      · intro p; rw [srefs_set]; by_cases hp : p = o <;> simp [hp]
      · intro p; rw [wrefs_set]; by_cases hp : p = o <;> simp [hp, WRef, ho]
      · simp [hi.2.2.2.1, hs, setVar]
    · simp only [put, setBlock, upd_ne _ _ hj]
      exact block_frame (h.block j) (by simp [ho]) (by simp [ho]) (by simp [Ne.symm hj]) (by simp)
  · rcases h.drops j with ⟨h1, h2, h3⟩ | ⟨h1, h2⟩
    · exact Or.inl ⟨h1, h2, mt (alive_bind_sref ho halive).1 h3⟩
    · exact Or.inr ⟨h1, h2.imp id (alive_bind_sref ho halive).2⟩

/-- One more weak pointer. -/
theorem add_weak {s : State} {a : World} (h : Rel s a) {o i : Nat} {b : Block} (ho : a.vars o = none)
    (hb : s.blocks i = some b) :
    Rel (put (setBlock s i { b with weak := b.weak + 1 }) o (.weak (some i))) (setVar a o (some (.weak (some i)))) := by
  have hi := h.block i
  rw [hb] at hi
  refine ⟨by rw [setVar_vars, ← h.vars]; rfl, h.next, fun j => ?_, fun j => ?_⟩
  · by_cases hj : j = i
    · subst hj
      simp only [put, setBlock, upd_same]
      refine ⟨counts_congr hi.1 ?_, counts_add hi.2.1 (o := o) (by simp [WRef, ho]) ?_, hi.2.2.1, ?_, Or.inr (by simp)⟩
      · intro p; rw [srefs_set]; by_cases hp : p = o <;> simp [hp, SRef, ho]
      · intro p; rw [wrefs_set]; by_cases hp : p = o <;> simp [hp]
      · simp [hi.2.2.2.1, setVar]
    · simp only [put, setBlock, upd_ne _ _ hj]
      exact block_frame (h.block j) (by simp [ho]) (by simp [ho]) (by simp) (by simp [Ne.symm hj])
  · rcases h.drops j with ⟨h1, h2, h3⟩ | ⟨h1, h2⟩
    · exact Or.inl ⟨h1, h2, mt (alive_frame (by simp [ho]) (by simp)).1 h3⟩
    · exact Or.inr ⟨h1, h2.imp id (alive_frame (by simp [ho]) (by simp)).2⟩

/-- Dropping a variable. -/
theorem dropVar_ok {s : State} {a : World} (h : Rel s a) {o : Nat} {v : Var} (ho : a.vars o = some v) :
    ∃ s' d, dropVar s o = .ok (s', d) ∧ Destroys a o d ∧ Rel s' (setVar a o none) := by
  have hso : s.vars o = some v := by rw [h.vars]; exact ho
  have null : ∀ v', v = v' → (v' = .shared none ∨ v' = .weak none) → Rel (del s o) (setVar a o none) := by
    rintro _ rfl hv
    have hs : ∀ i, a.vars o ≠ some (Var.shared (some i)) := by rw [ho]; rcases hv with rfl | rfl <;> simp
    have hw : ∀ i, a.vars o ≠ some (Var.weak (some i)) := by rw [ho]; rcases hv with rfl | rfl <;> simp
    refine ⟨by rw [setVar_vars, ← h.vars]; rfl, h.next, fun i => ?_, fun i => ?_⟩
    · exact block_frame (h.block i) (hs i) (hw i) (by simp) (by simp)
    · rcases h.drops i with ⟨h1, h2, h3⟩ | ⟨h1, h2⟩
      · exact Or.inl ⟨h1, h2, mt (alive_frame (hs i) (by simp)).1 h3⟩
      · exact Or.inr ⟨h1, h2.imp id (alive_frame (hs i) (by simp)).2⟩
  cases v with
  | shared p =>
    cases p with
    | none => exact ⟨_, none, by simp [dropVar, hso, dropShared], by simp [Destroys, Last, ho], null _ rfl (Or.inl rfl)⟩
    | some i =>
      obtain ⟨b, hb, hs, hobj⟩ := sref_block h ho
      have hi := h.block i
      rw [hb] at hi
      have hcs : Counts (SRef (setVar a o none).vars i) (b.strong - 1) := counts_remove hi.1 (o := o) ho (by
        intro p; rw [srefs_set]; simp [And.comm])
      have hcw : Counts (WRef (setVar a o none).vars i) b.weak := counts_congr hi.2.1 (by
        intro p; rw [wrefs_set]; by_cases hp : p = o <;> simp [hp, WRef, ho])
      have hframe : ∀ j, j ≠ i → BlockOk (setVar a o none) j (s.blocks j) := fun j hj =>
        block_frame (h.block j) (by simp [ho, Ne.symm hj]) (by simp [ho]) (by simp) (by simp)
      have halj : ∀ j, j ≠ i → (Alive (setVar a o none) j ↔ Alive a j) := fun j hj =>
        alive_frame (by simp [ho, Ne.symm hj]) (by simp)
      by_cases h1 : b.strong = 1
      · have hlast := counts_one (h1 ▸ hi.1) ho
        have hdead : ¬ Alive (setVar a o none) i := by
          rintro ⟨p, hp⟩
          rcases srefs_set.1 hp with ⟨_, e⟩ | ⟨e, hp'⟩
          · cases e
          · exact e (hlast p hp')
        refine ⟨_, some i, by simp [dropVar, hso, dropShared, hb, h1, hobj]; rfl, ?_, ?_⟩
        · intro j
          constructor
          · intro e; cases e; exact ⟨ho, hlast⟩
          · rintro ⟨e, _⟩; rw [ho] at e; cases e; rfl
        · rw [h1] at hcs
          refine ⟨?_, ?_, fun j => ?_, fun j => ?_⟩
          · simp only [del, sweep, setBlock]; rw [setVar_vars, ← h.vars]; split <;> rfl
          · simp only [del, sweep, setBlock]; rw [show (setVar a o none).next = a.next from rfl, ← h.next]; split <;> rfl
          · by_cases hj : j = i
            · subst hj
              simp only [del, sweep, setBlock]
              by_cases hw : b.weak = 0
              · simp only [hw, and_self, if_true, upd_same]
                rw [hw] at hcw
                exact ⟨counts_zero_iff.1 hcs, counts_zero_iff.1 hcw⟩
              · simp only [hw, and_false, if_false, upd_same]
                exact ⟨hcs, hcw, hi.2.2.1, by simp, Or.inr hw⟩
            · have : (del { sweep s i { b with obj := none, strong := 0 } with drops := upd s.drops i (s.drops i + 1) } o).blocks j
                = s.blocks j := by
                simp only [del, sweep, setBlock]; split <;> simp [upd_ne _ _ hj]
              rw [this]; exact hframe j hj
          · by_cases hj : j = i
            · subst hj
              refine Or.inl ⟨?_, hi.2.2.1, hdead⟩
              rcases h.drops j with ⟨_, _, k3⟩ | ⟨k1, _⟩
              · exact absurd ⟨o, ho⟩ k3
              · simp [del, k1]
            · simp only [del, upd_ne _ _ hj]
              rcases h.drops j with ⟨k1, k2, k3⟩ | ⟨k1, k2⟩
              · exact Or.inl ⟨k1, k2, mt (halj j hj).1 k3⟩
              · exact Or.inr ⟨k1, k2.imp id (halj j hj).2⟩
      · obtain ⟨p, hp, hpo⟩ := counts_more hi.1 ho (by omega)
        refine ⟨_, none, by simp [dropVar, hso, dropShared, hb, h1, hs]; rfl, ?_, ?_⟩
        · intro j
          constructor
          · intro e; cases e
          · rintro ⟨e, e'⟩; rw [ho] at e; cases e; exact absurd (e' p hp) hpo
        · have hal : Alive (setVar a o none) i := ⟨p, srefs_set.2 (Or.inr ⟨hpo, hp⟩)⟩
          refine ⟨by rw [setVar_vars, ← h.vars]; rfl, h.next, fun j => ?_, fun j => ?_⟩
          · by_cases hj : j = i
            · subst hj
              simp only [del, setBlock, upd_same]
              have : b.strong - 1 ≠ 0 := by omega
              refine ⟨hcs, hcw, hi.2.2.1, ?_, Or.inl this⟩
              simp only [this, if_false, hobj]; rfl
            · simp only [del, setBlock, upd_ne _ _ hj]; exact hframe j hj
          · rcases h.drops j with ⟨k1, k2, k3⟩ | ⟨k1, k2⟩
            · refine Or.inl ⟨k1, k2, ?_⟩
              by_cases hj : j = i
              · subst hj; exact absurd ⟨o, ho⟩ k3
              · exact mt (halj j hj).1 k3
            · refine Or.inr ⟨k1, ?_⟩
              by_cases hj : j = i
              · subst hj; exact Or.inr hal
              · exact k2.imp id (halj j hj).2
  | weak p =>
    cases p with
    | none => exact ⟨_, none, by simp [dropVar, hso, dropWeak], by simp [Destroys, Last, ho], null _ rfl (Or.inr rfl)⟩
    | some i =>
      obtain ⟨b, hb, hw⟩ := wref_block h ho
      have hi := h.block i
      rw [hb] at hi
      have hcs : Counts (SRef (setVar a o none).vars i) b.strong := counts_congr hi.1 (by
        intro p; rw [srefs_set]; by_cases hp : p = o <;> simp [hp, SRef, ho])
      have hcw : Counts (WRef (setVar a o none).vars i) (b.weak - 1) := counts_remove hi.2.1 (o := o) ho (by
        intro p; rw [wrefs_set]; simp [And.comm])
      have halj : ∀ j, (Alive (setVar a o none) j ↔ Alive a j) := fun j => alive_frame (by simp [ho]) (by simp)
      refine ⟨_, none, by simp [dropVar, hso, dropWeak, hb, hw]; rfl, by simp [Destroys, Last, ho], ?_⟩
      refine ⟨?_, ?_, fun j => ?_, fun j => ?_⟩
      · simp only [del, sweep, setBlock]; rw [setVar_vars, ← h.vars]; split <;> rfl
      · simp only [del, sweep, setBlock]; rw [show (setVar a o none).next = a.next from rfl, ← h.next]; split <;> rfl
      · by_cases hj : j = i
        · subst hj
          simp only [del, sweep, setBlock]
          split
          · next hz =>
            simp only [upd_same]
            rw [hz.1] at hcs; rw [hz.2] at hcw
            exact ⟨counts_zero_iff.1 hcs, counts_zero_iff.1 hcw⟩
          · next hz =>
            simp only [upd_same]
            exact ⟨hcs, hcw, hi.2.2.1, hi.2.2.2.1, by simp only; omega⟩
        · have : (del (sweep s i { b with weak := b.weak - 1 }) o).blocks j = s.blocks j := by
            simp only [del, sweep, setBlock]; split <;> simp [upd_ne _ _ hj]
          rw [this]
          exact block_frame (h.block j) (by simp [ho]) (by simp [ho, Ne.symm hj]) (by simp) (by simp)
      · have : (del (sweep s i { b with weak := b.weak - 1 }) o).drops j = s.drops j := by
          simp only [del, sweep, setBlock]; split <;> rfl
        rw [this, halj]
        exact h.drops j

/-- Moving a variable. -/
theorem move_ok {s : State} {a : World} (h : Rel s a) {o src : Nat} {v : Var} (ho : a.vars o = none)
    (hs : a.vars src = some v) : Rel (del (put s o v) src) (setVar (setVar a o (some v)) src none) := by
  have hne : src ≠ o := by rintro rfl; rw [ho] at hs; cases hs
  have e1 : ∀ i p, SRef (setVar (setVar a o (some v)) src none).vars i p ↔
      (p = o ∧ SRef a.vars i src) ∨ (SRef a.vars i p ∧ p ≠ src) := by
    intro i p
    rw [srefs_set, srefs_set]
    by_cases hp : p = src
    · subst hp; simp [hne]
    · by_cases hpo : p = o
      · subst hpo; simp [hp, SRef, hs, ho]
      · simp [hp, hpo]
  have e2 : ∀ i p, WRef (setVar (setVar a o (some v)) src none).vars i p ↔
      (p = o ∧ WRef a.vars i src) ∨ (WRef a.vars i p ∧ p ≠ src) := by
    intro i p
    rw [wrefs_set, wrefs_set]
    by_cases hp : p = src
    · subst hp; simp [hne]
    · by_cases hpo : p = o
      · subst hpo; simp [hp, WRef, hs, ho]
      · simp [hp, hpo]
  have c1 : ∀ i n, Counts (SRef a.vars i) n → Counts (SRef (setVar (setVar a o (some v)) src none).vars i) n := by
    intro i n hc
    by_cases hi : SRef a.vars i src
    · exact counts_swap hc hi (o' := o) (by simp [SRef, ho]) (by intro p; rw [e1]; exact ⟨fun k => k.imp (·.1) id, fun k => k.imp (⟨·, hi⟩) id⟩)
    · refine counts_congr hc (fun p => ?_)
      rw [e1]
      simp only [hi, and_false, false_or, and_iff_left_iff_imp]
      rintro hp rfl; exact hi hp
  have c2 : ∀ i n, Counts (WRef a.vars i) n → Counts (WRef (setVar (setVar a o (some v)) src none).vars i) n := by
    intro i n hc
    by_cases hi : WRef a.vars i src
    · exact counts_swap hc hi (o' := o) (by simp [WRef, ho]) (by intro p; rw [e2]; exact ⟨fun k => k.imp (·.1) id, fun k => k.imp (⟨·, hi⟩) id⟩)
    · refine counts_congr hc (fun p => ?_)
      rw [e2]
      simp only [hi, and_false, false_or, and_iff_left_iff_imp]
      rintro hp rfl; exact hi hp
  have hal : ∀ i, Alive (setVar (setVar a o (some v)) src none) i ↔ Alive a i := by
    intro i
    constructor
    · rintro ⟨p, hp⟩
      rcases (e1 i p).1 hp with ⟨_, h'⟩ | ⟨h', _⟩
      · exact ⟨src, h'⟩
      · exact ⟨p, h'⟩
    · rintro ⟨p, hp⟩
      by_cases hps : p = src
      · subst hps; exact ⟨o, (e1 i o).2 (Or.inl ⟨rfl, hp⟩)⟩
      · exact ⟨p, (e1 i p).2 (Or.inr ⟨hp, hps⟩)⟩
  refine ⟨by rw [setVar_vars, setVar_vars, ← h.vars]; rfl, h.next, fun i => ?_, fun i => ?_⟩
  · have hi := h.block i
    simp only [del, put]
    cases hb : s.blocks i with
    | none =>
      rw [hb] at hi
      exact ⟨counts_zero_iff.1 (c1 i 0 (counts_zero_iff.2 hi.1)), counts_zero_iff.1 (c2 i 0 (counts_zero_iff.2 hi.2))⟩
    | some b => rw [hb] at hi; exact ⟨c1 i _ hi.1, c2 i _ hi.2.1, hi.2.2⟩
  · rw [hal]; exact h.drops i

theorem get_ok {s : State} {a : World} (h : Rel s a) {o : Nat} {p : Option Nat} (ho : a.vars o = some (.shared p)) :
    refAt s o = .ok (p.map a.val) := by
  simp only [refAt, sharedAt, h.vars, ho]
  cases p with
  | none => rfl
  | some i =>
    obtain ⟨b, hb, _, hobj⟩ := sref_block h ho
    obtain ⟨ob, st, w⟩ := b
    simp only at hobj
    subst hobj
    simp [get, hb]

theorem refAt_illegal {s : State} {a : World} (h : Rel s a) {o : Nat} (ho : ¬ ∃ p, a.vars o = some (.shared p)) :
    refAt s o = .error .illegal ∧ sharedAt s o = .error .illegal := by
  simp only [refAt, sharedAt, h.vars]
  cases hv : a.vars o with
  | none => simp
  | some v =>
    cases v with
    | shared p => exact absurd ⟨p, hv⟩ ho
    | weak p => simp

theorem step_ok (s : State) (a : World) (op : Op) (h : Rel s a) : StepOk Rel step Step Legal s a op := by
  have hv := h.vars
  cases op with
  | null o =>
    by_cases ho : a.vars o = none
    · exact Or.inr ⟨ho, _, _, _, by simp [step, hv, ho], .null ho, add_null h ho (Or.inl rfl)⟩
    · exact Or.inl ⟨ho, by simp [step, hv, ho]⟩
  | weakNull o =>
    by_cases ho : a.vars o = none
    · exact Or.inr ⟨ho, _, _, _, by simp [step, hv, ho], .weakNull ho, add_null h ho (Or.inr rfl)⟩
    · exact Or.inl ⟨ho, by simp [step, hv, ho]⟩
  | new o v =>
    by_cases ho : a.vars o = none
    · refine Or.inr ⟨ho, _, _, _, by simp [step, hv, ho, newShared]; rfl, .new ho, ?_⟩
      have hnone : s.blocks a.next = none := by
        have := h.block a.next
        cases hb : s.blocks a.next with
        | none => rfl
        | some b => rw [hb] at this; exact absurd this.2.2.1 (by omega)
      have hno := h.block a.next
      rw [hnone] at hno
      refine ⟨?_, ?_, fun j => ?_, fun j => ?_⟩
      · simp only [put, h.next]; exact (setVar_vars _ _ _).symm
      · simp [put, h.next]
      · have eS : ∀ p, SRef (setVar a o (some (.shared (some a.next)))).vars j p ↔ (p = o ∧ j = a.next) ∨ SRef a.vars j p := by
          intro p
          rw [srefs_set]
          by_cases hp : p = o
          · subst hp; simp [SRef, ho, eq_comm]
          · simp [hp]
        have eW : ∀ p, WRef (setVar a o (some (.shared (some a.next)))).vars j p ↔ WRef a.vars j p := by
          intro p
          rw [wrefs_set]
          by_cases hp : p = o
          · subst hp; simp [WRef, ho]
          · simp [hp]
        simp only [put, h.next]
        by_cases hj : j = a.next
        · subst hj
          simp only [upd_same]
          refine ⟨?_, ?_, Nat.lt_succ_self _, by simp, Or.inl (by simp)⟩
          · exact counts_add (counts_zero_iff.2 hno.1) (o := o) (by simp [SRef, ho]) (by intro p; rw [eS]; simp)
          · exact counts_congr (counts_zero_iff.2 hno.2) eW
        · simp only [upd_ne _ _ hj]
          have hjb := h.block j
          cases hb : s.blocks j with
          | none =>
            rw [hb] at hjb
            exact ⟨fun p hp => by simp [eS, hj] at hp; exact hjb.1 p hp, fun p hp => hjb.2 p ((eW p).1 hp)⟩
          | some b =>
            rw [hb] at hjb
            refine ⟨counts_congr hjb.1 (by intro p; rw [eS]; simp [hj]), counts_congr hjb.2.1 eW,
              Nat.lt_succ_of_lt hjb.2.2.1, ?_, hjb.2.2.2.2⟩
            simp [hj, hjb.2.2.2.1]
      · have hal : ∀ j, j ≠ a.next → (Alive (setVar a o (some (.shared (some a.next)))) j ↔ Alive a j) := fun j hj =>
          alive_frame (by simp [ho]) (by simp [Ne.symm hj])
        by_cases hj : j = a.next
        · subst hj
          refine Or.inr ⟨?_, Or.inr ⟨o, srefs_set.2 (Or.inl ⟨rfl, rfl⟩)⟩⟩
          rcases h.drops a.next with ⟨_, k, _⟩ | ⟨k, _⟩
          · omega
          · exact k
        · rcases h.drops j with ⟨k1, k2, k3⟩ | ⟨k1, k2⟩
          · exact Or.inl ⟨k1, Nat.lt_succ_of_lt k2, mt (hal j hj).1 k3⟩
          · refine Or.inr ⟨k1, k2.imp (fun k => ?_) (hal j hj).2⟩
            show a.next + 1 ≤ j
            omega
    · exact Or.inl ⟨ho, by simp [step, hv, ho]⟩
  | clone o src =>
    cases ho : a.vars o with
    | some u => exact Or.inl ⟨by simp [Legal, ho], by simp [step, hv, ho]⟩
    | none =>
      cases hs : a.vars src with
      | none => exact Or.inl ⟨by simp [Legal, hs], by simp [step, hv, ho, hs]⟩
      | some w =>
        cases w with
        | weak p => exact Or.inl ⟨by simp [Legal, hs], by simp [step, hv, ho, hs]⟩
        | shared p =>
          cases p with
          | none => exact Or.inr ⟨⟨ho, _, hs⟩, _, _, _, by simp [step, hv, ho, hs, copyShared], .clone ho hs, add_null h ho (Or.inl rfl)⟩
          | some i =>
            obtain ⟨b, hb, hst, _⟩ := sref_block h hs
            exact Or.inr ⟨⟨ho, _, hs⟩, _, _, _, by simp [step, hv, ho, hs, copyShared, hb, hst], .clone ho hs, add_shared h ho hb hst⟩
  | downgrade o src =>
    cases ho : a.vars o with
    | some u => exact Or.inl ⟨by simp [Legal, ho], by simp [step, hv, ho]⟩
    | none =>
      cases hs : a.vars src with
      | none => exact Or.inl ⟨by simp [Legal, hs], by simp [step, hv, ho, hs]⟩
      | some w =>
        cases w with
        | weak p => exact Or.inl ⟨by simp [Legal, hs], by simp [step, hv, ho, hs]⟩
        | shared p =>
          cases p with
          | none => exact Or.inr ⟨⟨ho, _, hs⟩, _, _, _, by simp [step, hv, ho, hs, copyWeak], .downgrade ho hs, add_null h ho (Or.inr rfl)⟩
          | some i =>
            obtain ⟨b, hb, hst, _⟩ := sref_block h hs
            exact Or.inr ⟨⟨ho, _, hs⟩, _, _, _, by simp [step, hv, ho, hs, copyWeak, hb], .downgrade ho hs, add_weak h ho hb⟩
  | weakClone o src =>
    cases ho : a.vars o with
    | some u => exact Or.inl ⟨by simp [Legal, ho], by simp [step, hv, ho]⟩
    | none =>
      cases hs : a.vars src with
      | none => exact Or.inl ⟨by simp [Legal, hs], by simp [step, hv, ho, hs]⟩
      | some w =>
        cases w with
        | shared p => exact Or.inl ⟨by simp [Legal, hs], by simp [step, hv, ho, hs]⟩
        | weak p =>
          cases p with
          | none => exact Or.inr ⟨⟨ho, _, hs⟩, _, _, _, by simp [step, hv, ho, hs, copyWeak], .weakClone ho hs, add_null h ho (Or.inr rfl)⟩
          | some i =>
            obtain ⟨b, hb, _⟩ := wref_block h hs
            exact Or.inr ⟨⟨ho, _, hs⟩, _, _, _, by simp [step, hv, ho, hs, copyWeak, hb], .weakClone ho hs, add_weak h ho hb⟩
  | upgrade o src =>
    cases ho : a.vars o with
    | some u => exact Or.inl ⟨by simp [Legal, ho], by simp [step, hv, ho]⟩
    | none =>
      cases hs : a.vars src with
      | none => exact Or.inl ⟨by simp [Legal, hs], by simp [step, hv, ho, hs]⟩
      | some w =>
        cases w with
        | shared p => exact Or.inl ⟨by simp [Legal, hs], by simp [step, hv, ho, hs]⟩
        | weak p =>
          cases p with
          | none => exact Or.inr ⟨⟨ho, _, hs⟩, _, _, _, by simp [step, hv, ho, hs, lock], .upgradeNull ho hs, add_null h ho (Or.inl rfl)⟩
          | some i =>
            obtain ⟨b, hb, _⟩ := wref_block h hs
            have hi := h.block i
            rw [hb] at hi
            by_cases hst : b.strong = 0
            · have hdead : ¬ Alive a i := by
                rintro ⟨p, hp⟩; exact counts_pos hi.1 hp hst
              exact Or.inr ⟨⟨ho, _, hs⟩, _, _, _, by simp [step, hv, ho, hs, lock, hb, hst], .upgradeDead ho hs hdead, add_null h ho (Or.inl rfl)⟩
            · exact Or.inr ⟨⟨ho, _, hs⟩, _, _, _, by simp [step, hv, ho, hs, lock, hb, hst],
                .upgrade ho hs (counts_exists hi.1 hst), add_shared h ho hb hst⟩
  | drop o =>
    cases ho : a.vars o with
    | none => exact Or.inl ⟨by simp [Legal, ho], by simp [step, dropVar, hv, ho]⟩
    | some v =>
      obtain ⟨s', d, h1, h2, h3⟩ := dropVar_ok h ho
      exact Or.inr ⟨⟨v, ho⟩, s', _, _, by simp [step, h1], .drop ho h2, h3⟩
  | isNull o =>
    by_cases ho : ∃ p, a.vars o = some (.shared p)
    · obtain ⟨p, hp⟩ := ho
      exact Or.inr ⟨⟨p, hp⟩, s, a, .bool p.isNone, by simp [step, sharedAt, hv, hp], .isNull hp (by simp), h⟩
    · exact Or.inl ⟨ho, by simp [step, (refAt_illegal h ho).2]⟩
  | asRef o =>
    by_cases ho : ∃ p, a.vars o = some (.shared p)
    · obtain ⟨p, hp⟩ := ho
      exact Or.inr ⟨⟨p, hp⟩, s, a, _, by simp [step, get_ok h hp], .asRef hp, h⟩
    · exact Or.inl ⟨ho, by simp [step, (refAt_illegal h ho).1]⟩
  | deref o =>
    by_cases ho : ∃ p, a.vars o = some (.shared p)
    · obtain ⟨p, hp⟩ := ho
      cases p with
      | none => exact Or.inr ⟨⟨_, hp⟩, s, a, _, by simp [step, get_ok h hp], .derefNull hp, h⟩
      | some i => exact Or.inr ⟨⟨_, hp⟩, s, a, _, by simp [step, get_ok h hp], .deref hp, h⟩
    · exact Or.inl ⟨ho, by simp [step, (refAt_illegal h ho).1]⟩
  | move o src =>
    cases ho : a.vars o with
    | some u => exact Or.inl ⟨by simp [Legal, ho], by simp [step, hv, ho]⟩
    | none =>
      cases hs : a.vars src with
      | none => exact Or.inl ⟨by simp [Legal, hs], by simp [step, hv, ho, hs]⟩
      | some v => exact Or.inr ⟨⟨ho, v, hs⟩, _, _, _, by simp [step, hv, ho, hs], .move ho hs, move_ok h ho hs⟩
  | assign o src =>
    cases ho : a.vars o with
    | none => exact Or.inl ⟨by simp [Legal, ho], by simp [step, hv, ho]⟩
    | some u =>
      cases hs : a.vars src with
      | none => exact Or.inl ⟨by simp [Legal, hs], by simp [step, hv, ho, hs]⟩
      | some v =>
        by_cases hne : o = src
        · exact Or.inl ⟨by simp [Legal, hne], by simp [step, hv, ho, hs, hne]⟩
        · obtain ⟨s', d, h1, h2, h3⟩ := dropVar_ok h ho
          have hm := move_ok h3 (o := o) (src := src) (v := v) (by simp [setVar]) (by simp [setVar, Ne.symm hne, hs])
          have e : setVar (setVar (setVar a o none) o (some v)) src none = setVar (setVar a o (some v)) src none := by
            simp only [setVar, World.mk.injEq, and_true]; funext p; grind
          rw [e] at hm
          exact Or.inr ⟨⟨⟨u, ho⟩, ⟨v, hs⟩, hne⟩, _, _, _, by simp [step, hv, ho, hs, hne, h1], .assign ho hs hne h2, hm⟩
  | write o v =>
    by_cases ho : ∃ i, a.vars o = some (.shared (some i))
    · obtain ⟨i, hi⟩ := ho
      obtain ⟨b, hb, hst, hobj⟩ := sref_block h hi
      obtain ⟨ob, st, w⟩ := b
      simp only at hobj hst
      subst hobj
      refine Or.inr ⟨⟨i, hi⟩, setBlock s i ⟨some v, st, w⟩, _, _, by simp [step, hv, hi, hb], .write hi,
        ⟨hv, h.next, fun j => ?_, h.drops⟩⟩
      have hj' := h.block j
      by_cases hj : j = i
      · subst hj
        rw [hb] at hj'
        simp only [setBlock, upd_same]
        exact ⟨hj'.1, hj'.2.1, hj'.2.2.1, by simp [hst], hj'.2.2.2.2⟩
      · simp only [setBlock, upd_ne _ _ hj]
        cases hbj : s.blocks j with
        | none => rw [hbj] at hj'; exact hj'
        | some b =>
          rw [hbj] at hj'
          exact ⟨hj'.1, hj'.2.1, hj'.2.2.1, by simp [hj, hj'.2.2.2.1], hj'.2.2.2.2⟩
    · refine Or.inl ⟨ho, ?_⟩
      simp only [step, hv]
      cases hvo : a.vars o with
      | none => simp
      | some u =>
        cases u with
        | weak p => simp
        | shared p =>
          cases p with
          | none => simp
          | some i => exact absurd ⟨i, hvo⟩ ho
  | eq o p =>
    by_cases ho : ∃ q, a.vars o = some (.shared q)
    · by_cases hp : ∃ q, a.vars p = some (.shared q)
      · obtain ⟨x, hx⟩ := ho
        obtain ⟨y, hy⟩ := hp
        exact Or.inr ⟨⟨⟨x, hx⟩, y, hy⟩, s, a, .bool (x.map a.val == y.map a.val), by simp [step, get_ok h hx, get_ok h hy],
          .eq hx hy (by simp), h⟩
      · obtain ⟨x, hx⟩ := ho
        exact Or.inl ⟨fun hl => hp hl.2, by simp [step, get_ok h hx, (refAt_illegal h hp).1]⟩
    · refine Or.inl ⟨fun hl => ho hl.1, ?_⟩
      by_cases hp : ∃ q, a.vars p = some (.shared q)
      · obtain ⟨y, hy⟩ := hp
        simp [step, get_ok h hy, (refAt_illegal h ho).1]
      · simp [step, (refAt_illegal h hp).1, (refAt_illegal h ho).1]

/-- **C16**. Any history of shared and weak pointers, in any interleaving, either breaks a rule of the
languages, or runs without undefined behaviour and shows exactly what references to objects would show:
dropping destroys the object exactly when it was the last shared pointer to it, upgrading gives the object
exactly while it is alive, null affects nothing and panics when dereferenced.  At the end every object
made was destroyed exactly once or is still referred to by a shared pointer, never both, and the control
blocks left are those some pointer still refers to. -/
theorem shared_ptr_histories (ops : List Op) :
    (∃ s a obs, runOps step init ops = .ok (s, obs) ∧ Runs Step start ops a obs ∧ s.vars = a.vars ∧
      (∀ i, i < a.next → (Alive a i ∧ s.drops i = 0) ∨ (¬ Alive a i ∧ s.drops i = 1)) ∧
      (∀ i, s.blocks i ≠ none ↔ ∃ p, a.vars p = some (.shared (some i)) ∨ a.vars p = some (.weak (some i)))) ∨
    (runOps step init ops = .error .illegal ∧ BreaksRule Step Legal start ops) := by
  rcases runs_ok step_ok ops init _ rel_init with ⟨s, a, obs, h1, h2, h3⟩ | h
  · refine Or.inl ⟨s, a, obs, h1, h2, h3.vars, ?_, ?_⟩
    · intro i hi
      rcases h3.drops i with ⟨k1, _, k3⟩ | ⟨k1, k2⟩
      · exact Or.inr ⟨k3, k1⟩
      · exact Or.inl ⟨k2.resolve_left (by omega), k1⟩
    · intro i
      have hi := h3.block i
      cases hb : s.blocks i with
      | none =>
        rw [hb] at hi
        simp only [ne_eq, not_true_eq_false, false_iff, not_exists, not_or]
        exact fun p => ⟨hi.1 p, hi.2 p⟩
      | some b =>
        rw [hb] at hi
        simp only [ne_eq, reduceCtorEq, not_false_eq_true, true_iff]
        rcases hi.2.2.2.2 with k | k
        · obtain ⟨p, hp⟩ := counts_exists hi.1 k; exact ⟨p, Or.inl hp⟩
        · obtain ⟨p, hp⟩ := counts_exists hi.2.1 k; exact ⟨p, Or.inr hp⟩
  · exact Or.inr h

example : (runOps step init [.new 0 5, .clone 1 0, .downgrade 2 1, .drop 0, .upgrade 3 2, .write 3 6, .deref 1, .drop 1,
    .move 4 3, .null 5, .deref 5, .assign 4 5, .upgrade 6 2, .isNull 6, .drop 2, .drop 6]).map (fun r => (r.2, r.1.drops 0)) =
    .ok ([.done, .done, .done, .dropped none, .done, .done, .value (some 6), .dropped none, .done, .done, .panicked,
      .dropped (some 0), .done, .bool true, .dropped none, .dropped none], 1) := by decide +kernel

end Verif.SharedPtr
