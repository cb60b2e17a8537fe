import Verif.Common.Fn
/-!
# Objects with one owner

Helpers shared by the models of `rust::Box` and `UniquePtr`: a heap of objects, and variables that
each hold a pointer or null.  A variable has a kind `κ` (smart pointer, raw pointer).  The heap
records, per address, how often an object was constructed and destroyed there.
-/
namespace Verif.Owner
open Verif

structure State (κ : Type) where
  /-- `none`: not allocated; `some none`: allocated, no object in it; `some (some v)`: an object of value `v`. -/
  heap : Nat → Option (Option Nat)
  /-- Addresses at and above `next` have never been allocated. -/
  next : Nat
  /-- Program variables: kind, and pointer or null. -/
  objs : Nat → Option (κ × Option Nat)
  /-- How often an object was constructed at an address, and destroyed. -/
  made : Nat → Nat
  drops : Nat → Nat

variable {κ : Type}

def init : State κ := ⟨fun _ => none, 0, fun _ => none, fun _ => 0, fun _ => 0⟩

/-- Allocate memory for one object.  Addresses are not reused: a dangling pointer stays dangling. -/
def alloc (s : State κ) : State κ × Nat := ({ s with heap := upd s.heap s.next (some none), next := s.next + 1 }, s.next)

/-- Construct an object in allocated memory. -/
def construct (s : State κ) (i v : Nat) : Except Fault (State κ) :=
  match s.heap i with
  | some none => .ok { s with heap := upd s.heap i (some (some v)), made := upd s.made i (s.made i + 1) }
  | _ => .error .ub

/-- Release memory that holds no object. -/
def dealloc (s : State κ) (i : Nat) : Except Fault (State κ) :=
  match s.heap i with
  | some none => .ok { s with heap := upd s.heap i none }
  | _ => .error .ub

/-- Destroy the object and release its memory. -/
def destroy (s : State κ) (i : Nat) : Except Fault (State κ) :=
  match s.heap i with
  | some (some _) => .ok { s with heap := upd s.heap i none, drops := upd s.drops i (s.drops i + 1) }
  | _ => .error .ub

def get (s : State κ) (i : Nat) : Except Fault Nat :=
  match s.heap i with
  | some (some v) => .ok v
  | _ => .error .ub

def write (s : State κ) (i v : Nat) : Except Fault (State κ) :=
  match s.heap i with
  | some (some _) => .ok { s with heap := upd s.heap i (some (some v)) }
  | _ => .error .ub

def put (s : State κ) (o : Nat) (k : κ) (p : Option Nat) : State κ := { s with objs := upd s.objs o (some (k, p)) }
def del (s : State κ) (o : Nat) : State κ := { s with objs := upd s.objs o none }

/-- What a program's variables show: kind, and the value pointed to or null. -/
abbrev View (κ : Type) := Nat → Option (κ × Option Nat)

/-- `s` shows `a`, except at the addresses in `skip`, which are being changed: every variable outside
points to an object of its own or is null, and every object is pointed to from outside; objects were
constructed once, and destroyed once unless they are still there. -/
structure RelX (skip : Nat → Bool) (s : State κ) (a : View κ) : Prop where
  objs : ∀ p, skip p = false →
    (s.objs p = none ∧ a p = none) ∨ (∃ k, s.objs p = some (k, none) ∧ a p = some (k, none)) ∨
    ∃ k i v, s.objs p = some (k, some i) ∧ s.heap i = some (some v) ∧ a p = some (k, some v)
  uniq : ∀ p q k l i, skip p = false → skip q = false → s.objs p = some (k, some i) → s.objs q = some (l, some i) → p = q
  owned : ∀ i, s.heap i ≠ none → i < s.next ∧ ∃ p k, skip p = false ∧ s.objs p = some (k, some i)
  acct : ∀ i, (s.heap i ≠ none ∧ s.made i = 1 ∧ s.drops i = 0) ∨ (s.heap i = none ∧ s.made i = s.drops i ∧ s.made i ≤ 1)
  fresh : ∀ i, s.next ≤ i → s.made i = 0

abbrev none_skipped : Nat → Bool := fun _ => false
abbrev Rel {κ : Type} (s : State κ) (a : View κ) : Prop := RelX none_skipped s a

theorem rel_init : Rel (init : State κ) (fun _ => none) :=
  ⟨fun _ _ => Or.inl ⟨rfl, rfl⟩, fun _ _ _ _ _ _ _ h => by simp [init] at h, fun _ h => by simp [init] at h,
    fun _ => Or.inr ⟨rfl, rfl, Nat.zero_le _⟩, fun _ _ => rfl⟩

theorem rel_congr {f g : Nat → Bool} {s : State κ} {a b : View κ} (h : RelX f s a) (hfg : ∀ p, g p = f p)
    (hab : ∀ p, f p = false → b p = a p) : RelX g s b := by
  have : g = f := funext hfg
  subst this
  refine ⟨?_, h.uniq, h.owned, h.acct, h.fresh⟩
  intro p hp
  rw [hab p hp]
  exact h.objs p hp

/-- A variable that points to nothing can be set aside. -/
theorem rel_skip {f : Nat → Bool} {s : State κ} {a : View κ} (h : RelX f s a) {o : Nat}
    (ho : ∀ k i, s.objs o ≠ some (k, some i)) : RelX (upd f o true) s a := by
  have key : ∀ p, upd f o true p = false → f p = false := by
    intro p hp; simp only [upd_apply] at hp; split at hp <;> simp_all
  refine ⟨fun p hp => h.objs p (key p hp), fun p q k l i hp hq => h.uniq p q k l i (key p hp) (key q hq), ?_, h.acct, h.fresh⟩
  intro i hi
  obtain ⟨h1, p, k, h2, h3⟩ := h.owned i hi
  refine ⟨h1, p, k, ?_, h3⟩
  have : p ≠ o := by rintro rfl; exact ho _ _ h3
  rw [upd_ne _ _ this]; exact h2

/-- Destroying what a variable points to. -/
theorem rel_destroy {f : Nat → Bool} {s : State κ} {a : View κ} (h : RelX f s a) {o i : Nat} {k : κ} (hf : f o = false)
    (ho : s.objs o = some (k, some i)) :
    ∃ s', destroy s i = .ok s' ∧ RelX (upd f o true) s' a ∧ s'.objs = s.objs := by
  have hv : ∃ v, s.heap i = some (some v) := by
    rcases h.objs o hf with ⟨h1, _⟩ | ⟨_, h1, _⟩ | ⟨k', i', v, h1, h2, h3⟩
    · rw [ho] at h1; cases h1
    · rw [ho] at h1; cases h1
    · rw [ho] at h1; cases h1; exact ⟨v, h2⟩
  obtain ⟨v, hv⟩ := hv
  have key : ∀ p, upd f o true p = false → f p = false ∧ p ≠ o := by
    intro p hp; simp only [upd_apply] at hp; split at hp <;> simp_all
  have e : destroy s i = .ok { s with heap := upd s.heap i none, drops := upd s.drops i (s.drops i + 1) } := by
    simp only [destroy, hv]
  refine ⟨_, e, ⟨?_, ?_, ?_, ?_, ?_⟩, rfl⟩
  · intro p hp
    obtain ⟨hp1, hp2⟩ := key p hp
    rcases h.objs p hp1 with h' | h' | ⟨k', i', v', h1, h2, h3⟩
    · exact Or.inl h'
    · exact Or.inr (Or.inl h')
    · refine Or.inr (Or.inr ⟨k', i', v', h1, ?_, h3⟩)
      have : i' ≠ i := by rintro rfl; exact hp2 (h.uniq p o _ _ _ hp1 hf h1 ho)
      simp only [upd_ne _ _ this, h2]
  · intro p q k l j hp hq; exact h.uniq p q k l j (key p hp).1 (key q hq).1
  · intro j hj
    have hji : j ≠ i := by rintro rfl; simp at hj
    simp only [upd_ne _ _ hji] at hj
    obtain ⟨h1, p, k', h2, h3⟩ := h.owned j hj
    refine ⟨h1, p, k', ?_, h3⟩
    have : p ≠ o := by rintro rfl; rw [ho] at h3; cases h3; exact hji rfl
    rw [upd_ne _ _ this]; exact h2
  · intro j
    by_cases hji : j = i
    · subst hji
      rcases h.acct j with ⟨_, h2, h3⟩ | ⟨h1, _⟩
      · exact Or.inr ⟨by simp, by simp [h2, h3], by simp [h2]⟩
      · rw [hv] at h1; cases h1
    · simp only [upd_ne _ _ hji]; exact h.acct j
  · exact h.fresh

/-- Setting a variable to null. -/
theorem rel_put_null {f : Nat → Bool} {s : State κ} {a : View κ} {o : Nat} (h : RelX (upd f o true) s a) (hf : f o = false) (k : κ) :
    RelX f (put s o k none) (upd a o (some (k, none))) := by
  refine ⟨?_, ?_, ?_, h.acct, h.fresh⟩
  · intro p hp
    by_cases hpo : p = o
    · subst hpo; exact Or.inr (Or.inl ⟨k, by simp [put], by simp⟩)
    · have := h.objs p (by rw [upd_ne _ _ hpo]; exact hp)
      simpa [put, upd_ne _ _ hpo] using this
  · intro p q k l i hp hq h1 h2
    have hpo : p ≠ o := by rintro rfl; simp [put] at h1
    have hqo : q ≠ o := by rintro rfl; simp [put] at h2
    simp only [put, upd_ne _ _ hpo] at h1
    simp only [put, upd_ne _ _ hqo] at h2
    exact h.uniq p q k l i (by rw [upd_ne _ _ hpo]; exact hp) (by rw [upd_ne _ _ hqo]; exact hq) h1 h2
  · intro i hi
    obtain ⟨h1, p, l, h2, h3⟩ := h.owned i hi
    have hpo : p ≠ o := by rintro rfl; simp at h2
    rw [upd_ne _ _ hpo] at h2
    exact ⟨h1, p, l, h2, by simp [put, upd_ne _ _ hpo, h3]⟩

/-- Removing a variable. -/
theorem rel_del {f : Nat → Bool} {s : State κ} {a : View κ} {o : Nat} (h : RelX (upd f o true) s a) (hf : f o = false) :
    RelX f (del s o) (upd a o none) := by
  refine ⟨?_, ?_, ?_, h.acct, h.fresh⟩
  · intro p hp
    by_cases hpo : p = o
    · subst hpo; exact Or.inl ⟨by simp [del], by simp⟩
    · have := h.objs p (by rw [upd_ne _ _ hpo]; exact hp)
      simpa [del, upd_ne _ _ hpo] using this
  · intro p q k l i hp hq h1 h2
    have hpo : p ≠ o := by rintro rfl; simp [del] at h1
    have hqo : q ≠ o := by rintro rfl; simp [del] at h2
    simp only [del, upd_ne _ _ hpo] at h1
    simp only [del, upd_ne _ _ hqo] at h2
    exact h.uniq p q k l i (by rw [upd_ne _ _ hpo]; exact hp) (by rw [upd_ne _ _ hqo]; exact hq) h1 h2
  · intro i hi
    obtain ⟨h1, p, l, h2, h3⟩ := h.owned i hi
    have hpo : p ≠ o := by rintro rfl; simp at h2
    rw [upd_ne _ _ hpo] at h2
    exact ⟨h1, p, l, h2, by simp [del, upd_ne _ _ hpo, h3]⟩

theorem rel_next {f : Nat → Bool} {s : State κ} {a : View κ} (h : RelX f s a) : s.heap s.next = none := by
  cases hn : s.heap s.next with
  | none => rfl
  | some b => exact absurd (h.owned s.next (by simp [hn])).1 (by omega)

/-- Pointing a variable at a newly made object. -/
theorem rel_put_new {f : Nat → Bool} {s : State κ} {a : View κ} {o : Nat} (h : RelX (upd f o true) s a) (hf : f o = false) (k : κ) (v : Nat) :
    ∃ s', construct (alloc s).1 (alloc s).2 v = .ok s' ∧ s'.objs = s.objs ∧
      RelX f (put s' o k (some (alloc s).2)) (upd a o (some (k, some v))) := by
  have hfresh := rel_next h
  have hne : ∀ p l i, upd f o true p = false → s.objs p = some (l, some i) → i ≠ s.next := by
    rintro p l i hp hs rfl
    rcases h.objs p hp with ⟨h1, _⟩ | ⟨_, h1, _⟩ | ⟨k', i', v, h1, h2, _⟩
    · rw [hs] at h1; cases h1
    · rw [hs] at h1; cases h1
    · rw [hs] at h1; cases h1; rw [hfresh] at h2; cases h2
  have e : construct (alloc s).1 (alloc s).2 v = .ok ⟨upd (upd s.heap s.next (some none)) s.next (some (some v)),
      s.next + 1, s.objs, upd s.made s.next (s.made s.next + 1), s.drops⟩ := by simp only [construct, alloc, upd_same]
  refine ⟨_, e, rfl, ⟨?_, ?_, ?_, ?_, ?_⟩⟩
  · intro p hp
    by_cases hpo : p = o
    · subst hpo
      exact Or.inr (Or.inr ⟨k, s.next, v, by simp [put, alloc], by simp [put, alloc], by simp⟩)
    · have hp' : upd f o true p = false := by rw [upd_ne _ _ hpo]; exact hp
      rcases h.objs p hp' with ⟨h1, h2⟩ | ⟨k', h1, h2⟩ | ⟨k', i', v', h1, h2, h3⟩
      · exact Or.inl ⟨by simp [put, alloc, upd_ne _ _ hpo, h1], by simp [upd_ne _ _ hpo, h2]⟩
      · exact Or.inr (Or.inl ⟨k', by simp [put, alloc, upd_ne _ _ hpo, h1], by simp [upd_ne _ _ hpo, h2]⟩)
      · refine Or.inr (Or.inr ⟨k', i', v', by simp [put, alloc, upd_ne _ _ hpo, h1], ?_, by simp [upd_ne _ _ hpo, h3]⟩)
        simp [put, alloc, upd_ne _ _ (hne p k' i' hp' h1), h2]
  · intro p q l m i hp hq h1 h2
    simp only [put, alloc] at h1 h2
    by_cases hpo : p = o <;> by_cases hqo : q = o
    · rw [hpo, hqo]
    · subst hpo
      simp at h1
      rw [upd_ne _ _ hqo] at h2
      exact absurd h1.2.symm (hne q m i (by rw [upd_ne _ _ hqo]; exact hq) h2)
    · subst hqo
      simp at h2
      rw [upd_ne _ _ hpo] at h1
      exact absurd h2.2.symm (hne p l i (by rw [upd_ne _ _ hpo]; exact hp) h1)
    · rw [upd_ne _ _ hpo] at h1
      rw [upd_ne _ _ hqo] at h2
      exact h.uniq p q l m i (by rw [upd_ne _ _ hpo]; exact hp) (by rw [upd_ne _ _ hqo]; exact hq) h1 h2
  · intro i hi
    simp only [put, alloc] at hi ⊢
    by_cases hin : i = s.next
    · subst hin; exact ⟨by omega, o, k, hf, by simp⟩
    · rw [upd_ne _ _ hin, upd_ne _ _ hin] at hi
      obtain ⟨h1, p, l, h2, h3⟩ := h.owned i hi
      have hpo : p ≠ o := by rintro rfl; simp at h2
      rw [upd_ne _ _ hpo] at h2
      exact ⟨by omega, p, l, h2, by simp [upd_ne _ _ hpo, h3]⟩
  · intro i
    simp only [put, alloc]
    by_cases hin : i = s.next
    · subst hin
      have := h.fresh s.next (by omega)
      refine Or.inl ⟨by simp, by simp [this], ?_⟩
      rcases h.acct s.next with ⟨h1, _⟩ | ⟨_, h2, _⟩
      · exact absurd hfresh h1
      · omega
    · simp only [upd_ne _ _ hin]; exact h.acct i
  · intro i hi
    simp only [put, alloc] at hi ⊢
    rw [upd_ne _ _ (by omega)]
    exact h.fresh i (by omega)

/-- Handing what `src` points to over to `o`; `src` is then set aside. -/
theorem rel_take {f : Nat → Bool} {s : State κ} {a : View κ} {o src : Nat} (h : RelX (upd f o true) s a) (hf : f o = false)
    (hne : src ≠ o) (hs : f src = false) {l : κ} {ptr v : Option Nat} (ho : s.objs src = some (l, ptr)) (ha : a src = some (l, v)) (k : κ) :
    RelX (upd f src true) (put s o k ptr) (upd a o (some (k, v))) := by
  have hs' : upd f o true src = false := by rw [upd_ne _ _ hne]; exact hs
  have key : ∀ p, upd f src true p = false → f p = false ∧ p ≠ src := by
    intro p hp; simp only [upd_apply] at hp; split at hp <;> simp_all
  refine ⟨?_, ?_, ?_, h.acct, h.fresh⟩
  · intro p hp
    obtain ⟨hp1, hp2⟩ := key p hp
    by_cases hpo : p = o
    · subst hpo
      rcases h.objs src hs' with ⟨h1, _⟩ | ⟨k', h1, h2⟩ | ⟨k', i', v', h1, h2, h3⟩
      · rw [ho] at h1; cases h1
      · rw [ho] at h1; rw [ha] at h2; cases h1; cases h2
        exact Or.inr (Or.inl ⟨k, by simp [put], by simp⟩)
      · rw [ho] at h1; rw [ha] at h3; cases h1; cases h3
        exact Or.inr (Or.inr ⟨k, i', v', by simp [put], h2, by simp⟩)
    · have := h.objs p (by rw [upd_ne _ _ hpo]; exact hp1)
      simpa [put, upd_ne _ _ hpo] using this
  · intro p q k1 k2 i hp hq h1 h2
    obtain ⟨hp1, hp2⟩ := key p hp
    obtain ⟨hq1, hq2⟩ := key q hq
    simp only [put] at h1 h2
    by_cases hpo : p = o <;> by_cases hqo : q = o
    · rw [hpo, hqo]
    · subst hpo
      simp at h1
      rw [upd_ne _ _ hqo] at h2
      rw [h1.2] at ho
      exact absurd (h.uniq src q _ _ i hs' (by rw [upd_ne _ _ hqo]; exact hq1) ho h2) (Ne.symm hq2)
    · subst hqo
      simp at h2
      rw [upd_ne _ _ hpo] at h1
      rw [h2.2] at ho
      exact absurd (h.uniq src p _ _ i hs' (by rw [upd_ne _ _ hpo]; exact hp1) ho h1) (Ne.symm hp2)
    · rw [upd_ne _ _ hpo] at h1
      rw [upd_ne _ _ hqo] at h2
      exact h.uniq p q k1 k2 i (by rw [upd_ne _ _ hpo]; exact hp1) (by rw [upd_ne _ _ hqo]; exact hq1) h1 h2
  · intro i hi
    obtain ⟨h1, p, l', h2, h3⟩ := h.owned i hi
    have hpo : p ≠ o := by rintro rfl; simp at h2
    refine ⟨h1, ?_⟩
    by_cases hps : p = src
    · subst hps
      rw [ho] at h3; cases h3
      exact ⟨o, k, by rw [upd_ne _ _ (Ne.symm hne)]; exact hf, by simp [put]⟩
    · rw [upd_ne _ _ hpo] at h2
      exact ⟨p, l', by rw [upd_ne _ _ hps]; exact h2, by simp [put, upd_ne _ _ hpo, h3]⟩

/-- Reading and writing through a variable. -/
theorem rel_get {s : State κ} {a : View κ} (h : Rel s a) {o i : Nat} {k : κ} (ho : s.objs o = some (k, some i)) :
    ∃ v, get s i = .ok v ∧ a o = some (k, some v) := by
  rcases h.objs o rfl with ⟨h1, _⟩ | ⟨_, h1, _⟩ | ⟨k', i', v, h1, h2, h3⟩
  · rw [ho] at h1; cases h1
  · rw [ho] at h1; cases h1
  · rw [ho] at h1; cases h1; exact ⟨v, by simp [get, h2], h3⟩

theorem rel_write {s : State κ} {a : View κ} (h : Rel s a) {o i : Nat} {k : κ} (ho : s.objs o = some (k, some i)) (v : Nat) :
    ∃ s', write s i v = .ok s' ∧ Rel s' (upd a o (some (k, some v))) := by
  rcases h.objs o rfl with ⟨h1, _⟩ | ⟨_, h1, _⟩ | ⟨k', i', w, h1, h2, h3⟩
  · rw [ho] at h1; cases h1
  · rw [ho] at h1; cases h1
  · rw [ho] at h1; cases h1
    have e : write s i v = .ok { s with heap := upd s.heap i (some (some v)) } := by simp only [write, h2]
    refine ⟨_, e, ⟨?_, h.uniq, ?_, ?_, h.fresh⟩⟩
    · intro p _
      by_cases hpo : p = o
      · subst hpo; exact Or.inr (Or.inr ⟨k, i, v, ho, by simp, by simp⟩)
      · rcases h.objs p rfl with ⟨k1, k2⟩ | ⟨k', k1, k2⟩ | ⟨k', j, v', k1, k2, k3⟩
        · exact Or.inl ⟨k1, by rw [upd_ne _ _ hpo, k2]⟩
        · exact Or.inr (Or.inl ⟨k', k1, by rw [upd_ne _ _ hpo, k2]⟩)
        · have : j ≠ i := by rintro rfl; exact hpo (h.uniq p o _ _ _ rfl rfl k1 ho)
          exact Or.inr (Or.inr ⟨k', j, v', k1, by simp only [upd_ne _ _ this, k2], by rw [upd_ne _ _ hpo, k3]⟩)
    · intro j hj
      refine h.owned j ?_
      by_cases hji : j = i
      · subst hji; simp [h2]
      · simpa [upd_ne _ _ hji] using hj
    · intro j
      by_cases hji : j = i
      · subst hji
        rcases h.acct j with ⟨_, k2⟩ | ⟨k1, _⟩
        · exact Or.inl ⟨by simp, k2⟩
        · rw [h2] at k1; cases k1
      · simp only [upd_ne _ _ hji]; exact h.acct j

/-- Memory that was allocated and released without an object changes nothing. -/
theorem rel_alloc_dealloc {f : Nat → Bool} {s : State κ} {a : View κ} (h : RelX f s a) :
    ∃ s', dealloc (alloc s).1 (alloc s).2 = .ok s' ∧ RelX f s' a ∧ s'.objs = s.objs := by
  have hfresh := rel_next h
  have e : upd (upd s.heap s.next (some none)) s.next none = s.heap := by
    rw [upd_upd]
    have := upd_self s.heap s.next
    rwa [hfresh] at this
  have e' : dealloc (alloc s).1 (alloc s).2 = .ok { s with next := s.next + 1 } := by
    simp only [dealloc, alloc, upd_same, e]
  refine ⟨_, e', ⟨h.objs, h.uniq, ?_, h.acct, ?_⟩, rfl⟩
  · intro i hi
    obtain ⟨h1, h2⟩ := h.owned i hi
    exact ⟨Nat.lt_succ_of_lt h1, h2⟩
  · intro i hi
    exact h.fresh i (Nat.le_of_succ_le hi)

/-- Renaming variables. -/
theorem rel_rename {s t : State κ} {a b : View κ} (h : Rel s a) (π : Nat → Nat) (hπ : ∀ p, π (π p) = p)
    (ho : ∀ p, t.objs p = s.objs (π p)) (ha : ∀ p, b p = a (π p)) (hh : t.heap = s.heap) (hn : t.next = s.next)
    (hm : t.made = s.made) (hd : t.drops = s.drops) : Rel t b := by
  refine ⟨?_, ?_, ?_, ?_, ?_⟩
  · intro p _
    rw [ho, ha, hh]; exact h.objs (π p) rfl
  · intro p q k l i _ _ h1 h2
    rw [ho] at h1 h2
    have := h.uniq _ _ _ _ _ rfl rfl h1 h2
    rw [← hπ p, ← hπ q, this]
  · intro i hi
    rw [hh] at hi
    obtain ⟨h1, p, k, _, h3⟩ := h.owned i hi
    exact ⟨by rw [hn]; exact h1, π p, k, rfl, by rw [ho, hπ]; exact h3⟩
  · rw [hh, hm, hd]; exact h.acct
  · rw [hn, hm]; exact h.fresh

theorem rel_swap {s : State κ} {a : View κ} (h : Rel s a) {o p : Nat} {k l : κ} {x y v w : Option Nat}
    (ho : s.objs o = some (k, x)) (hp : s.objs p = some (l, y)) (ha : a o = some (k, v)) (hb : a p = some (l, w)) :
    Rel (put (put s o l y) p k x) (upd (upd a o (some (l, w))) p (some (k, v))) := by
  refine rel_rename h (fun q => if q = o then p else if q = p then o else q) (by intro q; grind) ?_ ?_ rfl rfl rfl rfl
  · intro q
    simp only [put, upd_apply]
    grind
  · intro q
    simp only [upd_apply]
    grind

theorem rel_cases {s : State κ} {a : View κ} (h : Rel s a) (o : Nat) :
    (s.objs o = none ∧ a o = none) ∨ (∃ k, s.objs o = some (k, none) ∧ a o = some (k, none)) ∨
    ∃ k i v, s.objs o = some (k, some i) ∧ a o = some (k, some v) := by
  rcases h.objs o rfl with h' | h' | ⟨k, i, v, h1, _, h3⟩
  · exact Or.inl h'
  · exact Or.inr (Or.inl h')
  · exact Or.inr (Or.inr ⟨k, i, v, h1, h3⟩)

end Verif.Owner
