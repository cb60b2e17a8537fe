import Verif.Common.Fn
/-!
# Objects owning at most one heap cell

Helpers for machines whose objects (of any type `O`) own at most one cell (of any type `C`) of a heap.
`ptr` says which cell an object owns, `shows o c x` that object `o`, with `c` in its cell, shows the
value `x`.  Nothing here models code of /repo.
-/
namespace Verif.Own
open Verif

structure State (C O : Type) where
  heap : Nat → Option C
  /-- Addresses at and above `next` have never been allocated. -/
  next : Nat
  objs : Nat → Option O

variable {C O A : Type}

def init : State C O := ⟨fun _ => none, 0, fun _ => none⟩

/-- Allocate a cell.  Addresses are not reused: a dangling pointer stays dangling. -/
def alloc (s : State C O) (c : C) : State C O × Nat :=
  ({ s with heap := upd s.heap s.next (some c), next := s.next + 1 }, s.next)

def free (s : State C O) (i : Nat) : State C O := { s with heap := upd s.heap i none }
def poke (s : State C O) (i : Nat) (c : C) : State C O := { s with heap := upd s.heap i (some c) }
def put (s : State C O) (p : Nat) (o : O) : State C O := { s with objs := upd s.objs p (some o) }
def del (s : State C O) (p : Nat) : State C O := { s with objs := upd s.objs p none }

/-- Object `o` shows `x` over heap `h`. -/
def Showing (ptr : O → Option Nat) (shows : O → Option C → A → Prop) (h : Nat → Option C) (o : O) (x : A) : Prop :=
  match ptr o with
  | none => shows o none x
  | some i => ∃ c, h i = some c ∧ shows o (some c) x

/-- `s` shows `a`, leaving out the addresses in `skip`: each object outside owns its own cell, and
every cell is owned from outside. -/
structure RelX (ptr : O → Option Nat) (shows : O → Option C → A → Prop) (skip : Nat → Bool) (s : State C O)
    (a : Nat → Option A) : Prop where
  objs : ∀ p, skip p = false →
    (s.objs p = none ∧ a p = none) ∨ ∃ o x, s.objs p = some o ∧ a p = some x ∧ Showing ptr shows s.heap o x
  uniq : ∀ p q o o' i, skip p = false → skip q = false → s.objs p = some o → s.objs q = some o' →
    ptr o = some i → ptr o' = some i → p = q
  owned : ∀ i, s.heap i ≠ none → i < s.next ∧ ∃ p o, skip p = false ∧ s.objs p = some o ∧ ptr o = some i

abbrev noskip : Nat → Bool := fun _ => false
abbrev Rel (ptr : O → Option Nat) (shows : O → Option C → A → Prop) (s : State C O) (a : Nat → Option A) : Prop :=
  RelX ptr shows noskip s a

variable {ptr : O → Option Nat} {shows : O → Option C → A → Prop} {f : Nat → Bool} {s : State C O} {a : Nat → Option A}

theorem rel_init : Rel ptr shows (init : State C O) (fun _ => none) :=
  ⟨fun _ _ => Or.inl ⟨rfl, rfl⟩, fun _ _ _ _ _ _ _ h => by simp [init] at h, fun _ h => by simp [init] at h⟩

theorem skip_key {o p : Nat} (hp : upd f o true p = false) : f p = false ∧ p ≠ o := by
  simp only [upd_apply] at hp; split at hp <;> simp_all

theorem unskip_key {o p : Nat} (hp : upd f o false p = false) : p = o ∨ (f p = false ∧ p ≠ o) := by
  simp only [upd_apply] at hp; split at hp <;> simp_all

theorem showing_congr {h h' : Nat → Option C} {o : O} {x : A} (hs : Showing ptr shows h o x)
    (hh : ∀ i, ptr o = some i → h' i = h i) : Showing ptr shows h' o x := by
  unfold Showing at hs ⊢
  cases hp : ptr o with
  | none => rw [hp] at hs; exact hs
  | some i => rw [hp] at hs; simp only [hh i hp]; exact hs

/-- The two cases of an address. -/
theorem rel_cases (h : RelX ptr shows f s a) {p : Nat} (hp : f p = false) :
    (s.objs p = none ∧ a p = none) ∨ ∃ o x, s.objs p = some o ∧ a p = some x ∧ Showing ptr shows s.heap o x := h.objs p hp

/-- An object that owns nothing can be set aside. -/
theorem rel_skip (h : RelX ptr shows f s a) {o : Nat} (ho : ∀ x, s.objs o = some x → ptr x = none) :
    RelX ptr shows (upd f o true) s a := by
  refine ⟨fun p hp => h.objs p (skip_key hp).1,
    fun p q x y i hp hq => h.uniq p q x y i (skip_key hp).1 (skip_key hq).1, ?_⟩
  intro i hi
  obtain ⟨h1, p, x, h2, h3, h4⟩ := h.owned i hi
  refine ⟨h1, p, x, ?_, h3, h4⟩
  have : p ≠ o := by rintro rfl; rw [ho x h3] at h4; cases h4
  rw [upd_ne _ _ this]; exact h2

/-- Freeing an object's cell sets it aside. -/
theorem rel_free (h : RelX ptr shows f s a) {o i : Nat} {x : O} (hf : f o = false) (ho : s.objs o = some x)
    (hx : ptr x = some i) : RelX ptr shows (upd f o true) (free s i) a := by
  refine ⟨?_, fun p q x y j hp hq => h.uniq p q x y j (skip_key hp).1 (skip_key hq).1, ?_⟩
  · intro p hp
    obtain ⟨hp1, hp2⟩ := skip_key hp
    rcases h.objs p hp1 with h' | ⟨y, v, h1, h2, h3⟩
    · exact Or.inl h'
    · refine Or.inr ⟨y, v, h1, h2, showing_congr h3 ?_⟩
      intro j hj
      have : j ≠ i := by rintro rfl; exact hp2 (h.uniq p o y x _ hp1 hf h1 ho hj hx)
      simp only [free, upd_ne _ _ this]
  · intro j hj
    have hji : j ≠ i := by rintro rfl; simp [free] at hj
    simp only [free, upd_ne _ _ hji] at hj
    obtain ⟨h1, p, y, h2, h3, h4⟩ := h.owned j hj
    refine ⟨h1, p, y, ?_, h3, h4⟩
    have : p ≠ o := by rintro rfl; rw [ho] at h3; cases h3; rw [hx] at h4; cases h4; exact hji rfl
    rw [upd_ne _ _ this]; exact h2

/-- Storing an object that owns nothing. -/
theorem rel_put_null (h : RelX ptr shows f s a) {o : Nat} {x : O} {v : A} (hf : f o = true) (hx : ptr x = none)
    (hs : shows x none v) : RelX ptr shows (upd f o false) (put s o x) (upd a o (some v)) := by
  refine ⟨?_, ?_, ?_⟩
  · intro p hp
    rcases unskip_key hp with rfl | ⟨h1, h2⟩
    · refine Or.inr ⟨x, v, upd_same _ _ _, upd_same _ _ _, ?_⟩
      unfold Showing; rw [hx]; exact hs
    · simp only [put, upd_ne _ _ h2]; exact h.objs p h1
  · intro p q y z i hp hq h1 h2 h3 h4
    rcases unskip_key hp with rfl | ⟨k1, k2⟩
    · simp only [put, upd_same, Option.some.injEq] at h1; subst h1; rw [hx] at h3; cases h3
    · rcases unskip_key hq with rfl | ⟨l1, l2⟩
      · simp only [put, upd_same, Option.some.injEq] at h2; subst h2; rw [hx] at h4; cases h4
      · simp only [put, upd_ne _ _ k2] at h1
        simp only [put, upd_ne _ _ l2] at h2
        exact h.uniq p q y z i k1 l1 h1 h2 h3 h4
  · intro i hi
    obtain ⟨h1, p, y, h2, h3, h4⟩ := h.owned i hi
    have : p ≠ o := by rintro rfl; rw [hf] at h2; cases h2
    exact ⟨h1, p, y, by rw [upd_ne _ _ this]; exact h2, by simp only [put, upd_ne _ _ this]; exact h3, h4⟩

/-- Removing an object that was set aside. -/
theorem rel_del (h : RelX ptr shows f s a) {o : Nat} (hf : f o = true) :
    RelX ptr shows (upd f o false) (del s o) (upd a o none) := by
  refine ⟨?_, ?_, ?_⟩
  · intro p hp
    rcases unskip_key hp with rfl | ⟨h1, h2⟩
    · exact Or.inl ⟨upd_same _ _ _, upd_same _ _ _⟩
    · simp only [del, upd_ne _ _ h2]; exact h.objs p h1
  · intro p q y z i hp hq h1 h2 h3 h4
    rcases unskip_key hp with rfl | ⟨k1, k2⟩
    · simp [del] at h1
    · rcases unskip_key hq with rfl | ⟨l1, l2⟩
      · simp [del] at h2
      · simp only [del, upd_ne _ _ k2] at h1
        simp only [del, upd_ne _ _ l2] at h2
        exact h.uniq p q y z i k1 l1 h1 h2 h3 h4
  · intro i hi
    obtain ⟨h1, p, y, h2, h3, h4⟩ := h.owned i hi
    have : p ≠ o := by rintro rfl; rw [hf] at h2; cases h2
    exact ⟨h1, p, y, by rw [upd_ne _ _ this]; exact h2, by simp only [del, upd_ne _ _ this]; exact h3, h4⟩

/-- Storing an object that owns a new cell. -/
theorem rel_put_new (h : RelX ptr shows f s a) {o : Nat} {x : O} {v : A} {c : C} (hf : f o = true)
    (hx : ptr x = some s.next) (hs : shows x (some c) v) :
    RelX ptr shows (upd f o false) (put (alloc s c).1 o x) (upd a o (some v)) := by
  have hlt : ∀ i, s.heap i ≠ none → i ≠ s.next := fun i hi => by have := (h.owned i hi).1; omega
  have hown : ∀ p y i, f p = false → s.objs p = some y → ptr y = some i → i ≠ s.next := by
    intro p y i h1 h2 h3
    rcases h.objs p h1 with ⟨k, _⟩ | ⟨o', v', k1, k2, k3⟩
    · rw [h2] at k; cases k
    · rw [h2] at k1; cases k1
      unfold Showing at k3; rw [h3] at k3
      obtain ⟨c', hc, _⟩ := k3
      exact hlt i (by rw [hc]; simp)
  refine ⟨?_, ?_, ?_⟩
  · intro p hp
    rcases unskip_key hp with rfl | ⟨h1, h2⟩
    · refine Or.inr ⟨x, v, upd_same _ _ _, upd_same _ _ _, ?_⟩
      unfold Showing; rw [hx]; exact ⟨c, by simp [put, alloc], hs⟩
    · rcases h.objs p h1 with h' | ⟨y, w, k1, k2, k3⟩
      · exact Or.inl (by simpa only [put, alloc, upd_ne _ _ h2] using h')
      · refine Or.inr ⟨y, w, by simpa only [put, alloc, upd_ne _ _ h2] using k1,
          by simpa only [upd_ne _ _ h2] using k2, showing_congr k3 ?_⟩
        intro i hi
        simp only [put, alloc, upd_ne _ _ (hown p y i h1 k1 hi)]
  · intro p q y z i hp hq h1 h2 h3 h4
    rcases unskip_key hp with rfl | ⟨k1, k2⟩
    · simp only [put, upd_same, Option.some.injEq] at h1; subst h1
      rcases unskip_key hq with rfl | ⟨l1, l2⟩
      · rfl
      · simp only [put, alloc, upd_ne _ _ l2] at h2
        rw [hx] at h3; cases h3
        exact absurd rfl (hown q z _ l1 h2 h4)
    · simp only [put, alloc, upd_ne _ _ k2] at h1
      rcases unskip_key hq with rfl | ⟨l1, l2⟩
      · simp only [put, upd_same, Option.some.injEq] at h2; subst h2
        rw [hx] at h4; cases h4
        exact absurd rfl (hown p y _ k1 h1 h3)
      · simp only [put, alloc, upd_ne _ _ l2] at h2
        exact h.uniq p q y z i k1 l1 h1 h2 h3 h4
  · intro i hi
    by_cases hin : i = s.next
    · subst hin
      exact ⟨Nat.lt_succ_self _, o, x, upd_same _ _ _, upd_same _ _ _, hx⟩
    · simp only [put, alloc, upd_ne _ _ hin] at hi
      obtain ⟨h1, p, y, h2, h3, h4⟩ := h.owned i hi
      have : p ≠ o := by rintro rfl; rw [hf] at h2; cases h2
      exact ⟨Nat.lt_succ_of_lt h1, p, y, by rw [upd_ne _ _ this]; exact h2,
        by simp only [put, alloc, upd_ne _ _ this]; exact h3, h4⟩

/-- Moving what `src` owns into `o`: afterwards `src` is set aside instead of `o`. -/
theorem rel_take (h : RelX ptr shows f s a) {o src : Nat} {x y : O} {w : A} (hf : f o = true) (hne : src ≠ o)
    (hsrc : f src = false) (hy : s.objs src = some y) (hxy : ptr x = ptr y) (hs : Showing ptr shows s.heap x w) :
    RelX ptr shows (upd (upd f o false) src true) (put s o x) (upd a o (some w)) := by
  have key : ∀ p, upd (upd f o false) src true p = false → p ≠ src ∧ (p = o ∨ (f p = false ∧ p ≠ o)) := by
    intro p hp; exact ⟨(skip_key hp).2, unskip_key (skip_key hp).1⟩
  refine ⟨?_, ?_, ?_⟩
  · intro p hp
    rcases (key p hp).2 with rfl | ⟨h1, h2⟩
    · exact Or.inr ⟨x, w, upd_same _ _ _, upd_same _ _ _, hs⟩
    · simp only [put, upd_ne _ _ h2]; exact h.objs p h1
  · intro p q z z' i hp hq h1 h2 h3 h4
    rcases (key p hp) with ⟨n1, rfl | ⟨k1, k2⟩⟩
    · simp only [put, upd_same, Option.some.injEq] at h1; subst h1
      rcases (key q hq) with ⟨n2, rfl | ⟨l1, l2⟩⟩
      · rfl
      · simp only [put, upd_ne _ _ l2] at h2
        exact absurd (h.uniq q src z' y i l1 hsrc h2 hy h4 (by rw [← hxy]; exact h3)) n2
    · simp only [put, upd_ne _ _ k2] at h1
      rcases (key q hq) with ⟨n2, rfl | ⟨l1, l2⟩⟩
      · simp only [put, upd_same, Option.some.injEq] at h2; subst h2
        exact absurd (h.uniq p src z y i k1 hsrc h1 hy h3 (by rw [← hxy]; exact h4)) n1
      · simp only [put, upd_ne _ _ l2] at h2
        exact h.uniq p q z z' i k1 l1 h1 h2 h3 h4
  · intro i hi
    obtain ⟨h1, p, z, h2, h3, h4⟩ := h.owned i hi
    refine ⟨h1, ?_⟩
    by_cases hp : p = src
    · subst hp
      rw [hy] at h3; cases h3
      exact ⟨o, x, by rw [upd_ne _ _ (Ne.symm hne), upd_same], upd_same _ _ _, by rw [hxy]; exact h4⟩
    · have : p ≠ o := by rintro rfl; rw [hf] at h2; cases h2
      exact ⟨p, z, by rw [upd_ne _ _ hp, upd_ne _ _ this]; exact h2, by simp only [put, upd_ne _ _ this]; exact h3, h4⟩

/-- Changing an object and its cell in place. -/
theorem rel_poke (h : RelX ptr shows f s a) {o i : Nat} {x y : O} {w : A} {c : C} (hf : f o = false)
    (ho : s.objs o = some x) (hx : ptr x = some i) (hy : ptr y = some i) (hs : shows y (some c) w) :
    RelX ptr shows f (put (poke s i c) o y) (upd a o (some w)) := by
  have hlive : s.heap i ≠ none := by
    rcases h.objs o hf with ⟨k, _⟩ | ⟨o', v', k1, k2, k3⟩
    · rw [ho] at k; cases k
    · rw [ho] at k1; cases k1
      unfold Showing at k3; rw [hx] at k3
      obtain ⟨c', hc, _⟩ := k3
      rw [hc]; simp
  refine ⟨?_, ?_, ?_⟩
  · intro p hp
    by_cases hpo : p = o
    · subst hpo
      refine Or.inr ⟨y, w, upd_same _ _ _, upd_same _ _ _, ?_⟩
      unfold Showing; rw [hy]; exact ⟨c, by simp [put, poke], hs⟩
    · rcases h.objs p hp with h' | ⟨z, v, k1, k2, k3⟩
      · exact Or.inl (by simpa only [put, poke, upd_ne _ _ hpo] using h')
      · refine Or.inr ⟨z, v, by simpa only [put, poke, upd_ne _ _ hpo] using k1,
          by simpa only [upd_ne _ _ hpo] using k2, showing_congr k3 ?_⟩
        intro j hj
        have : j ≠ i := by rintro rfl; exact hpo (h.uniq p o z x _ hp hf k1 ho hj hx)
        simp only [put, poke, upd_ne _ _ this]
  · have key : ∀ p z j, (put (poke s i c) o y).objs p = some z → ptr z = some j →
        ∃ z', s.objs p = some z' ∧ ptr z' = some j := by
      intro p z j h1 h2
      by_cases hpo : p = o
      · subst hpo
        simp only [put, upd_same, Option.some.injEq] at h1; subst h1
        exact ⟨x, ho, by rw [hx, ← hy]; exact h2⟩
      · simp only [put, poke, upd_ne _ _ hpo] at h1; exact ⟨z, h1, h2⟩
    intro p q z z' j hp hq h1 h2 h3 h4
    obtain ⟨u, k1, k2⟩ := key p z j h1 h3
    obtain ⟨u', l1, l2⟩ := key q z' j h2 h4
    exact h.uniq p q u u' j hp hq k1 l1 k2 l2
  · intro j hj
    have hj' : s.heap j ≠ none := by
      by_cases hji : j = i
      · subst hji; exact hlive
      · simpa only [put, poke, upd_ne _ _ hji] using hj
    obtain ⟨h1, p, z, h2, h3, h4⟩ := h.owned j hj'
    by_cases hpo : p = o
    · subst hpo
      rw [ho] at h3; cases h3
      exact ⟨h1, p, y, h2, upd_same _ _ _, by rw [hy, ← hx]; exact h4⟩
    · exact ⟨h1, p, z, h2, by simpa only [put, poke, upd_ne _ _ hpo] using h3, h4⟩

/-- Two updates of the set-aside table that cancel. -/
theorem rel_noskip (h : RelX ptr shows (upd (upd noskip p true) p false) s a) : Rel ptr shows s a := by
  have : upd (upd noskip p true) p false = noskip := by
    funext q; simp [upd_apply]
  rwa [this] at h

/-- At the end: every cell belongs to exactly one object, and nothing is left when no object owns. -/
theorem rel_accounts (h : Rel ptr shows s a) :
    (∀ i, s.heap i ≠ none → ∃ p o, s.objs p = some o ∧ ptr o = some i ∧
      ∀ q o', s.objs q = some o' → ptr o' = some i → q = p) ∧
    ((∀ p o, s.objs p = some o → ptr o = none) → ∀ i, s.heap i = none) := by
  refine ⟨?_, ?_⟩
  · intro i hi
    obtain ⟨_, p, o, _, h2, h3⟩ := h.owned i hi
    exact ⟨p, o, h2, h3, fun q o' k1 k2 => h.uniq q p o' o i rfl rfl k1 h2 k2 h3⟩
  · intro hnone i
    cases hi : s.heap i with
    | none => rfl
    | some c =>
      obtain ⟨_, p, o, _, h2, h3⟩ := h.owned i (by rw [hi]; simp)
      rw [hnone p o h2] at h3; cases h3

end Verif.Own
