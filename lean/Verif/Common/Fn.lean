/-!
# Tables as functions, and lists of steps

Small helpers shared by the state machines.  Nothing here models code of /repo.
-/
namespace Verif

/-- A table with one entry changed. -/
def upd {α : Type} (f : Nat → α) (k : Nat) (v : α) : Nat → α := fun j => if j = k then v else f j

@[simp] theorem upd_same {α : Type} (f : Nat → α) (k : Nat) (v : α) : upd f k v k = v := by simp [upd]
theorem upd_ne {α : Type} (f : Nat → α) {k j : Nat} (v : α) (h : j ≠ k) : upd f k v j = f j := by
  simp [upd, h]
theorem upd_apply {α : Type} (f : Nat → α) (k : Nat) (v : α) (j : Nat) :
    upd f k v j = if j = k then v else f j := rfl
theorem upd_upd {α : Type} (f : Nat → α) (k : Nat) (v w : α) : upd (upd f k v) k w = upd f k w := by
  funext j; simp only [upd]; split <;> rfl
theorem upd_self {α : Type} (f : Nat → α) (k : Nat) : upd f k (f k) = f := by
  funext j; simp only [upd]; split
  · next h => rw [h]
  · rfl
theorem upd_comm {α : Type} (f : Nat → α) {k l : Nat} (v w : α) (h : k ≠ l) :
    upd (upd f k v) l w = upd (upd f l w) k v := by
  funext j; simp only [upd]; split <;> split <;> simp_all

/-- What can go wrong in a step of a machine. -/
inductive Fault
  /-- The caller broke a precondition of the language itself: used an object that does not exist,
  or created one where one exists already.  Such programs are outside every claim. -/
  | illegal
  /-- Undefined behaviour committed by the modelled code: freeing memory that is not allocated,
  reading or writing memory that is not allocated or not initialised. -/
  | ub
  deriving DecidableEq, Repr

deriving instance DecidableEq for Except

/-- Run a list of operations, collecting the observations. -/
def runOps {σ ω β : Type} (step : σ → ω → Except Fault (σ × β)) : σ → List ω → Except Fault (σ × List β)
  | s, [] => .ok (s, [])
  | s, op :: ops =>
    match step s op with
    | .error e => .error e
    | .ok (s', b) =>
      match runOps step s' ops with
      | .error e => .error e
      | .ok (s'', bs) => .ok (s'', b :: bs)

/-- One step of machine `a` is matched by one step of machine `b`: same faults (never `ub`), same
observations, related states. -/
def StepRefines {σ τ ω β : Type} (R : σ → τ → Prop) (sa : σ → ω → Except Fault (σ × β))
    (sb : τ → ω → Except Fault (τ × β)) (s : σ) (t : τ) (op : ω) : Prop :=
  (sa s op = .error .illegal ∧ sb t op = .error .illegal) ∨
  ∃ s' t' b, sa s op = .ok (s', b) ∧ sb t op = .ok (t', b) ∧ R s' t'

/-- Refinement of single steps lifts to whole histories. -/
theorem runOps_refines {σ τ ω β : Type} {R : σ → τ → Prop} {sa : σ → ω → Except Fault (σ × β)}
    {sb : τ → ω → Except Fault (τ × β)} (h : ∀ s t op, R s t → StepRefines R sa sb s t op) :
    ∀ (ops : List ω) (s : σ) (t : τ), R s t →
      (runOps sa s ops = .error .illegal ∧ runOps sb t ops = .error .illegal) ∨
      ∃ s' t' bs, runOps sa s ops = .ok (s', bs) ∧ runOps sb t ops = .ok (t', bs) ∧ R s' t'
  | [], s, t, hr => Or.inr ⟨s, t, [], rfl, rfl, hr⟩
  | op :: ops, s, t, hr => by
    rcases h s t op hr with ⟨h1, h2⟩ | ⟨s', t', b, h1, h2, hr'⟩
    · exact Or.inl ⟨by simp [runOps, h1], by simp [runOps, h2]⟩
    · rcases runOps_refines h ops s' t' hr' with ⟨h3, h4⟩ | ⟨s'', t'', bs, h3, h4, hr''⟩
      · exact Or.inl ⟨by simp [runOps, h1, h3], by simp [runOps, h2, h4]⟩
      · exact Or.inr ⟨s'', t'', b :: bs, by simp [runOps, h1, h3], by simp [runOps, h2, h4], hr''⟩

/-- An invariant kept by every step holds after every history. -/
theorem runOps_invariant {σ ω β : Type} {I : σ → Prop} {step : σ → ω → Except Fault (σ × β)}
    (h : ∀ s op s' b, I s → step s op = .ok (s', b) → I s') :
    ∀ (ops : List ω) (s s' : σ) (bs : List β), I s → runOps step s ops = .ok (s', bs) → I s'
  | [], s, s', bs, hi, hr => by simp [runOps] at hr; rw [← hr.1]; exact hi
  | op :: ops, s, s', bs, hi, hr => by
    simp only [runOps] at hr
    cases h1 : step s op with
    | error e => simp [h1] at hr
    | ok p =>
      obtain ⟨s1, b⟩ := p
      simp only [h1] at hr
      cases h2 : runOps step s1 ops with
      | error e => simp [h2] at hr
      | ok q =>
        obtain ⟨s2, bs2⟩ := q
        simp only [h2, Except.ok.injEq, Prod.mk.injEq] at hr
        obtain ⟨rfl, _⟩ := hr
        exact runOps_invariant h ops s1 s2 bs2 (h s op s1 b hi h1) h2

end Verif
