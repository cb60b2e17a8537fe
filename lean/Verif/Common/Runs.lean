import Verif.Common.Fn
/-!
# Histories of a specification

Nothing here models code of /repo.
-/
namespace Verif

/-- A history of steps of a specification, with what is observed. -/
inductive Runs {τ ω β : Type} (Step : τ → ω → τ → β → Prop) : τ → List ω → τ → List β → Prop
  | nil {a : τ} : Runs Step a [] a []
  | cons {a b c : τ} {op : ω} {ops : List ω} {x : β} {xs : List β} :
      Step a op b x → Runs Step b ops c xs → Runs Step a (op :: ops) c (x :: xs)

/-- At some point of the history the program does what it may not. -/
def BreaksRule {τ ω β : Type} (Step : τ → ω → τ → β → Prop) (Legal : τ → ω → Prop) (a : τ) (ops : List ω) : Prop :=
  ∃ pre op post a' obs, ops = pre ++ op :: post ∧ Runs Step a pre a' obs ∧ ¬ Legal a' op

/-- One step of the machine: refused when not legal, else matched by the specification. -/
def StepOk {σ τ ω β : Type} (R : σ → τ → Prop) (step : σ → ω → Except Fault (σ × β))
    (Step : τ → ω → τ → β → Prop) (Legal : τ → ω → Prop) (s : σ) (a : τ) (op : ω) : Prop :=
  (¬ Legal a op ∧ step s op = .error .illegal) ∨
  (Legal a op ∧ ∃ s' a' b, step s op = .ok (s', b) ∧ Step a op a' b ∧ R s' a')

theorem runs_ok {σ τ ω β : Type} {R : σ → τ → Prop} {step : σ → ω → Except Fault (σ × β)}
    {Step : τ → ω → τ → β → Prop} {Legal : τ → ω → Prop}
    (h : ∀ s a op, R s a → StepOk R step Step Legal s a op) : ∀ (ops : List ω) (s : σ) (a : τ), R s a →
    (∃ s' a' obs, runOps step s ops = .ok (s', obs) ∧ Runs Step a ops a' obs ∧ R s' a') ∨
    (runOps step s ops = .error .illegal ∧ BreaksRule Step Legal a ops) := by
  intro ops
  induction ops with
  | nil => intro s a hr; exact Or.inl ⟨s, a, [], rfl, .nil, hr⟩
  | cons op ops ih =>
    intro s a hr
    rcases h s a op hr with ⟨h1, h2⟩ | ⟨_, s', a', b, h1, h2, h3⟩
    · exact Or.inr ⟨by simp [runOps, h2], [], op, ops, a, [], rfl, .nil, h1⟩
    · rcases ih s' a' h3 with ⟨s'', a'', bs, k1, k2, k3⟩ | ⟨k1, pre, o, post, c, xs, k2, k3, k4⟩
      · exact Or.inl ⟨s'', a'', b :: bs, by simp [runOps, h1, k1], .cons h2 k2, k3⟩
      · exact Or.inr ⟨by simp [runOps, h1, k1], op :: pre, o, post, c, b :: xs, by simp [k2], .cons h2 k3, k4⟩

end Verif
