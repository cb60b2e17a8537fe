import Verif.Gen.FrontModel
import Verif.Gen.PipelineSpec
import Verif.Cfg.LookupSpec
/-!
# When two programs know the same about the configuration
-/
namespace Verif.Gen
open Verif.Syntax Verif.Cfg

/-- No predicate is true for the one and false for the other. -/
def Agree (σ τ : Evaluator) : Prop :=
  ∀ n v, ¬ (σ n v = .true ∧ τ n v = .false) ∧ ¬ (σ n v = .false ∧ τ n v = .true)

/-- `τ` knows all that `σ` knows. -/
def Knows (τ σ : Evaluator) : Prop :=
  ∀ n v, (σ n v = .true → τ n v = .true) ∧ (σ n v = .false → τ n v = .false)

/-- The `--cfg` flags say what Cargo says to the build script: each of them is so; and of a setting that they mention,
and of the features, they list all values. -/
structure Truthful (args : List (List FlagTok)) (vars : List (List Char × List Char)) (debug : Bool) : Prop where
  value : ∀ n v, Given args n (.str v) → cargo vars debug n (some v) = .true
  listed : ∀ n v, n = "feature" ∨ (∃ x, Given args n x) → cargo vars debug n (some v) = .true → Given args n (.str v)
  yes : ∀ n, Given args n (.bool true) → cargo vars debug n none = .true
  no : ∀ n, Given args n (.bool false) → cargo vars debug n none = .false

/-- The errors that are due to dotted includes. -/
def Dotted (f : Failure) : Prop :=
  ∃ paths : List String, paths ≠ [] ∧ (∀ path ∈ paths, DotPath path.toList) ∧ f = .reports (paths.map .dotInclude)

/-- The errors that are due to predicates of which `σ` knows nothing. -/
def Undecided (σ : Evaluator) (f : Failure) : Prop :=
  ∃ messages : List String, messages ≠ [] ∧ (∀ m ∈ messages, ∃ n v, σ n v = .undetermined m) ∧
    f = .reports (messages.map .cfg)

end Verif.Gen
