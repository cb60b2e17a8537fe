import Verif.Gen.PipelineModel
import Verif.Cfg.Spec
/-!
# When code is generated, and from what
-/
namespace Verif.Gen
open Verif.Syntax Verif.Cfg Verif.Types Verif.Check

section
variable {α μ : Type}

/-- A bridge that is part of the build. -/
def Enabled (σ : Evaluator) (b : Bridge α μ) : Prop := Settled σ b.cfg true

/-- Parsing has found nothing wrong with what is part of the build. -/
def Parses (σ : Evaluator) (bridges : List (Bridge α μ)) : Prop :=
  ∀ b ∈ bridges, b.attrErrors = [] ∧ (Enabled σ b → b.itemErrors = [])

/-- The conditions that have to be known: those of the bridges, of the items of enabled bridges, and of the members of
enabled items. -/
inductive Needed (σ : Evaluator) (bridges : List (Bridge α μ)) : CfgExpr → Prop
  | bridge {b : Bridge α μ} : b ∈ bridges → Needed σ bridges b.cfg
  | item {b : Bridge α μ} {i : Item α μ} : b ∈ bridges → Enabled σ b → i ∈ b.items → Needed σ bridges i.cfg
  | member {b : Bridge α μ} {i : Item α μ} {m : CfgExpr × μ} : b ∈ bridges → Enabled σ b → i ∈ b.items →
      Settled σ i.cfg true → m ∈ i.members → Needed σ bridges m.1

/-- The items that are part of the build, in order, with those of their members that are; `p` says of a condition
whether it holds. -/
def builtItems (p : CfgExpr → Bool) (bridges : List (Bridge α μ)) : List (Item α μ) :=
  (((bridges.filter fun b => p b.cfg).flatMap (·.items)).filter fun i => p i.cfg).map
    fun i => { i with members := i.members.filter fun m => p m.1 }

/-- The errors of parsing that are due, in order; `p` says of a condition whether it holds. -/
def parseErrors (p : CfgExpr → Bool) (bridges : List (Bridge α μ)) : List String :=
  bridges.flatMap fun b => b.attrErrors ++ if p b.cfg then b.itemErrors else []

end

/-- The message, if the error is from parsing. -/
def Report.ofParse : Report → Option String
  | .parse m => some m
  | _ => none

/-- The message, if the error is about a condition. -/
def Report.ofCfg : Report → Option String
  | .cfg m => some m
  | _ => none

/-- An include path that begins with `.` or `..`. -/
def DotPath (path : List Char) : Prop :=
  ∃ dots ∈ [['.'], ['.', '.']], path = dots ∨ ∃ rest, path = dots ++ '/' :: rest

end Verif.Gen
