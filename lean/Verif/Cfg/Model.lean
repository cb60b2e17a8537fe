/-!
# `syntax/cfg.rs`, `gen/src/cfg.rs`: conditional compilation in the bridge

Errors are their messages; source positions are left out.
-/
namespace Verif.Cfg

/-- syntax/cfg.rs:7-16 `enum CfgExpr`. -/
inductive CfgExpr
  | unconditional
  | eq (name : String) (value : Option String)
  | all (list : List CfgExpr)
  | any (list : List CfgExpr)
  | not (e : CfgExpr)

/-- syntax/cfg.rs:19-28 `CfgExpr::merge`. -/
def CfgExpr.merge : CfgExpr → CfgExpr → CfgExpr
  | .unconditional, expr => expr
  | .all list, expr => .all (list ++ [expr])
  | self, expr => .all [self, expr]

/-- gen/src/mod.rs:75-85 `enum CfgResult`. -/
inductive CfgResult
  | true
  | false
  | undetermined (msg : String)
  deriving DecidableEq, Repr

/-- gen/src/cfg.rs:126-133 `impl From<bool> for CfgResult`. -/
def CfgResult.ofBool (b : Bool) : CfgResult := if b then .true else .false

/-- gen/src/mod.rs:68-72 `trait CfgEvaluator`. -/
abbrev Evaluator := String → Option String → CfgResult

/-- gen/src/cfg.rs:60-73: what `try_eval` makes of one predicate. -/
def ofResult : CfgResult → Except (List String) Bool
  | .true => .ok Bool.true
  | .false => .ok Bool.false
  | .undetermined msg => .error [msg]

/-- gen/src/cfg.rs:83-87, 98-102: the end of both loops. -/
def finish (value : Bool) (errors : List String) : Except (List String) Bool :=
  if errors.isEmpty then .ok value else .error errors

mutual
/-- gen/src/cfg.rs:59-109 `try_eval`. -/
def tryEval (σ : Evaluator) : CfgExpr → Except (List String) Bool
  | .unconditional => .ok true
  | .eq name value => ofResult (σ name value)
  | .all list => tryAll σ [] list
  | .any list => tryAny σ [] list
  | .not e => match tryEval σ e with
    | .ok value => .ok (!value)
    | .error errors => .error errors
/-- gen/src/cfg.rs:74-88: the loop of `CfgExpr::All`. -/
def tryAll (σ : Evaluator) (errors : List String) : List CfgExpr → Except (List String) Bool
  | [] => finish true errors
  | e :: rest => match tryEval σ e with
    | .ok true => tryAll σ errors rest
    | .ok false => .ok false
    | .error more => tryAll σ (errors ++ more) rest
/-- gen/src/cfg.rs:89-103: the loop of `CfgExpr::Any`. -/
def tryAny (σ : Evaluator) (errors : List String) : List CfgExpr → Except (List String) Bool
  | [] => finish false errors
  | e :: rest => match tryEval σ e with
    | .ok true => .ok true
    | .ok false => tryAny σ errors rest
    | .error more => tryAny σ (errors ++ more) rest
end

/-- The two places errors go: `cfg_errors` (messages seen) and `cx` (errors reported, in order). -/
structure Log where
  seen : List String
  reported : List String

/-- gen/src/cfg.rs:49-53: the loop that reports errors. -/
def report (log : Log) : List String → Log
  | [] => log
  | e :: rest => report (if e ∈ log.seen then log else ⟨e :: log.seen, log.reported ++ [e]⟩) rest

/-- gen/src/cfg.rs:40-57 `eval`. -/
def eval (σ : Evaluator) (log : Log) (e : CfgExpr) : Bool × Log :=
  match tryEval σ e with
  | .ok value => (value, log)
  | .error errors => (false, report log errors)

/-- `Vec::retain` with `eval`. -/
def retain {α : Type} (σ : Evaluator) (cfg : α → CfgExpr) : Log → List α → List α × Log
  | log, [] => ([], log)
  | log, a :: rest =>
    match eval σ log (cfg a) with
    | (keep, log) => match retain σ cfg log rest with
      | (kept, log) => (if keep then a :: kept else kept, log)

/-- An item of the bridge, as far as `strip` looks at it: its condition and, for a struct or an enum, its
fields or variants with theirs. -/
structure Item (α μ : Type) where
  cfg : CfgExpr
  body : α
  members : List (CfgExpr × μ)

/-- gen/src/cfg.rs:27-37: the second loop of `strip`. -/
def stripMembers {α μ : Type} (σ : Evaluator) : Log → List (Item α μ) → List (Item α μ) × Log
  | log, [] => ([], log)
  | log, i :: rest =>
    match retain σ Prod.fst log i.members with
    | (members, log) => match stripMembers σ log rest with
      | (items, log) => ({ i with members } :: items, log)

/-- gen/src/cfg.rs:20-38 `strip`. -/
def strip {α μ : Type} (σ : Evaluator) (log : Log) (items : List (Item α μ)) : List (Item α μ) × Log :=
  match retain σ Item.cfg log items with
  | (kept, log) => stripMembers σ log kept

/-- gen/src/cfg.rs:9-18 `UnsupportedCfgEvaluator`. -/
def unsupported : Evaluator := fun _ _ => .undetermined "cfg attribute is not supported"

/-! ### The attribute -/

/-- A token of the attribute's arguments. -/
inductive Tok
  | ident (s : String)
  | paren (ts : List Tok)
  | comma
  | eq
  | str (s : String)
  | other (s : String)

mutual
/-- syntax/cfg.rs:39-67 `parse_single`: the expression and the tokens after it.  The nesting takes fuel.  That
`parenthesized!` leaves no token over is checked by syn when the buffer is dropped. -/
def parseSingle : Nat → List Tok → Option (CfgExpr × List Tok)
  | 0, _ => none
  | fuel + 1, .ident ident :: .paren content :: rest =>
    if ident = "all" then (parseMultiple fuel content).map fun list => (.all list, rest)
    else if ident = "any" then (parseMultiple fuel content).map fun list => (.any list, rest)
    else if ident = "not" then
      match parseSingle fuel content with
      | some (e, []) => some (.not e, rest)
      | some (e, [.comma]) => some (.not e, rest)
      | _ => none
    else none
  | _ + 1, .ident ident :: .eq :: .str s :: rest => some (.eq ident (some s), rest)
  | _ + 1, [.ident ident] => some (.eq ident none, [])
  | _ + 1, .ident ident :: .comma :: rest => some (.eq ident none, .comma :: rest)
  | _ + 1, _ => none
/-- syntax/cfg.rs:69-80 `parse_multiple`, to the end of the input. -/
def parseMultiple : Nat → List Tok → Option (List CfgExpr)
  | 0, _ => none
  | _ + 1, [] => some []
  | fuel + 1, t :: ts =>
    match parseSingle fuel (t :: ts) with
    | some (e, []) => some [e]
    | some (e, .comma :: rest) => (parseMultiple fuel rest).map (e :: ·)
    | _ => none
end

/-- syntax/cfg.rs:31-37 `parse_attribute`; `parse_args_with` wants all tokens to be used. -/
def parseAttribute (fuel : Nat) (ts : List Tok) : Option CfgExpr :=
  match parseSingle fuel ts with
  | some (e, []) => some e
  | some (e, [.comma]) => some e
  | _ => none

end Verif.Cfg
