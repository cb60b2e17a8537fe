import Verif.Cfg.Model
import Verif.Check.Model
import Verif.Toposort.Model
import Verif.Build.PathModel
/-!
# From source to generated code: `gen/src/mod.rs`, `syntax/report.rs`, `gen/src/check.rs`, `macro/src/expand.rs`

Parsing and writing are left open: any result of the former, any function for the latter.
-/
namespace Verif.Gen
open Verif.Syntax Verif.Cfg Verif.Types Verif.Check

/-- The errors that can be reported, without their positions. -/
inductive Report
  /-- from parsing attributes or items -/
  | parse (msg : String)
  /-- from evaluating a condition -/
  | cfg (msg : String)
  /-- from `Types::collect` -/
  | duplicate (name : Ident)
  | cyclic
  | dotInclude (path : String)
  /-- from `typecheck` -/
  | check (e : Err)
  deriving DecidableEq

/-- syntax/report.rs:22-31 `Errors::propagate`.  `combine` keeps all errors in order. -/
def propagate (errors : List Report) : Except (List Report) Unit :=
  match errors with
  | [] => .ok ()
  | first :: rest => .error (rest.foldl (fun all e => all ++ [e]) [first])

/-- What parsing has made of a bridge: the errors and the condition from its attributes, the errors and the items from
its contents. -/
structure Bridge (α μ : Type) where
  attrErrors : List String
  cfg : CfgExpr
  itemErrors : List String
  items : List (Item α μ)

/-- The variables of the loop in `generate`: `errors`, `cfg_errors` (with the messages that were reported from there)
and `apis`. -/
structure Progress (α μ : Type) where
  errors : List Report
  log : Log
  items : List (Item α μ)

/-- What `cfg::eval` or `cfg::strip` has pushed to `errors`. -/
def pushed (before after : Log) : List Report := (after.reported.drop before.reported.length).map .cfg

/-- gen/src/mod.rs:151-172: one bridge. -/
def addBridge {α μ : Type} (σ : Evaluator) (p : Progress α μ) (b : Bridge α μ) : Progress α μ :=
  let errors := p.errors ++ b.attrErrors.map .parse
  match eval σ p.log b.cfg with
  | (true, log) => ⟨errors ++ pushed p.log log ++ b.itemErrors.map .parse, log, p.items ++ b.items⟩
  | (false, log) => ⟨errors ++ pushed p.log log, log, p.items⟩

def structsOf (apis : List Api) : List Struct :=
  apis.filterMap fun | .struct s => some s | _ => none

/-- The errors of `Types::collect` (syntax/types.rs:31-240): duplicate names, then cycles of structs. -/
def collectErrors (apis : List Api) : List Report :=
  (collect apis).dups.map .duplicate ++
    List.replicate (match Toposort.sort (structsOf apis) with | some (_, n) => n | none => 0) .cyclic

/-- gen/src/check.rs:15-27 `check_dot_includes`, for one item. -/
def dotInclude : Api → List Report
  | .include path => match (Build.components path.toList).head? with
    | some .cur | some .parent => [.dotInclude path]
    | _ => []
  | _ => []

/-- gen/src/check.rs:9-13 `precheck`. -/
def precheck (allowDotIncludes : Bool) (apis : List Api) : List Report :=
  if !allowDotIncludes then apis.flatMap dotInclude else []

/-- gen/src/mod.rs:54-64: the options that matter here, with the evaluator of conditions. -/
structure Options where
  evaluator : Evaluator
  genHeader : Bool
  genImplementation : Bool
  allowDotIncludes : Bool

/-- gen/src/mod.rs:87-94 `GeneratedCode`. -/
structure Code where
  header : List Char
  implementation : List Char
  deriving DecidableEq

/-- gen/src/error.rs:18-24 `Error`, as far as `generate` returns it. -/
inductive Failure
  | noBridgeMod
  | reports (es : List Report)
  deriving DecidableEq

/-- gen/src/mod.rs:143-199 `generate`.  `assemble` makes an item out of what `strip` has left of it; `write apis header`
stands for `write::gen`. -/
def generate {α μ : Type} (assemble : Item α μ → Api) (write : List Api → Bool → List Char) (opt : Options)
    (bridges : List (Bridge α μ)) : Except Failure Code :=
  if bridges = [] then .error .noBridgeMod
  else
    let p := bridges.foldl (addBridge opt.evaluator) ⟨[], ⟨[], []⟩, []⟩
    match strip opt.evaluator p.log p.items with
    | (kept, log) =>
      match propagate (p.errors ++ pushed p.log log) with
      | .error es => .error (.reports es)
      | .ok () =>
        let apis := kept.map assemble
        match propagate (collectErrors apis ++ precheck opt.allowDotIncludes apis) with
        | .error es => .error (.reports es)
        | .ok () =>
          match propagate ((typecheck ⟨apis, collect apis, .build⟩).map .check) with
          | .error es => .error (.reports es)
          | .ok () => .ok {
              header := if opt.genHeader then write apis true else []
              implementation := if opt.genImplementation then write apis false else [] }

/-- macro/src/expand.rs:20-49 `bridge`.  The macro does not evaluate conditions: rustc will. -/
def macroBridge {α μ τ : Type} (assemble : Item α μ → Api) (expand : List Api → τ) (b : Bridge α μ) :
    Except (List Report) τ :=
  let apis := b.items.map assemble
  match propagate (b.attrErrors.map .parse ++ b.itemErrors.map .parse ++ collectErrors apis) with
  | .error es => .error es
  | .ok () =>
    match propagate ((typecheck ⟨apis, collect apis, .macro⟩).map .check) with
    | .error es => .error es
    | .ok () => .ok (expand apis)

end Verif.Gen
