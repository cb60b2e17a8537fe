import Verif.Cfg.Model
/-!
# Three-valued logic
-/
namespace Verif.Cfg

mutual
/-- `Possible σ e b`: `e` can come out as `b` if each unknown predicate in it, at each place where it occurs, is
taken to be true or false at will. -/
inductive Possible (σ : Evaluator) : CfgExpr → Bool → Prop
  | unconditional : Possible σ .unconditional true
  | yes {n : String} {v : Option String} (h : σ n v = .true) : Possible σ (.eq n v) true
  | no {n : String} {v : Option String} (h : σ n v = .false) : Possible σ (.eq n v) false
  | unknown {n : String} {v : Option String} {msg : String} (h : σ n v = .undetermined msg) (b : Bool) :
      Possible σ (.eq n v) b
  | all {es : List CfgExpr} {bs : List Bool} (h : PossibleList σ es bs) : Possible σ (.all es) (bs.all id)
  | any {es : List CfgExpr} {bs : List Bool} (h : PossibleList σ es bs) : Possible σ (.any es) (bs.any id)
  | not {e : CfgExpr} {b : Bool} (h : Possible σ e b) : Possible σ (.not e) (!b)
inductive PossibleList (σ : Evaluator) : List CfgExpr → List Bool → Prop
  | nil : PossibleList σ [] []
  | cons {e : CfgExpr} {b : Bool} {es : List CfgExpr} {bs : List Bool} (h : Possible σ e b)
      (hs : PossibleList σ es bs) : PossibleList σ (e :: es) (b :: bs)
end

mutual
/-- Plain truth of an expression when every predicate is known. -/
def holds (f : String → Option String → Bool) : CfgExpr → Bool
  | .unconditional => true
  | .eq n v => f n v
  | .all es => holdsAll f es
  | .any es => holdsAny f es
  | .not e => !holds f e
def holdsAll (f : String → Option String → Bool) : List CfgExpr → Bool
  | [] => true
  | e :: es => holds f e && holdsAll f es
def holdsAny (f : String → Option String → Bool) : List CfgExpr → Bool
  | [] => false
  | e :: es => holds f e || holdsAny f es
end

/-- `f` agrees with all that `σ` knows. -/
def Extends (f : String → Option String → Bool) (σ : Evaluator) : Prop :=
  ∀ n v, (σ n v = .true → f n v = true) ∧ (σ n v = .false → f n v = false)

mutual
/-- The predicate `n`, `v` occurs in the expression. -/
inductive Mentions (n : String) (v : Option String) : CfgExpr → Prop
  | eq : Mentions n v (.eq n v)
  | all {es : List CfgExpr} (h : MentionsList n v es) : Mentions n v (.all es)
  | any {es : List CfgExpr} (h : MentionsList n v es) : Mentions n v (.any es)
  | not {e : CfgExpr} (h : Mentions n v e) : Mentions n v (.not e)
inductive MentionsList (n : String) (v : Option String) : List CfgExpr → Prop
  | head {e : CfgExpr} {es : List CfgExpr} (h : Mentions n v e) : MentionsList n v (e :: es)
  | tail {e : CfgExpr} {es : List CfgExpr} (h : MentionsList n v es) : MentionsList n v (e :: es)
end

/-- The value of an expression is settled, and is `b`. -/
def Settled (σ : Evaluator) (e : CfgExpr) (b : Bool) : Prop := ∀ b', Possible σ e b' ↔ b' = b

/-- The value is open: unknown predicates decide it. -/
def Open (σ : Evaluator) (e : CfgExpr) : Prop := Possible σ e true ∧ Possible σ e false

/-! ### Grammar of the attribute -/

mutual
/-- The tokens of an expression. -/
inductive Single : CfgExpr → List Tok → Prop
  | name (s : String) : Single (.eq s none) [.ident s]
  | value (s v : String) : Single (.eq s (some v)) [.ident s, .eq, .str v]
  | all {es : List CfgExpr} {ts : List Tok} (h : Multiple es ts) : Single (.all es) [.ident "all", .paren ts]
  | any {es : List CfgExpr} {ts : List Tok} (h : Multiple es ts) : Single (.any es) [.ident "any", .paren ts]
  | not {e : CfgExpr} {ts : List Tok} (h : Single e ts) : Single (.not e) [.ident "not", .paren ts]
  | notComma {e : CfgExpr} {ts : List Tok} (h : Single e ts) : Single (.not e) [.ident "not", .paren (ts ++ [.comma])]
/-- Expressions separated by commas, with or without one at the end. -/
inductive Multiple : List CfgExpr → List Tok → Prop
  | nil : Multiple [] []
  | last {e : CfgExpr} {ts : List Tok} (h : Single e ts) : Multiple [e] ts
  | cons {e : CfgExpr} {es : List CfgExpr} {ts us : List Tok} (h : Single e ts) (hs : Multiple es us) :
      Multiple (e :: es) (ts ++ .comma :: us)
end

/-- The argument of `#[cfg(...)]`. -/
def Argument (e : CfgExpr) (ts : List Tok) : Prop := Single e ts ∨ ∃ us, Single e us ∧ ts = us ++ [.comma]

end Verif.Cfg
