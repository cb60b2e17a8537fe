import Verif.Cfg.Lookup
/-!
# What the flags and the environment say
-/
namespace Verif.Cfg

/-- `--cfg` arguments and what each says. -/
inductive Says : List FlagTok → String → CfgValue → Prop
  | bare (name : String) : Says [.ident name] name (.bool true)
  | bool (name : String) (b : Bool) : Says [.ident name, .eq, .bool b] name (.bool b)
  | str (name s : String) : Says [.ident name, .eq, .str s] name (.str s)

/-- Some argument says so. -/
def Given (args : List (List FlagTok)) (name : String) (v : CfgValue) : Prop := ∃ arg ∈ args, Says arg name v

/-- The arguments are understood and do not contradict each other. -/
def Consistent (args : List (List FlagTok)) : Prop :=
  (∀ arg ∈ args, ∃ name v, Says arg name v) ∧
  ∀ name, ¬ (Given args name (.bool true) ∧ Given args name (.bool false))

/-- Unknown. -/
def Unknown (r : CfgResult) : Prop := ∃ msg, r = .undetermined msg

/-- `a` and `b` differ in the case of ASCII letters at most. -/
inductive SameLetters : List Char → List Char → Prop
  | nil : SameLetters [] []
  | same (c : Char) {a b : List Char} (h : SameLetters a b) : SameLetters (c :: a) (c :: b)
  | upper (c : Char) (hc : c.isLower) {a b : List Char} (h : SameLetters a b) :
      SameLetters (c.toUpper :: a) (c :: b)
  | lower (c : Char) (hc : c.isLower) {a b : List Char} (h : SameLetters a b) :
      SameLetters (c :: a) (c.toUpper :: b)

/-- `q` is one of the values in the comma-separated list `v`. -/
def Listed (q v : List Char) : Prop :=
  ',' ∉ q ∧ ∃ before after, v = before ++ q ++ after ∧ (before = [] ∨ ∃ b, before = b ++ [',']) ∧
    (after = [] ∨ ∃ a, after = ',' :: a)

/-- The last variable with that prefix and, case aside, that name. -/
def LastVar (vars : List (List Char × List Char)) (pre name value : List Char) : Prop :=
  ∃ before n after, vars = before ++ (pre ++ n, value) :: after ∧ SameLetters n name ∧
    ∀ n' v', (pre ++ n', v') ∈ after → ¬ SameLetters n' name

/-- Some variable has that prefix and, case aside, that name. -/
def SomeVar (vars : List (List Char × List Char)) (pre name : List Char) : Prop :=
  ∃ n value, (pre ++ n, value) ∈ vars ∧ SameLetters n name

/-- How Cargo names the variable of a feature: upper case, with `-` replaced by `_`. -/
def featureVar (feature : List Char) : List Char :=
  "CARGO_FEATURE_".toList ++ feature.map (fun c => if c = '-' then '_' else c.toUpper)

end Verif.Cfg
