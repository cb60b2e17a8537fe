import Verif.Cfg.Model
/-!
# `gen/cmd/src/cfg.rs`, `gen/cmd/src/app.rs`, `gen/build/src/cargo.rs`: where the values come from

Maps and sets are lists, looked at through lookup and membership only.
-/
namespace Verif.Cfg

/-! ### The command line -/

/-- gen/cmd/src/cfg.rs:8-11 `enum CfgValue`. -/
inductive CfgValue
  | bool (b : Bool)
  | str (s : String)
  deriving DecidableEq, Repr

/-- A token of a `--cfg` argument. -/
inductive FlagTok
  | ident (s : String)
  | eq
  | bool (b : Bool)
  | str (s : String)
  | other
  deriving DecidableEq, Repr

/-- gen/cmd/src/cfg.rs:76-93 `parse`, as called by `parse_str`, which wants all tokens to be used. -/
def parseFlag : List FlagTok → Option (String × CfgValue)
  | [.ident name] => some (name, .bool true)
  | [.ident name, .eq, .bool b] => some (name, .bool b)
  | [.ident name, .eq, .str s] => some (name, .str s)
  | _ => none

/-- `Map<String, bool>::get` on the flags seen so far, the latest first. -/
def boolGet (m : List (String × Bool)) (k : String) : Option Bool :=
  (m.find? (fun e => decide (e.1 = k))).map (·.2)

/-- gen/cmd/src/app.rs:139-152: the `value_parser` of `--cfg` on each argument in turn, with its map of boolean
flags; `none` if one is refused. -/
def acceptFlags (bools : List (String × Bool)) : List (List FlagTok) → Option (List (String × CfgValue))
  | [] => some []
  | arg :: rest =>
    match parseFlag arg with
    | none => none
    | some (name, .str s) => (acceptFlags bools rest).map ((name, .str s) :: ·)
    | some (name, .bool value) =>
      match boolGet bools name with
      | some prev =>
        if prev ≠ value then none
        else (acceptFlags ((name, value) :: bools) rest).map ((name, .bool value) :: ·)
      | none => (acceptFlags ((name, value) :: bools) rest).map ((name, .bool value) :: ·)

/-- `Map::get` on the flags. -/
def flagsGet (m : List (String × List CfgValue)) (k : String) : Option (List CfgValue) :=
  (m.find? (fun e => decide (e.1 = k))).map (·.2)

/-- gen/cmd/src/app.rs:109: `cfg.entry(name).or_insert_with(Set::new).insert(value)`. -/
def flagsInsert : List (String × List CfgValue) → String → CfgValue → List (String × List CfgValue)
  | [], name, value => [(name, [value])]
  | (k, set) :: rest, name, value =>
    if k = name then (k, value :: set) :: rest else (k, set) :: flagsInsert rest name value

/-- gen/cmd/src/app.rs:106-110: the loop over the flags. -/
def flagsMap (m : List (String × List CfgValue)) : List (String × CfgValue) → List (String × List CfgValue)
  | [] => m
  | (name, value) :: rest => flagsMap (flagsInsert m name value) rest

/-- gen/cmd/src/cfg.rs:29-64 `FlagsCfgEvaluator::eval`. -/
def flagsEval (map : List (String × List CfgValue)) : Evaluator := fun name value =>
  let set := flagsGet map name
  match value with
  | some value =>
    match set with
    | some set => CfgResult.ofBool (decide (CfgValue.str value ∈ set))
    | none =>
      if name = "feature" then .false
      else .undetermined ("pass `--cfg " ++ name ++ "=\"...\"` to be able to use this attribute")
  | none =>
    let isFalse := match set with | some set => decide (CfgValue.bool false ∈ set) | none => false
    let isTrue := match set with | some set => decide (CfgValue.bool true ∈ set) | none => false
    if isFalse && isTrue then
      .undetermined ("the cxxbridge flags say both " ++ name ++ "=false and " ++ name ++ "=true")
    else if isFalse then .false
    else if isTrue then .true
    else .undetermined ("pass either `--cfg " ++ name ++ "=true` or `--cfg " ++ name ++
      "=false` to be able to use this cfg attribute")

/-- The tool: its `--cfg` arguments and the evaluator they give. -/
def flagsEvaluator (args : List (List FlagTok)) : Option Evaluator :=
  (acceptFlags [] args).map fun flags => flagsEval (flagsMap [] flags)

/-! ### Cargo's environment -/

/-- `u8::to_ascii_lowercase`, on characters: only ASCII bytes are changed, and those are characters of their
own. -/
def lower (c : Char) : Char :=
  if 65 ≤ c.toNat ∧ c.toNat ≤ 90 then Char.ofNat (c.toNat + 32) else c

/-- gen/build/src/cargo.rs:126-133, 151-155: equality of `Lookup` and of `CaseAgnosticByte`. -/
def sameName : List Char → List Char → Bool
  | [], [] => true
  | a :: as, b :: bs => decide (lower a = lower b) && sameName as bs
  | _, _ => false

/-- `str::strip_prefix`. -/
def stripPrefix : List Char → List Char → Option (List Char)
  | [], s => some s
  | p :: ps, c :: s => if p = c then stripPrefix ps s else none
  | _ :: _, [] => none

/-- gen/build/src/cargo.rs:10-13 `struct CargoEnv`. -/
structure CargoEnv where
  features : List (List Char)
  cfgs : List (List Char × List Char)

/-- `Map<Name, String>::insert`, with the equality of `Name`. -/
def cfgsInsert (m : List (List Char × List Char)) (k v : List Char) : List (List Char × List Char) :=
  (k, v) :: m.filter (fun e => !sameName e.1 k)

/-- gen/build/src/cargo.rs:53-66: one environment variable.  Those that are not UTF-8 are skipped and left out
here. -/
def loadVar (env : CargoEnv) (k v : List Char) : CargoEnv :=
  match stripPrefix "CARGO_FEATURE_".toList k with
  | some name => { env with features := name :: env.features }
  | none =>
    match stripPrefix "CARGO_CFG_".toList k with
    | some name => { env with cfgs := cfgsInsert env.cfgs name v }
    | none => env

/-- gen/build/src/cargo.rs:47-69 `CargoEnv::load`. -/
def load (env : CargoEnv) : List (List Char × List Char) → CargoEnv
  | [] => env
  | (k, v) :: rest => load (loadVar env k v) rest

/-- `str::split(',')`. -/
def splitComma : List Char → List (List Char)
  | [] => [[]]
  | c :: s =>
    if c = ',' then [] :: splitComma s
    else match splitComma s with
      | [] => [[c]]
      | w :: ws => (c :: w) :: ws

/-- gen/build/src/cargo.rs:18-43 `CargoEnvCfgEvaluator::eval`; `debug` is `cfg!(debug_assertions)`. -/
def cargoEval (env : CargoEnv) (debug : Bool) (name : List Char) (query : Option (List Char)) : CfgResult :=
  if name = "feature".toList then
    match query with
    | some q => CfgResult.ofBool (env.features.any (sameName · q))
    | none => .undetermined "expected `feature = \"...\"`"
  else if name = "test".toList ∧ query = none then .undetermined "cfg(test) is not supported"
  else
    match env.cfgs.find? (fun e => sameName e.1 name) with
    | some (_, value) =>
      match query with
      | some q => CfgResult.ofBool ((splitComma value).any (fun v => decide (v = q)))
      | none => .true
    | none => if name = "debug_assertions".toList ∧ query = none then CfgResult.ofBool debug else .false

/-- cxx-build: the environment and the evaluator it gives. -/
def cargoEvaluator (vars : List (List Char × List Char)) (debug : Bool) (name : List Char) (query : Option (List Char)) :
    CfgResult := cargoEval (load ⟨[], []⟩ vars) debug name query

end Verif.Cfg
