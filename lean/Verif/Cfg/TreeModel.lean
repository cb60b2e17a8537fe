import Verif.Cfg.Lookup
import Verif.Utf8.Spec
/-!
# `gen/build/src/cargo.rs`: how Cargo's variables are kept and found

`Verif.Cfg.Lookup` keeps the variables in lists that are searched from the front.  The code keeps them in a
`BTreeSet` and a `BTreeMap`, which find a key by comparing it with the keys on a path from the root.  That finds
what is there only if `cmp` is an order and agrees with the order the tree was built with.
-/
namespace Verif.Cfg.Tree

/-- `u8::to_ascii_lowercase`. -/
def lowerByte (b : Nat) : Nat := if 65 ≤ b ∧ b ≤ 90 then b + 32 else b

/-- gen/build/src/cargo.rs:137-141 `<CaseAgnosticByte as Ord>::cmp`. -/
def cmpByte (a b : Nat) : Ordering :=
  if lowerByte a < lowerByte b then .lt else if lowerByte a = lowerByte b then .eq else .gt

/-- gen/build/src/cargo.rs:109-116 `<Lookup as Ord>::cmp`: `Iterator::cmp` of the bytes. -/
def cmpBytes : List Nat → List Nat → Ordering
  | [], [] => .eq
  | [], _ :: _ => .lt
  | _ :: _, [] => .gt
  | a :: as, b :: bs =>
    match cmpByte a b with
    | .eq => cmpBytes as bs
    | o => o

/-- gen/build/src/cargo.rs:126-133, 151-155: `PartialEq` of `Lookup` and `CaseAgnosticByte`: `Iterator::eq` of the
bytes. -/
def eqBytes : List Nat → List Nat → Bool
  | [], [] => true
  | a :: as, b :: bs => decide (cmpByte a b = .eq) && eqBytes as bs
  | _, _ => false

/-- `str::bytes`. -/
def bytes (s : List Char) : List Nat := s.flatMap fun c => Verif.Utf8.Spec.encode8 c.toNat

/-- gen/build/src/cargo.rs:74-78, 97-107: `<Name as Ord>::cmp`, which is that of `Lookup`, as is the comparison of
the borrowed form. -/
def cmp (a b : List Char) : Ordering := cmpBytes (bytes a) (bytes b)

/-- gen/build/src/cargo.rs:88-92 `<Name as PartialEq>::eq`. -/
def eq (a b : List Char) : Bool := eqBytes (bytes a) (bytes b)

/-- A search tree.  A node of a B-tree is searched from its first key on: below the first key that is not less, or
in the last edge.  So a node of many keys is written here as a chain of nodes, each the right one of the one in
front. -/
inductive Tree (β : Type)
  | nil
  | node (left : Tree β) (key : List Char) (value : β) (right : Tree β)

/-- `BTreeMap::get`, and `BTreeSet::contains` with values of no content. -/
def Tree.get {β : Type} (q : List Char) : Tree β → Option β
  | .nil => none
  | .node l k v r =>
    match cmp q k with
    | .lt => l.get q
    | .eq => some v
    | .gt => r.get q

/-- `BTreeMap::insert`: a key that is there stays and gets the new value.  The new node is put where the search
ended; what is done to keep the tree in balance is `Reshaped`. -/
def Tree.insert {β : Type} (q : List Char) (w : β) : Tree β → Tree β
  | .nil => .node .nil q w .nil
  | .node l k v r =>
    match cmp q k with
    | .lt => .node (l.insert q w) k v r
    | .eq => .node l k w r
    | .gt => .node l k v (r.insert q w)

/-- The entries from left to right. -/
def Tree.entries {β : Type} : Tree β → List (List Char × β)
  | .nil => []
  | .node l k v r => l.entries ++ (k, v) :: r.entries

/-- The tree is given another form, with the entries in the same places from left to right.  Splitting, merging and
rotating the nodes of a B-tree does no more. -/
def Reshaped {β : Type} (t t' : Tree β) : Prop := t'.entries = t.entries

/-- gen/build/src/cargo.rs:10-13 `struct CargoEnv`. -/
structure Env where
  features : Tree Unit
  cfgs : Tree (List Char)

/-- gen/build/src/cargo.rs:58-65: what one variable does.  Those that are not UTF-8 are left out. -/
inductive Step : Env → List Char × List Char → Env → Prop
  | feature {env : Env} {k v n : List Char} {t : Tree Unit} (h : stripPrefix "CARGO_FEATURE_".toList k = some n)
      (ht : Reshaped (env.features.insert n ()) t) : Step env (k, v) { env with features := t }
  | cfg {env : Env} {k v n : List Char} {t : Tree (List Char)} (h' : stripPrefix "CARGO_FEATURE_".toList k = none)
      (h : stripPrefix "CARGO_CFG_".toList k = some n) (ht : Reshaped (env.cfgs.insert n v) t) :
      Step env (k, v) { env with cfgs := t }
  | other {env : Env} {k v : List Char} (h' : stripPrefix "CARGO_FEATURE_".toList k = none)
      (h : stripPrefix "CARGO_CFG_".toList k = none) : Step env (k, v) env

/-- gen/build/src/cargo.rs:47-69 `CargoEnv::load`. -/
inductive Loads : Env → List (List Char × List Char) → Env → Prop
  | nil {env : Env} : Loads env [] env
  | cons {env env' env'' : Env} {kv : List Char × List Char} {rest : List (List Char × List Char)}
      (h : Step env kv env') (hs : Loads env' rest env'') : Loads env (kv :: rest) env''

/-- gen/build/src/cargo.rs:18-43 `CargoEnvCfgEvaluator::eval`. -/
def eval (env : Env) (debug : Bool) (name : List Char) (query : Option (List Char)) : CfgResult :=
  if name = "feature".toList then
    match query with
    | some q => CfgResult.ofBool (env.features.get q).isSome
    | none => .undetermined "expected `feature = \"...\"`"
  else if name = "test".toList ∧ query = none then .undetermined "cfg(test) is not supported"
  else
    match env.cfgs.get name with
    | some value =>
      match query with
      | some q => CfgResult.ofBool ((splitComma value).any (fun v => decide (v = q)))
      | none => .true
    | none => if name = "debug_assertions".toList ∧ query = none then CfgResult.ofBool debug else .false

end Verif.Cfg.Tree
