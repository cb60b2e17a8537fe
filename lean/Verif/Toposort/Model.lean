import Verif.Syntax.Ast
/-!
# `syntax/toposort.rs`: ordering of shared structs

A struct is identified by its position in the list of `Api::Struct` items, which stands for the
pointer `*const Struct` used as key in `marks`.
-/
namespace Verif.Toposort
open Verif.Syntax

/-- syntax/toposort.rs:5-8 `enum Mark`. -/
inductive Mark
  | visiting
  | visited
  deriving DecidableEq, Repr

/-- The variables threaded through `visit`: `sorted`, `marks`, and the errors reported so far (the
struct and the type of the offending field). -/
structure St where
  sorted : List Nat
  marks : Nat → Option Mark
  errors : List Nat

/-- `marks.insert(strct, m)`. -/
def St.mark (st : St) (i : Nat) (m : Mark) : St :=
  { st with marks := fun j => if j = i then some m else st.marks j }

/-- `types.structs.get(name)`: syntax/types.rs:84 inserts each struct under its name, a later one
replacing an earlier one. -/
def structsGet (ss : List Struct) (name : Ident) : Option Nat :=
  let rec go : List Struct → Nat → Option Nat → Option Nat
    | [], _, acc => acc
    | s :: rest, i, acc => go rest (i + 1) (if s.name.rust = name then some i else acc)
  go ss 0 none

/-- syntax/toposort.rs:39: the struct a field leads to, if its type is a plain name of a struct. -/
def fieldTarget (ss : List Struct) : Ty → Option Nat
  | .ident t => structsGet ss t.rust
  | _ => none

/-- The field targets of struct `i`. -/
def targets (ss : List Struct) (i : Nat) : List (Option Nat) :=
  match ss[i]? with
  | some s => s.fields.map (fun f => fieldTarget ss f.ty)
  | none => []

/-- syntax/toposort.rs:37-47, the loop over fields; `v` is the recursive `visit`. -/
def visitFields (v : Nat → St → Option (St × Bool)) (i : Nat) :
    List (Option Nat) → St → Bool → Option (St × Bool)
  | [], st, ok => some (st, ok)
  | none :: fs, st, ok => visitFields v i fs st ok
  | some j :: fs, st, ok =>
    match v j st with
    | none => none
    | some (st', true) => visitFields v i fs st' ok
    | some (st', false) => visitFields v i fs { st' with errors := st'.errors ++ [i] } false

/-- syntax/toposort.rs:21-51 `visit`.  The first argument bounds the recursion depth; `none` means
it was not enough, which `sort_terminates` shows cannot happen in `sort`. -/
def visit (succ : Nat → List (Option Nat)) : Nat → Nat → St → Option (St × Bool)
  | 0, _, _ => none
  | depth + 1, i, st =>
    match st.marks i with
    | some .visiting => some (st, false)
    | some .visited => some (st, true)
    | none =>
      match visitFields (visit succ depth) i (succ i) (st.mark i .visiting) true with
      | none => none
      | some (st', ok) =>
        let st'' := st'.mark i .visited
        some ({ st'' with sorted := st''.sorted ++ [i] }, ok)

/-- syntax/toposort.rs:13-17: the loop over the structs of the bridge. -/
def visitAll (succ : Nat → List (Option Nat)) (depth : Nat) : List Nat → St → Option St
  | [], st => some st
  | i :: is, st =>
    match visit succ depth i st with
    | none => none
    | some (st', _) => visitAll succ depth is st'

/-- syntax/toposort.rs:10-19 `sort`: the sorted structs and the number of errors reported. -/
def sort (ss : List Struct) : Option (List Struct × Nat) :=
  (visitAll (targets ss) (ss.length + 1) (List.range ss.length) ⟨[], fun _ => none, []⟩).map
    (fun st => (st.sorted.filterMap (fun i => ss[i]?), st.errors.length))

end Verif.Toposort
