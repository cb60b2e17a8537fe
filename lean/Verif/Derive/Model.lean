import Verif.Syntax.Ast
/-!
# Derived traits: `macro/src/derive.rs`, `expand_struct_operators`, and the C++ operators

The value of a shared struct is the list of the values of its fields.  What the types of the fields do is a parameter.
-/
namespace Verif.Derive
open Verif.Syntax

/-- The type of a field, with what its trait impls do.  `hash` is the data it feeds to a hasher. -/
structure FieldTy where
  val : Type
  eq : val → val → Bool
  partialCmp : val → val → Option Ordering
  cmp : val → val → Ordering
  hash : val → List Nat
  clone : val → val
  default : val

/-- A struct: its fields in order. -/
abbrev Fields := List FieldTy

/-- A value of the struct. -/
def Val (fs : Fields) : Type := (i : Fin fs.length) → (fs.get i).val

/-- One answer per field, in order: the repetition `#( … )*`. -/
def each {α : Type} (fs : Fields) (f : Fin fs.length → α) : List α := (List.finRange fs.length).map f

/-! ### Rust -/

/-- macro/src/derive.rs:188-194: the statements of `cmp`, given what each field answers. -/
def cmpLoop : List Ordering → Ordering
  | [] => .eq
  | .eq :: rest => cmpLoop rest
  | ordering :: _ => ordering

/-- macro/src/derive.rs:179-198 `struct_ord`. -/
def structCmp {fs : Fields} (a b : Val fs) : Ordering := cmpLoop (each fs fun i => (fs.get i).cmp (a i) (b i))

/-- macro/src/derive.rs:210-218: the statements of `partial_cmp`. -/
def partialCmpLoop : List (Option Ordering) → Option Ordering
  | [] => some .eq
  | some .eq :: rest => partialCmpLoop rest
  | ordering :: _ => ordering

/-- macro/src/derive.rs:200-231 `struct_partial_ord`. -/
def structPartialCmp (derives : List Trait) {fs : Fields} (a b : Val fs) : Option Ordering :=
  if derives.contains .ord then some (structCmp a b)
  else partialCmpLoop (each fs fun i => (fs.get i).partialCmp (a i) (b i))

/-- `derive(PartialEq)` of Rust (macro/src/derive.rs:27, 33-36). -/
def structEq {fs : Fields} (a b : Val fs) : Bool := (each fs fun i => (fs.get i).eq (a i) (b i)).all id

/-- `derive(Hash)` of Rust (macro/src/derive.rs:25, 33-36): each field is fed to the hasher. -/
def structHash {fs : Fields} (a : Val fs) : List Nat := (each fs fun i => (fs.get i).hash (a i)).flatten

/-- macro/src/derive.rs:110-138 `struct_clone`; `*self` is a copy. -/
def structClone (derives : List Trait) {fs : Fields} (a : Val fs) : Val fs :=
  if derives.contains .copy then a else fun i => (fs.get i).clone (a i)

/-- macro/src/derive.rs:159-177 `struct_default`. -/
def structDefault (fs : Fields) : Val fs := fun i => (fs.get i).default

/-- A derive of a struct becomes an impl written by the macro or is left to `#[derive(..)]` of Rust. -/
inductive How
  | written | left
  deriving DecidableEq

/-- macro/src/derive.rs:7-39 `expand_struct`: the impls; `none` if it panics. -/
def expandStruct : List Trait → Option (List (Trait × How))
  | [] => some []
  | d :: ds =>
    (match d with
    | .copy | .clone | .debug | .default => some (d, How.written)
    | .eq => some (d, .left)
    | .externType => none
    | .hash => some (d, .left)
    | .ord => some (d, .written)
    | .partialEq => some (d, .left)
    | .partialOrd => some (d, .written)
    | .serialize | .deserialize => some (d, .left)).bind fun i => (expandStruct ds).map (i :: ·)

/-- macro/src/derive.rs:50-77: the loop of `expand_enum`. -/
def expandEnumLoop : List Trait → Option (List (Trait × How))
  | [] => some []
  | d :: ds =>
    (match d with
    | .copy | .clone | .debug => some (d, How.written)
    | .default => none
    | .eq => some (d, .left)
    | .externType => none
    | .hash => some (d, .left)
    | .ord => some (d, .written)
    | .partialEq => some (d, .left)
    | .partialOrd => some (d, .written)
    | .serialize | .deserialize => some (d, .left)).bind fun i => (expandEnumLoop ds).map (i :: ·)

/-- macro/src/derive.rs:41-98 `expand_enum`.  `has_copy` and the like are set in the loop. -/
def expandEnum (ds : List Trait) : Option (List (Trait × How)) :=
  (expandEnumLoop ds).map fun is => is ++
    (if ds.contains .copy then [] else [(.copy, .written)]) ++ (if ds.contains .clone then [] else [(.clone, .written)]) ++
    (if ds.contains .eq then [] else [(.eq, .left)]) ++ (if ds.contains .partialEq then [] else [(.partialEq, .left)])

/-- macro/src/derive.rs:280-291 `enum_ord`; the value of an enum is `repr`. -/
def enumCmp (a b : Int) : Ordering := compare a b

/-- macro/src/derive.rs:293-306 `enum_partial_ord`. -/
def enumPartialCmp (a b : Int) : Option Ordering := some (compare a b)

/-- The text `{}` writes for an integer. -/
def display (n : Int) : List Char := (toString n).toList

/-- macro/src/derive.rs:256-278 `enum_debug`: the first pattern that matches. -/
def enumDebug (name : List Char) (variants : List (List Char × Int)) (repr : Int) : List Char :=
  match variants.find? (fun v => v.2 == repr) with
  | some v => v.1
  | none => name ++ ['('] ++ display repr ++ [')']

/-! ### Operators -/

/-- The comparison operators, of Rust and of C++. -/
inductive Cmp
  | eq | ne | lt | le | gt | ge
  deriving DecidableEq

/-- The operators of Rust, with the default methods of `PartialEq` and `PartialOrd`. -/
def rustOp {α : Type} (eq : α → α → Bool) (partialCmp : α → α → Option Ordering) : Cmp → α → α → Bool
  | .eq, a, b => eq a b
  | .ne, a, b => !eq a b
  | .lt, a, b => partialCmp a b == some .lt
  | .le, a, b => partialCmp a b == some .lt || partialCmp a b == some .eq
  | .gt, a, b => partialCmp a b == some .gt
  | .ge, a, b => partialCmp a b == some .gt || partialCmp a b == some .eq

/-- An exported function: a comparison or the hash. -/
inductive Fn
  | cmp (o : Cmp)
  | hash
  deriving DecidableEq

/-- macro/src/expand.rs:202-307 `expand_struct_operators`: the link name (`eq` for `S$operator$eq`) of each exported
function and what it computes. -/
def exports (ds : List Trait) : List (String × Fn) :=
  ds.flatMap fun
    | .partialEq => ("eq", .cmp .eq) :: (if ds.contains .eq then [] else [("ne", .cmp .ne)])
    | .partialOrd => ("lt", .cmp .lt) :: ("le", .cmp .le) ::
        (if ds.contains .ord then [] else [("gt", .cmp .gt), ("ge", .cmp .ge)])
    | .hash => [("hash", .hash)]
    | _ => []

/-- gen/src/write.rs:538-603 `write_struct_operator_decls`. -/
def decls (ds : List Trait) : List String :=
  (if ds.contains .partialEq then "eq" :: (if !ds.contains .eq then ["ne"] else []) else []) ++
  (if ds.contains .partialOrd then "lt" :: "le" :: (if !ds.contains .ord then ["gt", "ge"] else []) else []) ++
  (if ds.contains .hash then ["hash"] else [])

/-- gen/src/write.rs:273-275, 318-350: the operators declared in the class. -/
def members (ds : List Trait) : List Cmp :=
  (if ds.contains .partialEq then [.eq, .ne] else []) ++ (if ds.contains .partialOrd then [.lt, .le, .gt, .ge] else [])

/-- The body of a C++ operator: `return f(*this, rhs);` or `return !(*this op rhs);`. -/
inductive Body
  | call (link : String)
  | not (op : Cmp)
  deriving DecidableEq

/-- gen/src/write.rs:605-687 `write_struct_operators`. -/
def defs (ds : List Trait) : List (Cmp × Body) :=
  (if ds.contains .partialEq then
    [(.eq, .call "eq"), (.ne, if ds.contains .eq then .not .eq else .call "ne")] else []) ++
  (if ds.contains .partialOrd then
    [(.lt, .call "lt"), (.le, .call "le"), (.gt, if ds.contains .ord then .not .le else .call "gt"),
     (.ge, if ds.contains .ord then .not .lt else .call "ge")] else [])

/-- gen/src/write.rs:197-216: what the specialization of `std::hash` calls. -/
def hashCalls (ds : List Trait) : List String := if ds.contains .hash then ["hash"] else []

/-- src/hash.rs:4-6 `hash`, where `finish` is the hasher and `bits` the width of `usize`. -/
def hash {fs : Fields} (finish : List Nat → Nat) (bits : Nat) (a : Val fs) : Nat := finish (structHash a) % 2 ^ bits

end Verif.Derive
