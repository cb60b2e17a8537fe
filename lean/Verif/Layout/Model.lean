import Verif.Abi.Model
import Verif.Toposort.Model
/-!
# The definitions of shared structs and enums on both sides

`macro/src/expand.rs` prints one Rust struct for every shared struct and enum, `gen/src/write.rs` prints C++
definitions inside include guards.  Field and variant attributes, documentation comments and derives are left
out.  `#[cfg]` attributes are taken to have been evaluated alike on both sides.
-/
namespace Verif.Layout
open Verif.Syntax Verif.Types Verif.Abi Verif.Mangle

/-! ### The Rust side -/

/-- The representation attribute of a Rust struct. -/
inductive ReprAttr
  | c
  | transparent
  deriving DecidableEq

/-- A struct printed by the macro. -/
structure RDef where
  repr : ReprAttr
  name : Ident
  fields : List (Ident × Ty)

/-- macro/src/expand.rs:157-200 `expand_struct`. -/
def expandStruct (s : Struct) : RDef :=
  ⟨.c, s.name.rust, s.fields.map (fun f => (f.name.rust, f.ty))⟩

/-- macro/src/expand.rs:320-378 `expand_enum`: a struct with the field `repr`.  Its constants are in
`Verif/Layout/EnumModel`. -/
def expandEnum (e : Enum) : RDef :=
  ⟨.transparent, e.name.rust, [("repr", Ty.named e.repr.asRef)]⟩

/-- macro/src/expand.rs:63-91, the loop over the items: the structs that come from shared types.  Opaque types
and imports define no layout. -/
def rustDefs (apis : List Api) : List RDef :=
  apis.filterMap (fun
    | .struct s => some (expandStruct s)
    | .enum e => some (expandEnum e)
    | _ => none)

/-! ### The C++ side -/

/-- gen/src/write.rs:94-104: the functions with a receiver of the type `n`, in source order. -/
def methodsFor (apis : List Api) (n : Ident) : List ExternFn :=
  apis.filterMap (fun
    | .cxxFunction f | .rustFunction f =>
      match f.sig.receiver with
      | some r => if r.ty.rust = n then some f else none
      | none => none
    | _ => none)

/-- What `write_data_structures` writes. -/
inductive Item
  | struct (s : Struct) (methods : List ExternFn)
  | enum (e : Enum)
  | checkEnum (e : Enum)
  | opaque (t : ExternType) (methods : List ExternFn)

/-- gen/src/write.rs:111-125, the inner loop: takes structs from the iterator up to and including the one
named `target`; the structs taken and the rest of the iterator. -/
def takeThrough (target : Ident) : List Struct → List Struct × List Struct
  | [] => ([], [])
  | next :: rest =>
    if next.name.rust = target then ([next], rest)
    else let r := takeThrough target rest; (next :: r.1, r.2)

/-- gen/src/write.rs:106-145: the loop over the items, with `structs_written` and the iterator
`toposorted_structs`. -/
def dataLoop (ts : Types) (methods : Ident → List ExternFn) :
    List Api → (written : List Ident) → (iter : List Struct) → List Item
  | [], _, _ => []
  | .struct s :: apis, written, iter =>
    if s.name.rust ∈ written then dataLoop ts methods apis written iter
    else
      let r := takeThrough s.name.rust iter
      (r.1.filter (fun n => decide (n.name.rust ∉ ts.cxx))).map (fun n => .struct n (methods n.name.rust)) ++
        dataLoop ts methods apis (written ++ r.1.map (·.name.rust)) r.2
  | .enum e :: apis, written, iter =>
    (if e.name.rust ∉ ts.cxx then [.enum e] else if !e.variantsFromHeader then [.checkEnum e] else []) ++
      dataLoop ts methods apis written iter
  | .rustType t :: apis, written, iter =>
    .opaque t (methods t.name.rust) :: dataLoop ts methods apis written iter
  | _ :: apis, written, iter => dataLoop ts methods apis written iter

/-- gen/src/write.rs:93-145 `write_data_structures`; `sorted` is `types.toposorted_structs`. -/
def dataStructures (ts : Types) (sorted : List Struct) (apis : List Api) : List Item :=
  dataLoop ts (methodsFor apis) apis [] sorted

/-- The body of a C++ definition. -/
inductive CBody
  /-- `struct N final { .. }` -/
  | struct (fields : List (Ident × CTok))
  /-- `enum class N : repr { .. }` -/
  | enum (repr : Atom)
  /-- `struct N final : public ::rust::Opaque { .. }` -/
  | opaque

/-- A C++ definition inside `#ifndef guard`, `#define guard`, `#endif`. -/
structure CDef where
  guard : Symbol
  name : Pair
  body : CBody

/-- gen/src/write.rs:284-298: the fields of a struct. -/
def writeFields (ts : Types) : List Var → Option (List (Ident × CTok))
  | [] => some []
  | f :: fs =>
    match writeType ts f.ty, writeFields ts fs with
    | some c, some cs => some ((f.name.cxx, c) :: cs)
    | _, _ => none

/-- gen/src/write.rs:273-359 `write_struct`. -/
def writeStruct (ts : Types) (s : Struct) : Option CDef :=
  match structGuard s.name, writeFields ts s.fields with
  | some g, some fs => some ⟨g, s.name, .struct fs⟩
  | _, _ => none

/-- gen/src/write.rs:425-445 `write_enum`. -/
def writeEnum (e : Enum) : Option CDef := (enumGuard e.name).map (fun g => ⟨g, e.name, .enum e.repr⟩)

/-- gen/src/write.rs:380-423 `write_opaque_type`. -/
def writeOpaque (t : ExternType) : Option CDef := (structGuard t.name).map (fun g => ⟨g, t.name, .opaque⟩)

/-- The definition an item gives rise to; the assertions of `check_enum` define nothing.  The outer `none` is a
panic. -/
def writeItem (ts : Types) : Item → Option (Option CDef)
  | .struct s _ => (writeStruct ts s).map some
  | .enum e => (writeEnum e).map some
  | .checkEnum _ => some none
  | .opaque t _ => (writeOpaque t).map some

/-- The definitions printed for a list of items. -/
def writeItems (ts : Types) : List Item → Option (List CDef)
  | [] => some []
  | i :: is =>
    match writeItem ts i, writeItems ts is with
    | some d, some ds => some (d.toList ++ ds)
    | _, _ => none

/-- The definitions printed for a bridge. -/
def cxxDefs (ts : Types) (sorted : List Struct) (apis : List Api) : Option (List CDef) :=
  writeItems ts (dataStructures ts sorted apis)

end Verif.Layout
