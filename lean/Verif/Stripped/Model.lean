import Verif.Parse.ItemModel
import Verif.Cfg.Model
import Verif.Types.Model
/-!
# A bridge with conditions, as both generators see it

The C++ generator removes what is switched off before it looks at the bridge.  The macro looks at all of the bridge and
leaves the conditions to rustc: it prints them, as attributes, in front of some of the pieces of the expanded module.

A file has one bridge here, and its module is not conditional.
-/
namespace Verif.Stripped
open Verif.Syntax Verif.Types Verif.Parse Verif.Cfg

/-! ### The C++ generator -/

/-- A field or a variant. -/
inductive Member
  | field (v : Var)
  | variant (v : Pair)

/-- A field (gen/src/cfg.rs:29-31). -/
def Member.field? : Member → Option Var
  | .field v => some v
  | .variant _ => none

/-- A variant (gen/src/cfg.rs:32-34). -/
def Member.variant? : Member → Option Pair
  | .variant v => some v
  | .field _ => none

/-- gen/src/cfg.rs:21, 27-37: the conditions of an item, of its fields if it is a struct and of its variants if it is an
enum. -/
def itemOf (o : Out) : Item Api Member :=
  ⟨o.extra.cfg, o.api, match o.api with
    | .struct s => (o.members.zip s.fields).map fun m => (m.1.1.cfg, .field m.2)
    | .enum e => (o.members.zip e.variants).map fun m => (m.1.1.cfg, .variant m.2)
    | _ => []⟩

/-- gen/src/cfg.rs:29-34: the item with the fields or variants that are left. -/
def apiOf (i : Item Api Member) : Api :=
  match i.body with
  | .struct s => .struct { s with fields := i.members.filterMap (·.2.field?) }
  | .enum e => .enum { e with variants := i.members.filterMap (·.2.variant?) }
  | a => a

/-- gen/src/mod.rs:144-171, gen/src/cfg.rs:20-38 `strip`: the items that the C++ generator goes on with, and the errors. -/
def stripped (σ : Evaluator) (outs : List Out) : List Api × List String :=
  match strip σ ⟨[], []⟩ (outs.map itemOf) with
  | (items, log) => (items.map apiOf, log.reported)

/-! ### The macro -/

/-- What a piece of the expanded module is. -/
inductive What
  /-- the definition of a type -/
  | defines (n : Ident)
  /-- `use super::T` -/
  | imports (n : Ident)
  /-- a field of a struct -/
  | field (s : Ident) (v : Var)
  /-- a constant for a variant of an enum -/
  | variant (e : Ident) (v : Pair)
  /-- a function of C++, with its declaration and the trampolines inside -/
  | calls (f : ExternFn)
  /-- a function that C++ can call -/
  | exports (f : ExternFn)
  /-- an impl, an exported operator or an assertion -/
  | other

/-- A piece: the attributes in front of it and of what is around it, what it is, the types that it mentions. -/
structure Piece where
  attrs : List Attr
  what : What
  mentions : List Ty

/-- macro/src/expand.rs:157-205 `expand_struct`, 207-306 `expand_struct_operators`, 308-319 `expand_struct_forbid_drop`: the
definition and its fields; the impl of `ExternType`; an impl or operators for each of the derived traits; the impl of the
trait that forbids `Drop`.  Which of the derives are printed as `#[derive]` is left out. -/
def structPieces (o : Out) (s : Struct) : List Piece :=
  [⟨o.extra.others, .defines s.name.rust, []⟩] ++
  (o.members.zip s.fields).map (fun m => ⟨o.extra.others ++ m.1.1.others, .field s.name.rust m.2, [m.2.ty]⟩) ++
  [⟨[], .other, [.named s.name.rust]⟩] ++
  s.derives.map (fun _ => ⟨[], .other, [.named s.name.rust]⟩) ++
  [⟨[], .other, [.named s.name.rust]⟩]

/-- macro/src/expand.rs:321-379 `expand_enum`: the definition, the impl with its constants, the impl of `ExternType`. -/
def enumPieces (o : Out) (e : Enum) : List Piece :=
  [⟨o.extra.others, .defines e.name.rust, []⟩, ⟨[], .other, [.named e.name.rust]⟩] ++
  (o.members.zip e.variants).map (fun m => ⟨m.1.1.others, .variant e.name.rust m.2, [.named e.name.rust]⟩) ++
  [⟨[], .other, [.named e.name.rust]⟩]

/-- The types in the signature of a function. -/
def signatureTypes (f : ExternFn) : List Ty :=
  f.sig.receiver.toList.map (fun r => .ident r.ty) ++ f.sig.args.map (·.ty) ++ f.sig.ret.toList

/-- macro/src/expand.rs:64-92: the pieces of an item. -/
def piecesOf (types : Types) (o : Out) : List Piece :=
  match o.api with
  | .include _ | .impl _ => []
  | .struct s => structPieces o s
  | .enum e => enumPieces o e
  /- 381-420 `expand_cxx_type`, 422-458 `expand_cxx_type_assert_pinned` -/
  | .cxxType t =>
    if !mapHas types.structs t.name.rust && !mapHas types.enums t.name.rust then
      [⟨o.extra.others, .defines t.name.rust, []⟩, ⟨[], .other, [.named t.name.rust]⟩, ⟨[], .other, [.named t.name.rust]⟩]
    else []
  /- 501-785 `expand_cxx_function_shim`: a method is in an impl that has no attributes -/
  | .cxxFunction f =>
    f.sig.receiver.toList.map (fun r => ⟨[], .other, [.ident r.ty]⟩) ++ [⟨o.extra.others, .calls f, signatureTypes f⟩]
  /- 835-863 `expand_rust_type_impl`, 884-930 `expand_rust_type_layout` -/
  | .rustType t => [⟨[], .other, [.named t.name.rust]⟩, ⟨[], .other, [.named t.name.rust]⟩]
  /- 942-964 `expand_rust_function_shim` -/
  | .rustFunction f => [⟨o.extra.others, .exports f, signatureTypes f⟩]
  /- 1248-1264 `expand_type_alias`, 1266-1290 `expand_type_alias_verify` -/
  | .typeAlias a => [⟨o.extra.others, .defines a.name.rust, []⟩, ⟨o.extra.others, .other, [.named a.name.rust]⟩]

/-- macro/src/expand.rs:56-61: 826-833 `expand_rust_type_import`, 865-882 `expand_rust_type_assert_unpin`. -/
def importOf (o : Out) : List Piece :=
  match o.api with
  | .rustType t => [⟨[], .imports t.name.rust, []⟩, ⟨[], .other, [.named t.name.rust]⟩]
  | _ => []

/-- macro/src/expand.rs:51-115 `expand`: the pieces of the expanded module.  The types are collected from all items
(macro/src/expand.rs:41). -/
def pieces (outs : List Out) : List Piece :=
  let types := collect (outs.map (·.api))
  outs.flatMap importOf ++ outs.flatMap (piecesOf types) ++
    types.impls.map (fun k => ⟨[], .other, [.named (k.1.rust)]⟩)

end Verif.Stripped
