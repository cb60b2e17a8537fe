import Verif.Syntax.Ast
import Verif.TypeEq.Props
import Verif.Ordered.Model
/-!
# `syntax/types.rs`: collecting the items of a bridge

`UnorderedSet` and `UnorderedMap` (syntax/set.rs:64-119, syntax/map.rs:66-141) are lists here; they
are read through membership and lookup only.
-/
namespace Verif.Types
open Verif.Syntax Verif.Ordered Verif.TypeEq

/-- `UnorderedMap::insert`: a later value replaces an earlier one. -/
def mapInsert {ν : Type} (m : List (Ident × ν)) (k : Ident) (v : ν) : List (Ident × ν) :=
  (k, v) :: m.filter (fun e => decide (e.1 ≠ k))

/-- `UnorderedMap::get`. -/
def mapGet {ν : Type} (m : List (Ident × ν)) (k : Ident) : Option ν :=
  (m.find? (fun e => decide (e.1 = k))).map (·.2)

/-- `UnorderedMap::contains_key`. -/
def mapHas {ν : Type} (m : List (Ident × ν)) (k : Ident) : Bool :=
  (mapGet m k).isSome

/-- `UnorderedSet::insert`. -/
def setInsert {α : Type} [DecidableEq α] (s : List α) (k : α) : List α :=
  if k ∈ s then s else k :: s

mutual
/-- syntax/types.rs:44-55 `visit` with syntax/visit.rs:9-34 `visit_type`: the types handed to
`CollectTypes::visit_type`, in order: the type itself, then those inside it. -/
def visitTypes : Ty → List Ty
  | .ident t => [.ident t]
  | .str p l m t => [.str p l m t]
  | .void => [.void]
  | .rustBox t => .rustBox t :: visitTypes t
  | .uniquePtr t => .uniquePtr t :: visitTypes t
  | .sharedPtr t => .sharedPtr t :: visitTypes t
  | .weakPtr t => .weakPtr t :: visitTypes t
  | .cxxVector t => .cxxVector t :: visitTypes t
  | .rustVec t => .rustVec t :: visitTypes t
  | .ref p l m t => .ref p l m t :: visitTypes t
  | .ptr m t => .ptr m t :: visitTypes t
  | .array t n => .array t n :: visitTypes t
  | .sliceRef l m t => .sliceRef l m t :: visitTypes t
  | .fn u as r th => .fn u as r th :: (visitOpt r ++ visitList as)
/-- syntax/visit.rs:25-27: the return type of a function pointer, if any. -/
def visitOpt : Option Ty → List Ty
  | none => []
  | some t => visitTypes t
/-- syntax/visit.rs:29-30: the argument types of a function pointer. -/
def visitList : List Ty → List Ty
  | [] => []
  | t :: ts => visitTypes t ++ visitList ts
end

/-- syntax/instantiate.rs:6-14 `enum ImplKey`; equality of `NamedImplKey` compares the Rust name
only (instantiate.rs:68-71). -/
inductive ImplKey
  | rustBox (rust : Ident)
  | rustVec (rust : Ident)
  | uniquePtr (rust : Ident)
  | sharedPtr (rust : Ident)
  | weakPtr (rust : Ident)
  | cxxVector (rust : Ident)
  deriving DecidableEq, Repr

/-- The Rust name inside the key, as bound by the or-pattern of syntax/types.rs:178-182. -/
def ImplKey.rust : ImplKey → Ident
  | .rustBox r | .rustVec r | .uniquePtr r | .sharedPtr r | .weakPtr r | .cxxVector r => r

/-- syntax/instantiate.rs:30-57 `Type::impl_key`. -/
def implKey : Ty → Option ImplKey
  | .rustBox (.ident t) => some (.rustBox t.rust)
  | .rustVec (.ident t) => some (.rustVec t.rust)
  | .uniquePtr (.ident t) => some (.uniquePtr t.rust)
  | .sharedPtr (.ident t) => some (.sharedPtr t.rust)
  | .weakPtr (.ident t) => some (.weakPtr t.rust)
  | .cxxVector (.ident t) => some (.cxxVector t.rust)
  | _ => none

/-- The part of a receiver compared by `PartialEq for Receiver` (syntax/impls.rs:401-429): `shorthand`
and the tokens are ignored. -/
structure RecvKey where
  pinned : Bool
  lifetime : Option Ident
  mutable : Bool
  ty : NamedType
  deriving DecidableEq, Repr

/-- See `RecvKey`. -/
def Receiver.key (r : Receiver) : RecvKey := ⟨r.pinned, r.lifetime, r.mutable, r.ty⟩

/-- syntax/types.rs:145 `(&efn.receiver, &efn.name.rust)`. -/
def fnKey (f : ExternFn) : Option RecvKey × Ident := (f.sig.receiver.map Receiver.key, f.name.rust)

/-- syntax/types.rs:15-28 `struct Types`, with the two local sets of names (61-62) and the names
reported by `duplicate_name` (290-293) so far.  `untrusted` keeps the names only.  The value of an
entry of `impls` says whether there is an explicit impl. -/
structure Types where
  all : OSet Ty := .new
  structs : List (Ident × Struct) := []
  enums : List (Ident × Enum) := []
  cxx : List Ident := []
  rust : List Ident := []
  aliases : List (Ident × TypeAlias) := []
  untrusted : List Ident := []
  impls : List (ImplKey × Bool) := []
  resolutions : List (Ident × Pair × List Ident) := []
  typeNames : List Ident := []
  functionNames : List (Option RecvKey × Ident) := []
  dups : List Ident := []

/-- `visit(&mut all, ty)` (syntax/types.rs:44-55). -/
def Types.visit (st : Types) (ty : Ty) : Types :=
  { st with all := (st.all.insertAll (visitTypes ty)).1 }

/-- A sequence of `visit` calls. -/
def Types.visitAll (st : Types) (ts : List Ty) : Types := ts.foldl Types.visit st

/-- `add_resolution` (syntax/types.rs:61). -/
def Types.addResolution (st : Types) (name : Pair) (generics : List Ident) : Types :=
  { st with resolutions := mapInsert st.resolutions name.rust (name, generics) }

/-- `if !type_names.insert(ident) && clash { duplicate_name(..) }`. -/
def Types.declare (st : Types) (ident : Ident) (clash : Bool) : Types :=
  { st with
    typeNames := setInsert st.typeNames ident
    dups := if ident ∈ st.typeNames ∧ clash = true then st.dups ++ [ident] else st.dups }

/-- `OrderedMap::insert` on `impls`: an existing entry keeps its place (syntax/map.rs:43-55). -/
def implsInsert (m : List (ImplKey × Bool)) (k : ImplKey) (v : Bool) : List (ImplKey × Bool) :=
  if m.any (fun e => decide (e.1 = k)) then m.map (fun e => if e.1 = k then (e.1, v) else e)
  else m ++ [(k, v)]

/-- The clash condition of a struct or enum (syntax/types.rs:75-77, 99-102). -/
def sharedClash (st : Types) (ident : Ident) : Bool :=
  !decide (ident ∈ st.cxx) || mapHas st.structs ident || mapHas st.enums ident

/-- The clash condition of an extern C++ type (syntax/types.rs:120-121). -/
def cxxClash (st : Types) (ident : Ident) : Bool :=
  decide (ident ∈ st.cxx) || (!mapHas st.structs ident && !mapHas st.enums ident)

/-- syntax/types.rs:64-171: one iteration of the loop over the items. -/
def collectApi (st : Types) : Api → Types
  | .include _ => st
  | .struct s =>
    let st := st.declare s.name.rust (sharedClash st s.name.rust)
    let st := { st with structs := mapInsert st.structs s.name.rust s }
    let st := st.visitAll (s.fields.map (·.ty))
    st.addResolution s.name s.generics
  | .enum e =>
    let st := { st with all := (st.all.insert (Ty.named e.repr.asRef)).1 }
    let st := st.declare e.name.rust (sharedClash st e.name.rust)
    let st := { st with enums := mapInsert st.enums e.name.rust e }
    let st := if e.variantsFromHeader then { st with cxx := setInsert st.cxx e.name.rust } else st
    st.addResolution e.name e.generics
  | .cxxType t =>
    let st := st.declare t.name.rust (cxxClash st t.name.rust)
    let st := { st with cxx := setInsert st.cxx t.name.rust }
    let st := if t.trusted then st else { st with untrusted := setInsert st.untrusted t.name.rust }
    st.addResolution t.name t.generics
  | .rustType t =>
    let st := st.declare t.name.rust true
    let st := { st with rust := setInsert st.rust t.name.rust }
    st.addResolution t.name t.generics
  | .cxxFunction f | .rustFunction f =>
    let st := { st with
      functionNames := setInsert st.functionNames (fnKey f)
      dups := if fnKey f ∈ st.functionNames then st.dups ++ [f.name.rust] else st.dups }
    let st := st.visitAll (f.sig.args.map (·.ty))
    match f.sig.ret with
    | some ret => st.visit ret
    | none => st
  | .typeAlias a =>
    let st := st.declare a.name.rust true
    let st := { st with
      cxx := setInsert st.cxx a.name.rust
      aliases := mapInsert st.aliases a.name.rust a }
    st.addResolution a.name a.generics
  | .impl i =>
    let st := st.visit i.ty
    match implKey i.ty with
    | some k => { st with impls := implsInsert st.impls k true }
    | none => st

/-- syntax/types.rs:173-190: the implicit impl for one type of `all`. -/
def implicitImpl (st : Types) (ty : Ty) : Types :=
  match implKey ty with
  | none => st
  | some k =>
    if Atom.fromStr k.rust = none ∧ mapHas st.aliases k.rust = false ∧
        st.impls.any (fun e => decide (e.1 = k)) = false then
      { st with impls := implsInsert st.impls k false }
    else st

/-- syntax/types.rs:31-190: the loop over the items. -/
def scan (apis : List Api) : Types := apis.foldl collectApi {}

/-- syntax/types.rs:31-214 `Types::collect`, up to the struct order (`Verif/Toposort`) and the
improper-ctype fixpoint (`Verif/Improper`), which are modelled apart. -/
def collect (apis : List Api) : Types :=
  let st := scan apis
  st.all.iter.foldl implicitImpl st

end Verif.Types
