import Verif.Check.Model
import Verif.Qualified.Model
/-!
# What the generated code demands of the types of the user

The macro panics for a type whose C++ name is a raw identifier (`Verif/Panics`); this model goes on as if it did not.
-/
namespace Verif.Assert
open Verif.Syntax Verif.Types Verif.Check Verif.Qualified

/-- src/extern_type.rs:151-174 `mod kind`. -/
inductive TKind
  | «opaque» | trivial
  deriving DecidableEq, Repr

/-- The parts of the expansion that are about properties of types. -/
inductive Item
  /-- `unsafe impl ::cxx::ExternType for name { type Id = id; type Kind = kind; }` -/
  | impl (name : Ident) (id : List IdElem) (kind : TKind)
  /-- `__AssertUnpin::<name>` -/
  | unpin (name : Ident)
  /-- `__AssertSized::<name>` -/
  | sized (name : Ident)
  /-- `<name as __AmbiguousIfImpl<_>>::infer` -/
  | notUnpin (name : Ident)
  /-- `impl self::Drop for super::name {}` in `mod forbid` -/
  | noDrop (name : Ident)
  /-- `verify_extern_type::<name, id>` -/
  | id (name : Ident) (id : List IdElem)
  /-- `verify_extern_kind::<name, kind>` -/
  | kind (name : Ident) (kind : TKind)
  deriving DecidableEq

/-- macro/src/expand.rs:835-864 `expand_rust_type_impl`. -/
def rustTypeImpl (t : ExternType) : List Item :=
  (t.derives.filter (fun d => decide (d = .externType))).map (fun _ => .impl t.name.rust (pairTypeId t.name) .opaque)

/-- macro/src/expand.rs:1266-1289 `expand_type_alias_verify`. -/
def aliasVerify (cx : Cx) (a : TypeAlias) : List Item :=
  .id a.name.rust (pairTypeId a.name) ::
    (if cx.requiresTrivial a.name.rust then [.kind a.name.rust .trivial] else [])

/-- macro/src/expand.rs:55-97: the first loop and the second one, for one item: `expand_struct` (154-200),
`expand_struct_forbid_drop` (309-319), `expand_enum` (321-379), `expand_cxx_type` (381-420),
`expand_cxx_type_assert_pinned` (422-456), `expand_rust_type_assert_unpin` (866-882) and `expand_rust_type_layout`
(884-927).  All of `mod forbid` is one item per struct. -/
def expandApi (cx : Cx) : Api → List Item
  | .struct s => [.impl s.name.rust (pairTypeId s.name) .trivial, .noDrop s.name.rust]
  | .enum e => [.impl e.name.rust (pairTypeId e.name) .trivial]
  | .cxxType t =>
    if !mapHas cx.types.structs t.name.rust && !mapHas cx.types.enums t.name.rust then
      [.impl t.name.rust (pairTypeId t.name) .opaque, .notUnpin t.name.rust]
    else []
  | .rustType t => .unpin t.name.rust :: rustTypeImpl t ++ [.sized t.name.rust]
  | .typeAlias a => aliasVerify cx a
  | _ => []

/-- The expansion of a bridge. -/
def expand (cx : Cx) : List Item := cx.apis.flatMap (expandApi cx)

/-- `static_assert(::rust::IsRelocatable<name>::value)`, or with `IsRelocatableOrArray`. -/
structure StaticAssert where
  orArray : Bool
  name : List Ident
  deriving DecidableEq, Repr

/-- The reasons that allow an array. -/
def allowsArray : Reason → Bool
  | .structField _ | .vecElement => true
  | _ => false

/-- gen/src/write.rs:474-536 `check_trivial_extern_type`. -/
def checkTrivial (a : TypeAlias) (reasons : List Reason) : StaticAssert :=
  ⟨reasons.all allowsArray, a.name.ns ++ [a.name.cxx]⟩

/-- `required_trivial.get(t)`. -/
def reasonsFor (cx : Cx) (t : Ident) : List Reason :=
  ((requiredTrivial cx.apis cx.types).filter (fun e => decide (e.1 = t))).map (·.2)

/-- gen/src/write.rs:147-160: the last part of `write_data_structures`. -/
def staticAsserts (cx : Cx) (header : Bool) : List StaticAssert :=
  if header then []
  else cx.apis.flatMap fun a =>
    match a with
    | .typeAlias a => if cx.requiresTrivial a.name.rust then [checkTrivial a (reasonsFor cx a.name.rust)] else []
    | _ => []

/-- A C++ type.  `declared`: what the member type `IsRelocatable` or a specialisation by the user says. -/
inductive CxxTy
  | plain (declared : Option Bool) (triviallyMovable triviallyDestructible : Bool)
  | array (elem : CxxTy)

/-- include/cxx.h:1125-1145 `IsRelocatable`.  Arrays have no members and are not move constructible. -/
def isRelocatable : CxxTy → Bool
  | .plain declared m d => if declared.isSome then declared = some true else m && d
  | .array _ => false

/-- gen/src/builtin.rs:386-395 `IsRelocatableOrArray`. -/
def isRelocatableOrArray : CxxTy → Bool
  | .array t => isRelocatableOrArray t
  | t => isRelocatable t

end Verif.Assert
