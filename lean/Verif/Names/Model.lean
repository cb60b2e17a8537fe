import Verif.Types.Model
/-!
# The names that the Rust expansion of a bridge defines

macro/src/expand.rs writes one module.  At its end is a block `const _: () = { ... };` with functions that only C++ calls; here
it is called hidden.  Only what defines a name is modelled: impls of traits have none, and blocks inside the hidden block
(`__AssertUnpin`, `__AssertSized` with `__sizeof_T`, `__AmbiguousIfImpl`; macro/src/expand.rs:422-458, 866-927) are scopes of their own in
which every name is written once.  Names inside function bodies are the subject of `Verif/Call`.
-/
namespace Verif.Names
open Verif.Syntax Verif.Types

/-- The places in which names are defined. -/
inductive Scope
  /-- the module -/
  | module
  /-- the block at its end -/
  | hidden
  /-- the `impl T { .. }` blocks of a type together -/
  | inherent (ty : Ident)
  deriving DecidableEq, Repr

/-- Rust looks up types (and modules) apart from values (functions, constants). -/
inductive Ns
  | type
  | value
  deriving DecidableEq, Repr

structure Item where
  scope : Scope
  ns : Ns
  name : String
  deriving DecidableEq, Repr

/-- macro/src/expand.rs:826-833 `expand_rust_type_import`, in the loop of 56-61: `use super::T;`, which brings in everything that
has this name.  `outer n` says that `n` is also a value there: a struct `struct T(..);` or `struct T;`. -/
def importItems (outer : Ident → Bool) : Api → List Item
  | .rustType t => ⟨.module, .type, t.name.rust⟩ :: if outer t.name.rust then [⟨.module, .value, t.name.rust⟩] else []
  | _ => []

/-- macro/src/expand.rs:63-92, what goes to `expanded`: a struct (157-200), an enum, which is a struct with a constant for each
variant (321-379), a C++ type unless there is a struct or enum of this name (381-420), a C++ function (501-785: a function or,
if it has a receiver, a method in `impl T`), an alias (1248-1264). -/
def moduleItems (st : Types) : Api → List Item
  | .struct s => [⟨.module, .type, s.name.rust⟩]
  | .enum e => ⟨.module, .type, e.name.rust⟩ :: e.variants.map (fun v => ⟨.inherent e.name.rust, .value, v.rust⟩)
  | .cxxType t =>
    if !mapHas st.structs t.name.rust && !mapHas st.enums t.name.rust then [⟨.module, .type, t.name.rust⟩] else []
  | .cxxFunction f =>
    match f.sig.receiver with
    | none => [⟨.module, .value, f.name.rust⟩]
    | some r => [⟨.inherent r.ty.rust, .value, f.name.rust⟩]
  | .typeAlias a => [⟨.module, .type, a.name.rust⟩]
  | .include _ | .rustType _ | .rustFunction _ | .impl _ => []

/-- macro/src/expand.rs:202-307 `expand_struct_operators`: the operators of a struct, one round of the loop. -/
def operatorsOf (derives : List Trait) : Trait → List String
  | .partialEq => "eq" :: if derives.contains .eq then [] else ["ne"]
  | .partialOrd => "lt" :: "le" :: if derives.contains .ord then [] else ["gt", "ge"]
  | .hash => ["hash"]
  | _ => []

/-- macro/src/expand.rs:943-946: the name of the function that C++ calls for a Rust function. -/
def shimName (f : ExternFn) : String :=
  match f.sig.receiver with
  | none => "__" ++ f.name.rust
  | some r => "__" ++ r.ty.rust ++ "__" ++ f.name.rust

/-- macro/src/expand.rs:63-92, what goes to `hidden`: `__operator_eq_S` and so on (212, 225, 239, 251, 264, 276, 290), and a function
for each Rust function (941-964). -/
def hiddenItems : Api → List Item
  | .struct s =>
    (s.derives.flatMap (operatorsOf s.derives)).map (fun op => ⟨.hidden, .value, "__operator_" ++ op ++ "_" ++ s.name.rust⟩)
  | .rustFunction f => [⟨.hidden, .value, shimName f⟩]
  | _ => []

/-- macro/src/expand.rs:1308-1311. -/
def boxNames : List String := ["alloc", "dealloc", "drop"]

/-- macro/src/expand.rs:1362-1370. -/
def vecNames : List String := ["new", "drop", "len", "capacity", "data", "reserve_total", "set_len", "truncate"]

/-- macro/src/expand.rs:94-116: the loop over the instantiations; those of the smart pointers and of `CxxVector` are impls of
traits. -/
def implItems : ImplKey → List Item
  | .rustBox n => boxNames.map (fun f => ⟨.hidden, .value, n ++ "__box_" ++ f⟩)
  | .rustVec n => vecNames.map (fun f => ⟨.hidden, .value, n ++ "__vec_" ++ f⟩)
  | _ => []

/-- macro/src/expand.rs:69, 117-119, 929-939: `mod forbid`, if there is a struct. -/
def forbidItems (apis : List Api) : List Item :=
  if apis.any (fun | .struct _ => true | _ => false) then [⟨.hidden, .type, "forbid"⟩] else []

/-- macro/src/expand.rs:51-131 `expand`. -/
def items (outer : Ident → Bool) (apis : List Api) : List Item :=
  let st := collect apis
  apis.flatMap (importItems outer) ++ apis.flatMap (moduleItems st) ++
    (apis.flatMap hiddenItems ++ (st.impls.map (·.1)).flatMap implItems ++ forbidItems apis)

end Verif.Names
