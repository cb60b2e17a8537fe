import Verif.Mangle.Model
/-!
# The places where the expansion of a bridge can panic

Each function says whether the modelled function returns (`true`) or panics (`false`).  What it returns is the subject
of other models.  Panics have these causes: `Ident::new` of a text that is no identifier, `Types::resolve` of an unknown
name, the assertions of `syntax/symbol.rs`, `unwrap` of an absent return type, and `unreachable!()` for a derive.
The arguments of `format_ident!` are identifiers, whose `r#` it drops; and the tokens of a type are never empty
(macro/src/derive.rs:121): these cannot panic and are not here.
-/
namespace Verif.Panics
open Verif.Syntax Verif.Types Verif.Mangle

/-- The characters of identifiers: `_` and the Unicode property `XID_Start` for the first one, `XID_Continue` for the
others. -/
structure Chars where
  start : Char → Bool
  cont : Char → Bool

/-- `proc_macro2::Ident::new`, which does not accept `r#`; `proc_macro2` is not in /repo. -/
def newIdent (u : Chars) : List Char → Bool
  | [] => false
  | c :: cs => u.start c && cs.all u.cont

/-- macro/src/expand.rs:1291-1298 `type_id`.  The segments of the namespace are identifiers already. -/
def typeId (u : Chars) (p : Pair) : Bool := newIdent u p.cxx.toList

/-- syntax/resolve.rs:12-18 `Types::resolve`. -/
def known (ts : Types) (r : Ident) : Bool := (resolve ts r).isSome

/-- macro/src/derive.rs:12-30: the arm for a derive of a struct. -/
def structDerive : Trait → Bool
  | .externType => false
  | _ => true

/-- macro/src/derive.rs:42-78: the arm for a derive of an enum. -/
def enumDerive : Trait → Bool
  | .default | .externType => false
  | _ => true

/-- macro/src/expand.rs:157-200 `expand_struct`. -/
def expandStruct (u : Chars) (s : Struct) : Bool := typeId u s.name && s.derives.all structDerive

/-- macro/src/expand.rs:202-307 `expand_struct_operators`: the operators for one derive. -/
def operatorsFor (s : Struct) : Trait → List String
  | .partialEq => ["eq"] ++ (if Trait.eq ∈ s.derives then [] else ["ne"])
  | .partialOrd => ["lt", "le"] ++ (if Trait.ord ∈ s.derives then [] else ["gt", "ge"])
  | .hash => ["hash"]
  | _ => []

/-- macro/src/expand.rs:202-307 `expand_struct_operators`. -/
def expandStructOperators (s : Struct) : Bool :=
  s.derives.all fun d => (operatorsFor s d).all fun op => (operator s.name op).isSome

/-- macro/src/expand.rs:321-379 `expand_enum`. -/
def expandEnum (u : Chars) (e : Enum) : Bool := typeId u e.name && e.derives.all enumDerive

/-- macro/src/expand.rs:381-420 `expand_cxx_type`. -/
def expandCxxType (u : Chars) (t : ExternType) : Bool := typeId u t.name

/-- macro/src/expand.rs:422-456 `expand_cxx_type_assert_pinned`. -/
def assertPinned (ts : Types) (t : ExternType) : Bool := known ts t.name.rust

/-- macro/src/expand.rs:1859-1863 `indirect_return`; `needs` is `types.needs_indirect_abi`. -/
def indirectReturn (needs : Ty → Bool) (ret : Option Ty) (throws : Bool) : Bool :=
  match ret with
  | none => false
  | some t => throws || needs t

/-- macro/src/expand.rs:488-492, 628-629, 1127-1131: `ret.as_ref().unwrap()` if the return is indirect. -/
def outparam (needs : Ty → Bool) (ret : Option Ty) (throws : Bool) : Bool :=
  if indirectReturn needs ret throws then ret.isSome else true

/-- macro/src/expand.rs:458-498 `expand_cxx_function_decl`. -/
def expandCxxFunctionDecl (ts : Types) (needs : Ty → Bool) (f : ExternFn) : Bool :=
  outparam needs f.sig.ret f.sig.throws && (externFn ts f).isSome

/-- macro/src/expand.rs:787-824 `expand_function_pointer_trampoline`, for an argument of the type of a function pointer. -/
def expandTrampoline (ts : Types) (needs : Ty → Bool) (f : ExternFn) (a : Var) : Bool :=
  match a.ty with
  | .fn _ _ ret throws =>
    (cTrampoline ts f a.name).isSome && (rTrampoline ts f a.name).isSome && outparam needs ret throws
  | _ => true

/-- macro/src/expand.rs:500-785 `expand_cxx_function_shim`. -/
def expandCxxFunction (ts : Types) (needs : Ty → Bool) (f : ExternFn) : Bool :=
  expandCxxFunctionDecl ts needs f && f.sig.args.all (expandTrampoline ts needs f) &&
    outparam needs f.sig.ret f.sig.throws && f.sig.receiver.toList.all fun r => known ts r.ty.rust

/-- macro/src/expand.rs:835-864 `expand_rust_type_impl`. -/
def expandRustTypeImpl (u : Chars) (t : ExternType) : Bool :=
  t.derives.all fun d => if d = .externType then typeId u t.name else true

/-- macro/src/expand.rs:866-882 `expand_rust_type_assert_unpin`. -/
def assertUnpin (ts : Types) (t : ExternType) : Bool := known ts t.name.rust

/-- macro/src/expand.rs:884-927 `expand_rust_type_layout`. -/
def expandRustTypeLayout (ts : Types) (t : ExternType) : Bool :=
  (operator t.name "sizeof").isSome && (operator t.name "alignof").isSome && known ts t.name.rust

/-- macro/src/expand.rs:941-964 `expand_rust_function_shim`, with the output parameter (1127-1131). -/
def expandRustFunction (ts : Types) (needs : Ty → Bool) (f : ExternFn) : Bool :=
  (externFn ts f).isSome && outparam needs f.sig.ret f.sig.throws

/-- macro/src/expand.rs:1266-1289 `expand_type_alias_verify`. -/
def expandAliasVerify (u : Chars) (a : TypeAlias) : Bool := typeId u a.name

/-- macro/src/expand.rs:56-61: the first loop, for one item. -/
def firstLoop (ts : Types) : Api → Bool
  | .rustType t => assertUnpin ts t
  | _ => true

/-- macro/src/expand.rs:63-93: the second loop, for one item. -/
def secondLoop (u : Chars) (ts : Types) (needs : Ty → Bool) : Api → Bool
  | .include _ | .impl _ => true
  | .struct s => expandStruct u s && expandStructOperators s
  | .enum e => expandEnum u e
  | .cxxType t =>
    if !mapHas ts.structs t.name.rust && !mapHas ts.enums t.name.rust then expandCxxType u t && assertPinned ts t
    else true
  | .cxxFunction f => expandCxxFunction ts needs f
  | .rustType t => expandRustTypeImpl u t && expandRustTypeLayout ts t
  | .rustFunction f => expandRustFunction ts needs f
  | .typeAlias a => expandAliasVerify u a

/-- macro/src/expand.rs:51-155 `expand`; the third loop (95-115) instantiates the generic types. -/
def expand (u : Chars) (ts : Types) (needs : Ty → Bool) (apis : List Api) : Bool :=
  apis.all (firstLoop ts) && apis.all (secondLoop u ts needs) &&
    (ts.impls.map (·.1)).all fun k => (rustInst ts k).isSome

end Verif.Panics
