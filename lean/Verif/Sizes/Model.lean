import Verif.Unit.Model
import Verif.Names.Model
import Verif.Slice.Model
/-!
# The sizes of elements

`rust::size_of` and `rust::align_of` of `include/cxx.h`, the functions that the generated code adds for opaque Rust types, and
their use for the elements of slices and vectors.
-/
namespace Verif.Sizes
open Verif.Syntax Verif.Types Verif.Mangle Verif.Abi Verif.Layout

/-- Size or alignment. -/
inductive Query
  | size | align
  deriving DecidableEq

/-! ### Rust -/

/-- What the symbols of a bridge refer to.  Only the functions for layouts matter here. -/
inductive Code
  /-- macro/src/expand.rs:898-901: `Layout::new::<N>().size()` or `.align()` -/
  | layout (n : Ident) (q : Query)
  | other
  deriving DecidableEq

/-- macro/src/expand.rs:884-927 `expand_rust_type_layout`. -/
def expandRustTypeLayout (t : ExternType) : List (Option Symbol × Code) :=
  [(operator t.name "sizeof", .layout t.name.rust .size), (operator t.name "alignof", .layout t.name.rust .align)]

/-- macro/src/expand.rs:63-92 and gen/src/write.rs:160-189: the functions with symbols that an item leads to, in either language
(macro/src/expand.rs:202-307, 787-824, 884-927, 941-964, gen/src/write.rs:736-823, 907-916). -/
def itemSymbols (ts : Types) : Api → List (Option Symbol × Code)
  | .struct s => (s.derives.flatMap (Names.operatorsOf s.derives)).map (fun op => (operator s.name op, .other))
  | .rustType t => expandRustTypeLayout t
  | .rustFunction f => [(externFn ts f, .other)]
  | .cxxFunction f => (externFn ts f, .other) :: f.sig.args.flatMap (fun a =>
      match a.ty with
      | .fn .. => [(cTrampoline ts f a.name, .other), (rTrampoline ts f a.name, .other)]
      | _ => [])
  | _ => []

/-- macro/src/expand.rs:94-115: the functions for `Box<N>` and the like. -/
def instanceSymbols (ts : Types) : List (Option Symbol × Code) :=
  ts.impls.flatMap (fun e => ((rustInst ts e.1).getD []).map (fun s => (some s, .other)))

/-- All functions with symbols. -/
def symbols (ts : Types) (apis : List Api) : List (Option Symbol × Code) :=
  apis.flatMap (itemSymbols ts) ++ instanceSymbols ts

/-- The linker: `none` if a symbol has no definition, or several. -/
def link (ss : List (Option Symbol × Code)) (s : Symbol) : Option Code :=
  match ss.filter (fun x => x.1 = some s) with
  | [x] => some x.2
  | _ => none

/-! ### C++ -/

/-- The bodies of the overloads of `do_size_of` and `do_align_of`. -/
inductive Body
  /-- `return T::layout::fn();` -/
  | member (fn : String)
  /-- `return sizeof(T);`, `return alignof(T);` -/
  | builtin (q : Query)

/-- include/cxx.h:1062-1073 `do_size_of`, 1080-1091 `do_align_of`: the value of `std::is_base_of<Opaque, T>` an overload is
enabled for, and its body.  `size_of` and `align_of` (1074-1079, 1092-1097, 1100-1108) call them. -/
def overloads : Query → List (Bool × Body)
  | .size => [(true, .member "size"), (false, .builtin .size)]
  | .align => [(true, .member "align"), (false, .builtin .align)]

/-- Overload resolution: the only enabled one. -/
def chosen (q : Query) (isBase : Bool) : Option Body :=
  match (overloads q).filter (fun o => o.1 == isBase) with
  | [o] => some o.2
  | _ => none

/-- include/cxx.h:456-464 and gen/src/write.rs:380-424: whether a class derives from `rust::Opaque`; `derived` says it of the
classes of headers, `ds` are the definitions of the generated code. -/
def derivesOpaque (derived : Pair → Bool) (ds : List CDef) : CTok → Bool
  | .named p =>
    match ds.find? (fun d => d.name.ns = p.ns ∧ d.name.cxx = p.cxx) with
    | some d =>
      match d.body with
      | .opaque => true
      | _ => false
    | none => derived p
  | _ => false

/-- The symbol that is called, for a definition of the function `fn` of `p::layout`. -/
def layoutCall (p : Pair) (fn : String) : Unit.Decl → Option Symbol
  | .layout ns cls f [sym] => if ns = p.ns ∧ cls = p.cxx ∧ f = fn then some sym else none
  | _ => none

/-- gen/src/write.rs:702-733: the symbol that the function `fn` of `p::layout` calls, if it is defined once. -/
def layoutFn (fs : List Unit.Decl) (p : Pair) (fn : String) : Option Symbol :=
  match fs.filterMap (layoutCall p fn) with
  | [sym] => some sym
  | _ => none

/-! ### Elements -/

/-- include/cxx.h:917-922, 944-949 `Vec<T>::operator[]`: the address of the element, with `size_t` modulo `W`.
`none`: the assertion fails. -/
def vecIndex (W data len size n : Nat) : Option Nat := if n < len then some ((data + n * size % W) % W) else none

/-- include/cxx.h:986-995 `Vec<T>::emplace_back`: where the new element is constructed. -/
def vecSlot (W data len size : Nat) : Nat := (data + len * size % W) % W

end Verif.Sizes
