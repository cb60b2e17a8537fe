import Verif.Check.Model
/-!
# `syntax/mangle.rs`, `syntax/symbol.rs` and the symbols of generated instantiations

A symbol is its text.  A failed `assert!` and a failed `types.resolve` (a panic of the code generator)
are `none`.
-/
namespace Verif.Mangle
open Verif.Syntax Verif.Types

/-- syntax/symbol.rs:9 `struct Symbol(String)`. -/
abbrev Symbol := List Char

/-- syntax/symbol.rs:24-31 `Symbol::push`.  The assertion compares byte lengths; here characters are
counted, which agrees because the new text extends the old one. -/
def push (sym seg : Symbol) : Option Symbol :=
  let s := (if sym.isEmpty then sym else sym ++ ['$']) ++ seg
  if s.length > sym.length then some s else none

/-- The loops of syntax/symbol.rs:33-40 and 102-108, over segments already flattened (a namespace writes
each of its segments, symbol.rs:72-77). -/
def pushAll : Symbol → List Symbol → Option Symbol
  | sym, [] => some sym
  | sym, seg :: segs => do pushAll (← push sym seg) segs

/-- syntax/symbol.rs:103-110 `join` and 33-40 `from_idents`, with the final assertion. -/
def join (segs : List Symbol) : Option Symbol := do
  let s ← pushAll [] segs
  if s.isEmpty then none else some s

/-- syntax/symbol.rs:72-77: the segments a namespace writes. -/
def nsSegs (ns : Namespace) : List Symbol := ns.map String.toList

/-- syntax/mangle.rs:79 `CXXBRIDGE`. -/
def CXXBRIDGE : Symbol := "cxxbridge1".toList

/-- syntax/names.rs:16-23 `Pair::to_symbol`. -/
def toSymbol (p : Pair) : Option Symbol := join (nsSegs p.ns ++ [p.cxx.toList])

/-- syntax/resolve.rs:12-18 `Types::resolve(..).name`. -/
def resolve (ts : Types) (r : Ident) : Option Pair := (mapGet ts.resolutions r).map (·.1)

/-- syntax/mangle.rs:87-100 `extern_fn`. -/
def externFn (ts : Types) (f : ExternFn) : Option Symbol :=
  match f.sig.receiver with
  | some r => do
    let p ← resolve ts r.ty.rust
    join (nsSegs f.name.ns ++ [CXXBRIDGE, p.cxx.toList, f.name.rust.toList])
  | none => join (nsSegs f.name.ns ++ [CXXBRIDGE, f.name.rust.toList])

/-- syntax/mangle.rs:102-110 `operator`. -/
def operator (receiver : Pair) (op : String) : Option Symbol :=
  join (nsSegs receiver.ns ++ [CXXBRIDGE, receiver.cxx.toList, "operator".toList, op.toList])

/-- syntax/mangle.rs:113-115 `c_trampoline`. -/
def cTrampoline (ts : Types) (f : ExternFn) (var : Pair) : Option Symbol := do
  let s ← externFn ts f
  join [s, var.rust.toList, "0".toList]

/-- syntax/mangle.rs:118-120 `r_trampoline`. -/
def rTrampoline (ts : Types) (f : ExternFn) (var : Pair) : Option Symbol := do
  let s ← externFn ts f
  join [s, var.rust.toList, "1".toList]

/-! ### Instantiations: the Rust side -/

/-- `format!("{prefix}{}$", name.to_symbol())` followed by `format!("{}{method}", ..)`. -/
def formatted (prefix_ : String) (p : Pair) (method : String) : Option Symbol := do
  let s ← toSymbol p
  some (prefix_.toList ++ s ++ ['$'] ++ method.toList)

/-- syntax/types.rs:273-277 `is_maybe_trivial`. -/
def isMaybeTrivial (ts : Types) (t : Ident) : Bool :=
  mapHas ts.structs t || mapHas ts.enums t || mapHas ts.aliases t

/-- macro/src/expand.rs:1300-1306 `expand_rust_box`. -/
def rustBoxOps : List String := ["alloc", "dealloc", "drop"]
/-- macro/src/expand.rs:1349-1360 `expand_rust_vec`. -/
def rustVecOps : List String :=
  ["new", "drop", "len", "capacity", "data", "reserve_total", "set_len", "truncate"]
/-- macro/src/expand.rs:1446-1481 `expand_unique_ptr`. -/
def rustUniquePtrOps (trivial : Bool) : List String :=
  ["null"] ++ (if trivial then ["uninit"] else []) ++ ["raw", "get", "release", "drop"]
/-- macro/src/expand.rs:1543-1577 `expand_shared_ptr`. -/
def rustSharedPtrOps (trivial : Bool) : List String :=
  ["null"] ++ (if trivial then ["uninit"] else []) ++ ["clone", "get", "drop"]
/-- macro/src/expand.rs:1626-1635 `expand_weak_ptr`. -/
def rustWeakPtrOps : List String := ["null", "clone", "downgrade", "upgrade", "drop"]
/-- macro/src/expand.rs:1698-1767 `expand_cxx_vector`: of the vector. -/
def rustCxxVectorOps (trivial : Bool) : List String :=
  ["new", "size", "get_unchecked"] ++ (if trivial then ["push_back", "pop_back"] else [])
/-- macro/src/expand.rs:1712-1720 `expand_cxx_vector`: of a `UniquePtr` to it. -/
def rustVectorPtrOps : List String := ["null", "raw", "get", "release", "drop"]

/-- macro/src/expand.rs:124-147 and 1300-1850: the link names and export names of an instantiation. -/
def rustInst (ts : Types) (k : ImplKey) : Option (List Symbol) := do
  let p ← resolve ts k.rust
  let trivial := isMaybeTrivial ts k.rust
  match k with
  | .rustBox _ => rustBoxOps.mapM (formatted "cxxbridge1$box$" p)
  | .rustVec _ => rustVecOps.mapM (formatted "cxxbridge1$rust_vec$" p)
  | .uniquePtr _ => (rustUniquePtrOps trivial).mapM (formatted "cxxbridge1$unique_ptr$" p)
  | .sharedPtr _ => (rustSharedPtrOps trivial).mapM (formatted "cxxbridge1$shared_ptr$" p)
  | .weakPtr _ => rustWeakPtrOps.mapM (formatted "cxxbridge1$weak_ptr$" p)
  | .cxxVector _ => do
    let v ← (rustCxxVectorOps trivial).mapM (formatted "cxxbridge1$std$vector$" p)
    let u ← rustVectorPtrOps.mapM (formatted "cxxbridge1$unique_ptr$std$vector$" p)
    some (v ++ u)

/-! ### Instantiations: the C++ side -/

/-- gen/src/write.rs: `writeln!("… cxxbridge1$kind${}$method …", instance)`. -/
def written (prefix_ : String) (instance_ : Symbol) (method : String) : Symbol :=
  prefix_.toList ++ instance_ ++ ('$' :: method.toList)

/-- gen/src/write.rs:1417-1419 `to_mangled` of `UniquePtr::CxxVector`. -/
def vectorMangled (s : Symbol) : Option Symbol := join ["std".toList, "vector".toList, s]

/-- gen/src/write.rs:1467-1487 `write_rust_box_extern`. -/
def cxxBoxOps : List String := ["alloc", "dealloc", "drop"]
/-- gen/src/write.rs:1489-1536 `write_rust_vec_extern`. -/
def cxxVecOps : List String :=
  ["new", "drop", "len", "capacity", "data", "reserve_total", "set_len", "truncate"]
/-- gen/src/write.rs:1664-1780 `write_unique_ptr_common`. -/
def cxxUniquePtrOps (trivial : Bool) : List String :=
  ["null"] ++ (if trivial then ["uninit"] else []) ++ ["raw", "get", "release", "drop"]
/-- gen/src/write.rs:1782-1861 `write_shared_ptr`. -/
def cxxSharedPtrOps (trivial : Bool) : List String :=
  ["null"] ++ (if trivial then ["uninit"] else []) ++ ["clone", "get", "drop"]
/-- gen/src/write.rs:1863-1930 `write_weak_ptr`. -/
def cxxWeakPtrOps : List String := ["null", "clone", "downgrade", "upgrade", "drop"]
/-- gen/src/write.rs:1932-1992 `write_cxx_vector`. -/
def cxxCxxVectorOps (trivial : Bool) : List String :=
  ["new", "size", "get_unchecked"] ++ (if trivial then ["push_back", "pop_back"] else [])

/-- gen/src/write.rs:1433-1465 `write_generic_instantiations`: the `extern "C"` functions declared or
defined for an instantiation. -/
def cxxInst (ts : Types) (k : ImplKey) : Option (List Symbol) := do
  let p ← resolve ts k.rust
  let s ← toSymbol p
  let trivial := isMaybeTrivial ts k.rust
  match k with
  | .rustBox _ => some (cxxBoxOps.map (written "cxxbridge1$box$" s))
  | .rustVec _ => some (cxxVecOps.map (written "cxxbridge1$rust_vec$" s))
  | .uniquePtr _ => some ((cxxUniquePtrOps trivial).map (written "cxxbridge1$unique_ptr$" s))
  | .sharedPtr _ => some ((cxxSharedPtrOps trivial).map (written "cxxbridge1$shared_ptr$" s))
  | .weakPtr _ => some (cxxWeakPtrOps.map (written "cxxbridge1$weak_ptr$" s))
  | .cxxVector _ => do
    let m ← vectorMangled s
    some ((cxxCxxVectorOps trivial).map (written "cxxbridge1$std$vector$" s) ++
      (cxxUniquePtrOps false).map (written "cxxbridge1$unique_ptr$" m))

/-! ### Include guards -/

/-- gen/src/write.rs:278, 382: the guard around a struct or opaque type. -/
def structGuard (p : Pair) : Option Symbol := do
  some ("CXXBRIDGE1_STRUCT_".toList ++ (← toSymbol p))

/-- gen/src/write.rs:432: the guard around an enum. -/
def enumGuard (p : Pair) : Option Symbol := do
  some ("CXXBRIDGE1_ENUM_".toList ++ (← toSymbol p))

end Verif.Mangle
