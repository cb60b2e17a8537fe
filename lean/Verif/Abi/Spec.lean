import Verif.Abi.Model
import Verif.Check.Spec
import Verif.Pod.Spec
/-!
# When two declarations mean the same C function

The layout tables below are what is assumed about the Rust and C++ types the two generators name
(`src/rust_string.rs`, `src/rust_vec.rs`, `src/rust_str.rs`, `src/rust_slice.rs`, `src/function.rs`,
`src/result.rs`, `include/cxx.h`).
-/
namespace Verif.Abi
open Verif.Syntax Verif.Types

/-- How a value is represented. -/
inductive Lay
  | atom (a : Atom)
  /-- a type of the bridge, by the name given in Rust -/
  | rustNamed (n : Ident)
  /-- a type of the bridge, by the name given in C++ -/
  | cxxNamed (p : Pair)
  /-- one word, the address of a `pointee` -/
  | pointer (mutable : Bool) (pointee : Lay)
  /-- one word, the address of something unspecified -/
  | erased (mutable : Bool)
  /-- two words: address and length -/
  | twoWords
  /-- two words: trampoline and function -/
  | closure
  /-- one word: a bare function -/
  | code
  /-- two words: error message or null -/
  | result
  /-- one word, passed through unchanged -/
  | handle
  | vec (elem : Lay)
  | sharedPtr (t : Lay)
  | weakPtr (t : Lay)
  | cxxVector (t : Lay)
  | array (t : Lay) (n : Nat)
  | nothing
  deriving DecidableEq

/-- The layout of a type as written in Rust. -/
def layoutSource : Ty → Lay
  | .ident t => match Atom.fromStr t.rust with
    | some a => .atom a
    | none => .rustNamed t.rust
  | .rustBox t | .uniquePtr t => .pointer true (layoutSource t)
  | .rustVec t => .vec (layoutSource t)
  | .sharedPtr t => .sharedPtr (layoutSource t)
  | .weakPtr t => .weakPtr (layoutSource t)
  | .cxxVector t => .cxxVector (layoutSource t)
  | .ref _ _ m t => .pointer m (layoutSource t)
  | .ptr m t => .pointer m (layoutSource t)
  | .str .. | .sliceRef .. => .twoWords
  | .fn .. => .code
  | .void => .nothing
  | .array t n => .array (layoutSource t) n

/-- The layout of a type printed by the macro. -/
def layoutR : RTok → Lay
  | .source t => layoutSource t
  | .rustString => .atom .rustString
  | .rustVec t => .vec (layoutR t)
  | .raw m t => .pointer m (layoutR t)
  | .void m => .erased m
  | .borrow m t => .pointer m (layoutR t)
  | .rustStr | .rustSlice => .twoWords
  | .fatFunction => .closure
  | .result => .result
  | .unitPtr => .handle
  | .receiver _ m t => .pointer m (.rustNamed t.rust)

/-- The layout of a type printed by the C++ generator. -/
def layoutC : CTok → Lay
  | .atom a => .atom a
  | .named p => .cxxNamed p
  | .box t | .uniquePtr t => .pointer true (layoutC t)
  | .vec t => .vec (layoutC t)
  | .sharedPtr t => .sharedPtr (layoutC t)
  | .weakPtr t => .weakPtr (layoutC t)
  | .vector t => .cxxVector (layoutC t)
  | .lref m t => .pointer m (layoutC t)
  | .star m t => .pointer m (layoutC t)
  | .str | .slice .. | .fat => .twoWords
  | .fn .. => .closure
  | .array t n => .array (layoutC t) n
  | .ptrLen => .result
  | .voidPtr => .handle

/-- Some item of the bridge gives the Rust name `n` the C++ name of `p`. -/
def Names (apis : List Api) (n : Ident) (p : Pair) : Prop :=
  p.rust = n ∧ ∃ a ∈ apis, ∃ g, resolves a = some (p, g)

/-- A Rust layout and a C++ layout are the same; an erased pointer stands for any pointer of the same
constness. -/
inductive Agree (apis : List Api) : Lay → Lay → Prop
  | atom (a : Atom) : Agree apis (.atom a) (.atom a)
  | named (n : Ident) (p : Pair) (h : Names apis n p) : Agree apis (.rustNamed n) (.cxxNamed p)
  | pointer (m : Bool) {a b : Lay} (h : Agree apis a b) : Agree apis (.pointer m a) (.pointer m b)
  | erased (m : Bool) (b : Lay) : Agree apis (.erased m) (.pointer m b)
  | twoWords : Agree apis .twoWords .twoWords
  | closure : Agree apis .closure .closure
  | result : Agree apis .result .result
  | handle : Agree apis .handle .handle
  | vec {a b : Lay} (h : Agree apis a b) : Agree apis (.vec a) (.vec b)
  | sharedPtr {a b : Lay} (h : Agree apis a b) : Agree apis (.sharedPtr a) (.sharedPtr b)
  | weakPtr {a b : Lay} (h : Agree apis a b) : Agree apis (.weakPtr a) (.weakPtr b)
  | cxxVector {a b : Lay} (h : Agree apis a b) : Agree apis (.cxxVector a) (.cxxVector b)
  | array {a b : Lay} (n : Nat) (h : Agree apis a b) : Agree apis (.array a n) (.array b n)

/-- The C++ ABI passes an object of this type in the same way as the C struct with the same members.  It
does not for a class with a non-trivial copy constructor or destructor, which is passed by hidden reference. -/
def ByValue (apis : List Api) : CTok → Prop
  | .atom a => a ≠ .rustString ∧ a ≠ .cxxString
  | .named p => ¬ Pod.Owning apis (.ident ⟨p.rust, []⟩)
  | .lref .. | .star .. | .str | .slice .. | .fn .. | .fat | .ptrLen | .voidPtr => True
  | _ => False

/-- A value of the Rust type is received as one of the C++ type, and the other way around. -/
structure Passes (apis : List Api) (r : RTok) (c : CTok) : Prop where
  layout : Agree apis (layoutR r) (layoutC c)
  byValue : ByValue apis c

/-- Position by position. -/
inductive AgreeAll (apis : List Api) : List RTok → List CTok → Prop
  | nil : AgreeAll apis [] []
  | cons {r : RTok} {c : CTok} {rs : List RTok} {cs : List CTok} (h : Passes apis r c)
      (t : AgreeAll apis rs cs) : AgreeAll apis (r :: rs) (c :: cs)

/-- Two return types: both `void`, or both present and the same. -/
inductive AgreeRet (apis : List Api) : Option RTok → Option CTok → Prop
  | void : AgreeRet apis none none
  | value {r : RTok} {c : CTok} (h : Passes apis r c) : AgreeRet apis (some r) (some c)

/-- The Rust and the C++ declaration of one function fit together. -/
structure SameAbi (apis : List Api) (r : RDecl) (c : CDecl) : Prop where
  symbol : r.symbol = c.symbol ∧ r.symbol ≠ none
  params : AgreeAll apis r.params c.params
  ret : AgreeRet apis r.ret c.ret

/-- What both generators compute about a bridge: some iteration order of the hash set in the improper-type
analysis, and some stack depth that suffices for the plain-data analysis. -/
structure CtxFor (apis : List Api) (cx : Ctx) : Prop where
  types : cx.types = collect apis
  improper : ∃ (order : Nat → List Ident → List Ident) (hperm : ∀ k l, (order k l).Perm l),
    cx.improper = Improper.improperStructs (collect apis) order (fun k l => (hperm k l).length_eq)
  depth : ∀ ty, Check.Occurs apis ty → (Pod.isPod (collect apis) cx.depth ty).isSome = true

/-- Passed by value these have no meaning on one of the sides: `()`, a function, a C++ vector. -/
def Odd : Ty → Prop
  | .void | .fn .. | .cxxVector _ => True
  | _ => False

/-- No function pointer of the bridge has `()` among its parameter types.  (The parser never produces `()` as
a return type, syntax/parse.rs:1462-1465.) -/
def NoUnit (apis : List Api) : Prop :=
  ∀ u as r th, Check.Occurs apis (.fn u as r th) → .void ∉ as ∧ r ≠ some .void

end Verif.Abi
