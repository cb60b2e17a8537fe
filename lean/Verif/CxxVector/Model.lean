import Verif.Common.Fn
/-!
# CxxVector

`std::vector` is a list of C++ objects.  An object owns a resource, named by a number, or has been moved
from.  The element types which Rust can push and pop are trivially relocatable, so a Rust value of such a
type is one more place an object can be in.
-/
namespace Verif.CxxVector
open Verif

/-- A C++ object: the resource it owns, or `none` when moved from. -/
abbrev Obj := Option Nat

structure State where
  /-- Vectors behind a `UniquePtr`. -/
  vecs : Nat → Option (List Obj)
  /-- Values held by Rust. -/
  vals : Nat → Option Obj
  next : Nat
  /-- Resources released by destructors, newest first. -/
  log : List Nat
  /-- Objects whose storage was forgotten without a destructor call. -/
  leaks : Nat

def init : State := ⟨fun _ => none, fun _ => none, 0, [], 0⟩

/-- `~T`. -/
def destroy (s : State) : Obj → State
  | none => s
  | some r => { s with log := r :: s.log }

def destroyAll (s : State) (xs : List Obj) : State := xs.foldl destroy s

/-- `T(std::move(x))`: the new object and what is left of the old one. -/
def moveFrom (x : Obj) : Obj × Obj := (x, none)

/-- Storage of a `T`: whether an object is in it. -/
abbrev Slot := Option Obj

/-- The storage goes away without a destructor call. -/
def forget (s : State) : Slot → State
  | none => s
  | some _ => { s with leaks := s.leaks + 1 }

/-- gen/src/write.rs:1952-1959 `size`. -/
def shimSize (xs : List Obj) : Nat := xs.length

/-- gen/src/write.rs:1961-1966 `get_unchecked`: `&(*s)[pos]`, undefined out of range. -/
def shimGetUnchecked (xs : List Obj) (pos : Nat) : Except Fault Obj :=
  match xs[pos]? with
  | some x => .ok x
  | none => .error .ub

/-- `::rust::destroy(value)`. -/
def destroySlot (s : State) : Slot → Except Fault (State × Slot)
  | none => .error .ub
  | some x => .ok (destroy s x, none)

/-- gen/src/write.rs:1971-1979 `push_back`. -/
def shimPushBack (s : State) (xs : List Obj) (value : Slot) : Except Fault (State × List Obj × Slot) :=
  match value with
  | none => .error .ub
  | some x =>
    let (y, left) := moveFrom x
    match destroySlot s (some left) with
    | .error e => .error e
    | .ok (s1, slot) => .ok (s1, xs ++ [y], slot)

/-- gen/src/write.rs:1981-1988 `pop_back`. -/
def shimPopBack (s : State) (xs : List Obj) (out : Slot) : Except Fault (State × List Obj × Slot) :=
  match xs.getLast?, out with
  | some x, none =>
    let (y, left) := moveFrom x
    .ok (destroy s left, xs.dropLast, some y)
  | _, _ => .error .ub

/-- src/cxx_vector.rs:52-54 `len`. -/
def len (xs : List Obj) : Nat := shimSize xs

/-- src/cxx_vector.rs:61-63 `is_empty`. -/
def isEmpty (xs : List Obj) : Bool := len xs == 0

/-- src/cxx_vector.rs:67-73 `get`, and 81-87 `index_mut`. -/
def get (xs : List Obj) (pos : Nat) : Except Fault (Option Obj) :=
  if pos < len xs then
    match shimGetUnchecked xs pos with
    | .error e => .error e
    | .ok x => .ok (some x)
  else .ok none

/-- Reading `len` consecutive elements from the address of element `start`; undefined past the end. -/
def readSlice (xs : List Obj) (start len : Nat) : Except Fault (List Obj) :=
  if start + len ≤ xs.length then .ok ((xs.drop start).take len) else .error .ub

/-- src/cxx_vector.rs:130-148 `as_slice`, and 152-163 `as_mut_slice`. -/
def asSlice (xs : List Obj) : Except Fault (List Obj) :=
  if len xs = 0 then .ok []
  else match shimGetUnchecked xs 0 with
    | .error e => .error e
    | .ok _ => readSlice xs 0 (len xs)

/-- src/cxx_vector.rs:180-189 `push`: the value moves into a `ManuallyDrop`, which is then forgotten. -/
def push (s : State) (xs : List Obj) (value : Obj) : Except Fault (State × List Obj) :=
  match shimPushBack s xs (some value) with
  | .error e => .error e
  | .ok (s1, ys, slot) => .ok (forget s1 slot, ys)

/-- src/cxx_vector.rs:193-206 `pop`. -/
def pop (s : State) (xs : List Obj) : Except Fault (State × List Obj × Option Obj) :=
  if isEmpty xs then .ok (s, xs, none)
  else match shimPopBack s xs none with
    | .error e => .error e
    | .ok (s1, ys, some x) => .ok (s1, ys, some x)
    | .ok (_, _, none) => .error .ub

/-- `v` is a vector, `o` a Rust variable. -/
inductive Op
  | new (v : Nat)
  | len (v : Nat)
  | isEmpty (v : Nat)
  | get (v pos : Nat)
  | asSlice (v : Nat)
  | push (v o : Nat)
  | pop (v o : Nat)
  /-- `mem::swap` with the element `index_mut` gives. -/
  | swap (v pos o : Nat)
  /-- A Rust value with a new resource. -/
  | make (o : Nat)
  | dropVal (o : Nat)
  | dropVec (v : Nat)
  /-- C++ adds a new element, removes the last one, clears. -/
  | cxxPush (v : Nat)
  | cxxPop (v : Nat)
  | cxxClear (v : Nat)

/-- What the program sees of an object: the resource it owns, `none` for a moved-from one. -/
inductive Obs
  | done
  | size (n : Nat)
  | bool (b : Bool)
  | elem (x : Option Obj)
  | elems (xs : List Obj)
  deriving DecidableEq

def step (s : State) (op : Op) : Except Fault (State × Obs) :=
  match op with
  -- src/cxx_vector.rs:41-42, gen/src/write.rs:1943-1950
  | .new v =>
    match s.vecs v with
    | none => .ok ({ s with vecs := upd s.vecs v (some []) }, .done)
    | some _ => .error .illegal
  | .len v =>
    match s.vecs v with
    | none => .error .illegal
    | some xs => .ok (s, .size (len xs))
  | .isEmpty v =>
    match s.vecs v with
    | none => .error .illegal
    | some xs => .ok (s, .bool (isEmpty xs))
  | .get v pos =>
    match s.vecs v with
    | none => .error .illegal
    | some xs =>
      match get xs pos with
      | .error e => .error e
      | .ok x => .ok (s, .elem x)
  | .asSlice v =>
    match s.vecs v with
    | none => .error .illegal
    | some xs =>
      match asSlice xs with
      | .error e => .error e
      | .ok ys => .ok (s, .elems ys)
  | .push v o =>
    match s.vecs v, s.vals o with
    | some xs, some x =>
      match push s xs x with
      | .error e => .error e
      | .ok (s1, ys) => .ok ({ s1 with vecs := upd s1.vecs v (some ys), vals := upd s1.vals o none }, .done)
    | _, _ => .error .illegal
  | .pop v o =>
    match s.vecs v, s.vals o with
    | some xs, none =>
      match pop s xs with
      | .error e => .error e
      | .ok (s1, ys, x) => .ok ({ s1 with vecs := upd s1.vecs v (some ys), vals := upd s1.vals o x }, .elem x)
    | _, _ => .error .illegal
  | .swap v pos o =>
    match s.vecs v, s.vals o with
    | some xs, some y =>
      match get xs pos with
      | .error e => .error e
      | .ok none => .ok (s, .elem none)
      | .ok (some x) =>
        .ok ({ s with vecs := upd s.vecs v (some (xs.set pos y)), vals := upd s.vals o (some x) }, .elem (some x))
    | _, _ => .error .illegal
  | .make o =>
    match s.vals o with
    | none => .ok ({ s with vals := upd s.vals o (some (some s.next)), next := s.next + 1 }, .done)
    | some _ => .error .illegal
  | .dropVal o =>
    match s.vals o with
    | none => .error .illegal
    | some x => .ok ({ destroy s x with vals := upd s.vals o none }, .done)
  | .dropVec v =>
    match s.vecs v with
    | none => .error .illegal
    | some xs => .ok ({ destroyAll s xs with vecs := upd s.vecs v none }, .done)
  | .cxxPush v =>
    match s.vecs v with
    | none => .error .illegal
    | some xs => .ok ({ s with vecs := upd s.vecs v (some (xs ++ [some s.next])), next := s.next + 1 }, .done)
  | .cxxPop v =>
    match s.vecs v with
    | none => .error .illegal
    | some xs =>
      match xs.getLast? with
      | none => .error .illegal
      | some x => .ok ({ destroy s x with vecs := upd s.vecs v (some xs.dropLast) }, .done)
  | .cxxClear v =>
    match s.vecs v with
    | none => .error .illegal
    | some xs => .ok ({ destroyAll s xs with vecs := upd s.vecs v (some []) }, .done)

/-! ## Iterators -/

/-- src/cxx_vector.rs:212-215 `Iter`, 261-264 `IterMut`; both borrow the vector, so its length is fixed. -/
structure Iter where
  index : Nat

/-- src/cxx_vector.rs:166-168 `iter`, 171-173 `iter_mut`. -/
def iter : Iter := ⟨0⟩

/-- src/cxx_vector.rs:235-239 `next`, 284-293 for `IterMut`.  Gives the position and the element. -/
def next (xs : List Obj) (it : Iter) : Except Fault (Iter × Option (Nat × Obj)) :=
  match get xs it.index with
  | .error e => .error e
  | .ok none => .ok (it, none)
  | .ok (some x) => .ok (⟨it.index + 1⟩, some (it.index, x))

/-- src/cxx_vector.rs:251-253 `len`, 305-307; an underflow panics or wraps, both wrong. -/
def remaining (xs : List Obj) (it : Iter) : Except Fault Nat :=
  if it.index ≤ len xs then .ok (len xs - it.index) else .error .ub

/-- src/cxx_vector.rs:241-244 `size_hint`, 295-298. -/
def sizeHint (xs : List Obj) (it : Iter) : Except Fault (Nat × Option Nat) :=
  match remaining xs it with
  | .error e => .error e
  | .ok n => .ok (n, some n)

/-- `n` calls of `next`, each of which writes `f x` through the reference it gets (the identity for
`Iter`), and the results. -/
def nexts (f : Obj → Obj) : Nat → List Obj → Iter → Except Fault (List Obj × Iter × List (Option (Nat × Obj)))
  | 0, xs, it => .ok (xs, it, [])
  | n + 1, xs, it =>
    match next xs it with
    | .error e => .error e
    | .ok (it1, none) =>
      match nexts f n xs it1 with
      | .error e => .error e
      | .ok (ys, it2, rs) => .ok (ys, it2, none :: rs)
    | .ok (it1, some (i, x)) =>
      match nexts f n (xs.set i (f x)) it1 with
      | .error e => .error e
      | .ok (ys, it2, rs) => .ok (ys, it2, some (i, x) :: rs)

end Verif.CxxVector
