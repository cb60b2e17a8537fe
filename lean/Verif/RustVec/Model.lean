import Verif.Common.Buffer
/-!
# rust::Vec as a heap machine

`rust::Vec<T>` over buffers in a heap, with elements that have an identity: constructing an element
makes a new one, dropping one that is not alive is undefined behaviour.  Element types are C++ types;
their copy constructors may throw.  Sizes are not limited, so "capacity overflow" does not occur.
-/
namespace Verif.RustVec
open Verif Buffer

/-- An element: its identity and its value. -/
structure Elem where
  id : Nat
  val : Nat
  deriving DecidableEq

structure State where
  mem : Buffer.State Elem
  /-- Which elements have been constructed and not yet dropped. -/
  live : Nat → Bool
  nextId : Nat

def init : State := ⟨Buffer.init, fun _ => false, 0⟩

/-- Drop elements, front to back (`ptr::drop_in_place` of a slice). -/
def dropElems (live : Nat → Bool) : List Elem → Except Fault (Nat → Bool)
  | [] => .ok live
  | e :: es => if live e.id then dropElems (upd live e.id false) es else .error .ub

/-- The object at an address. -/
def this (s : State) (o : Nat) : Except Fault Repr :=
  match s.mem.objs o with
  | none => .error .illegal
  | some r => .ok r

/-- What a constructor argument refers to: a value elsewhere, or an element in some buffer (a
reference obtained from `operator[]`), or an argument whose use throws. -/
inductive Arg
  | value (v : Nat)
  | cell (buf : Option Nat) (k : Nat)
  | throws

/-- Read through a constructor argument.  `none`: the element's constructor throws. -/
def Arg.get (s : State) : Arg → Except Fault (Option Nat)
  | .value v => .ok (some v)
  | .throws => .ok none
  | .cell none _ => .error .ub
  | .cell (some i) k =>
    match s.mem.heap i with
    | none => .error .ub
    | some b =>
      match b[k]? with
      | some (some e) => .ok (some e.val)
      | _ => .error .ub

/-- src/rust_vec.rs:60-66 `RustVec::reserve_total`. -/
def reserveTotal (s : State) (o newCap slack : Nat) : Except Fault State :=
  match this s o with
  | .error e => .error e
  | .ok r =>
    if newCap > r.cap then
      match Buffer.reserve s.mem r (newCap - r.len) slack with
      | .error e => .error e
      | .ok (m, r') => .ok { s with mem := place m o r' }
    else .ok s

/-- include/cxx.h:986-995 `Vec<T>::emplace_back`; `push_back` (977-984) is this with a reference.
The boolean says whether the element's constructor threw. -/
def emplaceBack (s : State) (o : Nat) (arg : Arg) (slack : Nat) : Except Fault (State × Bool) :=
  match this s o with
  | .error e => .error e
  | .ok r0 =>
    let size := r0.len
    match reserveTotal s o (size + 1) slack with
    | .error e => .error e
    | .ok s1 =>
      match this s1 o with
      | .error e => .error e
      | .ok r1 =>
        match arg.get s1 with
        | .error e => .error e
        | .ok none => .ok (s1, true)
        | .ok (some v) =>
          match poke s1.mem r1 size ⟨s1.nextId, v⟩ with
          | .error e => .error e
          | .ok m => .ok (⟨place m o { r1 with len := size + 1 }, upd s1.live s1.nextId true, s1.nextId + 1⟩, false)

/-- `std::copy(first, last, std::back_inserter(*this))` over elements with the given values, where
copying the element at index `failAt` throws.  Simplified: the values are read up front. -/
def copyBack (s : State) (o : Nat) (failAt : Option Nat) (slack : Nat) : List Nat → Except Fault (State × Bool)
  | [] => .ok (s, false)
  | v :: vs =>
    match emplaceBack s o (if failAt = some 0 then .throws else .value v) slack with
    | .error e => .error e
    | .ok (s', true) => .ok (s', true)
    | .ok (s', false) => copyBack s' o (failAt.map (· - 1)) slack vs

/-- The elements of the vector at an address. -/
def elems (s : State) (o : Nat) : Except Fault (List Elem) :=
  match this s o with
  | .error e => .error e
  | .ok r => elemsOf s.mem r

/-- src/rust_vec.rs:111-115 `Drop for RustVec`: drop the elements, release the buffer.  The three
words at `o` keep their (now dangling) contents. -/
def dropVec (s : State) (o : Nat) : Except Fault State :=
  match this s o with
  | .error e => .error e
  | .ok r =>
    match elemsOf s.mem r with
    | .error e => .error e
    | .ok es =>
      match dropElems s.live es with
      | .error e => .error e
      | .ok l =>
        match dropRepr s.mem r with
        | .error e => .error e
        | .ok m => .ok { s with mem := m, live := l }

def emptyRepr : Repr := ⟨none, 0, 0⟩

/-- Build a vector holding the given values at `o`: the bodies of the initializer list and copy
constructors, include/cxx.h:869-880.  If copying throws, the delegating constructor's object is
destroyed. -/
def construct (s : State) (o : Nat) (failAt : Option Nat) (slack : Nat) (vs : List Nat) : Except Fault (State × Bool) :=
  match reserveTotal { s with mem := place s.mem o emptyRepr } o vs.length slack with
  | .error e => .error e
  | .ok s1 =>
    match copyBack s1 o failAt slack vs with
    | .error e => .error e
    | .ok (s2, false) => .ok (s2, false)
    | .ok (s2, true) =>
      match dropVec s2 o with
      | .error e => .error e
      | .ok s3 => .ok (s3, true)

def remove (s : State) (o : Nat) : State := { s with mem := { s.mem with objs := upd s.mem.objs o none } }

/-- Operations of a C++ program on vectors. -/
inductive Op
  | ctor (o : Nat)
  /-- Initializer list; copying the element at `failAt` throws. -/
  | initList (o : Nat) (vs : List Nat) (failAt : Option Nat) (slack : Nat)
  | copyCtor (o src : Nat) (failAt : Option Nat) (slack : Nat)
  | moveCtor (o src : Nat)
  | copyAssign (o src : Nat) (failAt : Option Nat) (slack : Nat)
  | moveAssign (o src : Nat)
  | push (o v slack : Nat)
  /-- `emplace_back` with arguments for which the element's constructor throws. -/
  | pushThrow (o slack : Nat)
  /-- `o.push_back(p[k])`. -/
  | pushFrom (o p k slack : Nat)
  /-- `o[k] = v`. -/
  | set (o k v : Nat)
  | at (o k : Nat)
  | reserve (o n slack : Nat)
  | truncate (o n : Nat)
  | clear (o : Nat)
  | swap (o p : Nat)
  | read (o : Nat)
  | destroy (o : Nat)

inductive Obs
  | done
  /-- An exception left the operation: the element's own, or `std::out_of_range`. -/
  | threw
  | value (v : Nat)
  | values (vs : List Nat)
  deriving DecidableEq

/-- src/rust_vec.rs:72-74 `truncate`: `alloc::vec::Vec::truncate` shortens first, then drops the tail. -/
def truncate (s : State) (o n : Nat) : Except Fault State :=
  match this s o with
  | .error e => .error e
  | .ok r =>
    match elemsOf s.mem r with
    | .error e => .error e
    | .ok es =>
      if n > r.len then .ok s
      else
        match dropElems s.live (es.drop n) with
        | .error e => .error e
        | .ok l => .ok { s with mem := place s.mem o { r with len := n }, live := l }

def step (s : State) : Op → Except Fault (State × Obs)
  -- src/symbols/rust_vec.rs:17-20
  | .ctor o =>
    match s.mem.objs o with
    | some _ => .error .illegal
    | none => .ok ({ s with mem := place s.mem o emptyRepr }, .done)
  -- include/cxx.h:869-872
  | .initList o vs failAt slack =>
    match s.mem.objs o with
    | some _ => .error .illegal
    | none =>
      match construct s o failAt slack vs with
      | .error e => .error e
      | .ok (s', false) => .ok (s', .done)
      | .ok (s', true) => .ok (remove s' o, .threw)
  -- include/cxx.h:875-878
  | .copyCtor o src failAt slack =>
    match s.mem.objs o, elems s src with
    | some _, _ => .error .illegal
    | none, .error e => .error e
    | none, .ok es =>
      match construct s o failAt slack (es.map (·.val)) with
      | .error e => .error e
      | .ok (s', false) => .ok (s', .done)
      | .ok (s', true) => .ok (remove s' o, .threw)
  -- include/cxx.h:881-883
  | .moveCtor o src =>
    match s.mem.objs o, s.mem.objs src with
    | none, some rs => .ok ({ s with mem := place (place s.mem o rs) src emptyRepr }, .done)
    | _, _ => .error .illegal
  -- include/cxx.h:899-905; an exception leaves whatever is in the three words
  | .copyAssign o src failAt slack =>
    match s.mem.objs o, s.mem.objs src with
    | some _, some _ =>
      if o ≠ src then
        match dropVec s o with
        | .error e => .error e
        | .ok s1 =>
          match elems s1 src with
          | .error e => .error e
          | .ok es =>
            match construct s1 o failAt slack (es.map (·.val)) with
            | .error e => .error e
            | .ok (s', false) => .ok (s', .done)
            | .ok (s', true) => .ok (s', .threw)
      else .ok (s, .done)
    | _, _ => .error .illegal
  -- include/cxx.h:891-896
  | .moveAssign o src =>
    match s.mem.objs o, s.mem.objs src with
    | some _, some _ =>
      match dropVec s o with
      | .error e => .error e
      | .ok s1 =>
        match s1.mem.objs src with
        | none => .error .illegal
        | some rs => .ok ({ s1 with mem := place (place s1.mem o rs) src emptyRepr }, .done)
    | _, _ => .error .illegal
  -- include/cxx.h:977-995
  | .push o v slack =>
    match emplaceBack s o (.value v) slack with
    | .error e => .error e
    | .ok (s', _) => .ok (s', .done)
  | .pushThrow o slack =>
    match emplaceBack s o .throws slack with
    | .error e => .error e
    | .ok (s', _) => .ok (s', .threw)
  | .pushFrom o p k slack =>
    match s.mem.objs o, s.mem.objs p with
    | some _, some rp =>
      if k < rp.len then
        match emplaceBack s o (.cell rp.buf k) slack with
        | .error e => .error e
        | .ok (s', _) => .ok (s', .done)
      else .error .illegal
    | _, _ => .error .illegal
  -- include/cxx.h:945-949 `operator[]`, then the element's assignment
  | .set o k v =>
    match s.mem.objs o with
    | none => .error .illegal
    | some r =>
      if k < r.len then
        match elemsOf s.mem r with
        | .error e => .error e
        | .ok es =>
          match es[k]? with
          | none => .error .ub
          | some e =>
            match poke s.mem r k { e with val := v } with
            | .error e => .error e
            | .ok m => .ok ({ s with mem := m }, .done)
      else .error .illegal
  -- include/cxx.h:925-930,952-957
  | .at o k =>
    match s.mem.objs o with
    | none => .error .illegal
    | some r =>
      if k ≥ r.len then .ok (s, .threw)
      else
        match (Arg.cell r.buf k).get s with
        | .error e => .error e
        | .ok none => .error .ub
        | .ok (some v) => .ok (s, .value v)
  -- include/cxx.h:971-974
  | .reserve o n slack =>
    match reserveTotal s o n slack with
    | .error e => .error e
    | .ok s' => .ok (s', .done)
  | .truncate o n =>
    match truncate s o n with
    | .error e => .error e
    | .ok s' => .ok (s', .done)
  -- include/cxx.h:997-1000
  | .clear o =>
    match truncate s o 0 with
    | .error e => .error e
    | .ok s' => .ok (s', .done)
  -- include/cxx.h:1033-1036
  | .swap o p =>
    match s.mem.objs o, s.mem.objs p with
    | some ro, some rp => .ok ({ s with mem := place (place s.mem o rp) p ro }, .done)
    | _, _ => .error .illegal
  | .read o =>
    match elems s o with
    | .error e => .error e
    | .ok es => .ok (s, .values (es.map (·.val)))
  -- include/cxx.h:886-888
  | .destroy o =>
    match dropVec s o with
    | .error e => .error e
    | .ok s' => .ok (remove s' o, .done)

end Verif.RustVec
