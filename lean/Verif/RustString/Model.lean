import Verif.Common.Fn
import Verif.Utf8.Model
/-!
# rust::String as a heap machine

Objects live at addresses chosen by the program.  A `rust::String` is three words; here a record of
buffer, length and capacity.  Buffers live in a heap; a freed or never allocated buffer is `none`.
-/
namespace Verif.RustString
open Verif Utf8

/-- A heap buffer: one cell per byte of capacity, `none` while uninitialised. -/
abbrev Buf := List (Option Nat)

/-- The representation of `alloc::string::String`: include/cxx.h `rust::String::repr` is these three
words.  `buf = none` is the dangling pointer of a string with capacity 0. -/
structure Repr where
  buf : Option Nat
  len : Nat
  cap : Nat
  deriving DecidableEq

structure State where
  heap : Nat → Option Buf
  /-- Addresses at and above `next` have never been allocated. -/
  next : Nat
  objs : Nat → Option Repr

def init : State := ⟨fun _ => none, 0, fun _ => none⟩

/-- `alloc` of a buffer with the given cells. -/
def alloc (s : State) (b : Buf) : State × Nat :=
  ({ s with heap := upd s.heap s.next (some b), next := s.next + 1 }, s.next)

/-- `dealloc`. -/
def free (s : State) (i : Nat) : Except Fault State :=
  match s.heap i with
  | none => .error .ub
  | some _ => .ok { s with heap := upd s.heap i none }

/-- The bytes a `String` shows: `len` initialised bytes at its buffer. -/
def bytesOf (s : State) (r : Repr) : Except Fault (List Nat) :=
  match r.buf with
  | none => if r.len = 0 then .ok [] else .error .ub
  | some i =>
    match s.heap i with
    | none => .error .ub
    | some b =>
      let cells := b.take r.len
      if cells.length = r.len ∧ cells.all (·.isSome) then .ok (cells.filterMap id) else .error .ub

/-- `ptr::write(this, s.to_owned())`: a new string with exactly the given bytes; empty strings do not
allocate. -/
def fromBytes (s : State) (bs : List Nat) : State × Repr :=
  if bs.length = 0 then (s, ⟨none, 0, 0⟩)
  else
    let (s', i) := alloc s (bs.map some)
    (s', ⟨some i, bs.length, bs.length⟩)

/-- src/symbols/rust_string.rs:83-86 `string_drop`. -/
def dropRepr (s : State) (r : Repr) : Except Fault State :=
  match r.buf with
  | none => .ok s
  | some i => free s i

/-- `String::reserve`: when the spare capacity is too small, move to a larger buffer.  The new
capacity is at least what is needed; how much more is up to the allocator (`slack`).  The old
buffer's cells are copied and the old buffer freed. -/
def reserve (s : State) (r : Repr) (additional slack : Nat) : Except Fault (State × Repr) :=
  if r.cap - r.len < additional then
    let cap := r.len + additional + slack
    match r.buf with
    | none =>
      let (s', i) := alloc s (List.replicate cap none)
      .ok (s', ⟨some i, r.len, cap⟩)
    | some j =>
      match s.heap j with
      | none => .error .ub
      | some b =>
        let (s', i) := alloc s (b ++ List.replicate (cap - b.length) none)
        match free s' j with
        | .error e => .error e
        | .ok s'' => .ok (s'', ⟨some i, r.len, cap⟩)
  else .ok (s, r)

/-- Store one byte at an index of a string's buffer. -/
def poke (s : State) (r : Repr) (k v : Nat) : Except Fault State :=
  match r.buf with
  | none => .error .ub
  | some i =>
    match s.heap i with
    | none => .error .ub
    | some b => if k < b.length then .ok { s with heap := upd s.heap i (some (b.set k (some v))) } else .error .ub

/-- Operations a C++ program can perform on strings, each naming the addresses of the objects.
Operations which may allocate carry the allocator's choice `slack`. -/
inductive Op
  | ctor (o : Nat)
  | ctorBytes (o : Nat) (bytes : List Nat)
  | ctorUnits (o : Nat) (units : List Nat)
  | ctorLossy (o : Nat) (bytes : List Nat)
  | ctorLossy16 (o : Nat) (units : List Nat)
  | copyCtor (o src : Nat)
  | moveCtor (o src : Nat)
  | copyAssign (o src : Nat)
  | moveAssign (o src : Nat)
  | reserve (o n slack : Nat)
  | cStr (o slack : Nat)
  | swap (o p : Nat)
  | read (o : Nat)
  | destroy (o : Nat)

/-- What the program sees. -/
inductive Obs
  | done
  /-- `std::invalid_argument` was thrown. -/
  | threw
  /-- `data()`/`size()`, or the memory at the pointer returned by `c_str()`. -/
  | bytes (bs : List Nat)
  deriving DecidableEq

/-- Create an object at a free address. -/
def place (s : State) (o : Nat) (r : Repr) : State := { s with objs := upd s.objs o (some r) }

def step (s : State) : Op → Except Fault (State × Obs)
  -- src/cxx.cc:95, src/symbols/rust_string.rs:10-15
  | .ctor o =>
    match s.objs o with
    | some _ => .error .illegal
    | none => .ok (place s o ⟨none, 0, 0⟩, .done)
  -- src/cxx.cc:107-111,126-131, src/symbols/rust_string.rs:24-40
  | .ctorBytes o bs =>
    match s.objs o with
    | some _ => .error .illegal
    | none =>
      match stringCtorStd bs with
      | .error _ => .ok (s, .threw)
      | .ok t => let (s', r) := fromBytes s t; .ok (place s' o r, .done)
  -- src/cxx.cc:113-117,146-153, src/symbols/rust_string.rs:54-69
  | .ctorUnits o us =>
    match s.objs o with
    | some _ => .error .illegal
    | none =>
      match stringCtor16 (.mem us) us.length with
      | .error _ => .ok (s, .threw)
      | .ok t => let (s', r) := fromBytes s t; .ok (place s' o r, .done)
  -- src/cxx.cc:157-161,170-182, src/symbols/rust_string.rs:42-52
  | .ctorLossy o bs =>
    match s.objs o with
    | some _ => .error .illegal
    | none => let (s', r) := fromBytes s (fromUtf8Lossy bs); .ok (place s' o r, .done)
  -- src/cxx.cc:163-168,184-194, src/symbols/rust_string.rs:71-81
  | .ctorLossy16 o us =>
    match s.objs o with
    | some _ => .error .illegal
    | none => let (s', r) := fromBytes s (fromUtf16Lossy us); .ok (place s' o r, .done)
  -- src/cxx.cc:97-99, src/symbols/rust_string.rs:17-22
  | .copyCtor o src =>
    match s.objs o, s.objs src with
    | none, some rs =>
      match bytesOf s rs with
      | .error e => .error e
      | .ok bs => let (s', r) := fromBytes s bs; .ok (place s' o r, .done)
    | _, _ => .error .illegal
  -- src/cxx.cc:101-103
  | .moveCtor o src =>
    match s.objs o, s.objs src with
    | none, some rs => .ok (place (place s o rs) src ⟨none, 0, 0⟩, .done)
    | _, _ => .error .illegal
  -- src/cxx.cc:196-202
  | .copyAssign o src =>
    match s.objs o, s.objs src with
    | some ro, some rs =>
      if o ≠ src then
        match dropRepr s ro with
        | .error e => .error e
        | .ok s1 =>
          match bytesOf s1 rs with
          | .error e => .error e
          | .ok bs => let (s2, r) := fromBytes s1 bs; .ok (place s2 o r, .done)
      else .ok (s, .done)
    | _, _ => .error .illegal
  -- src/cxx.cc:204-209
  | .moveAssign o src =>
    match s.objs o, s.objs src with
    | some ro, some _ =>
      match dropRepr s ro with
      | .error e => .error e
      | .ok s1 =>
        match s1.objs src with
        | none => .error .illegal
        | some rs => .ok (place (place s1 o rs) src ⟨none, 0, 0⟩, .done)
    | _, _ => .error .illegal
  -- src/cxx.cc:241-243, src/symbols/rust_string.rs:108-114
  | .reserve o n slack =>
    match s.objs o with
    | none => .error .illegal
    | some r =>
      if r.cap < n then
        match reserve s r (n - r.len) slack with
        | .error e => .error e
        | .ok (s', r') => .ok (place s' o r', .done)
      else .ok (s, .done)
  -- src/cxx.cc:229-235, src/symbols/rust_string.rs:103-106
  | .cStr o slack =>
    match s.objs o with
    | none => .error .illegal
    | some r =>
      match reserve s r 1 slack with
      | .error e => .error e
      | .ok (s', r') =>
        match poke s' r' r.len 0 with
        | .error e => .error e
        | .ok s'' =>
          match bytesOf s'' { r' with len := r.len + 1 } with
          | .error e => .error e
          | .ok bs => .ok (place s'' o r', .bytes bs)
  -- src/cxx.cc:287-289
  | .swap o p =>
    match s.objs o, s.objs p with
    | some ro, some rp => .ok (place (place s o rp) p ro, .done)
    | _, _ => .error .illegal
  -- src/cxx.cc:215-225
  | .read o =>
    match s.objs o with
    | none => .error .illegal
    | some r =>
      match bytesOf s r with
      | .error e => .error e
      | .ok bs => .ok (s, .bytes bs)
  -- src/cxx.cc:105
  | .destroy o =>
    match s.objs o with
    | none => .error .illegal
    | some r =>
      match dropRepr s r with
      | .error e => .error e
      | .ok s' => .ok ({ s' with objs := upd s'.objs o none }, .done)

end Verif.RustString
