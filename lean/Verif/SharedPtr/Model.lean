import Verif.Common.Fn
/-!
# SharedPtr and WeakPtr

`std::shared_ptr` and `std::weak_ptr` are modelled by control blocks with two counts, as the C++
standard's `use_count` describes: the object is destroyed when the last shared pointer goes, the block is
freed when the last weak one has gone too.  The pointee is a number.  Each operation is one step: the
standard makes the counts atomic, so a history of steps covers every interleaving of threads.  Pointers
made by the aliasing constructor are not modelled.
-/
namespace Verif.SharedPtr
open Verif

/-- A control block: the object while it is alive, and the counts. -/
structure Block where
  obj : Option Nat
  strong : Nat
  weak : Nat
  deriving DecidableEq

/-- A variable, on either side of the bridge. -/
inductive Var
  | shared (p : Option Nat)
  | weak (p : Option Nat)
  deriving DecidableEq

structure State where
  blocks : Nat → Option Block
  next : Nat
  vars : Nat → Option Var
  /-- How often the object of a block was destroyed. -/
  drops : Nat → Nat

def init : State := ⟨fun _ => none, 0, fun _ => none, fun _ => 0⟩

def put (s : State) (o : Nat) (v : Var) : State := { s with vars := upd s.vars o (some v) }
def del (s : State) (o : Nat) : State := { s with vars := upd s.vars o none }

def setBlock (s : State) (i : Nat) (b : Block) : State := { s with blocks := upd s.blocks i (some b) }
/-- Free the block when nothing refers to it. -/
def sweep (s : State) (i : Nat) (b : Block) : State :=
  if b.strong = 0 ∧ b.weak = 0 then { s with blocks := upd s.blocks i none } else setBlock s i b

/-- Copy constructor of `std::shared_ptr`; gen/src/write.rs:1836-1842 `clone`. -/
def copyShared (s : State) : Option Nat → Except Fault State
  | none => .ok s
  | some i =>
    match s.blocks i with
    | some b => if b.strong = 0 then .error .ub else .ok (setBlock s i { b with strong := b.strong + 1 })
    | none => .error .ub

/-- Copy constructor of `std::weak_ptr`, and the one from `std::shared_ptr`; gen/src/write.rs:1891-1907
`clone`, `downgrade`. -/
def copyWeak (s : State) : Option Nat → Except Fault State
  | none => .ok s
  | some i =>
    match s.blocks i with
    | some b => .ok (setBlock s i { b with weak := b.weak + 1 })
    | none => .error .ub

/-- `~shared_ptr`; gen/src/write.rs:1854-1861 `drop`.  Also says which object was destroyed. -/
def dropShared (s : State) : Option Nat → Except Fault (State × Option Nat)
  | none => .ok (s, none)
  | some i =>
    match s.blocks i with
    | some b =>
      if b.strong = 0 then .error .ub
      else if b.strong = 1 then
        match b.obj with
        | none => .error .ub
        | some _ =>
          .ok ({ sweep s i { b with obj := none, strong := 0 } with drops := upd s.drops i (s.drops i + 1) }, some i)
      else .ok (setBlock s i { b with strong := b.strong - 1 }, none)
    | none => .error .ub

/-- `~weak_ptr`; gen/src/write.rs:1922-1929 `drop`. -/
def dropWeak (s : State) : Option Nat → Except Fault State
  | none => .ok s
  | some i =>
    match s.blocks i with
    | some b => if b.weak = 0 then .error .ub else .ok (sweep s i { b with weak := b.weak - 1 })
    | none => .error .ub

/-- `weak_ptr::lock`; gen/src/write.rs:1909-1920 `upgrade`. -/
def lock (s : State) : Option Nat → Except Fault (State × Option Nat)
  | none => .ok (s, none)
  | some i =>
    match s.blocks i with
    | some b => if b.strong = 0 then .ok (s, none) else .ok (setBlock s i { b with strong := b.strong + 1 }, some i)
    | none => .error .ub

/-- `shared_ptr(T *)` of a new object; gen/src/write.rs:1817-1833 `uninit`, then Rust writes the value
(src/shared_ptr.rs:264-270). -/
def newShared (s : State) (v : Nat) : State × Nat :=
  ({ s with blocks := upd s.blocks s.next (some ⟨some v, 1, 0⟩), next := s.next + 1 }, s.next)

/-- src/shared_ptr.rs:64-67 `as_ref`, read through. -/
def get (s : State) : Option Nat → Except Fault (Option Nat)
  | none => .ok none
  | some i =>
    match s.blocks i with
    | some ⟨some v, _, _⟩ => .ok (some v)
    | _ => .error .ub

inductive Op
  | null (o : Nat)
  | new (o v : Nat)
  | clone (o src : Nat)
  | downgrade (w src : Nat)
  | upgrade (o w : Nat)
  | weakNull (w : Nat)
  | weakClone (w src : Nat)
  /-- Of either kind of variable, in either language. -/
  | drop (o : Nat)
  | isNull (o : Nat)
  | asRef (o : Nat)
  | deref (o : Nat)
  /-- A move into a new variable; also a pointer passed or returned by value, which C++ moves out of
  memory that Rust then forgets (macro/src/expand.rs:612-625). -/
  | move (o src : Nat)
  /-- A Rust assignment. -/
  | assign (o src : Nat)
  /-- C++ writes to the object. -/
  | write (o v : Nat)
  | eq (o p : Nat)

inductive Obs
  | done
  | panicked
  /-- The object that was destroyed, if one was. -/
  | dropped (i : Option Nat)
  | bool (b : Bool)
  | value (v : Option Nat)
  deriving DecidableEq

/-- The destructor of whatever is at `o`. -/
def dropVar (s : State) (o : Nat) : Except Fault (State × Option Nat) :=
  match s.vars o with
  | some (.shared p) =>
    match dropShared s p with
    | .error e => .error e
    | .ok (s1, d) => .ok (del s1 o, d)
  | some (.weak p) =>
    match dropWeak s p with
    | .error e => .error e
    | .ok s1 => .ok (del s1 o, none)
  | none => .error .illegal

def sharedAt (s : State) (o : Nat) : Except Fault (Option Nat) :=
  match s.vars o with
  | some (.shared p) => .ok p
  | _ => .error .illegal

def refAt (s : State) (o : Nat) : Except Fault (Option Nat) :=
  match sharedAt s o with
  | .error e => .error e
  | .ok p => get s p

def step (s : State) (op : Op) : Except Fault (State × Obs) :=
  match op with
  -- src/shared_ptr.rs:31-38
  | .null o => if s.vars o = none then .ok (put s o (.shared none), .done) else .error .illegal
  -- src/shared_ptr.rs:41-51
  | .new o v =>
    if s.vars o = none then
      let (s1, i) := newShared s v
      .ok (put s1 o (.shared (some i)), .done)
    else .error .illegal
  -- src/shared_ptr.rs:95-103
  | .clone o src =>
    match s.vars o, s.vars src with
    | none, some (.shared p) =>
      match copyShared s p with
      | .error e => .error e
      | .ok s1 => .ok (put s1 o (.shared p), .done)
    | _, _ => .error .illegal
  -- src/shared_ptr.rs:74-85
  | .downgrade w src =>
    match s.vars w, s.vars src with
    | none, some (.shared p) =>
      match copyWeak s p with
      | .error e => .error e
      | .ok s1 => .ok (put s1 w (.weak p), .done)
    | _, _ => .error .illegal
  -- src/weak_ptr.rs:43-54
  | .upgrade o w =>
    match s.vars o, s.vars w with
    | none, some (.weak p) =>
      match lock s p with
      | .error e => .error e
      | .ok (s1, q) => .ok (put s1 o (.shared q), .done)
    | _, _ => .error .illegal
  -- src/weak_ptr.rs:30-37
  | .weakNull w => if s.vars w = none then .ok (put s w (.weak none), .done) else .error .illegal
  -- src/weak_ptr.rs:64-72
  | .weakClone w src =>
    match s.vars w, s.vars src with
    | none, some (.weak p) =>
      match copyWeak s p with
      | .error e => .error e
      | .ok s1 => .ok (put s1 w (.weak p), .done)
    | _, _ => .error .illegal
  -- src/shared_ptr.rs:114-117, src/weak_ptr.rs:79-82
  | .drop o =>
    match dropVar s o with
    | .error e => .error e
    | .ok (s1, d) => .ok (s1, .dropped d)
  -- src/shared_ptr.rs:56-60
  | .isNull o =>
    match sharedAt s o with
    | .error e => .error e
    | .ok p => .ok (s, .bool p.isNone)
  | .asRef o =>
    match refAt s o with
    | .error e => .error e
    | .ok v => .ok (s, .value v)
  -- src/shared_ptr.rs:126-134
  | .deref o =>
    match refAt s o with
    | .error e => .error e
    | .ok none => .ok (s, .panicked)
    | .ok (some v) => .ok (s, .value (some v))
  | .move o src =>
    match s.vars o, s.vars src with
    | none, some v => .ok (del (put s o v) src, .done)
    | _, _ => .error .illegal
  | .assign o src =>
    match s.vars o, s.vars src with
    | some _, some v =>
      if o = src then .error .illegal
      else match dropVar s o with
      | .error e => .error e
      | .ok (s1, d) => .ok (del (put s1 o v) src, .dropped d)
    | _, _ => .error .illegal
  | .write o v =>
    match s.vars o with
    | some (.shared (some i)) =>
      match s.blocks i with
      | some ⟨some _, st, w⟩ => .ok (setBlock s i ⟨some v, st, w⟩, .done)
      | _ => .error .ub
    | _ => .error .illegal
  -- src/shared_ptr.rs:165-167
  | .eq o p =>
    match refAt s o, refAt s p with
    | .ok x, .ok y => .ok (s, .bool (x == y))
    | .error e, _ => .error e
    | _, .error e => .error e

end Verif.SharedPtr
