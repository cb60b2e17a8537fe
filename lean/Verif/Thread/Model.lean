/-!
# Smart pointers and threads

Which types are `Send` and `Sync`, and what safe Rust code can do with values of them on several threads.  Structs are
nests of pairs, vectors are lists of pairs; both own what they contain.  Reference counts are left out (they are in
`Verif/SharedPtr`): the last owner of an object is any one of its owners.
-/
namespace Verif.Thread

abbrev ThreadId := Nat

/-- Whether a type is `Send` and whether it is `Sync`. -/
structure Traits where
  send : Bool
  sync : Bool
  deriving DecidableEq, Repr

/-- A Rust type: the ones of src/unique_ptr.rs:23-30, src/shared_ptr.rs:16-23, src/weak_ptr.rs:12-19 and
src/cxx_vector.rs:25-34, and others. -/
inductive RTy
  /-- Any other type, with what the compiler knows of it. -/
  | base (b : Traits)
  | pair (a b : RTy)
  /-- `CxxVector<T>` -/
  | vector (t : RTy)
  /-- `UniquePtr<T>` -/
  | uniq (t : RTy)
  /-- `SharedPtr<T>` -/
  | shared (t : RTy)
  /-- `WeakPtr<T>` -/
  | weak (t : RTy)
  deriving DecidableEq, Repr

/-- The rule of the language for types without an implementation of their own: all fields are. -/
def auto (fields : List Traits) : Traits := ⟨fields.all (·.send), fields.all (·.sync)⟩

/-- `*const T`, `*mut T` are neither (rule of the language, relied on in src/opaque.rs:19). -/
def rawPtr : Traits := ⟨false, false⟩

/-- `u8`, `c_void`, `PhantomPinned` and `&'a ()` are both (core library). -/
def plain : Traits := ⟨true, true⟩

/-- `UnsafeCell<T>`: never `Sync` (core library). -/
def unsafeCell (t : Traits) : Traits := ⟨t.send, false⟩

/-- src/opaque.rs:26-30 `SyncUnsafeCell`. -/
def syncUnsafeCell (t : Traits) : Traits := ⟨(auto [unsafeCell t]).send, true⟩

/-- src/opaque.rs:17-22 `Opaque`. -/
def opaque' : Traits := auto [rawPtr, plain, syncUnsafeCell plain]

/-- macro/src/expand.rs:381-420 `expand_cxx_type`, with the given number of lifetimes. -/
def cxxType (lifetimes : Nat) : Traits := auto (opaque' :: List.replicate lifetimes plain)

/-- src/cxx_string.rs:44-48 `CxxString`. -/
def cxxString : Traits := auto [plain, plain]

/-- src/cxx_vector.rs:25-34 `CxxVector`, src/unique_ptr.rs:138-139, src/shared_ptr.rs:88-89 and src/weak_ptr.rs:57-58.
A pair stands for a shared struct (macro/src/expand.rs:157-200) with two fields. -/
def traits : RTy → Traits
  | .base b => b
  | .pair a b => auto [traits a, traits b]
  | .vector t => auto [plain, traits t, plain]
  | .uniq t => ⟨(traits t).send, (traits t).sync⟩
  | .shared t => ⟨(traits t).send && (traits t).sync, (traits t).send && (traits t).sync⟩
  | .weak t => ⟨(traits t).send && (traits t).sync, (traits t).send && (traits t).sync⟩

/-- A value.  `obj` is an object of a type `base`, `shared` and `weak` point to a control block. -/
inductive Val
  | obj (o : Nat)
  | nil
  | pair (v w : Val)
  | null
  | uniq (v : Val)
  | shared (b : Nat)
  | weak (b : Nat)
  deriving DecidableEq, Repr

/-- A variable of a thread. -/
structure Slot where
  owner : ThreadId
  ty : RTy
  val : Val

/-- A control block with the object it manages, and the thread that made it. -/
structure Block where
  home : ThreadId
  ty : RTy
  val : Val

/-- An object of a type `base`, and the thread that made it. -/
structure Object where
  home : ThreadId
  traits : Traits

structure State where
  objs : Nat → Option Object
  blocks : Nat → Option Block
  vars : Nat → Option Slot
  /-- `(k, x)`: the thread `k` has a shared reference to the variable `x`. -/
  loans : List (ThreadId × Nat)

def init : State := ⟨fun _ => none, fun _ => none, fun _ => none, []⟩

def upd {α : Type} (f : Nat → Option α) (i : Nat) (v : Option α) : Nat → Option α := fun j => if j = i then v else f j

def State.put (s : State) (x : Nat) (v : Slot) : State := { s with vars := upd s.vars x (some v) }
def State.del (s : State) (x : Nat) : State := { s with vars := upd s.vars x none }

/-- A step of a path to a place. -/
inductive Proj
  | fst | snd
  | deref
  deriving DecidableEq, Repr

/-- The place at the end of a path.  `deref`: src/unique_ptr.rs:65-68 and src/shared_ptr.rs:64-67 `as_ref`;
src/cxx_vector.rs:67-73 `get`. -/
def place (s : State) : List Proj → RTy × Val → Option (RTy × Val)
  | [], p => some p
  | .fst :: ps, (.pair a _, .pair v _) => place s ps (a, v)
  | .snd :: ps, (.pair _ b, .pair _ w) => place s ps (b, w)
  | .fst :: ps, (.vector t, .pair v _) => place s ps (t, v)
  | .snd :: ps, (.vector t, .pair _ w) => place s ps (.vector t, w)
  | .deref :: ps, (.uniq t, .uniq v) => place s ps (t, v)
  | .deref :: ps, (.shared _, .shared b) =>
    match s.blocks b with
    | some c => place s ps (c.ty, c.val)
    | none => none
  | _, _ => none

/-- Where a mutable reference leads; not through a `SharedPtr`.  src/unique_ptr.rs:72-78 `as_mut`, src/cxx_vector.rs:81-87
`index_mut`. -/
def placeMut : List Proj → RTy × Val → Option (RTy × Val)
  | [], p => some p
  | .fst :: ps, (.pair a _, .pair v _) => placeMut ps (a, v)
  | .snd :: ps, (.pair _ b, .pair _ w) => placeMut ps (b, w)
  | .fst :: ps, (.vector t, .pair v _) => placeMut ps (t, v)
  | .snd :: ps, (.vector t, .pair _ w) => placeMut ps (.vector t, w)
  | .deref :: ps, (.uniq t, .uniq v) => placeMut ps (t, v)
  | _, _ => none

/-- The objects a value owns, not counting those behind a control block. -/
def owned : Val → List Nat
  | .obj o => [o]
  | .pair v w => owned v ++ owned w
  | .uniq v => owned v
  | _ => []

/-- The control blocks a value points to as one of the owners. -/
def strong : Val → List Nat
  | .shared b => [b]
  | .pair v w => strong v ++ strong w
  | .uniq v => strong v
  | _ => []

/-- The destructor goes on from block to block: each one of the list is owned by the value or by the object of a block
before it. -/
def cascade (s : State) : (avail last : List Nat) → Bool
  | _, [] => true
  | avail, b :: rest =>
    decide (b ∈ avail) && cascade s (avail ++ (match s.blocks b with | some c => strong c.val | none => [])) rest

/-- What happens to an object. -/
inductive Access
  | read | write | destroy
  deriving DecidableEq, Repr

/-- `thread` does `access` to the object `obj`. -/
structure Event where
  thread : ThreadId
  access : Access
  obj : Nat
  deriving DecidableEq, Repr

/-- What safe code can do.  `x`, `y`, `z` are variables. -/
inductive Op
  /-- Make an object `o`, of a type with the traits `b`, in `x`. -/
  | make (x o : Nat) (b : Traits)
  /-- `let y = UniquePtr::new(x)`, or C++ returns a `UniquePtr`. -/
  | unique (x y : Nat)
  /-- `let y = SharedPtr::new(x)`, or C++ returns a `SharedPtr`, with the new control block `b`. -/
  | share (x y b : Nat)
  /-- `let y = UniquePtr::null()` and the like. -/
  | null (y : Nat) (t : RTy)
  /-- `let z = S { x, y }` -/
  | pack (x y z : Nat)
  /-- `let S { y, z } = x` -/
  | unpack (x y z : Nat)
  /-- `let y = CxxVector::new()` -/
  | vector (y : Nat) (t : RTy)
  /-- `x.pin_mut().push(y)`: as the first element. -/
  | push (x y : Nat)
  /-- `let y = x.pin_mut().pop()`: of a vector that is not empty. -/
  | pop (x y : Nat)
  /-- `let y = x.path.clone()` of a `SharedPtr` or `WeakPtr` -/
  | clone (x : Nat) (path : List Proj) (y : Nat)
  /-- `let y = x.path.downgrade()` -/
  | downgrade (x : Nat) (path : List Proj) (y : Nat)
  /-- `let y = x.path.upgrade()`, with the result null if not `alive` -/
  | upgrade (x : Nat) (path : List Proj) (y : Nat) (alive : Bool)
  /-- Read the value at `x.path`. -/
  | read (x : Nat) (path : List Proj)
  /-- Write to the value at `x.path`. -/
  | write (x : Nat) (path : List Proj)
  /-- `drop(x)`: with it go the objects of those control blocks of which it is the last owner, `last`. -/
  | drop (x : Nat) (last : List Nat)
  /-- Move `x` to the thread `k`. -/
  | send (x : Nat) (k : ThreadId)
  /-- Give `&x` to the thread `k`. -/
  | lend (x : Nat) (k : ThreadId)
  /-- The thread is done with `&x`. -/
  | giveBack (x : Nat)

/-- The variable `x`, if thread `k` may move it, drop it or change it. -/
def mine (s : State) (k : ThreadId) (x : Nat) : Option Slot :=
  match s.vars x with
  | some v => if v.owner = k ∧ ∀ l ∈ s.loans, l.2 ≠ x then some v else none
  | none => none

/-- The variable `x`, if thread `k` may look at it. -/
def visible (s : State) (k : ThreadId) (x : Nat) : Option Slot :=
  match s.vars x with
  | some v => if v.owner = k ∨ (k, x) ∈ s.loans then some v else none
  | none => none

/-- A new variable. -/
def fresh (s : State) (x : Nat) : Option Unit := if (s.vars x).isNone then some () else none

/-- One step of thread `k`; `none` if the compiler does not accept it. -/
def step (s : State) (k : ThreadId) : Op → Option (State × List Event)
  | .make x o b => do
    fresh s x
    guard (s.objs o).isNone
    some ({ s.put x ⟨k, .base b, .obj o⟩ with objs := upd s.objs o (some ⟨k, b⟩) }, [])
  | .unique x y => do
    let v ← mine s k x
    fresh (s.del x) y
    some ((s.del x).put y ⟨k, .uniq v.ty, .uniq v.val⟩, [])
  | .share x y b => do
    let v ← mine s k x
    fresh (s.del x) y
    guard (s.blocks b).isNone
    some ({ (s.del x).put y ⟨k, .shared v.ty, .shared b⟩ with blocks := upd s.blocks b (some ⟨k, v.ty, v.val⟩) }, [])
  | .null y t => do
    fresh s y
    match t with
    | .uniq _ | .shared _ | .weak _ => some (s.put y ⟨k, t, .null⟩, [])
    | _ => none
  | .pack x y z => do
    let v ← mine s k x
    let w ← mine s k y
    guard (x ≠ y)
    fresh ((s.del x).del y) z
    some (((s.del x).del y).put z ⟨k, .pair v.ty w.ty, .pair v.val w.val⟩, [])
  | .unpack x y z => do
    let v ← mine s k x
    fresh (s.del x) y
    fresh (s.del x) z
    guard (y ≠ z)
    match v.ty, v.val with
    | .pair a b, .pair v w => some (((s.del x).put y ⟨k, a, v⟩).put z ⟨k, b, w⟩, [])
    | _, _ => none
  | .vector y t => do
    fresh s y
    some (s.put y ⟨k, .uniq (.vector t), .uniq .nil⟩, [])
  | .push x y => do
    let v ← mine s k x
    let w ← mine s k y
    guard (x ≠ y)
    match v.ty, v.val with
    | .uniq (.vector t), .uniq vs =>
      if w.ty = t then some ((s.del y).put x ⟨k, .uniq (.vector t), .uniq (.pair w.val vs)⟩, []) else none
    | _, _ => none
  | .pop x y => do
    let v ← mine s k x
    fresh s y
    match v.ty, v.val with
    | .uniq (.vector t), .uniq (.pair w vs) =>
      some ((s.put x ⟨k, .uniq (.vector t), .uniq vs⟩).put y ⟨k, t, w⟩, [])
    | _, _ => none
  | .clone x path y => do
    let v ← visible s k x
    fresh s y
    match ← place s path (v.ty, v.val) with
    | (.shared t, .shared b) => some (s.put y ⟨k, .shared t, .shared b⟩, [])
    | (.weak t, .weak b) => some (s.put y ⟨k, .weak t, .weak b⟩, [])
    | _ => none
  | .downgrade x path y => do
    let v ← visible s k x
    fresh s y
    match ← place s path (v.ty, v.val) with
    | (.shared t, .shared b) => some (s.put y ⟨k, .weak t, .weak b⟩, [])
    | _ => none
  | .upgrade x path y alive => do
    let v ← visible s k x
    fresh s y
    match ← place s path (v.ty, v.val) with
    | (.weak t, .weak b) => some (s.put y ⟨k, .shared t, if alive then .shared b else .null⟩, [])
    | _ => none
  | .read x path => do
    let v ← visible s k x
    let p ← place s path (v.ty, v.val)
    some (s, (owned p.2).map (⟨k, .read, ·⟩))
  | .write x path => do
    let v ← mine s k x
    let p ← placeMut path (v.ty, v.val)
    some (s, (owned p.2).map (⟨k, .write, ·⟩))
  | .drop x last => do
    let v ← mine s k x
    guard (cascade s (strong v.val) last)
    some (s.del x, (owned v.val).map (⟨k, .destroy, ·⟩) ++
      last.flatMap (fun b => match s.blocks b with | some c => (owned c.val).map (⟨k, .destroy, ·⟩) | none => []))
  | .send x j => do
    let v ← mine s k x
    if (traits v.ty).send then some (s.put x { v with owner := j }, []) else none
  | .lend x j => do
    let v ← visible s k x
    if (traits v.ty).sync then some ({ s with loans := (j, x) :: s.loans }, []) else none
  | .giveBack x => some ({ s with loans := s.loans.filter (fun l => decide (l ≠ (k, x))) }, [])

/-- The states and events of a program: any interleaving of the steps of its threads. -/
inductive Run : State → List Event → Prop
  | init : Run init []
  | step {s s' : State} {es es' : List Event} (k : ThreadId) (op : Op) (h : Run s es)
      (hs : step s k op = some (s', es')) : Run s' (es ++ es')

end Verif.Thread
