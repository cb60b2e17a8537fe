import Verif.Common.Owner
/-!
# UniquePtr

Program variables are Rust `UniquePtr`s, C++ `std::unique_ptr`s and raw pointers.  `std::unique_ptr` is
one pointer whose destructor deletes what it points to.  The pointee is a number.  The representation in
Rust is a bit copy of the C++ one, so the shims that take it by value work on a copy.
-/
namespace Verif.UniquePtr
open Verif Owner

inductive Kind
  | rust | cxx | raw
  deriving DecidableEq

abbrev State := Owner.State Kind

/-- `o`, `p`, `src` are Rust variables, `c` and `d` C++ ones, `h` raw pointers. -/
inductive Op
  | null (o : Nat)
  | new (o v : Nat)
  | isNull (o : Nat)
  | asRef (o : Nat)
  | deref (o : Nat)
  /-- Write through `as_mut`. -/
  | asMut (o v : Nat)
  /-- Write through `pin_mut` or `deref_mut`. -/
  | pinMut (o v : Nat)
  | intoRaw (o h : Nat)
  | fromRaw (o h : Nat)
  /-- A Rust move into a new variable, and an assignment. -/
  | move (o src : Nat)
  | assign (o src : Nat)
  | drop (o : Nat)
  /-- Passed by value to C++, and returned by value from it. -/
  | toCxx (o c : Nat)
  | toRust (o c : Nat)
  | cxxMake (c v : Nat)
  | cxxDestroy (c : Nat)
  | eq (o p : Nat)
  | cmp (o p : Nat)

inductive Obs
  | done
  | panicked
  | bool (b : Bool)
  | value (v : Option Nat)
  | ord (r : Ordering)
  deriving DecidableEq

/-- gen/src/write.rs:1763-1779 `drop`: `ptr->~unique_ptr()`, which deletes a non-null pointee; src/unique_ptr.rs:145-152.
The static assertion at 1685-1696 makes the pointee complete, so `deleter_if` is the true one. -/
def shimDrop (s : State) : Option Nat → Except Fault State
  | none => .ok s
  | some i => Owner.destroy s i

/-- gen/src/write.rs:1745-1752 `get`, src/unique_ptr.rs:98-100 `as_ptr`. -/
def shimGet (repr : Option Nat) : Option Nat := repr

/-- gen/src/write.rs:1754-1761 `release`: what is returned, and the (copied) representation left. -/
def shimRelease (repr : Option Nat) : Option Nat × Option Nat := (repr, none)

/-- gen/src/write.rs:1718-1734 `uninit`, then the Rust side writes the value (macro/src/expand.rs:1467-1481). -/
def shimNew (s : State) (v : Nat) : Except Fault (State × Nat) :=
  let (s1, i) := alloc s
  match construct s1 i v with
  | .error e => .error e
  | .ok s2 => .ok (s2, i)

/-- src/unique_ptr.rs:65-68 `as_ref`, read through. -/
def asRef (s : State) (repr : Option Nat) : Except Fault (Option Nat) :=
  match shimGet repr with
  | none => .ok none
  | some i =>
    match Owner.get s i with
    | .error e => .error e
    | .ok v => .ok (some v)

/-- The Rust variable at `o`. -/
def this (s : State) (o : Nat) : Except Fault (Option Nat) :=
  match s.objs o with
  | some (.rust, p) => .ok p
  | _ => .error .illegal

def refAt (s : State) (o : Nat) : Except Fault (Option Nat) :=
  match this s o with
  | .error e => .error e
  | .ok p => asRef s p

/-- `Ord for Option`: `None` is least. -/
def optCmp : Option Nat → Option Nat → Ordering
  | none, none => .eq
  | none, some _ => .lt
  | some _, none => .gt
  | some a, some b => compare a b

def step (s : State) : Op → Except Fault (State × Obs)
  -- src/unique_ptr.rs:38-43
  | .null o =>
    match s.objs o with
    | some _ => .error .illegal
    | none => .ok (put s o .rust none, .done)
  -- src/unique_ptr.rs:46-54
  | .new o v =>
    match s.objs o with
    | some _ => .error .illegal
    | none =>
      match shimNew s v with
      | .error e => .error e
      | .ok (s1, i) => .ok (put s1 o .rust (some i), .done)
  -- src/unique_ptr.rs:59-61
  | .isNull o =>
    match this s o with
    | .error e => .error e
    | .ok p => .ok (s, .bool (shimGet p).isNone)
  | .asRef o =>
    match refAt s o with
    | .error e => .error e
    | .ok v => .ok (s, .value v)
  -- src/unique_ptr.rs:154-169
  | .deref o =>
    match refAt s o with
    | .error e => .error e
    | .ok none => .ok (s, .panicked)
    | .ok (some v) => .ok (s, .value (some v))
  -- src/unique_ptr.rs:72-78; nothing to write to when null
  | .asMut o v =>
    match this s o with
    | .error e => .error e
    | .ok p =>
      match shimGet p with
      | none => .ok (s, .bool false)
      | some i =>
        match Owner.write s i v with
        | .error e => .error e
        | .ok s1 => .ok (s1, .bool true)
  -- src/unique_ptr.rs:86-94, 171-186
  | .pinMut o v =>
    match this s o with
    | .error e => .error e
    | .ok p =>
      match shimGet p with
      | none => .ok (s, .panicked)
      | some i =>
        match Owner.write s i v with
        | .error e => .error e
        | .ok s1 => .ok (s1, .done)
  -- src/unique_ptr.rs:116-120: release from a copy, then forget the variable
  | .intoRaw o h =>
    match s.objs o, s.objs h with
    | some (.rust, p), none => .ok (del (put s h .raw (shimRelease p).1) o, .done)
    | _, _ => .error .illegal
  -- src/unique_ptr.rs:130-135; the program gives up its raw pointer
  | .fromRaw o h =>
    match s.objs o, s.objs h with
    | none, some (.raw, p) => .ok (del (put s o .rust p) h, .done)
    | _, _ => .error .illegal
  | .move o src =>
    match s.objs o, s.objs src with
    | none, some (.rust, p) => .ok (del (put s o .rust p) src, .done)
    | _, _ => .error .illegal
  | .assign o src =>
    match s.objs o, s.objs src with
    | some (.rust, q), some (.rust, p) =>
      if o = src then .error .illegal
      else match shimDrop s q with
      | .error e => .error e
      | .ok s1 => .ok (del (put s1 o .rust p) src, .done)
    | _, _ => .error .illegal
  | .drop o =>
    match this s o with
    | .error e => .error e
    | .ok p =>
      match shimDrop s p with
      | .error e => .error e
      | .ok s1 => .ok (del s1 o, .done)
  -- macro/src/expand.rs:548-553 `into_raw`, gen/src/write.rs:859-861 `unique_ptr(arg)`
  | .toCxx o c =>
    match s.objs o, s.objs c with
    | some (.rust, p), none => .ok (del (put s c .cxx (shimRelease p).1) o, .done)
    | _, _ => .error .illegal
  -- gen/src/write.rs:883 `.release()`, macro/src/expand.rs:676-682 `from_raw`; the C++ variable is
  -- left empty
  | .toRust o c =>
    match s.objs o, s.objs c with
    | none, some (.cxx, p) => .ok (put (put s o .rust (shimRelease p).1) c .cxx (shimRelease p).2, .done)
    | _, _ => .error .illegal
  -- C++ code of the user
  | .cxxMake c v =>
    match s.objs c with
    | some _ => .error .illegal
    | none =>
      match shimNew s v with
      | .error e => .error e
      | .ok (s1, i) => .ok (put s1 c .cxx (some i), .done)
  | .cxxDestroy c =>
    match s.objs c with
    | some (.cxx, p) =>
      match shimDrop s p with
      | .error e => .error e
      | .ok s1 => .ok (del s1 c, .done)
    | _ => .error .illegal
  -- src/unique_ptr.rs:210-217
  | .eq o p =>
    match refAt s o, refAt s p with
    | .ok x, .ok y => .ok (s, .bool (x == y))
    | .error e, _ => .error e
    | _, .error e => .error e
  -- src/unique_ptr.rs:221-237
  | .cmp o p =>
    match refAt s o, refAt s p with
    | .ok x, .ok y => .ok (s, .ord (optCmp x y))
    | .error e, _ => .error e
    | _, .error e => .error e

end Verif.UniquePtr
