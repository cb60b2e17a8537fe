import Verif.Common.Fn
/-!
# Panics and the boundary to C++

The call stack of a process in which Rust and C++ call each other, at any depth.  The program decides
what the top function does next; unwinding is what the language and the generated shims do.
-/
namespace Verif.Unwind
open Verif

/-- The functions exported to C++. -/
inductive Shim
  /-- User functions and trampolines of function pointers. -/
  | function
  | operator
  | boxDrop | boxAlloc | boxDealloc
  | vecNew | vecDrop | vecLen | vecCapacity | vecData | vecReserveTotal | vecSetLen | vecTruncate
  /-- `rust::String` members of the runtime which may allocate. -/
  | stringReserve
  deriving DecidableEq

/-- Whether the body runs inside `prevent_unwind`: macro/src/expand.rs:1156 (functions), 213-298
(operators), 1325-1345 (boxes), 1385-1443 (vectors); src/symbols/rust_string.rs:103-114. -/
def Shim.guarded : Shim → Bool
  | .function | .operator | .boxDrop | .vecDrop | .vecTruncate => true
  | .boxAlloc | .boxDealloc | .vecNew | .vecLen | .vecCapacity | .vecData | .vecReserveTotal | .vecSetLen
  | .stringReserve => false

/-- Whether the body of an unguarded shim has a reachable panic: `Vec::reserve` panics with "capacity
overflow" when the new size exceeds `isize::MAX` bytes (src/rust_vec.rs:60-66); the others do not
panic. -/
def Shim.overflows : Shim → Bool
  | .vecReserveTotal | .stringReserve => true
  | _ => false

structure Config where
  /-- Rust 1.81 and later: a panic leaving an `extern "C"` function aborts.  Before that it is
  undefined behaviour.  (Cargo.toml:15 allows Rust 1.73.) -/
  externAborts : Bool
  /-- `panic = "abort"`. -/
  panicAbort : Bool

inductive Frame
  /-- A Rust function. -/
  | rust
  /-- A `catch_unwind` frame. -/
  | catchUnwind
  /-- A shim holding a `Guard`, src/unwind.rs:5-39. -/
  | guard
  /-- A shim without one. -/
  | bare
  | cxx
  deriving DecidableEq

/-- The stack, top first, or the process has aborted. -/
inductive State
  | running (stack : List Frame)
  | aborted
  deriving DecidableEq

/-- src/unwind.rs:34-39 `Drop for Guard`: panics.  Panicking while unwinding aborts. -/
def dropGuard (unwinding : Bool) : Option State := if unwinding then some .aborted else none

/-- A panic unwinds frame by frame. -/
def unwind (c : Config) : List Frame → Except Fault State
  | [] => .ok .aborted -- leaves `main`: the process ends
  | .rust :: rest => unwind c rest
  | .catchUnwind :: rest => .ok (.running rest)
  | .guard :: _ =>
    match dropGuard true with
    | some s => .ok s
    | none => .error .ub
  | .bare :: _ => if c.externAborts then .ok .aborted else .error .ub
  | .cxx :: _ => .error .ub

/-- `panic!`. -/
def doPanic (c : Config) (stack : List Frame) : Except Fault State :=
  if c.panicAbort then .ok .aborted else unwind c stack

/-- src/unwind.rs:23-28 `prevent_unwind` after the call came back with a value: forget the guard. -/
def leaveGuard (v : Nat) : Nat := v

inductive Op
  /-- C++ calls an exported function whose body is user code (including `Drop` and operators). -/
  | callRust (sh : Shim)
  /-- C++ calls an unguarded shim; `overflow`: the capacity computation inside overflows. -/
  | callBare (sh : Shim) (overflow : Bool)
  | callCxx
  | callLocal
  | catchUnwind
  | ret (v : Nat)
  | panic
  deriving DecidableEq

inductive Obs
  | done
  /-- A call came back with a value, to Rust code or to C++ code. -/
  | toRust (v : Nat)
  | toCxx (v : Nat)
  /-- A panic was caught by `catch_unwind`. -/
  | caught
  | aborted
  | exited
  deriving DecidableEq

def after (caught : Obs) : Except Fault State → Except Fault (State × Obs)
  | .error e => .error e
  | .ok .aborted => .ok (.aborted, .aborted)
  | .ok s => .ok (s, caught)

def step (c : Config) : State → Op → Except Fault (State × Obs)
  | .running (.cxx :: rest), .callRust sh =>
    if sh.guarded then .ok (.running (.rust :: .guard :: .cxx :: rest), .done) else .error .illegal
  | .running (.cxx :: rest), .callBare sh overflow =>
    if sh.guarded then .error .illegal
    else if sh.overflows && overflow then after .caught (doPanic c (.bare :: .cxx :: rest))
    else .ok (.running (.cxx :: rest), .toCxx 0)
  | .running (.rust :: rest), .callCxx => .ok (.running (.cxx :: .rust :: rest), .done)
  | .running (.rust :: rest), .callLocal => .ok (.running (.rust :: .rust :: rest), .done)
  | .running (.rust :: rest), .catchUnwind => .ok (.running (.rust :: .catchUnwind :: .rust :: rest), .done)
  | .running (.rust :: rest), .panic => after .caught (doPanic c (.rust :: rest))
  | .running (.rust :: .rust :: rest), .ret v => .ok (.running (.rust :: rest), .toRust v)
  | .running (.rust :: .catchUnwind :: rest), .ret v => .ok (.running rest, .toRust v)
  | .running (.rust :: .guard :: rest), .ret v => .ok (.running rest, .toCxx (leaveGuard v))
  | .running [.rust], .ret _ => .ok (.running [], .exited)
  | .running (.cxx :: .rust :: rest), .ret v => .ok (.running (.rust :: rest), .toRust v)
  | .running [.cxx], .ret _ => .ok (.running [], .exited)
  | _, _ => .error .illegal

end Verif.Unwind
