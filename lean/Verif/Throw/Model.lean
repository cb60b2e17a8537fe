import Verif.Unwind.Model
import Verif.Utf8.Model
/-!
# Panics and C++ exceptions on one stack

The call stack of a process in which Rust and C++ call each other, at any depth, as in `Verif/Unwind`, here with C++ exceptions
of any type and with errors that Rust functions return.  The program decides what the function on top does next.  The memory
of messages is in `Verif/Exception`.
-/
namespace Verif.Throw
open Verif Verif.Unwind

/-- A C++ exception object. -/
inductive Exn
  /-- `rust::Error` with its message -/
  | error (msg : List Nat)
  /-- another class derived from `std::exception`; what `what()` points to, without the NUL at the end -/
  | std (what : List Nat)
  /-- any other type -/
  | other (type : Nat)
  deriving DecidableEq

/-- The declaration of a `catch` block. -/
inductive Clause
  /-- `catch (...)` -/
  | any
  /-- `catch (const std::exception &)` -/
  | std
  /-- `catch (const rust::Error &)` -/
  | error
  /-- `catch` with some other type -/
  | other (type : Nat)
  deriving DecidableEq

/-- Whether a block catches an exception ([except.handle]). -/
def Clause.catches : Clause → Exn → Bool
  | .any, _ => true
  | .std, .error _ | .std, .std _ => true
  | .error, .error _ => true
  | .other n, .other m => n == m
  | _, _ => false

/-- What `rust::behavior::trycatch` makes of an exception that the function throws. -/
inductive Handled
  /-- it calls `fail` with a text -/
  | fail (text : List Nat)
  /-- it throws this -/
  | escapes (e : Exn)
  /-- it returns without having called `fail` -/
  | silent
  deriving DecidableEq

/-- A `trycatch`; users can define their own. -/
abbrev Behavior := Exn → Handled

/-- gen/src/builtin.rs:414-419: the `trycatch` that is there if users define none; src/cxx.cc:563-565: the text ends at the
first NUL. -/
def defaultBehavior : Behavior
  | .error w | .std w => .fail (w.takeWhile (· ≠ 0))
  | e => .escapes e

/-- A C++ function that Rust calls: whether it is declared `noexcept`, and whether it returns a `Result`. -/
structure Entry where
  noexcept : Bool
  fallible : Bool
  deriving DecidableEq

/-- A generated C++ function that calls Rust: whether it is declared `noexcept`, and whether the Rust function returns a
`Result`. -/
structure Wrapper where
  noexcept : Bool
  fallible : Bool
  deriving DecidableEq

inductive Frame
  /-- a Rust function -/
  | rust
  /-- a `catch_unwind` frame -/
  | catchUnwind
  /-- an exported Rust function holding a `Guard`, src/unwind.rs:5-39 -/
  | guard
  /-- a C++ function -/
  | cxx
  /-- a `try` block with one `catch` block -/
  | tryBlock (c : Clause)
  | entry (e : Entry)
  | wrapper (w : Wrapper)
  deriving DecidableEq

/-- The stack, top first, or the process has ended by `abort` or `std::terminate`. -/
inductive State
  | running (stack : List Frame)
  | aborted
  deriving DecidableEq

inductive Obs
  | done
  /-- a call came back to Rust code, with a value or with the text of an exception -/
  | toRust (v : Except (List Nat) Nat)
  /-- a call came back to C++ code -/
  | toCxx (v : Nat)
  /-- a panic was caught by `catch_unwind` -/
  | panicCaught
  /-- an exception was caught by a `catch` block -/
  | caught (e : Exn)
  | aborted
  | exited
  deriving DecidableEq

/-- A panic unwinds frame by frame, src/unwind.rs:34-39. -/
def unwindRust : List Frame → Except Fault (State × Obs)
  | [] => .ok (.aborted, .aborted)
  | .rust :: rest => unwindRust rest
  | .catchUnwind :: rest => .ok (.running rest, .panicCaught)
  | .guard :: _ => .ok (.aborted, .aborted)
  | _ => .error .ub

/-- A C++ exception unwinds frame by frame.  `noexcept` functions call `std::terminate` ([except.spec]), and so does an
exception that leaves `main`.  gen/src/write.rs:817-822, 895-900: the body of a fallible function is in `trycatch`, what
`fail` gets is returned as the error (`throw$` is not initialised otherwise); src/symbols/exception.rs:9-18: with every ill-formed
piece replaced. -/
def unwindCxx (b : Behavior) : List Frame → Exn → Except Fault (State × Obs)
  | [], _ => .ok (.aborted, .aborted)
  | .cxx :: rest, e => unwindCxx b rest e
  | .tryBlock c :: rest, e => if c.catches e then .ok (.running rest, .caught e) else unwindCxx b rest e
  | .wrapper w :: rest, e => if w.noexcept then .ok (.aborted, .aborted) else unwindCxx b rest e
  | .entry en :: rest, e =>
    if en.fallible then
      match b e with
      | .fail t => .ok (.running rest, .toRust (.error (Utf8.fromUtf8Lossy t)))
      | .silent => .error .ub
      | .escapes e => if en.noexcept then .ok (.aborted, .aborted) else unwindCxx b rest e
    else if en.noexcept then .ok (.aborted, .aborted) else unwindCxx b rest e
  | .rust :: _, _ | .catchUnwind :: _, _ | .guard :: _, _ => .error .ub

inductive Op
  /-- C++ calls a Rust function: the generated wrapper, and the exported function whose body is in `prevent_unwind` -/
  | callRust (w : Wrapper)
  /-- C++ calls one of the exported functions whose body is not in `prevent_unwind`; none of them calls code of the user's -/
  | callBare (sh : Shim) (overflow : Bool)
  /-- Rust calls a C++ function -/
  | callCxx (e : Entry)
  /-- a call within a language -/
  | callLocal
  | catchUnwind
  | tryBlock (c : Clause)
  | ret (v : Nat)
  /-- a function of the bridge that Rust implements returns `Err`; the error's `Display` gives this text -/
  | retErr (msg : List Nat)
  | panic
  | throw (e : Exn)
  deriving DecidableEq

def step (c : Config) (b : Behavior) : State → Op → Except Fault (State × Obs)
  | .running (.cxx :: rest), .callRust w => .ok (.running (.rust :: .guard :: .wrapper w :: .cxx :: rest), .done)
  | .running (.cxx :: rest), .callBare sh overflow =>
    if sh.guarded then .error .illegal
    else if sh.overflows && overflow then
      if c.panicAbort || c.externAborts then .ok (.aborted, .aborted) else .error .ub
    else .ok (.running (.cxx :: rest), .toCxx 0)
  | .running (.rust :: rest), .callCxx e => .ok (.running (.cxx :: .entry e :: .rust :: rest), .done)
  | .running (.rust :: rest), .callLocal => .ok (.running (.rust :: .rust :: rest), .done)
  | .running (.cxx :: rest), .callLocal => .ok (.running (.cxx :: .cxx :: rest), .done)
  | .running (.rust :: rest), .catchUnwind => .ok (.running (.rust :: .catchUnwind :: .rust :: rest), .done)
  | .running (.cxx :: rest), .tryBlock k => .ok (.running (.cxx :: .tryBlock k :: .cxx :: rest), .done)
  | .running (.rust :: rest), .panic => if c.panicAbort then .ok (.aborted, .aborted) else unwindRust (.rust :: rest)
  | .running (.cxx :: rest), .throw e => unwindCxx b (.cxx :: rest) e
  | .running (.rust :: .rust :: rest), .ret v => .ok (.running (.rust :: rest), .toRust (.ok v))
  | .running (.rust :: .catchUnwind :: rest), .ret v => .ok (.running rest, .toRust (.ok v))
  | .running (.rust :: .guard :: .wrapper _ :: rest), .ret v => .ok (.running rest, .toCxx v)
  /- gen/src/write.rs:1157-1162 -/
  | .running (.rust :: .guard :: .wrapper w :: rest), .retErr msg =>
    if w.fallible then unwindCxx b (.wrapper w :: rest) (.error msg) else .error .illegal
  | .running [.rust], .ret _ => .ok (.running [], .exited)
  | .running (.cxx :: .cxx :: rest), .ret v => .ok (.running (.cxx :: rest), .toCxx v)
  | .running (.cxx :: .tryBlock _ :: rest), .ret v => .ok (.running rest, .toCxx v)
  | .running (.cxx :: .entry _ :: rest), .ret v => .ok (.running rest, .toRust (.ok v))
  | .running [.cxx], .ret _ => .ok (.running [], .exited)
  | _, _ => .error .illegal

end Verif.Throw
