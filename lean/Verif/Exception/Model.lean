import Verif.Common.Own
import Verif.Utf8.Model
/-!
# Errors crossing the bridge: rust::Error and cxx::Exception

A heap machine with two kinds of objects: C++ `rust::Error` objects (which own a `new char[]`
buffer or hold null) and Rust `cxx::Exception` values (which own a `Box<str>`).  Bytes are naturals.
Simplified: the Rust `String` made by `to_string` inside `to_c_error` is a value, not a buffer in the
heap; C++ exceptions not derived from `std::exception` (which end the process) do not occur;
`trycatch` is the default one.
-/
namespace Verif.Exception
open Verif Own

/-- Which allocator a buffer came from. -/
inductive Allocator
  | cxx | rust
  deriving DecidableEq

inductive Obj
  /-- include/cxx.h:424-440 `Error`: `msg` (null or a buffer) and `len`. -/
  | err (msg : Option Nat) (len : Nat)
  /-- src/exception.rs:14-16 `Exception`: a `Box<str>`, which for length 0 points to no buffer. -/
  | exc (ptr : Option Nat) (len : Nat)
  deriving DecidableEq

abbrev State := Own.State (Allocator × List Nat) Obj

/-- src/result.rs:13-24 `PtrLen`: pointer and length.  `null` is the `ok` case of the union; `dangling`
is the non-null pointer of an empty `Box<str>`. -/
inductive Ptr
  | null
  | dangling
  | buf (i : Nat)
  deriving DecidableEq

structure PtrLen where
  ptr : Ptr
  len : Nat
  deriving DecidableEq

/-- `std::strlen`; `none` when there is no NUL. -/
def strlen : List Nat → Option Nat
  | [] => none
  | b :: bs => if b = 0 then some 0 else (strlen bs).map (· + 1)

/-- `delete[] p`: null is allowed. -/
def deleteArray (s : State) : Option Nat → Except Fault State
  | none => .ok s
  | some i =>
    match s.heap i with
    | some (.cxx, _) => .ok (free s i)
    | _ => .error .ub

/-- src/cxx.cc:465-469 `errorCopy` from a buffer in the heap. -/
def errorCopy (s : State) (i len : Nat) : Except Fault (State × Nat) :=
  match s.heap i with
  | none => .error .ub
  | some (_, bytes) => if len ≤ bytes.length then .ok (alloc s (.cxx, bytes.take len)) else .error .ub

/-- src/result.rs:39-53 `to_c_error` and src/cxx.cc:471-475 `cxxbridge1$error`. -/
def toCError (s : State) (msg : List Nat) : State × PtrLen :=
  let msg := msg ++ [0]
  let (s1, i) := alloc s (.cxx, msg)
  (s1, ⟨.buf i, msg.length⟩)

/-- How the Rust function ends: `Ok` with its value (`none` for `()`), or `Err` with its `Display` text. -/
inductive RustOutcome
  | ok (v : Option Nat)
  | err (msg : List Nat)

/-- src/result.rs:26-37 `try`: fills the return slot or makes an error. -/
def tryRs (s : State) : RustOutcome → State × Option Nat × PtrLen
  | .ok v => (s, v, ⟨.null, 0⟩)
  | .err msg => let (s1, p) := toCError s msg; (s1, none, p)

/-- How the C++ function ends: returning, throwing the `rust::Error` at an address, or throwing another
`std::exception` whose `what()` is the given text followed by NUL. -/
inductive CxxOutcome
  | ret (v : Option Nat)
  | throwErr (o : Nat)
  | throwStd (what : List Nat)

/-- src/symbols/exception.rs:9-18: a `Box<str>` with the lossy text. -/
def exception (s : State) (bytes : List Nat) : State × PtrLen :=
  let text := Utf8.fromUtf8Lossy bytes
  if text.length = 0 then (s, ⟨.dangling, 0⟩)
  else
    let (s1, i) := alloc s (.rust, text)
    (s1, ⟨.buf i, text.length⟩)

/-- src/cxx.cc:563-565 `Fail::operator()(const char *)`; the pointer is null or to the given bytes. -/
def fail (s : State) : Option (List Nat) → Except Fault (State × PtrLen)
  | none => .error .ub
  | some mem =>
    match strlen mem with
    | none => .error .ub
    | some n => .ok (exception s (mem.take n))

/-- The memory `what()` of the object at `o` points to; src/cxx.cc:513 `Error::what`. -/
def whatMem (s : State) (o : Nat) : Except Fault (Option (List Nat)) :=
  match s.objs o with
  | some (.err none _) => .ok none
  | some (.err (some i) _) =>
    match s.heap i with
    | some (_, bytes) => .ok (some bytes)
    | none => .error .ub
  | _ => .error .illegal

/-- gen/src/builtin.rs:414-419 `trycatch`, around the body written by gen/src/write.rs:819-880.  The
result is the return slot and `throw$`. -/
def tryCatch (s : State) : CxxOutcome → Except Fault (State × Option Nat × PtrLen)
  | .ret v => .ok (s, v, ⟨.null, 0⟩)
  | .throwErr o =>
    match whatMem s o with
    | .error e => .error e
    | .ok mem =>
      match fail s mem with
      | .error e => .error e
      | .ok (s1, p) => .ok (s1, none, p)
  | .throwStd w =>
    match fail s (some (w ++ [0])) with
    | .error e => .error e
    | .ok (s1, p) => .ok (s1, none, p)

/-- The text a C string shows: up to the first NUL. -/
def cstr (mem : List Nat) : Except Fault (List Nat) :=
  match strlen mem with
  | none => .error .ub
  | some n => .ok (mem.take n)

inductive Op
  /-- C++ calls a fallible Rust function; if it throws, the `rust::Error` is at `o`.  `hasRet` says
  whether the function returns a value. -/
  | callRust (o : Nat) (hasRet : Bool) (out : RustOutcome)
  /-- The same for a Rust function which returns the exception `x` as its error (`?`). -/
  | propagate (o x : Nat)
  /-- Rust calls a fallible C++ function; if it throws, the `Exception` is at `x`. -/
  | callCxx (x : Nat) (hasRet : Bool) (out : CxxOutcome)
  | copyCtor (o src : Nat)
  | moveCtor (o src : Nat)
  | copyAssign (o src : Nat)
  | moveAssign (o src : Nat)
  | what (o : Nat)
  | destroy (o : Nat)
  | excWhat (x : Nat)
  | excDrop (x : Nat)

inductive Obs
  | done
  | returned (v : Option Nat)
  | threw
  /-- `what()`: null or a C string. -/
  | what (text : Option (List Nat))
  /-- `Exception::what`. -/
  | text (bytes : List Nat)
  deriving DecidableEq

/-- gen/src/write.rs:1157-1172 after the call: throw if there is an error, else take the return value.
gen/src/builtin.rs:353-361 makes the `Error`. -/
def cxxAfterCall (s : State) (o : Nat) (hasRet : Bool) (slot : Option Nat) (p : PtrLen) : Except Fault (State × Obs) :=
  match p.ptr with
  | .buf i =>
    match s.objs o with
    | none => .ok (put s o (.err (some i) p.len), .threw)
    | some _ => .error .illegal
  | .dangling => .error .ub
  | .null =>
    match hasRet, slot with
    | false, _ => .ok (s, .returned none)
    | true, some v => .ok (s, .returned (some v))
    | true, none => .error .ub

/-- src/result.rs:56-69 `Result::exception`, then macro/src/expand.rs:628-642 `?` and `assume_init`. -/
def rustAfterCall (s : State) (x : Nat) (hasRet : Bool) (slot : Option Nat) (p : PtrLen) : Except Fault (State × Obs) :=
  match p.ptr with
  | .null =>
    match hasRet, slot with
    | false, _ => .ok (s, .returned none)
    | true, some v => .ok (s, .returned (some v))
    | true, none => .error .ub
  | .dangling => if p.len = 0 then .ok (put s x (.exc none 0), .threw) else .error .ub
  | .buf i => .ok (put s x (.exc (some i) p.len), .threw)

/-- Reading a `Box<str>`. -/
def boxStr (s : State) (ptr : Option Nat) (len : Nat) : Except Fault (List Nat) :=
  match ptr with
  | none => if len = 0 then .ok [] else .error .ub
  | some i =>
    match s.heap i with
    | some (_, bytes) => if len ≤ bytes.length then .ok (bytes.take len) else .error .ub
    | none => .error .ub

/-- Dropping a `Box<str>`: the layout must match. -/
def dropBoxStr (s : State) (ptr : Option Nat) (len : Nat) : Except Fault State :=
  match ptr with
  | none => if len = 0 then .ok s else .error .ub
  | some i =>
    match s.heap i with
    | some (.rust, bytes) => if len = bytes.length then .ok (free s i) else .error .ub
    | _ => .error .ub

/-- Whether an outcome agrees with the declared return type. -/
def fits (hasRet : Bool) : Option Nat → Bool
  | none => !hasRet
  | some _ => hasRet

def step (s : State) : Op → Except Fault (State × Obs)
  | .callRust o hasRet out =>
    match s.objs o with
    | some _ => .error .illegal
    | none =>
      if (match out with | .ok v => fits hasRet v | .err _ => true) then
        let (s1, slot, p) := tryRs s out
        cxxAfterCall s1 o hasRet slot p
      else .error .illegal
  -- `Display for Exception` (src/exception.rs:18-21) gives the message; the exception is dropped
  | .propagate o x =>
    match s.objs o, s.objs x with
    | none, some (.exc ptr len) =>
      match boxStr s ptr len with
      | .error e => .error e
      | .ok msg =>
        match dropBoxStr s ptr len with
        | .error e => .error e
        | .ok s1 =>
          let (s2, slot, p) := tryRs (del s1 x) (.err msg)
          cxxAfterCall s2 o false slot p
    | _, _ => .error .illegal
  | .callCxx x hasRet out =>
    match s.objs x with
    | some _ => .error .illegal
    | none =>
      if (match out with | .ret v => fits hasRet v | _ => true) then
        match tryCatch s out with
        | .error e => .error e
        | .ok (s1, slot, p) => rustAfterCall s1 x hasRet slot p
      else .error .illegal
  -- src/cxx.cc:477-480
  | .copyCtor o src =>
    match s.objs o, s.objs src with
    | none, some (.err msg len) =>
      match msg with
      | none => .ok (put s o (.err none len), .done)
      | some i =>
        match errorCopy s i len with
        | .error e => .error e
        | .ok (s1, j) => .ok (put s1 o (.err (some j) len), .done)
    | _, _ => .error .illegal
  -- src/cxx.cc:482-486
  | .moveCtor o src =>
    match s.objs o, s.objs src with
    | none, some (.err msg len) => .ok (put (put s o (.err msg len)) src (.err none 0), .done)
    | _, _ => .error .illegal
  -- src/cxx.cc:490-501
  | .copyAssign o src =>
    match s.objs o, s.objs src with
    | some (.err msg len), some (.err _ _) =>
      if o ≠ src then
        match deleteArray s msg with
        | .error e => .error e
        | .ok s1 =>
          let s2 := put s1 o (.err none len)
          match s2.objs src with
          | some (.err (some i) slen) =>
            match errorCopy s2 i slen with
            | .error e => .error e
            | .ok (s3, j) => .ok (put s3 o (.err (some j) slen), .done)
          | some (.err none _) => .ok (s2, .done)
          | _ => .error .illegal
      else .ok (s, .done)
    | _, _ => .error .illegal
  -- src/cxx.cc:503-511
  | .moveAssign o src =>
    match s.objs o, s.objs src with
    | some (.err msg _), some (.err _ _) =>
      match deleteArray s msg with
      | .error e => .error e
      | .ok s1 =>
        match s1.objs src with
        | some (.err smsg slen) => .ok (put (put s1 o (.err smsg slen)) src (.err none 0), .done)
        | _ => .error .illegal
    | _, _ => .error .illegal
  | .what o =>
    match whatMem s o with
    | .error e => .error e
    | .ok none => .ok (s, .what none)
    | .ok (some mem) =>
      match cstr mem with
      | .error e => .error e
      | .ok t => .ok (s, .what (some t))
  -- src/cxx.cc:488
  | .destroy o =>
    match s.objs o with
    | some (.err msg _) =>
      match deleteArray s msg with
      | .error e => .error e
      | .ok s1 => .ok (del s1 o, .done)
    | _ => .error .illegal
  -- src/exception.rs:27-30
  | .excWhat x =>
    match s.objs x with
    | some (.exc ptr len) =>
      match boxStr s ptr len with
      | .error e => .error e
      | .ok t => .ok (s, .text t)
    | _ => .error .illegal
  | .excDrop x =>
    match s.objs x with
    | some (.exc ptr len) =>
      match dropBoxStr s ptr len with
      | .error e => .error e
      | .ok s1 => .ok (del s1 x, .done)
    | _ => .error .illegal

end Verif.Exception
