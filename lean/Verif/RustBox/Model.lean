import Verif.Common.Owner
/-!
# rust::Box

Program variables are C++ `rust::Box` objects, C++ raw pointers and Rust `Box` variables.  A C++ box
is one pointer, null once its object has been given away.
-/
namespace Verif.RustBox
open Verif Owner

inductive Kind
  | cxx | raw | rust
  deriving DecidableEq

abbrev State := Owner.State Kind

/-- Operations of a program.  `o` and `src` are C++ boxes, `h` raw pointer variables, `b` Rust variables. -/
inductive Op
  /-- `Box(const T &)`, `Box(T &&)` and `in_place`; `throws`: the object's constructor throws. -/
  | new (o v : Nat) (throws : Bool)
  | inPlace (o v : Nat) (throws : Bool)
  | moveCtor (o src : Nat)
  | moveAssign (o src : Nat)
  | swap (o src : Nat)
  | intoRaw (o h : Nat)
  | fromRaw (o h : Nat)
  | read (o : Nat)
  | write (o v : Nat)
  | destroy (o : Nat)
  /-- A C++ box passed by value to a Rust function, and a Rust box returned to C++. -/
  | toRust (o b : Nat)
  | toCxx (o b : Nat)
  | rustNew (b v : Nat)
  | rustDrop (b : Nat)

inductive Obs
  | done
  | threw
  | value (v : Nat)
  deriving DecidableEq

/-- include/cxx.h:779-793, and 833-841 up to `from_raw`: allocate, construct in place, release the
guard.  When the constructor throws, the guard (760-772) gives the memory back. -/
def build (s : State) (v : Nat) (throws : Bool) : Except Fault (State × Option Nat) :=
  let (s1, i) := alloc s
  if throws then
    match dealloc s1 i with
    | .error e => .error e
    | .ok s2 => .ok (s2, none)
  else
    match construct s1 i v with
    | .error e => .error e
    | .ok s2 => .ok (s2, some i)

def step (s : State) : Op → Except Fault (State × Obs)
  -- include/cxx.h:779-793
  | .new o v throws =>
    match s.objs o with
    | some _ => .error .illegal
    | none =>
      match build s v throws with
      | .error e => .error e
      | .ok (s1, none) => .ok (s1, .threw)
      | .ok (s1, some i) => .ok (put s1 o .cxx (some i), .done)
  -- include/cxx.h:833-840, 848-853
  | .inPlace o v throws =>
    match s.objs o with
    | some _ => .error .illegal
    | none =>
      match build s v throws with
      | .error e => .error e
      | .ok (s1, none) => .ok (s1, .threw)
      | .ok (s1, some i) => .ok (put s1 o .cxx (some i), .done)
  -- include/cxx.h:774-777
  | .moveCtor o src =>
    match s.objs o, s.objs src with
    | none, some (.cxx, p) => .ok (put (put s o .cxx p) src .cxx none, .done)
    | _, _ => .error .illegal
  -- include/cxx.h:802-810
  | .moveAssign o src =>
    match s.objs o, s.objs src with
    | some (.cxx, po), some (.cxx, _) =>
      match (match po with
        | none => .ok s
        | some i => Owner.destroy s i : Except Fault State) with
      | .error e => .error e
      | .ok s1 =>
        match s1.objs src with
        | some (.cxx, p) => .ok (put (put s1 o .cxx p) src .cxx none, .done)
        | _ => .error .illegal
    | _, _ => .error .illegal
  -- include/cxx.h:843-846
  | .swap o src =>
    match s.objs o, s.objs src with
    | some (.cxx, p), some (.cxx, q) => .ok (put (put s o .cxx q) src .cxx p, .done)
    | _, _ => .error .illegal
  -- include/cxx.h:855-860
  | .intoRaw o h =>
    match s.objs o, s.objs h with
    | some (.cxx, p), none => .ok (put (put s h .raw p) o .cxx none, .done)
    | _, _ => .error .illegal
  -- include/cxx.h:848-853; the program gives up its raw pointer
  | .fromRaw o h =>
    match s.objs o, s.objs h with
    | none, some (.raw, p) => .ok (del (put s o .cxx p) h, .done)
    | _, _ => .error .illegal
  -- include/cxx.h:812-830; dereferencing a null box is the caller's error
  | .read o =>
    match s.objs o with
    | some (.cxx, some i) =>
      match Owner.get s i with
      | .error e => .error e
      | .ok v => .ok (s, .value v)
    | _ => .error .illegal
  | .write o v =>
    match s.objs o with
    | some (.cxx, some i) =>
      match Owner.write s i v with
      | .error e => .error e
      | .ok s' => .ok (s', .done)
    | _ => .error .illegal
  -- include/cxx.h:795-800
  | .destroy o =>
    match s.objs o with
    | some (.cxx, none) => .ok (del s o, .done)
    | some (.cxx, some i) =>
      match Owner.destroy s i with
      | .error e => .error e
      | .ok s' => .ok (del s' o, .done)
    | _ => .error .illegal
  -- gen/src/write.rs:1128 `.into_raw()`, macro/src/expand.rs:1008-1010 `Box::from_raw`
  | .toRust o b =>
    match s.objs o, s.objs b with
    | some (.cxx, some i), none => .ok (put (put s b .rust (some i)) o .cxx none, .done)
    | _, _ => .error .illegal
  -- macro/src/expand.rs:1082 `Box::into_raw`, gen/src/write.rs:1087-1090 `from_raw`
  | .toCxx o b =>
    match s.objs o, s.objs b with
    | none, some (.rust, some i) => .ok (del (put s o .cxx (some i)) b, .done)
    | _, _ => .error .illegal
  | .rustNew b v =>
    match s.objs b with
    | some _ => .error .illegal
    | none =>
      match build s v false with
      | .ok (s1, some i) => .ok (put s1 b .rust (some i), .done)
      | .ok (_, none) => .error .ub
      | .error e => .error e
  | .rustDrop b =>
    match s.objs b with
    | some (.rust, some i) =>
      match Owner.destroy s i with
      | .error e => .error e
      | .ok s' => .ok (del s' b, .done)
    | _ => .error .illegal

end Verif.RustBox
