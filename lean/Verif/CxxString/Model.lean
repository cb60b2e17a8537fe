import Verif.Common.Fn
import Verif.Utf8.Model
/-!
# CxxString

`std::string` is modelled as the memory `data()` points to and a length; the standard guarantees a NUL
at `data()[size()]`.  Bytes are naturals.  `junk` is whatever lies in unused capacity after an
allocation.  Allocation failure is not modelled.
-/
namespace Verif.CxxString
open Verif

/-- A `std::string`: what `data()` points to (the capacity plus one byte), and `size()`. -/
structure Std where
  mem : List Nat
  len : Nat
  deriving DecidableEq

structure Config where
  /-- `usize::MAX + 1` and `std::string::max_size()`. -/
  usize : Nat
  maxSize : Nat

structure State where
  strs : Nat → Option Std
  /-- `std::terminate` was called. -/
  ended : Bool

def init : State := ⟨fun _ => none, false⟩

/-- `std::string(ptr, len)`; src/cxx.cc:8-11. -/
def Std.make (bytes junk : List Nat) : Std := ⟨bytes ++ 0 :: junk, bytes.length⟩

/-- `std::string::clear`; src/cxx.cc:26. -/
def Std.clear (s : Std) : Std := ⟨s.mem.set 0 0, 0⟩

/-- `std::string::append(ptr, n)`; src/cxx.cc:33-36.  `none`: `std::length_error`. -/
def Std.append (c : Config) (s : Std) (bytes junk : List Nat) : Option Std :=
  if s.len + bytes.length > c.maxSize then none
  else if s.len + bytes.length < s.mem.length then
    some ⟨s.mem.take s.len ++ bytes ++ 0 :: s.mem.drop (s.len + bytes.length + 1), s.len + bytes.length⟩
  else some ⟨s.mem.take s.len ++ bytes ++ 0 :: junk, s.len + bytes.length⟩

/-- `std::string::reserve(n)`; src/cxx.cc:28-31.  `none`: `std::length_error`. -/
def Std.reserve (c : Config) (s : Std) (n : Nat) (junk : List Nat) : Option Std :=
  if n > c.maxSize then none
  else if n < s.mem.length then some s
  else some ⟨s.mem.take (s.len + 1) ++ junk, s.len⟩

/-- src/cxx_string.rs:118-122 `as_bytes`: `from_raw_parts(data, len)`. -/
def asBytes (s : Std) : Except Fault (List Nat) :=
  if s.len ≤ s.mem.length then .ok (s.mem.take s.len) else .error .ub

/-- `CStr::from_ptr`: bytes up to the first NUL, which must exist. -/
def cstrFrom : List Nat → Except Fault (List Nat)
  | [] => .error .ub
  | b :: bs =>
    if b = 0 then .ok []
    else
      match cstrFrom bs with
      | .error e => .error e
      | .ok t => .ok (b :: t)

/-- `Ord for [u8]`: `memcmp` over the common length, then the lengths. -/
def sliceCmp : List Nat → List Nat → Ordering
  | [], [] => .eq
  | [], _ :: _ => .lt
  | _ :: _, [] => .gt
  | a :: as, b :: bs => if a < b then .lt else if b < a then .gt else sliceCmp as bs

inductive Op
  | make (o : Nat) (bytes junk : List Nat)
  | destroy (o : Nat)
  /-- `push_bytes`, `push_str` and the two `Write` impls. -/
  | push (o : Nat) (bytes junk : List Nat)
  | clear (o : Nat)
  | reserve (o additional : Nat) (junk : List Nat)
  | asBytes (o : Nat)
  | len (o : Nat)
  | isEmpty (o : Nat)
  | asCStr (o : Nat)
  | toStr (o : Nat)
  /-- `to_string_lossy` and `Display`. -/
  | lossy (o : Nat)
  | eq (o p : Nat)
  | cmp (o p : Nat)
  | partialCmp (o p : Nat)
  /-- What is fed to the hasher. -/
  | hash (o : Nat)

inductive Obs
  | done
  | panicked
  | terminated
  | bytes (bs : List Nat)
  | nat (n : Nat)
  | bool (b : Bool)
  /-- `Ok` with the text, or `Err`. -/
  | str (t : Option (List Nat))
  | ord (o : Ordering)
  | optOrd (o : Option Ordering)
  deriving DecidableEq

/-- The string at an address. -/
def this (s : State) (o : Nat) : Except Fault Std :=
  match s.strs o with
  | none => .error .illegal
  | some x => .ok x

def put (s : State) (o : Nat) (x : Std) : State := { s with strs := upd s.strs o (some x) }

/-- The bytes at an address. -/
def bytesAt (s : State) (o : Nat) : Except Fault (List Nat) :=
  match this s o with
  | .error e => .error e
  | .ok x => asBytes x

/-- An exception thrown inside a `noexcept` function. -/
def orTerminate (s : State) (o : Nat) : Option Std → Except Fault (State × Obs)
  | none => .ok ({ s with ended := true }, .terminated)
  | some x => .ok (put s o x, .done)

def step (c : Config) (s : State) (op : Op) : Except Fault (State × Obs) :=
  if s.ended then .error .illegal
  else match op with
  | .make o bytes junk =>
    match s.strs o with
    | some _ => .error .illegal
    | none => .ok (put s o (Std.make bytes junk), .done)
  | .destroy o =>
    match this s o with
    | .error e => .error e
    | .ok _ => .ok ({ s with strs := upd s.strs o none }, .done)
  -- src/cxx_string.rs:216-224, 277-294
  | .push o bytes junk =>
    match this s o with
    | .error e => .error e
    | .ok x => orTerminate s o (x.append c bytes junk)
  -- src/cxx_string.rs:183-185
  | .clear o =>
    match this s o with
    | .error e => .error e
    | .ok x => .ok (put s o x.clear, .done)
  -- src/cxx_string.rs:207-213
  | .reserve o additional junk =>
    if additional ≥ c.usize then .error .illegal
    else match this s o with
    | .error e => .error e
    | .ok x =>
      if x.len + additional ≥ c.usize then .ok (s, .panicked)
      else orTerminate s o (x.reserve c (x.len + additional) junk)
  | .asBytes o =>
    match bytesAt s o with
    | .error e => .error e
    | .ok b => .ok (s, .bytes b)
  -- src/cxx_string.rs:104-106
  | .len o =>
    match this s o with
    | .error e => .error e
    | .ok x => .ok (s, .nat x.len)
  -- src/cxx_string.rs:113-115
  | .isEmpty o =>
    match this s o with
    | .error e => .error e
    | .ok x => .ok (s, .bool (x.len == 0))
  -- src/cxx_string.rs:151-153
  | .asCStr o =>
    match this s o with
    | .error e => .error e
    | .ok x =>
      match cstrFrom x.mem with
      | .error e => .error e
      | .ok t => .ok (s, .bytes t)
  -- src/cxx_string.rs:158-159
  | .toStr o =>
    match bytesAt s o with
    | .error e => .error e
    | .ok b => .ok (s, .str (match Utf8.fromUtf8 b with | none => some b | some _ => none))
  -- src/cxx_string.rs:168-171, 227-237
  | .lossy o =>
    match bytesAt s o with
    | .error e => .error e
    | .ok b => .ok (s, .bytes (Utf8.fromUtf8Lossy b))
  -- src/cxx_string.rs:239-255
  | .eq o p =>
    match bytesAt s o, bytesAt s p with
    | .ok a, .ok b => .ok (s, .bool (a == b))
    | .error e, _ => .error e
    | _, .error e => .error e
  -- src/cxx_string.rs:265-268
  | .cmp o p =>
    match bytesAt s o, bytesAt s p with
    | .ok a, .ok b => .ok (s, .ord (sliceCmp a b))
    | .error e, _ => .error e
    | _, .error e => .error e
  -- src/cxx_string.rs:259-262
  | .partialCmp o p =>
    match bytesAt s o, bytesAt s p with
    | .ok a, .ok b => .ok (s, .optOrd (some (sliceCmp a b)))
    | .error e, _ => .error e
    | _, .error e => .error e
  -- src/cxx_string.rs:271-274; a slice feeds its length and its bytes
  | .hash o =>
    match bytesAt s o with
    | .error e => .error e
    | .ok b => .ok (s, .bytes (b.length :: b))

/-! ## let_cxx_string! -/

/-- The space of a `StackString` (src/cxx_string.rs:299-304). -/
inductive Space
  | uninit
  | string (bytes : List Nat)
  | destroyed
  deriving DecidableEq

/-- How an expression or a block finishes. -/
inductive Finish (α : Type)
  | value (a : α)
  | panic
  /-- `return`, `break`, `?`. -/
  | early
  deriving DecidableEq

/-- src/cxx_string.rs:312-319 `StackString::init`. -/
def Space.init (bytes : List Nat) : Space → Except Fault Space
  | .uninit => .ok (.string bytes)
  | _ => .error .ub

/-- src/cxx_string.rs:322-329 `Drop for StackString`. -/
def Space.drop : Space → Except Fault Space
  | .string _ => .ok .destroyed
  | _ => .error .ub

/-- src/cxx_string.rs:82-90, the macro in a block: make the space, evaluate `value`, initialise, run the
rest of the block on the string (which may change its content, and may declare further strings), and at
every exit drop the space.  Leaving early or by a panic drops the locals too.  The result is the spaces
afterwards, in order of declaration, and how the block finished. -/
def letCxxString (value : Finish (List Nat))
    (rest : List Nat → Except Fault (List Nat × List Space × Finish Nat)) :
    Except Fault (List Space × Finish Nat) :=
  let space := Space.uninit
  match value with
  | .value bytes =>
    match space.init bytes with
    | .ok (.string b) =>
      match rest b with
      | .error e => .error e
      | .ok (bytes', more, out) =>
        match (Space.string bytes').drop with
        | .error e => .error e
        | .ok sp => .ok (sp :: more, out)
    | _ => .error .ub
  | .panic =>
    match space.drop with
    | .error e => .error e
    | .ok sp => .ok ([sp], .panic)
  | .early =>
    match space.drop with
    | .error e => .error e
    | .ok sp => .ok ([sp], .early)

/-- A block declaring several strings, one after the other, and then doing something with all of them;
`change` is what the block does to each string's content. -/
def letMany (change : List Nat → List Nat) (body : List (List Nat) → Finish Nat) :
    List (Finish (List Nat)) → List (List Nat) → Except Fault (List Space × Finish Nat)
  | [], seen => .ok ([], body seen)
  | v :: vs, seen =>
    letCxxString v fun b =>
      match letMany change body vs (seen ++ [b]) with
      | .error e => .error e
      | .ok (more, out) => .ok (change b, more, out)

end Verif.CxxString
