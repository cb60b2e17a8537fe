import Verif.Build.DepsModel
import Verif.Common.Runs
/-!
# Interned strings: `gen/build/src/intern.rs`

A lock is held during the whole of `intern`, so that the calls of several threads run one after the other.
-/
namespace Verif.Build

/-- gen/build/src/intern.rs:4-5 `InternedString`: the pointer and the length of a `&'static str`. -/
structure StrRef where
  addr : Nat
  len : Nat
  deriving DecidableEq

structure InternState where
  /-- the memory of strings -/
  heap : Nat → Option Text
  /-- which of them belong to other parts of the program -/
  others : Nat → Bool
  /-- the set `INTERN` -/
  set : List StrRef

/-- What a `&str` reads; no memory is looked at if it is empty. -/
def reads (heap : Nat → Option Text) (r : StrRef) : Option Text :=
  if r.len = 0 then some []
  else match heap r.addr with
    | some t => if t.length = r.len then some t else none
    | none => none

inductive InternOp
  /-- a call; `addr` is what the allocator returns if it is asked -/
  | intern (s : Text) (addr : Nat)
  /-- another part of the program allocates memory -/
  | alloc (s : Text) (addr : Nat)
  /-- and gives it back -/
  | free (addr : Nat)

/-- gen/build/src/intern.rs:13-29 `intern`.  `Box::from("")` allocates nothing and has the address 1. -/
def internStep (s : InternState) : InternOp → Except Fault (InternState × Option StrRef)
  | .intern t addr => match s.set.find? fun r => reads s.heap r == some t with
    | some r => .ok (s, some r)
    | none =>
      if t = [] then .ok ({ s with set := ⟨1, 0⟩ :: s.set }, some ⟨1, 0⟩)
      else match s.heap addr with
        | some _ => .error .illegal
        | none => .ok ({ s with heap := upd s.heap addr (some t), set := ⟨addr, t.length⟩ :: s.set }, some ⟨addr, t.length⟩)
  | .alloc t addr => match s.heap addr with
    | some _ => .error .illegal
    | none => .ok ({ s with heap := upd s.heap addr (some t), others := upd s.others addr true }, none)
  | .free addr =>
    if s.others addr then .ok ({ s with heap := upd s.heap addr none, others := upd s.others addr false }, none)
    else .error .illegal

def InternState.init : InternState := ⟨fun _ => none, fun _ => false, []⟩

end Verif.Build
