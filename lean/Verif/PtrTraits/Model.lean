import Verif.CxxString.Model
/-!
# The standard traits of the pointers and of CxxString

A pointer is an address or null and the memory maps addresses to objects, so two pointers may have the same
target, equal targets at different places, or different targets.  That a non-null pointer has a live target
is the subject of the ownership models.  What the target implements is a parameter.
-/
namespace Verif.PtrTraits
open Verif

/-- What is fed to a hasher: a number with the width it is written in, or a run of bytes. -/
inductive Fed
  | isize (n : Int)
  | usize (n : Nat)
  | bytes (bs : List Nat)
  deriving DecidableEq

/-- The flags of a `Formatter`: `{:#?}`, width. -/
structure Flags where
  alternate : Bool
  width : Option Nat
  deriving DecidableEq

/-- What a type implements. -/
structure Traits (α : Type) where
  eq : α → α → Bool
  partialCmp : α → α → Option Ordering
  cmp : α → α → Ordering
  hash : α → List Fed
  debug : Flags → α → String
  display : Flags → α → String

/-- The objects in memory. -/
abbrev Memory (α : Type) := Nat → α

/-- A smart pointer: where its target is. -/
abbrev Ptr := Option Nat

/-- Rust's `==` on `Option<&T>`: `core::option`, and `&T` compares what it refers to. -/
def optionEq (t : Traits α) : Option α → Option α → Bool
  | some a, some b => t.eq a b
  | none, none => true
  | _, _ => false

/-- `PartialOrd for Option`: derived with `None` first. -/
def optionPartialCmp (t : Traits α) : Option α → Option α → Option Ordering
  | some a, some b => t.partialCmp a b
  | some _, none => some .gt
  | none, some _ => some .lt
  | none, none => some .eq

/-- `Ord for Option`: derived with `None` first. -/
def optionCmp (t : Traits α) : Option α → Option α → Ordering
  | some a, some b => t.cmp a b
  | some _, none => .gt
  | none, some _ => .lt
  | none, none => .eq

/-- `Hash for Option`: derived, the number of the variant and then its contents. -/
def optionHash (t : Traits α) : Option α → List Fed
  | none => [.isize 0]
  | some a => .isize 1 :: t.hash a

namespace UniquePtr

/-- src/unique_ptr.rs:65-68 `as_ref`. -/
def asRef (m : Memory α) (p : Ptr) : Option α := p.map m

/-- src/unique_ptr.rs:154-169 `Deref`: the target or the panic message. -/
def deref (m : Memory α) (name : String) (p : Ptr) : Except String α :=
  match asRef m p with
  | some target => .ok target
  | none => .error ("called deref on a null UniquePtr<" ++ name ++ ">")

/-- src/unique_ptr.rs:171-184 `DerefMut`. -/
def derefMut (m : Memory α) (name : String) (p : Ptr) : Except String α :=
  match asRef m p with
  | some target => .ok target
  | none => .error ("called deref_mut on a null UniquePtr<" ++ name ++ ">")

/-- src/unique_ptr.rs:85-94 `pin_mut`. -/
def pinMut (m : Memory α) (name : String) (p : Ptr) : Except String α :=
  match asRef m p with
  | some target => .ok target
  | none => .error ("called pin_mut on a null UniquePtr<" ++ name ++ ">")

/-- src/unique_ptr.rs:186-249 `Debug`, `Display`, `PartialEq`, `PartialOrd`, `Ord` and `Hash`. -/
def traits (m : Memory α) (t : Traits α) : Traits Ptr where
  debug flags p :=
    match asRef m p with
    | none => "nullptr"
    | some value => t.debug flags value
  display flags p :=
    match asRef m p with
    | none => "nullptr"
    | some value => t.display flags value
  eq p q := optionEq t (asRef m p) (asRef m q)
  partialCmp p q := optionPartialCmp t (asRef m p) (asRef m q)
  cmp p q := optionCmp t (asRef m p) (asRef m q)
  hash p := optionHash t (asRef m p)

end UniquePtr

namespace SharedPtr

/-- src/shared_ptr.rs:64-67 `as_ref`. -/
def asRef (m : Memory α) (p : Ptr) : Option α := p.map m

/-- src/shared_ptr.rs:120-135 `Deref`. -/
def deref (m : Memory α) (name : String) (p : Ptr) : Except String α :=
  match asRef m p with
  | some target => .ok target
  | none => .error ("called deref on a null SharedPtr<" ++ name ++ ">")

/-- src/shared_ptr.rs:137-200 `Debug`, `Display`, `PartialEq`, `PartialOrd`, `Ord` and `Hash`. -/
def traits (m : Memory α) (t : Traits α) : Traits Ptr where
  debug flags p :=
    match asRef m p with
    | none => "nullptr"
    | some value => t.debug flags value
  display flags p :=
    match asRef m p with
    | none => "nullptr"
    | some value => t.display flags value
  eq p q := optionEq t (asRef m p) (asRef m q)
  partialCmp p q := optionPartialCmp t (asRef m p) (asRef m q)
  cmp p q := optionCmp t (asRef m p) (asRef m q)
  hash p := optionHash t (asRef m p)

end SharedPtr

/-- A weak pointer: where its target is or was, and whether it has expired. -/
structure Weak where
  target : Option Nat
  expired : Bool

/-- src/weak_ptr.rs:43-55 `upgrade`: `std::weak_ptr::lock`, which is null once the target has expired. -/
def upgrade (w : Weak) : Ptr := if w.expired then none else w.target

/-- src/weak_ptr.rs:85-92 `Debug`. -/
def weakDebug (m : Memory α) (t : Traits α) (flags : Flags) (w : Weak) : String :=
  (SharedPtr.traits m t).debug flags (upgrade w)

/-- `Ord for [u8]` and the rest of what bytes implement is in `CxxString.Model`; src/cxx_string.rs:227-275 for a
string with these bytes.  `Debug` and `Display` are given, they are proved about elsewhere. -/
def cxxString (debug display : Flags → List Nat → String) : Traits (List Nat) where
  eq a b := decide (a = b)
  cmp a b := CxxString.sliceCmp a b
  partialCmp a b := some (CxxString.sliceCmp a b)
  hash a := [.usize a.length, .bytes a]
  debug := debug
  display := display

/-- src/cxx_string.rs:245-249: `==` of a str with a C++ string, in bytes. -/
def strEqCxx (s c : List Nat) : Bool := decide (s = c)

/-- src/cxx_string.rs:251-255: the other way round. -/
def cxxEqStr (c s : List Nat) : Bool := decide (c = s)

end Verif.PtrTraits
