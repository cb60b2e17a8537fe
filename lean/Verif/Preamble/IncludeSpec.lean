import Verif.Preamble.IncludeModel
/-!
# What a preprocessor makes of an include section
-/
namespace Verif.Preamble

/-- The compiler the code is given to. -/
structure Platform where
  win32 : Bool
  cplusplus : Nat

/-- The header exists on this platform. -/
def Std.Available (p : Platform) : Std → Prop
  | .basetsd => p.win32 = true
  | .sysTypes => p.win32 = false
  | .stringView => 201703 ≤ p.cplusplus
  | .ranges => 202002 ≤ p.cplusplus
  | _ => True

instance (p : Platform) (h : Std) : Decidable (h.Available p) := by
  cases h <;> (unfold Std.Available; infer_instance)

/-- What a line includes. -/
inductive Item
  | once
  | user (kind : Kind) (text : Text)
  | std (h : Std)
  deriving DecidableEq

/-- An open `#if`: whether its present branch is taken, and whether `#else` was seen. -/
structure Open where
  taken : Bool
  elseSeen : Bool

/-- The lines as the preprocessor reads them, inside of the given conditionals.  `none` if the conditionals do not
match up. -/
def read (p : Platform) : List Open → List Line → Option (List Item)
  | [], [] => some []
  | _ :: _, [] => none
  | s, .ifWin32 :: ls => read p (⟨p.win32, false⟩ :: s) ls
  | s, .ifNotWin32 :: ls => read p (⟨!p.win32, false⟩ :: s) ls
  | s, .ifCplusplus v :: ls => read p (⟨decide (v ≤ p.cplusplus), false⟩ :: s) ls
  | ⟨t, false⟩ :: s, .otherwise :: ls => read p (⟨!t, true⟩ :: s) ls
  | _, .otherwise :: _ => none
  | _ :: s, .endif :: ls => read p s ls
  | [], .endif :: _ => none
  | s, .pragmaOnce :: ls => (read p s ls).map fun is => if s.all Open.taken then .once :: is else is
  | s, .quoted t :: ls => (read p s ls).map fun is => if s.all Open.taken then .user .quoted t :: is else is
  | s, .bracketed t :: ls => (read p s ls).map fun is => if s.all Open.taken then .user .bracketed t :: is else is
  | s, .std h :: ls => (read p s ls).map fun is => if s.all Open.taken then .std h :: is else is

/-- All headers with a flag, in the order of the output. -/
def everyStd : List Std :=
  [.algorithm, .array, .cassert, .cstddef, .cstdint, .cstring, .exception, .functional, .initializerList, .iterator,
   .memory, .new, .stdexcept, .string, .typeTraits, .utility, .vector, .basetsd, .sysTypes, .stringView, .ranges]

/-- The user includes rust/cxx.h. -/
def UserHasCxx (custom : List Include) : Prop :=
  ∃ h ∈ custom, h.path = "rust/cxx.h".toList.map Char.toNat ∨ h.path = "rust\\cxx.h".toList.map Char.toNat

/-- The headers rust/cxx.h does not include. -/
def Std.Extra (h : Std) : Prop := h = .cstring ∨ h = .functional ∨ h = .memory

instance (h : Std) : Decidable h.Extra := by unfold Std.Extra; infer_instance

/-- Printable ASCII. -/
def Printable (c : Nat) : Prop := 32 ≤ c ∧ c ≤ 126

/-- Printable, and neither a quotation mark nor a backslash. -/
def Ordinary (c : Nat) : Prop := Printable c ∧ c ≠ 34 ∧ c ≠ 39 ∧ c ≠ 92

/-- Every quotation mark in the text stands behind a backslash that is not itself escaped. -/
inductive Contained : Text → Prop
  | nil : Contained []
  | plain {c : Nat} {t : Text} (h : c ≠ 34) (h' : c ≠ 92) (ht : Contained t) : Contained (c :: t)
  | escaped {c : Nat} {t : Text} (ht : Contained t) : Contained (92 :: c :: t)

end Verif.Preamble
