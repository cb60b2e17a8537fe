import Verif.Throw.Model
import Verif.Utf8.Spec
/-!
# Where an exception ends
-/
namespace Verif.Throw
open Verif Verif.Unwind

/-- The function lets the exception through: a C++ function, a `try` block for other exceptions, or the wrapper of a Rust
function that returns a `Result`. -/
inductive Passes (e : Exn) : Frame → Prop
  | cxx : Passes e .cxx
  | tryBlock {c : Clause} (h : c.catches e = false) : Passes e (.tryBlock c)
  | wrapper {w : Wrapper} (h : w.fallible = true) : Passes e (.wrapper w)

/-- `t` is `bytes` with every ill-formed piece replaced by U+FFFD. -/
def IsLossy (bytes t : List Nat) : Prop := ∃ ps, Utf8.Spec.Pieces bytes ps ∧ t = Utf8.Spec.lossy ps

/-- Where an exception that is thrown on a stack ends, and what is seen then. -/
inductive Lands (b : Behavior) : List Frame → Exn → State → Obs → Prop
  /-- at the first `try` block that catches it -/
  | caught {pre rest : List Frame} {c : Clause} {e : Exn} (hp : ∀ f ∈ pre, Passes e f) (hc : c.catches e = true) :
      Lands b (pre ++ .tryBlock c :: rest) e (.running rest) (.caught e)
  /-- in Rust as `Err`, if the function is declared to return a `Result` and `trycatch` reports it -/
  | reported {pre rest : List Frame} {en : Entry} {e : Exn} {t t' : List Nat} (hp : ∀ f ∈ pre, Passes e f)
      (hf : en.fallible = true) (hb : b e = .fail t) (ht : IsLossy t t') :
      Lands b (pre ++ .entry en :: rest) e (.running rest) (.toRust (.error t'))
  /-- at the boundary to Rust otherwise: the process ends -/
  | terminated {pre rest : List Frame} {en : Entry} {e : Exn} (hp : ∀ f ∈ pre, Passes e f)
      (hf : en.fallible = false ∨ ∃ e', b e = .escapes e') : Lands b (pre ++ .entry en :: rest) e .aborted .aborted
  /-- it leaves `main`: the process ends -/
  | main {st : List Frame} {e : Exn} (hp : ∀ f ∈ st, Passes e f) : Lands b st e .aborted .aborted

/-- What users have to see to if they define a `trycatch`: it does not swallow exceptions. -/
def Reports (b : Behavior) : Prop := ∀ e, b e ≠ .silent

/-- The functions at the boundary are declared as they should be: what Rust calls is `noexcept`, and the wrapper of a Rust
function is `noexcept` unless the function returns a `Result`. -/
def Op.Declared : Op → Prop
  | .callCxx e => e.noexcept = true
  | .callRust w => w.noexcept = !w.fallible
  | _ => True

/-- No function without `prevent_unwind` panics unnoticed (see C12). -/
def NoOverflow (c : Config) (op : Op) : Prop :=
  c.externAborts = true ∨ c.panicAbort = true ∨ ∀ sh, op = .callBare sh true → sh.overflows = false

end Verif.Throw
