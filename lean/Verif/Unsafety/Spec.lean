import Verif.Unsafety.Model
/-!
# When Rust demands `unsafe`

From the Rust reference ("Unsafety"), the documentation of `core` and `alloc`, and the declarations in `src/` of cxx.  Only the
syntax of expressions is taken from the model.
-/
namespace Verif.Unsafety
open Verif.Syntax Verif.Abi

/-- Declared as `unsafe fn`.  In cxx: src/unique_ptr.rs:130, src/rust_str.rs:19, src/rust_slice.rs:26-32, src/rust_vec.rs:68,
src/result.rs:26, 56; the others in `core` and `alloc`. -/
def Lib.Unsafe : Lib → Prop
  | .boxFromRaw | .ptrPut | .ptrRead | .ptrWrite | .dropInPlace | .transmute | .uninitAssumeInit | .pinIntoInnerUnchecked
  | .pinNewUnchecked => True
  | .uniqueFromRaw | .strAsStr | .sliceAsRef | .sliceAsMut | .vecSetLen | .tryFn | .exception => True
  | .boxNew | .boxIntoRaw | .ptrCast | .memTake | .uninitNew | .uninitUninit | .uninitAsMutPtr | .resultMap | .resultOk
  | .layoutNew | .layoutSize | .layoutAlign | .writeStr => False
  | .uniqueIntoRaw | .preventUnwind | .hash | .stringFrom | .stringFromRef | .stringFromMut | .stringInto | .stringAsRef
  | .stringAsMut | .vecNew | .vecFrom | .vecFromRef | .vecFromMut | .vecInto | .vecAsRef | .vecAsMut | .stringsFrom
  | .stringsFromRef | .stringsFromMut | .stringsInto | .stringsAsRef | .stringsAsMut | .vecLen | .vecCapacity | .vecAsPtr
  | .vecReserveTotal | .vecTruncate | .strFrom | .sliceFromRef | .sliceFromMut => False

/-- A function that it is unsafe to call.  Those of `extern` blocks are unless they are marked `safe`. -/
def Callee.Unsafe : Callee → Prop
  | .lib f => f.Unsafe
  | .item _ u => u = true
  | .imported _ => True
  | .pointer u => u = true

/-- The parts of an expression. -/
def Expr.parts : Expr → List Expr
  | .var _ | .fn _ => []
  | .call _ args => args
  | .ref e | .deref _ e | .cast e | .try e | .unsafeBlock e | .closure e | .bind _ e => [e]
  | .two a b | .seq a b => [a, b]

/-- What is unsafe in itself: calls of unsafe functions, and going through raw pointers. -/
def Expr.Operation : Expr → Prop
  | .call f _ => f.Unsafe
  | .deref raw _ => raw = true
  | _ => False

/-- `a` occurs in `e`. -/
inductive Within (a : Expr) : Expr → Prop
  | here : Within a a
  | part {p e : Expr} : p ∈ e.parts → Within a p → Within a e

/-- There is an unsafe operation that no `unsafe` block of the expression itself surrounds.  A closure does not change that. -/
inductive Needs : Expr → Prop
  | here {e : Expr} : e.Operation → Needs e
  | part {p e : Expr} : (∀ b, e ≠ .unsafeBlock b) → p ∈ e.parts → Needs p → Needs e

/-- Unsafe operations are permitted where they are (error E0133).  The body of an `unsafe fn` counts as an unsafe block. -/
def Fun.Permitted (g : Fun) : Prop := Needs g.body → g.unsafety = true

/-- They are also if it does not count: nothing that `unsafe_op_in_unsafe_fn` is about, a lint that Rust 2024 has on.  rustc
does not report it in the code of macros from other crates. -/
def Fun.Explicit (g : Fun) : Prop := ¬Needs g.body

/-- A function that is handed to another one to be called is not an unsafe one: these do not implement `FnOnce`
(error E0277). -/
def Fun.Callable (g : Fun) : Prop := ∀ f args, Within (.call f args) g.body → ∀ h, .fn h ∈ args → ¬h.Unsafe

/-- No block is `unsafe` for nothing: no warning `unused_unsafe`. -/
def Fun.Used (g : Fun) : Prop := g.allowUnused = true ∨ ∀ b, Within (.unsafeBlock b) g.body → Needs b

/-- The function compiles, as far as `unsafe` is concerned, and would without warnings if the user had written it. -/
def Fun.Fine (g : Fun) : Prop := g.Permitted ∧ g.Explicit ∧ g.Callable ∧ g.Used

/-- A value of this type is the same on both sides: it is neither converted nor passed through memory. -/
def Unchanged (cx : Ctx) : Ty → Prop
  | .ident t => t.rust ≠ "String" ∧ cx.needsIndirect (.ident t) = false
  | .rustBox _ | .rustVec _ | .uniquePtr _ | .str .. | .sliceRef .. => False
  | .ref _ _ _ (.ident t) => t.rust ≠ "String"
  | .ref _ _ _ (.rustVec _) => False
  | .ref .. | .ptr .. => True
  | t => cx.needsIndirect t = false

/-- A value of this type reaches a Rust function without an unsafe operation: it is not owned, and no string or slice. -/
def Harmless (cx : Ctx) : Ty → Prop
  | .ident t => t.rust ≠ "String" ∧ cx.needsIndirect (.ident t) = false
  | .rustBox _ | .rustVec _ | .uniquePtr _ | .str .. | .sliceRef .. => False
  | .ref .. | .ptr .. => True
  | t => cx.needsIndirect t = false

end Verif.Unsafety
