import Verif.Sizes.Model
import Verif.Layout.Spec
import Verif.Check.Rules
/-!
# The sizes that C++ uses for elements
-/
namespace Verif.Sizes
open Verif.Syntax Verif.Types Verif.Mangle Verif.Layout Verif.Check
open Verif.Abi (CTok Names)

/-- The size or the alignment of a layout. -/
def Query.of : Query → Lay → Nat
  | .size, l => l.size
  | .align, l => l.align

/-- The types of the elements of slices and vectors of Rust. -/
def Element (apis : List Api) (ty : Ty) : Prop :=
  Occurs apis (.rustVec ty) ∨ ∃ l m, Occurs apis (.sliceRef l m ty)

/-- Where the program runs: the platform, the Rust types that the bridge does not define, and the C++ types that it does
not define: their layout, and which ones derive from `rust::Opaque`. -/
structure World where
  machine : Machine
  imported : Ident → Option Lay
  header : Pair → Option Lay
  derived : Pair → Bool

/-- The value that `rust::size_of<c>()` (or `align_of`) has in C++, with the definitions `ds` and the functions `fs` of the
generated file, when it is linked with `ss`.  `sizeof` and `alignof` of a reference are those of what it refers to. -/
inductive Gives (w : World) (apis : List Api) (ds : List CDef) (fs : List Unit.Decl) (ss : List (Option Symbol × Code)) :
    Query → CTok → Nat → Prop
  | builtin {q q' c l} : chosen q (derivesOpaque w.derived ds c) = some (.builtin q') → (∀ m t, c ≠ .lref m t) →
      CxxLayout w.machine w.header ds c l → Gives w apis ds fs ss q c (q'.of l)
  | reference {q q' m c l} : chosen q (derivesOpaque w.derived ds (.lref m c)) = some (.builtin q') →
      CxxLayout w.machine w.header ds c l → Gives w apis ds fs ss q (.lref m c) (q'.of l)
  | member {q p fn sym n q' l} : chosen q (derivesOpaque w.derived ds (.named p)) = some (.member fn) →
      layoutFn fs p fn = some sym → link ss sym = some (.layout n q') →
      RustLayout w.machine w.imported (rustDefs apis) (.named n) l → Gives w apis ds fs ss q (.named p) (q'.of l)

/-- A type from a header does not derive from `rust::Opaque`. -/
def HeadersPlain (w : World) (apis : List Api) : Prop :=
  ∀ n p, FromHeader apis n → Names apis n p → w.derived p = false

/-- No alias is called `CxxString`. -/
def NoFakeString (apis : List Api) : Prop := ¬ Rules.Alias apis "CxxString"

end Verif.Sizes
