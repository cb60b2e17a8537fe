import Verif.Repr.Model
import Verif.Layout.Spec
/-!
# Layouts, and what it is for the runtime to compile

The rules of the two compilers for the types of `Verif/Repr/Model`.  Sizes and alignments of primitive types and of types
from the standard libraries are arbitrary.
-/
namespace Verif.Repr
open Verif.Syntax Verif.Layout

/-- A Rust compiler and its standard library. -/
structure RustEnv where
  usize : Lay
  isize : Lay
  ptr : Lay
  cvoid : Lay
  string : Lay
  vec : Arg → Lay
  fatStr : Lay
  fatSlice : Lay

/-- A C++ compiler and its standard library. -/
structure CxxEnv where
  uintptr : Lay
  intptr : Lay
  sizeT : Lay
  ssizeT : Lay
  ptr : Lay
  fnPtr : Lay
  string : Lay
  uniquePtr : Arg → Lay
  sharedPtr : Arg → Lay
  weakPtr : Arg → Lay

/-- `n` values next to each other. -/
def repeated (l : Lay) (n : Nat) : Lay := ⟨n * l.size, l.align⟩

mutual
/-- The layout of a Rust type. -/
def RustEnv.lay (r : RustEnv) : RTy → Lay
  | .usize => r.usize
  | .isize => r.isize
  | .ptr => r.ptr
  | .cvoid => r.cvoid
  | .phantom => ⟨0, 1⟩
  | .string => r.string
  | .vec t => r.vec t
  | .fatStr => r.fatStr
  | .fatSlice => r.fatSlice
  | .uninit t => r.lay t
  | .array t n => repeated (r.lay t) n
  | .record fs => (rustRecord (r.lays fs)).2
  | .packed fs => ⟨((r.lays fs).map (·.size)).sum, 1⟩
  | .union fs =>
    ⟨roundUp ((r.lays fs).foldr (fun l s => max l.size s) 0) (maxAlign (r.lays fs)), maxAlign (r.lays fs)⟩
def RustEnv.lays (r : RustEnv) : List RTy → List Lay
  | [] => []
  | t :: ts => r.lay t :: r.lays ts
end

/-- `mem::size_of` -/
def RustEnv.size (r : RustEnv) (t : RTy) : Nat := (r.lay t).size

/-- `mem::align_of` -/
def RustEnv.align (r : RustEnv) (t : RTy) : Nat := (r.lay t).align

mutual
/-- The layout of a C++ type. -/
def CxxEnv.lay (c : CxxEnv) : CTy → Lay
  | .uintptr => c.uintptr
  | .intptr => c.intptr
  | .sizeT => c.sizeT
  | .ssizeT => c.ssizeT
  | .ptr => c.ptr
  | .fnPtr => c.fnPtr
  | .string => c.string
  | .uniquePtr t => c.uniquePtr t
  | .sharedPtr t => c.sharedPtr t
  | .weakPtr t => c.weakPtr t
  | .array t n => repeated (c.lay t) n
  | .cls fs => (cxxRecord (c.lays fs)).2
def CxxEnv.lays (c : CxxEnv) : List CTy → List Lay
  | [] => []
  | t :: ts => c.lay t :: c.lays ts
end

/-- The crate compiles: `const_assert_eq!` (src/macros/assert.rs: the types `[(); left]` and `[(); right]` are the same) and
`transmute`, which demands equal sizes. -/
structure RustCompiles (r : RustEnv) : Prop where
  asserts : ∀ p ∈ constAsserts r.size r.align, p.1 = p.2
  transmutes : ∀ t, ∀ p ∈ transmutes r.size t, r.size p.1 = r.size p.2

/-- The condition of a `static_assert`. -/
def StaticAssert.Holds (c : CxxEnv) : StaticAssert → Prop
  | .sizeEq a k b => (c.lay a).size = k * (c.lay b).size
  | .alignEq a b => (c.lay a).align = (c.lay b).align
  | .sizeLe a k b => (c.lay a).size ≤ k * (c.lay b).size
  | .alignLe a b => (c.lay a).align ≤ (c.lay b).align

/-- `cxx.cc` and the code generated for a bridge compile. -/
structure CxxCompiles (c : CxxEnv) (i : Instances) : Prop where
  runtime : ∀ a ∈ runtimeAsserts, a.Holds c
  generated : ∀ a ∈ generatedAsserts i, a.Holds c

/-- The two compilers are for one platform.  What the Rust reference promises: `usize` and `isize` are `uintptr_t` and
`intptr_t` of C, pointers to `Sized` types are pointers of C and have the layout of `usize`. -/
structure Platform (r : RustEnv) (c : CxxEnv) : Prop where
  usize : r.usize = c.uintptr
  isize : r.isize = c.intptr
  ptr : r.ptr = c.ptr
  word : r.ptr = r.usize
  size : 0 < r.usize.size
  align : 0 < r.usize.align
  multiple : r.usize.align ∣ r.usize.size

end Verif.Repr
