/-!
# rust::Slice and its iterators

Pointers are addresses below `W` (2^64, say); `size_t` arithmetic is modulo `W`, as is adding a
`size_t` to a `char *`.
-/
namespace Verif.Slice

/-- `slicePtr`, `sliceLen`: src/cxx.cc:395-403 and src/symbols/rust_slice.rs:5-20.  Pointer and count. -/
structure Slice where
  ptr : Nat
  len : Nat
  deriving DecidableEq, Repr

/-- include/cxx.h:558-560, default constructor. -/
def Slice.default (align : Nat) : Slice := ⟨align, 0⟩

/-- include/cxx.h:562-570, constructor from pointer (0 is null) and count.  `none`: the assertion fails. -/
def Slice.mk' (align s count : Nat) : Option Slice :=
  if s ≠ 0 ∨ count = 0 then some ⟨if s = 0 ∧ count = 0 then align else s, count⟩ else none

/-- include/cxx.h:592-597 `operator[]`: the address of the element.  `none`: the assertion fails. -/
def Slice.index (W size : Nat) (s : Slice) (n : Nat) : Option Nat :=
  if n < s.len then some ((s.ptr + size * n % W) % W) else none

/-- include/cxx.h:599-605 `at`: the outer `none` is the `std::out_of_range` exception. -/
def Slice.at (W size : Nat) (s : Slice) (n : Nat) : Option (Option Nat) :=
  if n ≥ s.len then none else some (s.index W size n)

/-- include/cxx.h:607-617 `front`, `back`. -/
def Slice.front (W size : Nat) (s : Slice) : Option Nat := if s.len = 0 then none else s.index W size 0
def Slice.back (W size : Nat) (s : Slice) : Option Nat := if s.len = 0 then none else s.index W size (s.len - 1)

/-- include/cxx.h `Slice<T>::iterator`. -/
structure Iter where
  pos : Nat
  stride : Nat
  deriving DecidableEq, Repr

/-- A `ptrdiff_t` converted to `size_t`, as in `this->stride * n`. -/
def toSize (W : Nat) (n : Int) : Nat := (n % (W : Int)).toNat

/-- `static_cast<char *>(pos) + k` and `- k` for a `size_t` k. -/
def ptrAdd (W pos k : Nat) : Nat := (pos + k) % W
def ptrSub (W pos k : Nat) : Nat := (pos + (W - k % W)) % W

/-- include/cxx.h:733-739 `begin`. -/
def Slice.begin (size : Nat) (s : Slice) : Iter := ⟨s.ptr, size⟩

/-- include/cxx.h:741-746 `end`. -/
def Slice.end (W size : Nat) (s : Slice) : Iter :=
  let it := s.begin size
  { it with pos := ptrAdd W it.pos (it.stride * s.len % W) }

/-- include/cxx.h:639-649 `++`. -/
def Iter.inc (W : Nat) (it : Iter) : Iter := { it with pos := ptrAdd W it.pos it.stride }
/-- include/cxx.h:652-662 `--`. -/
def Iter.dec (W : Nat) (it : Iter) : Iter := { it with pos := ptrSub W it.pos it.stride }
/-- include/cxx.h:665-669,679-684 `+=`, `+`. -/
def Iter.add (W : Nat) (it : Iter) (n : Int) : Iter :=
  { it with pos := ptrAdd W it.pos (it.stride * toSize W n % W) }
/-- include/cxx.h:672-676,687-692 `-=`, `-`. -/
def Iter.sub (W : Nat) (it : Iter) (n : Int) : Iter :=
  { it with pos := ptrSub W it.pos (it.stride * toSize W n % W) }
/-- include/cxx.h:632-636 `operator[]`: the address it denotes. -/
def Iter.index (W : Nat) (it : Iter) (n : Int) : Nat := ptrAdd W it.pos (it.stride * toSize W n % W)
/-- include/cxx.h:620-629 `*`, `->`: the address it denotes. -/
def Iter.deref (it : Iter) : Nat := it.pos
/-- include/cxx.h:695-701, difference of iterators; `none` is division by zero. -/
def Iter.diff (it other : Iter) : Option Int :=
  if it.stride = 0 then none else some (((it.pos : Int) - other.pos).tdiv it.stride)
/-- include/cxx.h:704-731 comparisons. -/
def Iter.eq (it other : Iter) : Bool := it.pos == other.pos
def Iter.ne (it other : Iter) : Bool := it.pos != other.pos
def Iter.lt (it other : Iter) : Bool := it.pos < other.pos
def Iter.le (it other : Iter) : Bool := it.pos ≤ other.pos
def Iter.gt (it other : Iter) : Bool := it.pos > other.pos
def Iter.ge (it other : Iter) : Bool := it.pos ≥ other.pos

/-- `for (it = first; it != last; ++it) visit(*it)`: the addresses visited.  `none`: still running
after `fuel` rounds. -/
def walk (W : Nat) : Nat → Iter → Iter → Option (List Nat)
  | 0, _, _ => none
  | fuel + 1, it, last =>
    if it.ne last then (walk W fuel (it.inc W) last).map (it.deref :: ·) else some []

end Verif.Slice
