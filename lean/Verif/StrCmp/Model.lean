/-!
# Comparison operators of rust::Str and rust::String

The operators work on `char`, whose signedness is the platform's choice: `signed` below.  Bytes are
naturals below 256.
-/
namespace Verif.StrCmp

/-- A byte read through `const char *`. -/
def toChar (signed : Bool) (b : Nat) : Int := if signed ∧ 128 ≤ b then (b : Int) - 256 else b

/-- `std::equal(first1, last1, first2)` over ranges known to be equally long: all positions of the
first range are compared (with a shorter second range this would read past its end, `none`). -/
def stdEqual (signed : Bool) : List Nat → List Nat → Option Bool
  | [], _ => some true
  | _ :: _, [] => none
  | a :: as, b :: bs => if toChar signed a = toChar signed b then stdEqual signed as bs else some false

/-- src/cxx.cc:352-355 `Str::operator==`. -/
def eq (signed : Bool) (l r : List Nat) : Option Bool :=
  if l.length = r.length then stdEqual signed l r else some false

/-- src/cxx.cc:357 `Str::operator!=`. -/
def ne (signed : Bool) (l r : List Nat) : Option Bool := (eq signed l r).map (!·)

/-- `std::lexicographical_compare`. -/
def lexCompare (signed : Bool) : List Nat → List Nat → Bool
  | _, [] => false
  | [], _ :: _ => true
  | a :: as, b :: bs =>
    if toChar signed a < toChar signed b then true
    else if toChar signed b < toChar signed a then false
    else lexCompare signed as bs

/-- src/cxx.cc:359-362 `Str::operator<`. -/
def lt (signed : Bool) (l r : List Nat) : Bool := lexCompare signed l r

/-- src/cxx.cc:364-379 `Str::operator<=`: the loop to the first mismatch, then the three returns. -/
def le (signed : Bool) : List Nat → List Nat → Bool
  | [], _ => true
  | _ :: _, [] => false
  | a :: as, b :: bs =>
    if toChar signed a = toChar signed b then le signed as bs
    else decide (toChar signed a ≤ toChar signed b)

/-- src/cxx.cc:381 `Str::operator>`. -/
def gt (signed : Bool) (l r : List Nat) : Bool := lt signed r l

/-- src/cxx.cc:383 `Str::operator>=`. -/
def ge (signed : Bool) (l r : List Nat) : Bool := le signed r l

/-! ### Objects in memory

`rust::String` and `rust::Str` as Rust lays them out: where the bytes are and how many.  The bytes past the length, up to the
capacity, belong to the string as well. -/

/-- Memory: the byte at each address. -/
abbrev Mem := Nat → Nat

/-- A `rust::String`, as read by `cxxbridge1$string$ptr`, `$len` and `$capacity` (src/symbols/rust_string.rs:88-101). -/
structure StringObj where
  ptr : Nat
  len : Nat
  cap : Nat

/-- A `rust::Str`, as read by `cxxbridge1$str$ptr` and `$len` (src/symbols/rust_str.rs:35-43). -/
structure StrObj where
  ptr : Nat
  len : Nat

/-- src/cxx.cc:302 `Str::Str`, through src/symbols/rust_str.rs:15-20 `str_ref`. -/
def StrObj.ofString (s : StringObj) : StrObj := ⟨s.ptr, s.len⟩

/-- src/cxx.cc:342, 346 `Str::begin`, `cbegin`. -/
def StrObj.first (s : StrObj) : Nat := s.ptr
/-- src/cxx.cc:344, 348-350 `Str::end`, `cend`. -/
def StrObj.last (s : StrObj) : Nat := s.ptr + s.len
/-- src/cxx.cc:245-247, 253, 257 `String::begin`, `cbegin`. -/
def StringObj.first (s : StringObj) : Nat := s.ptr
/-- src/cxx.cc:249-251, 255, 259-261 `String::end`, `cend`. -/
def StringObj.last (s : StringObj) : Nat := s.ptr + s.len

/-- The bytes that a loop from one iterator to another reads. -/
def walk (m : Mem) (first last : Nat) : List Nat := (List.range' first (last - first)).map m

/-- The six operators, by their C++ names. -/
inductive Cmp
  | eq | ne | lt | le | gt | ge
  deriving DecidableEq

/-- The operators of `Str` on objects: each reads between the iterators of its operands. -/
def StrObj.cmp (signed : Bool) (m : Mem) (o : Cmp) (l r : StrObj) : Option Bool :=
  let a := walk m l.first l.last
  let b := walk m r.first r.last
  match o with
  | .eq => StrCmp.eq signed a b
  | .ne => StrCmp.ne signed a b
  | .lt => some (StrCmp.lt signed a b)
  | .le => some (StrCmp.le signed a b)
  | .gt => some (StrCmp.gt signed a b)
  | .ge => some (StrCmp.ge signed a b)

/-- src/cxx.cc:263-285: the operators of `String`. -/
def StringObj.cmp (signed : Bool) (m : Mem) (o : Cmp) (l r : StringObj) : Option Bool :=
  match o with
  | .eq => StrObj.cmp signed m .eq (.ofString l) (.ofString r)
  | .ne => StrObj.cmp signed m .ne (.ofString l) (.ofString r)
  | .lt => StrObj.cmp signed m .lt (.ofString l) (.ofString r)
  | .le => StrObj.cmp signed m .le (.ofString l) (.ofString r)
  | .gt => StrObj.cmp signed m .gt (.ofString l) (.ofString r)
  | .ge => StrObj.cmp signed m .ge (.ofString l) (.ofString r)

/-- src/cxx.cc:295-298 `operator<<` of `String`: `os.write(data, size)`. -/
def StringObj.print (m : Mem) (s : StringObj) : List Nat := (List.range s.len).map fun i => m (s.ptr + i)
/-- src/cxx.cc:390-393 `operator<<` of `Str`. -/
def StrObj.print (m : Mem) (s : StrObj) : List Nat := (List.range s.len).map fun i => m (s.ptr + i)

end Verif.StrCmp
