/-!
# Memory that one language may look at

Addresses are numbers; a memory says for every address whether it may be read and what byte is there.
-/
namespace Verif.View

/-- The bytes that may be read, by address. -/
abbrev Mem := Nat → Option Nat

/-- The bytes from `p` on are `bs`. -/
def Bytes (m : Mem) (p : Nat) (bs : List Nat) : Prop := ∀ i (h : i < bs.length), m (p + i) = some bs[i]

/-- An element type: its size and alignment in bytes. -/
structure Elt where
  size : Nat
  align : Nat
  deriving DecidableEq, Repr

def Elt.byte : Elt := ⟨1, 1⟩
/-- `char16_t` and `u16`. -/
def Elt.unit16 : Elt := ⟨2, 2⟩

/-- What `core::slice::from_raw_parts::<T>(ptr, len)` asks for: the pointer is not null and aligned even for length 0, the
elements may be read, and they take at most `isize::MAX` bytes. -/
def RustMay (maxBytes : Nat) (m : Mem) (t : Elt) (ptr len : Nat) : Prop :=
  ptr ≠ 0 ∧ ptr % t.align = 0 ∧ (∀ i, i < len * t.size → (m (ptr + i)).isSome = true) ∧ len * t.size ≤ maxBytes

/-- A pointer and a length, as they arrive in the other language. -/
structure Handed where
  ptr : Nat
  len : Nat
  deriving DecidableEq, Repr

/-- What a function does that hands memory over. -/
inductive Outcome
  | handed (h : Handed)
  /-- an `assert` failed -/
  | abort
  /-- C++ reads memory that it may not read -/
  | fault
  deriving DecidableEq, Repr

/-- Rust gets a slice it may look at, and finds `bs` there. -/
def Shows (maxBytes : Nat) (m : Mem) (t : Elt) (o : Outcome) (bs : List Nat) : Prop :=
  ∃ h, o = .handed h ∧ RustMay maxBytes m t h.ptr h.len ∧ Bytes m h.ptr bs ∧ bs.length = h.len * t.size

/-- The C++ pointer `p` and length `n` are an array with the contents `bs`: an aligned pointer to as many elements, or null
and 0. -/
def Array (maxBytes : Nat) (m : Mem) (t : Elt) (p n : Nat) (bs : List Nat) : Prop :=
  bs.length = n * t.size ∧ n * t.size ≤ maxBytes ∧ Bytes m p bs ∧ p % t.align = 0 ∧ (p = 0 → n = 0)

/-- `p` points to a C string of elements of type `t` with the contents `bs`: no element is zero, and the element behind them
is. -/
def CString (maxBytes : Nat) (m : Mem) (t : Elt) (p : Nat) (bs : List Nat) : Prop :=
  p ≠ 0 ∧ p % t.align = 0 ∧ bs.length ≤ maxBytes ∧ Bytes m p (bs ++ List.replicate t.size 0) ∧
  ∃ n, bs.length = n * t.size ∧ ∀ k, k < n → ∃ j, j < t.size ∧ bs[k * t.size + j]? ≠ some 0

/-- A `std::string`: the addresses `data()` and `length()` give. -/
structure StdString where
  data : Nat
  size : Nat

/-- The string holds `bs`.  `data()` is never null and there is a zero behind the characters, since C++11. -/
def StdString.Holds (maxBytes : Nat) (m : Mem) (s : StdString) (bs : List Nat) : Prop :=
  s.data ≠ 0 ∧ s.size = bs.length ∧ bs.length ≤ maxBytes ∧ Bytes m s.data (bs ++ [0])

/-- A `std::vector<T>`: where its elements are, and how many. -/
structure StdVector where
  begin_ : Nat
  size : Nat

/-- The vector holds `bs`.  Of a vector without elements nothing is known about where they would be. -/
def StdVector.Holds (maxBytes : Nat) (m : Mem) (t : Elt) (v : StdVector) (bs : List Nat) : Prop :=
  bs.length = v.size * t.size ∧ bs.length ≤ maxBytes ∧
  (v.size ≠ 0 → v.begin_ ≠ 0 ∧ v.begin_ % t.align = 0 ∧ Bytes m v.begin_ bs)

end Verif.View
