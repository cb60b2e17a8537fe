import Verif.View.Spec
/-!
# What is handed over to be looked at

The pointer and length with which each function of the runtime makes a Rust slice of C++ memory or reads
Rust memory in C++.
-/
namespace Verif.View

/-- `assert(c)`: does nothing where `NDEBUG` is defined. -/
def assert (ndebug : Bool) (c : Bool) (next : Outcome) : Outcome := if ndebug || c then next else .abort

/-- The `size` bytes at the address are zero; `none` if they may not be read. -/
def isZero (m : Mem) : Nat → Nat → Option Bool
  | 0, _ => some true
  | size + 1, p => do
    let b ← m p
    let rest ← isZero m size (p + 1)
    pure (b == 0 && rest)

/-- `std::strlen` and `std::char_traits<char16_t>::length`: counts up to the first zero.  `fuel` is the size of the address
space. -/
def length (m : Mem) (t : Elt) (p : Nat) : Nat → Nat → Option Nat
  | 0, _ => none
  | fuel + 1, n =>
    match isZero m t.size (p + n * t.size) with
    | none => none
    | some true => some n
    | some false => length m t p fuel (n + 1)

/-- src/cxx.cc:126-131 `String(const char *, std::size_t)` (also 136-137 for `char8_t`), 179-182 `String::lossy` with
157-161, and 317-322 `Str(const char *, std::size_t)`. -/
def fromChars (ndebug : Bool) (s len : Nat) : Outcome :=
  assert ndebug (s != 0 || len == 0) (.handed ⟨if s = 0 ∧ len = 0 then 1 else s, len⟩)

/-- src/cxx.cc:146-153 `String(const char16_t *, std::size_t)`, and 190-194 `String::lossy` with 163-168.  `is_aligned` is
89-93. -/
def fromChars16 (ndebug : Bool) (s len : Nat) : Outcome :=
  assert ndebug (s != 0 || len == 0) (assert ndebug (s % 2 == 0) (.handed ⟨if s = 0 ∧ len = 0 then 2 else s, len⟩))

/-- src/cxx.cc:121-124 `String(const char *)` and 312-315 `Str(const char *)`. -/
def fromCString (ndebug : Bool) (m : Mem) (space s : Nat) : Outcome :=
  assert ndebug (s != 0) (match length m .byte s space 0 with
    | some n => .handed ⟨s, n⟩
    | none => .fault)

/-- src/cxx.cc:174-177 `String::lossy(const char *)`: calls the function with a length. -/
def lossyCString (ndebug : Bool) (m : Mem) (space s : Nat) : Outcome :=
  assert ndebug (s != 0) (match length m .byte s space 0 with
    | some n => fromChars ndebug s n
    | none => .fault)

/-- src/cxx.cc:140-144 `String(const char16_t *)`. -/
def fromCString16 (ndebug : Bool) (m : Mem) (space s : Nat) : Outcome :=
  assert ndebug (s != 0) (assert ndebug (s % 2 == 0) (match length m .unit16 s space 0 with
    | some n => .handed ⟨s, n⟩
    | none => .fault))

/-- src/cxx.cc:184-188 `String::lossy(const char16_t *)`, with the constructor of 163-168. -/
def lossyCString16 (ndebug : Bool) (m : Mem) (space s : Nat) : Outcome :=
  assert ndebug (s != 0) (assert ndebug (s % 2 == 0) (match length m .unit16 s space 0 with
    | some n => .handed ⟨if s = 0 ∧ n = 0 then 2 else s, n⟩
    | none => .fault))

/-- src/cxx.cc:563-565 `Fail::operator()(const char *)`: the message of an exception. -/
def failMessage (m : Mem) (space s : Nat) : Outcome :=
  match length m .byte s space 0 with
  | some n => .handed ⟨s, n⟩
  | none => .fault

/-- src/cxx.cc:119 `String(const std::string &)`, 310 `Str(const std::string &)`, 567-569 `Fail::operator()`, and
src/cxx_string.rs:118-122 `as_bytes`. -/
def fromStdString (s : StdString) : Outcome := .handed ⟨s.data, s.size⟩

/-- src/cxx.cc:170-172 `String::lossy(const std::string &)`. -/
def lossyStdString (ndebug : Bool) (s : StdString) : Outcome := fromChars ndebug s.data s.size

/-- include/cxx.h:557-560 `Slice<T>::Slice()`. -/
def sliceDefault (t : Elt) : Outcome := .handed ⟨t.align, 0⟩

/-- include/cxx.h:562-570 `Slice<T>::Slice(T *, std::size_t)`; of a container, by `data()` and `size()` (188-192). -/
def slice (ndebug : Bool) (t : Elt) (s count : Nat) : Outcome :=
  assert ndebug (s != 0 || count == 0) (.handed ⟨if s = 0 ∧ count = 0 then t.align else s, count⟩)

/-- src/cxx_vector.rs:130-163 `as_slice` and `as_mut_slice`.  `&(*v)[0]` is where the elements begin; the reference to the
empty slice points to the alignment. -/
def vectorSlice (t : Elt) (v : StdVector) : Outcome :=
  if v.size = 0 then .handed ⟨t.align, 0⟩ else .handed ⟨v.begin_ + 0 * t.size, v.size⟩

/-- src/cxx_string.rs:150-153 `as_c_str`: `CStr::from_ptr` counts up to the first zero. -/
def asCStr (m : Mem) (space : Nat) (s : StdString) : Outcome :=
  match length m .byte s.data space 0 with
  | some n => .handed ⟨s.data, n⟩
  | none => .fault

end Verif.View
