/-!
# `src/rust_string.rs`, `rust_vec.rs`, `rust_str.rs`, `rust_slice.rs`: values handed to C++ as words

Rust does not say in which order `String`, `Vec` and slice references keep their pointer, capacity and length.  A layout is a
parameter here; `mem::transmute` writes the value in one layout and reads it in another.  Elements of a vector other than
strings own nothing here.
-/
namespace Verif.Words

/-- How a type keeps its fields in `n` words.  Any layout of the compiler's choice. -/
structure Layout (α : Type) (n : Nat) where
  write : α → List Nat
  read : List Nat → α
  sized : ∀ a, (write a).length = n
  back : ∀ a, read (write a) = a

/-- `String` and `Vec<T>`: pointer, capacity and length. -/
structure Raw where
  ptr : Nat
  cap : Nat
  len : Nat
  deriving DecidableEq, Repr

/-- `&str`, `&[T]`: pointer and length. -/
structure Fat where
  ptr : Nat
  len : Nat
  deriving DecidableEq, Repr

/-- The element type of a vector. -/
inductive Elem
  | plain
  | string
  | rustString
  deriving DecidableEq, Repr

/-- The layouts the compiler has chosen: of `String`, of `Vec<T>` for each `T`, of `NonNull<[()]>` and of `NonNull<str>` (the
same as of `&str`). -/
structure Layouts where
  string : Layout Raw 3
  vec : Elem → Layout Raw 3
  slice : Layout Fat 2
  str : Layout Fat 2

/-- A value that owns memory. -/
inductive Owner
  /-- `String` -/
  | string (r : Raw)
  /-- `RustString`, `rust::String` in C++; src/rust_string.rs:9-12. -/
  | rustString (ws : List Nat)
  /-- `Vec<T>` -/
  | vec (e : Elem) (r : Raw)
  /-- `RustVec<T>`, `rust::Vec<T>` in C++; src/rust_vec.rs:13-17. -/
  | rustVec (e : Elem) (ws : List Nat)
  deriving DecidableEq, Repr

/-! ### Conversions of owners -/

/-- src/rust_string.rs:15-17 `RustString::from`: a transmute. -/
def stringFrom (L : Layouts) (s : Raw) : List Nat := L.string.write s

/-- src/rust_string.rs:27-29 `into_string`: a transmute. -/
def intoString (L : Layouts) (ws : List Nat) : Raw := L.string.read ws

/-- src/rust_vec.rs:24-26 `RustVec::from`: a transmute. -/
def vecFrom (L : Layouts) (e : Elem) (v : Raw) : List Nat := (L.vec e).write v

/-- src/rust_vec.rs:36-38 `into_vec`: a transmute. -/
def intoVec (L : Layouts) (e : Elem) (ws : List Nat) : Raw := (L.vec e).read ws

/-- `Vec::from_raw_parts`. -/
def fromRawParts (ptr len cap : Nat) : Raw := ⟨ptr, cap, len⟩

/-- What a function returns, and the local variables that are dropped when it returns.  What is moved out of a variable or
is in a `ManuallyDrop` is not dropped. -/
structure Outcome where
  result : Owner
  dropped : List Owner

/-- src/rust_vec.rs:78-84 `from_vec_string`: the argument is in a `ManuallyDrop`. -/
def fromVecString (L : Layouts) (v : Raw) : Outcome :=
  let ptr := v.ptr
  let len := v.len
  let cap := v.cap
  ⟨.rustVec .rustString (vecFrom L .rustString (fromRawParts ptr len cap)), []⟩

/-- src/rust_vec.rs:94-100 `into_vec_string`: the vector is in a `ManuallyDrop`. -/
def intoVecString (L : Layouts) (ws : List Nat) : Outcome :=
  let v := intoVec L .rustString ws
  let ptr := v.ptr
  let len := v.len
  let cap := v.cap
  ⟨.vec .string (fromRawParts ptr len cap), []⟩

/-- The conversions. -/
inductive Conv
  | stringFrom | intoString | vecFrom | intoVec | fromVecString | intoVecString
  deriving DecidableEq, Repr

/-- A conversion of an owner; `none` if it has another type. -/
def convert (L : Layouts) : Conv → Owner → Option Outcome
  | .stringFrom, .string r => some ⟨.rustString (stringFrom L r), []⟩
  | .intoString, .rustString ws => some ⟨.string (intoString L ws), []⟩
  | .vecFrom, .vec e r => some ⟨.rustVec e (vecFrom L e r), []⟩
  | .intoVec, .rustVec e ws => some ⟨.vec e (intoVec L e ws), []⟩
  | .fromVecString, .vec .string r => some (fromVecString L r)
  | .intoVecString, .rustVec .rustString ws => some (intoVecString L ws)
  | _, _ => none

/-! ### The heap -/

/-- An allocation, with what is in its slots. -/
structure Block where
  ptr : Nat
  cap : Nat
  slots : List (List Nat)
  deriving DecidableEq, Repr

abbrev Heap := List Block

/-- Deallocation by `String` and `Vec`: nothing without capacity; undefined (`none`) unless the pointer is that of a
live allocation of this capacity. -/
def free (h : Heap) (ptr cap : Nat) : Option Heap :=
  if cap = 0 then some h else
  match h.find? (fun b => decide (b.ptr = ptr)) with
  | some b => if b.cap = cap then some (h.eraseP (fun b => decide (b.ptr = ptr))) else none
  | none => none

/-- The elements of a vector. -/
def elements (h : Heap) (r : Raw) : Option (List (List Nat)) :=
  if r.cap = 0 then some [] else
  (h.find? (fun b => decide (b.ptr = r.ptr))).map (fun b => b.slots.take r.len)

/-- `drop` of a `String`. -/
def dropString (h : Heap) (r : Raw) : Option Heap := free h r.ptr r.cap

/-- src/rust_string.rs:35-37 `as_mut_string`, for the words in place. -/
def asString (L : Layouts) (ws : List Nat) : Raw := L.string.read ws

/-- src/rust_string.rs:40-44 `Drop for RustString`. -/
def dropRustString (L : Layouts) (h : Heap) (ws : List Nat) : Option Heap := dropString h (asString L ws)

/-- `drop` of an element, at the type the vector has. -/
def dropElem (L : Layouts) (h : Heap) : Elem → List Nat → Option Heap
  | .plain, _ => some h
  | .string, ws => dropString h (L.string.read ws)
  | .rustString, ws => dropRustString L h ws

/-- `drop` of the elements, in order. -/
def dropElems (L : Layouts) (e : Elem) : Heap → List (List Nat) → Option Heap
  | h, [] => some h
  | h, s :: ss => do dropElems L e (← dropElem L h e s) ss

/-- `drop` of a `Vec`. -/
def dropVec (L : Layouts) (h : Heap) (e : Elem) (r : Raw) : Option Heap := do
  free (← dropElems L e h (← elements h r)) r.ptr r.cap

/-- src/rust_vec.rs:40-46 `as_vec`, `as_mut_vec`, for the words in place. -/
def asVec (L : Layouts) (e : Elem) (ws : List Nat) : Raw := (L.vec e).read ws

/-- src/rust_vec.rs:111-115 `Drop for RustVec`. -/
def dropRustVec (L : Layouts) (h : Heap) (e : Elem) (ws : List Nat) : Option Heap := dropVec L h e (asVec L e ws)

/-- `drop` of an owner. -/
def drop (L : Layouts) (h : Heap) : Owner → Option Heap
  | .string r => dropString h r
  | .rustString ws => dropRustString L h ws
  | .vec e r => dropVec L h e r
  | .rustVec e ws => dropRustVec L h e ws

/-- `drop` of some owners, in order. -/
def dropAll (L : Layouts) : Heap → List Owner → Option Heap
  | h, [] => some h
  | h, o :: os => do dropAll L (← drop L h o) os

/-! ### Programs -/

/-- A pointer that is not in use. -/
def fresh (h : Heap) : Nat := h.foldl (fun n b => max n (b.ptr + 1)) 1

/-- `String` or `Vec` with this content and this capacity besides; no allocation if both are empty. -/
def allocate (h : Heap) (slots : List (List Nat)) (spare : Nat) : Heap × Raw :=
  let cap := slots.length + spare
  if cap = 0 then (h, ⟨1, 0, 0⟩) else (⟨fresh h, cap, slots⟩ :: h, ⟨fresh h, cap, slots.length⟩)

/-- Strings, one after the other, each as it is kept in a vector. -/
def allocateAll (L : Layouts) : Heap → List (List Nat) → Heap × List (List Nat)
  | h, [] => (h, [])
  | h, s :: ss =>
    let (h, r) := allocate h (s.map ([·])) 0
    let (h, rs) := allocateAll L h ss
    (h, L.string.write r :: rs)

/-- What a program does with values of these types. -/
inductive Op
  /-- a string of these bytes, with spare capacity -/
  | makeString (bytes : List Nat) (spare : Nat)
  /-- a vector of these elements -/
  | makeVec (items : List (List Nat)) (spare : Nat)
  /-- a vector of these strings -/
  | makeStrings (strings : List (List Nat)) (spare : Nat)
  /-- a conversion of the value of this number -/
  | convert (i : Nat) (c : Conv)
  | drop (i : Nat)
  deriving DecidableEq, Repr

/-- The values of a program, and the heap. -/
structure State where
  heap : Heap
  owners : List Owner

/-- One operation; `none` is undefined behavior.  What the compiler does not accept is skipped. -/
def step (L : Layouts) (st : State) : Op → Option State
  | .makeString bytes spare =>
    let (h, r) := allocate st.heap (bytes.map ([·])) spare
    some ⟨h, st.owners ++ [.string r]⟩
  | .makeVec items spare =>
    let (h, r) := allocate st.heap items spare
    some ⟨h, st.owners ++ [.vec .plain r]⟩
  | .makeStrings strings spare =>
    let (h, slots) := allocateAll L st.heap strings
    let (h, r) := allocate h slots spare
    some ⟨h, st.owners ++ [.vec .string r]⟩
  | .convert i c =>
    match st.owners[i]? with
    | none => some st
    | some o =>
      match convert L c o with
      | none => some st
      | some out => do
        let h ← dropAll L st.heap out.dropped
        some ⟨h, st.owners.set i out.result⟩
  | .drop i =>
    match st.owners[i]? with
    | none => some st
    | some o => do
      let h ← drop L st.heap o
      some ⟨h, st.owners.eraseIdx i⟩

/-- A program. -/
def run (L : Layouts) : State → List Op → Option State
  | st, [] => some st
  | st, op :: ops => do run L (← step L st op) ops

/-! ### References -/

/-- src/rust_string.rs:19-25, 31-37 `from_ref`, `from_mut`, `as_string`, `as_mut_string`: the same address.  What the two sides
see there. -/
def seenAsString (L : Layouts) (ws : List Nat) : Raw := L.string.read ws

/-- src/rust_vec.rs:28-34, 40-46 `from_ref`, `from_mut`, `as_vec`, `as_mut_vec`: the same address.  What is seen there as a `Vec` of
elements `e`. -/
def seenAsVec (L : Layouts) (e : Elem) (ws : List Nat) : Raw := (L.vec e).read ws

/-- src/rust_vec.rs:86-92 `from_ref_vec_string`, `from_mut_vec_string`: the words of a `Vec<String>`, used as those of a
`Vec<RustString>`. -/
def fromRefVecString (ws : List Nat) : List Nat := ws

/-- src/rust_vec.rs:102-108 `as_vec_string`, `as_mut_vec_string`: the words of a `Vec<RustString>`, used as those of a
`Vec<String>`. -/
def asVecString (ws : List Nat) : List Nat := ws

/-- src/rust_slice.rs:38-44 `from_raw_parts`. -/
def sliceFromRawParts (L : Layouts) (ptr len : Nat) : List Nat := L.slice.write ⟨ptr, len⟩

/-- src/rust_slice.rs:46-50 `as_non_null_ptr`. -/
def slicePtr (L : Layouts) (ws : List Nat) : Nat := (L.slice.read ws).ptr

/-- src/rust_slice.rs:52-59 `len`. -/
def sliceLen (L : Layouts) (ws : List Nat) : Nat := (L.slice.read ws).len

/-- src/rust_slice.rs:14-24 `from_ref`, `from_mut`. -/
def sliceFrom (L : Layouts) (s : Fat) : List Nat := sliceFromRawParts L s.ptr s.len

/-- src/rust_slice.rs:26-36 `as_slice`, `as_mut_slice`. -/
def asSlice (L : Layouts) (ws : List Nat) : Fat := ⟨slicePtr L ws, sliceLen L ws⟩

/-- src/symbols/rust_slice.rs:5-10 `cxxbridge1$slice$new`: the words written to `this`. -/
def cxxSliceNew (L : Layouts) (ptr len : Nat) : List Nat := sliceFromRawParts L ptr len

/-- src/symbols/rust_slice.rs:12-15 `cxxbridge1$slice$ptr`. -/
def cxxSlicePtr (L : Layouts) (ws : List Nat) : Nat := slicePtr L ws

/-- src/symbols/rust_slice.rs:17-20 `cxxbridge1$slice$len`. -/
def cxxSliceLen (L : Layouts) (ws : List Nat) : Nat := sliceLen L ws

/-- src/rust_str.rs:14-17 `RustStr::from`: a transmute. -/
def strFrom (L : Layouts) (s : Fat) : List Nat := L.str.write s

/-- src/rust_str.rs:19-24 `as_str`: a transmute. -/
def asStr (L : Layouts) (ws : List Nat) : Fat := L.str.read ws

/-- src/symbols/rust_str.rs:8-20 `cxxbridge1$str$new`, `cxxbridge1$str$ref` and 25-29 in `cxxbridge1$str$from`: the words of the
`&str` written to `this`. -/
def cxxStrNew (L : Layouts) (s : Fat) : List Nat := L.str.write s

/-- src/symbols/rust_str.rs:35-38 `cxxbridge1$str$ptr`. -/
def cxxStrPtr (L : Layouts) (ws : List Nat) : Nat := (L.str.read ws).ptr

/-- src/symbols/rust_str.rs:40-43 `cxxbridge1$str$len`. -/
def cxxStrLen (L : Layouts) (ws : List Nat) : Nat := (L.str.read ws).len

end Verif.Words
