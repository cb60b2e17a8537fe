import Verif.Syntax.Ast
/-!
# What the generated instantiations are made of

An instantiation such as `UniquePtr<T>` is a set of functions in one language and a set of callers in the
other, joined by linker symbols.  The operations they are made of belong to the two standard libraries
and to the runtime of the crate; nothing is assumed of those here.  A machine word (an address, a size,
the bits of a `unique_ptr`) is a number.
-/
namespace Verif.Thunk
open Verif.Syntax

/-- A fully qualified C++ name. -/
structure CName where
  ns : Namespace
  cxx : Ident
  deriving DecidableEq, Repr

/-- The pointee of a C++ smart pointer: a type of the bridge or a `std::vector` of one. -/
inductive CTy
  | named (n : CName)
  | vector (n : CName)
  deriving DecidableEq, Repr

/-- The library operations.  Each takes addresses and sizes and may give a word back. -/
inductive LibOp
  /-- a new Rust local of the size of a pointer, not initialised; gives its address -/
  | freshLocal
  /-- a new Rust local with these bits; gives its address -/
  | localOf (bits : Nat)
  /-- the bits of the Rust local at the address -/
  | bitsOf (addr : Nat)
  /-- `ptr.cast::<T>().write(value)` -/
  | store (t : Ident) (ptr value : Nat)
  /-- `::new (place) std::unique_ptr<T>()` -/
  | uniqueNull (t : CTy) (place : Nat)
  /-- `::new (place) std::unique_ptr<T>(raw)` -/
  | uniqueFrom (t : CTy) (place raw : Nat)
  /-- `ptr.get()` -/
  | uniqueGet (t : CTy) (ptr : Nat)
  /-- `ptr.release()` -/
  | uniqueRelease (t : CTy) (ptr : Nat)
  /-- `ptr->~unique_ptr()` -/
  | uniqueDestroy (t : CTy) (ptr : Nat)
  /-- `new ::rust::MaybeUninit<T>`; gives its address -/
  | newUninit (t : CTy)
  /-- `::new (place) std::shared_ptr<T>()` -/
  | sharedNull (t : CTy) (place : Nat)
  /-- `::new (place) std::shared_ptr<T>(raw)` of a raw pointer -/
  | sharedFrom (t : CTy) (place raw : Nat)
  /-- `::new (place) std::shared_ptr<T>(other)` of another `shared_ptr` -/
  | sharedCopy (t : CTy) (place other : Nat)
  /-- `::new (place) std::shared_ptr<T>(weak.lock())` -/
  | sharedLock (t : CTy) (place weak : Nat)
  /-- `ptr.get()` -/
  | sharedGet (t : CTy) (ptr : Nat)
  /-- `ptr->~shared_ptr()` -/
  | sharedDestroy (t : CTy) (ptr : Nat)
  /-- `::new (place) std::weak_ptr<T>()` -/
  | weakNull (t : CTy) (place : Nat)
  /-- `::new (place) std::weak_ptr<T>(other)` of another `weak_ptr` -/
  | weakCopy (t : CTy) (place other : Nat)
  /-- `::new (place) std::weak_ptr<T>(shared)` of a `shared_ptr` -/
  | weakOf (t : CTy) (place shared : Nat)
  /-- `ptr->~weak_ptr()` -/
  | weakDestroy (t : CTy) (ptr : Nat)
  /-- `new std::vector<T>()`; gives its address -/
  | vectorNew (t : CName)
  /-- `v.size()` -/
  | vectorSize (t : CName) (v : Nat)
  /-- `&(*v)[pos]` -/
  | vectorAt (t : CName) (v pos : Nat)
  /-- `v->push_back(std::move(*value))` -/
  | vectorPush (t : CName) (v value : Nat)
  /-- `::new (place) T(std::move(v->back()))` -/
  | moveBack (t : CName) (place v : Nat)
  /-- `v->pop_back()` -/
  | vectorPop (t : CName) (v : Nat)
  /-- `value->~T()` -/
  | destroy (t : CName) (value : Nat)
  /-- `Box::into_raw(Box::new(MaybeUninit::<T>::uninit()))` -/
  | boxUninit (t : Ident)
  /-- the drop of a `Box<MaybeUninit<T>>` made from a raw pointer -/
  | boxFree (t : Ident) (ptr : Nat)
  /-- `drop_in_place` of the `Box<T>` at the address -/
  | boxDrop (t : Ident) (this : Nat)
  /-- a new empty `RustVec<T>` written to the address -/
  | vecNew (t : Ident) (this : Nat)
  /-- `drop_in_place` of the `RustVec<T>` at the address -/
  | vecDrop (t : Ident) (this : Nat)
  | vecLen (t : Ident) (this : Nat)
  | vecCapacity (t : Ident) (this : Nat)
  | vecData (t : Ident) (this : Nat)
  | vecReserveTotal (t : Ident) (this newCap : Nat)
  | vecSetLen (t : Ident) (this len : Nat)
  | vecTruncate (t : Ident) (this len : Nat)
  deriving DecidableEq, Repr

/-- A computation over a world of any kind; `none` is a call that does not link or has the wrong number
of arguments. -/
abbrev Run (W : Type) := StateT W Option

/-- An interpretation of the library operations: a word is given back even by those that return
nothing. -/
abbrev Lib (W : Type) := LibOp → W → Nat × W

/-- Performs a library operation. -/
def Lib.run {W : Type} (lib : Lib W) (o : LibOp) : Run W Nat := fun w => some (lib o w)

/-- A call that cannot be made. -/
def fault {W : Type} : Run W Nat := fun _ => none

/-- What a function that returns nothing gives back. -/
def unit {W : Type} : Run W Nat := pure 0

/-! ### Parameter and return types at the boundary -/

/-- Types in the C++ declarations.  A reference parameter is passed as a pointer. -/
inductive CPTy
  | void
  | size
  /-- `T *` or `T const *` -/
  | obj (t : CTy) (const_ : Bool)
  /-- `std::unique_ptr<T> *`, `&` or `const &`; likewise below -/
  | unique (t : CTy) (const_ : Bool)
  | shared (t : CTy) (const_ : Bool)
  | weak (t : CTy) (const_ : Bool)
  /-- `rust::Box<T> *` -/
  | box (t : CName) (const_ : Bool)
  /-- `rust::Vec<T> *` -/
  | vec (t : CName) (const_ : Bool)
  deriving DecidableEq, Repr

/-- Types in the Rust declarations. -/
inductive RPTy
  | unit
  | usize
  /-- `*mut c_void` or `*const c_void` -/
  | opaque_ (mut_ : Bool)
  /-- `*mut MaybeUninit<*mut c_void>` or `*const` -/
  | repr (mut_ : Bool)
  /-- `*mut CxxVector<T>`, `&CxxVector<T>`, `Pin<&mut CxxVector<T>>` -/
  | cxxVector (t : Ident) (mut_ : Bool)
  /-- `*mut T`, `*const T`, `*mut MaybeUninit<T>` -/
  | obj (t : Ident) (mut_ : Bool)
  /-- `*mut Box<T>` -/
  | box (t : Ident) (mut_ : Bool)
  /-- `*mut RustVec<T>` -/
  | vec (t : Ident) (mut_ : Bool)
  deriving DecidableEq, Repr

end Verif.Thunk
