import Verif.Conv.Model
import Verif.Abi.Spec
/-!
# The types of the operations in the generated shims

In Rust: the signatures of the functions and methods that the shims call, from the standard library and from
`src/rust_string.rs`, `src/rust_vec.rs`, `src/rust_str.rs`, `src/rust_slice.rs`, `src/unique_ptr.rs`, `src/function.rs`.
Lifetimes are left out.

In C++: those of `include/cxx.h` and of the helpers that the generator writes.
-/
namespace Verif.Conv
open Verif.Syntax Verif.Abi

/-! ### Rust -/

/-- A Rust type. -/
inductive RT
  /-- a primitive, `String`, `CxxString`, or a type of the bridge -/
  | named (n : Ident)
  | box (t : RT)
  | vec (t : RT)
  | uniquePtr (t : RT)
  | sharedPtr (t : RT)
  | weakPtr (t : RT)
  | cxxVector (t : RT)
  | ref (mutable : Bool) (t : RT)
  /-- `Pin<t>` -/
  | pin (t : RT)
  | ptr (mutable : Bool) (t : RT)
  | str
  /-- `[t]` -/
  | slice (t : RT)
  | fn
  | unit
  | array (t : RT) (n : Nat)
  | cvoid
  | maybeUninit (t : RT)
  /-- the types of `cxx::private` -/
  | rustString
  | rustVec (t : RT)
  | rustStr
  | rustSlice
  | fatFunction
  | result
  deriving DecidableEq

/-- What a type written in the bridge means. -/
def den : Ty → RT
  | .ident t => .named t.rust
  | .rustBox t => .box (den t)
  | .rustVec t => .vec (den t)
  | .uniquePtr t => .uniquePtr (den t)
  | .sharedPtr t => .sharedPtr (den t)
  | .weakPtr t => .weakPtr (den t)
  | .cxxVector t => .cxxVector (den t)
  | .ref p _ m t => if p then .pin (.ref m (den t)) else .ref m (den t)
  | .ptr m t => .ptr m (den t)
  | .str .. => .ref false .str
  | .sliceRef _ m t => .ref m (.slice (den t))
  | .fn .. => .fn
  | .void => .unit
  | .array t n => .array (den t) n

/-- What a type printed by the macro means. -/
def denTok : RTok → RT
  | .source t => den t
  | .rustString => .rustString
  | .rustVec t => .rustVec (denTok t)
  | .raw m t => .ptr m (denTok t)
  | .void m => .ptr m .cvoid
  | .borrow m t => .ref m (denTok t)
  | .rustStr => .rustStr
  | .rustSlice => .rustSlice
  | .fatFunction => .fatFunction
  | .result => .result
  | .unitPtr => .ptr false .unit
  | .receiver p m t => if p then .pin (.ref m (.named t.rust)) else .ref m (.named t.rust)

/-- `String`. -/
def string : RT := .named "String"

/-- The operation can be applied to an expression of the first type, and then has the second. -/
inductive Sig : ROp → RT → RT → Prop
  /-- `MaybeUninit::new(T) -> MaybeUninit<T>` -/
  | maybeUninit (t : RT) : Sig .maybeUninit t (.maybeUninit t)
  /-- a function pointer, `as usize as *const c_void` -/
  | fatFunction : Sig .fatFunction .fn .fatFunction
  /-- `MaybeUninit<T>::as_mut_ptr(&mut self) -> *mut T` -/
  | asMutPtr (t : RT) : Sig .asMutPtr (.maybeUninit t) (.ptr true t)
  /-- any raw pointer can be cast -/
  | asConstRustString (m : Bool) (t : RT) : Sig .asConstRustString (.ptr m t) (.ptr false .rustString)
  | asConstRustVec (m : Bool) (t u : RT) : Sig .asConstRustVec (.ptr m t) (.ptr false (.rustVec u))
  /-- `Box::<T>::into_raw(Box<T>) -> *mut T` -/
  | boxIntoRaw (t : RT) : Sig .boxIntoRaw (.box t) (.ptr true t)
  /-- `UniquePtr::<T>::into_raw(UniquePtr<T>) -> *mut T` -/
  | uniqueIntoRaw (t : RT) : Sig .uniqueIntoRaw (.uniquePtr t) (.ptr true t)
  /-- `<*const T>::cast::<U>(self) -> *const U`, `<*mut T>::cast::<U>(self) -> *mut U` -/
  | cast (m : Bool) (t u : RT) : Sig .cast (.ptr m t) (.ptr m u)
  /-- `RustString::from_ref(&String) -> &RustString`, `from_mut(&mut String) -> &mut RustString` -/
  | stringFrom (m : Bool) : Sig (.stringFrom m) (.ref m string) (.ref m .rustString)
  /-- `RustVec::from_ref_vec_string(&Vec<String>) -> &RustVec<RustString>`, and with `mut` -/
  | vecStringFrom (m : Bool) : Sig (.vecStringFrom m) (.ref m (.vec string)) (.ref m (.rustVec .rustString))
  /-- `RustVec::<T>::from_ref(&Vec<T>) -> &RustVec<T>`, and with `mut` -/
  | vecFrom (m : Bool) (t : RT) : Sig (.vecFrom m) (.ref m (.vec t)) (.ref m (.rustVec t))
  /-- `Pin::<P>::into_inner_unchecked(Pin<P>) -> P` -/
  | pinIntoInner (t : RT) : Sig .pinIntoInner (.pin t) t
  /-- a reference to `T` coerces to a raw pointer to `T`, which can be cast -/
  | asVoid (m : Bool) (t : Ty) : Sig (.asVoid m t) (.ref m (den t)) (.ptr m .cvoid)
  /-- `RustStr::from(&str) -> RustStr` -/
  | strFrom : Sig .strFrom (.ref false .str) .rustStr
  /-- `RustSlice::from_ref::<T>(&[T]) -> RustSlice`, and with `mut` -/
  | sliceFrom (m : Bool) (t : RT) : Sig (.sliceFrom m) (.ref m (.slice t)) .rustSlice
  /-- `MaybeUninit<T>::assume_init(self) -> T` -/
  | assumeInit (t : RT) : Sig .assumeInit (.maybeUninit t) t
  /-- `RustString::into_string(self) -> String` -/
  | intoString : Sig .intoString .rustString string
  /-- `Box::<T>::from_raw(*mut T) -> Box<T>` -/
  | boxFromRaw (t : RT) : Sig .boxFromRaw (.ptr true t) (.box t)
  /-- `RustVec<RustString>::into_vec_string(self) -> Vec<String>` -/
  | intoVecString : Sig .intoVecString (.rustVec .rustString) (.vec string)
  /-- `RustVec<T>::into_vec(self) -> Vec<T>` -/
  | intoVec (t : RT) : Sig .intoVec (.rustVec t) (.vec t)
  /-- `UniquePtr::<T>::from_raw(*mut T) -> UniquePtr<T>` -/
  | uniqueFromRaw (t : RT) : Sig .uniqueFromRaw (.ptr true t) (.uniquePtr t)
  /-- `RustString::as_string(&self) -> &String`, `as_mut_string(&mut self) -> &mut String` -/
  | asString (m : Bool) : Sig (.asString m) (.ref m .rustString) (.ref m string)
  /-- `RustVec<RustString>::as_vec_string(&self) -> &Vec<String>`, and with `mut` -/
  | asVecString (m : Bool) : Sig (.asVecString m) (.ref m (.rustVec .rustString)) (.ref m (.vec string))
  /-- `RustVec<T>::as_vec(&self) -> &Vec<T>`, and with `mut` -/
  | asVec (m : Bool) (t : RT) : Sig (.asVec m) (.ref m (.rustVec t)) (.ref m (.vec t))
  /-- a shared reference can be made of any pointer, a mutable one of `*mut` -/
  | reborrow (m m' : Bool) (t : RT) (h : m = true → m' = true) : Sig (.reborrow m) (.ptr m' t) (.ref m t)
  /-- `Pin::<P>::new_unchecked(P) -> Pin<P>` -/
  | pinNew (m : Bool) (t : RT) : Sig .pinNew (.ref m t) (.pin (.ref m t))
  /-- `RustStr::as_str(self) -> &str` -/
  | asStr : Sig .asStr .rustStr (.ref false .str)
  /-- `RustSlice::as_slice::<T>(self) -> &[T]`, and with `mut` -/
  | asSlice (m : Bool) (t : Ty) : Sig (.asSlice m t) .rustSlice (.ref m (.slice (den t)))
  /-- the methods with `&mut self` above, on what a `*mut` points to -/
  | derefString : Sig .derefString (.ptr true .rustString) (.ref true string)
  | derefVecString : Sig .derefVecString (.ptr true (.rustVec .rustString)) (.ref true (.vec string))
  | derefVec (t : RT) : Sig .derefVec (.ptr true (.rustVec t)) (.ref true (.vec t))
  /-- `mem::take::<T: Default>(&mut T) -> T` -/
  | takeString : Sig .take (.ref true string) string
  | takeVec (t : RT) : Sig .take (.ref true (.vec t)) (.vec t)
  /-- `ptr::read::<T>(*const T) -> T`, and a `*mut` coerces -/
  | read (m : Bool) (t : RT) : Sig .read (.ptr m t) t
  /-- `RustString::from(String) -> RustString` -/
  | stringInto : Sig .stringInto string .rustString
  /-- `RustVec::from_vec_string(Vec<String>) -> RustVec<RustString>` -/
  | vecStringInto : Sig .vecStringInto (.vec string) (.rustVec .rustString)
  /-- `RustVec::<T>::from(Vec<T>) -> RustVec<T>` -/
  | vecInto (t : RT) : Sig .vecInto (.vec t) (.rustVec t)

/-- One operation after the other. -/
inductive HasType : List ROp → RT → RT → Prop
  | nil (t : RT) : HasType [] t t
  | cons {op : ROp} {ops : List ROp} {t u v : RT} (h : Sig op t u) (hs : HasType ops u v) : HasType (op :: ops) t v

/-- `Vec<&str>`. -/
def VecOfStr : Ty → Prop
  | .rustVec (.str ..) => True
  | _ => False

/-- `&Vec<&str>`. -/
def RefVecOfStr : Ty → Prop
  | .ref _ _ _ t => VecOfStr t
  | _ => False

/-- `Pin<&mut String>`, `Pin<&mut Vec<T>>`, and without `mut`. -/
def PinnedOwner : Ty → Prop
  | .ref true _ _ (.ident t) => t.rust = "String"
  | .ref true _ _ (.rustVec _) => True
  | _ => False

/-! ### C++ -/

/-- A C++ type that is not a reference. -/
inductive CT
  | tok (t : CTok)
  /-- `::rust::ManuallyDrop<t>` -/
  | manuallyDrop (t : CTok)
  /-- `::rust::MaybeUninit<t>` -/
  | maybeUninit (t : CTok)

/-- The type and value category of an expression. -/
inductive CE
  | prvalue (t : CT)
  | xvalue (t : CT)
  /-- `mutable` is false if the type is `const` -/
  | lvalue (mutable : Bool) (t : CT)

/-- The name of a variable or parameter that is declared with this type. -/
def nameOf : CTok → CE
  | .lref m t => .lvalue m (.tok t)
  | t => .lvalue true (.tok t)

/-- A call of a function that is declared to return this type. -/
def callOf : CTok → CE
  | .lref m t => .lvalue m (.tok t)
  | t => .prvalue (.tok t)

/-- An expression whose value has the type `t`. -/
inductive Value (t : CTok) : CE → Prop
  | prvalue : Value t (.prvalue (.tok t))
  | xvalue : Value t (.xvalue (.tok t))
  | lvalue (m : Bool) : Value t (.lvalue m (.tok t))

/-- The operation can be applied to the first expression, and gives the second. -/
inductive CSig : COp → CE → CE → Prop
  /-- `static Box<T> Box<T>::from_raw(T *)` -/
  | boxFromRaw (t : CTok) {e : CE} (h : Value (.star true t) e) : CSig (.boxFromRaw (.box t)) e (.prvalue (.tok (.box t)))
  /-- `explicit unique_ptr<T>::unique_ptr(T *)` -/
  | construct (t : CTok) {e : CE} (h : Value (.star true t) e) :
      CSig (.construct (.uniquePtr t)) e (.prvalue (.tok (.uniquePtr t)))
  /-- `String(unsafe_bitcopy_t, const String &)` -/
  | bitcopyString (m : Bool) :
      CSig (.bitcopy (.atom .rustString)) (.lvalue m (.tok (.atom .rustString))) (.prvalue (.tok (.atom .rustString)))
  /-- `Vec<T>(unsafe_bitcopy_t, const Vec<T> &)` -/
  | bitcopyVec (m : Bool) (t : CTok) : CSig (.bitcopy (.vec t)) (.lvalue m (.tok (.vec t))) (.prvalue (.tok (.vec t)))
  | deref (m : Bool) (t : CTok) {e : CE} (h : Value (.star m t) e) : CSig .deref e (.lvalue m (.tok t))
  | addr (m : Bool) (t : CTok) : CSig .addr (.lvalue m (.tok t)) (.prvalue (.tok (.star m t)))
  /-- of a `const` lvalue it would not be a value that can be moved from -/
  | move (t : CTok) : CSig .move (.lvalue true (.tok t)) (.xvalue (.tok t))
  /-- `T *Box<T>::into_raw()`, not `const` -/
  | intoRawVar (t : CTok) : CSig .intoRaw (.lvalue true (.tok (.box t))) (.prvalue (.tok (.star true t)))
  | intoRawCall (t : CTok) : CSig .intoRaw (.prvalue (.tok (.box t))) (.prvalue (.tok (.star true t)))
  /-- `T *unique_ptr<T>::release()`, not `const` -/
  | releaseVar (t : CTok) : CSig .release (.lvalue true (.tok (.uniquePtr t))) (.prvalue (.tok (.star true t)))
  | releaseCall (t : CTok) : CSig .release (.prvalue (.tok (.uniquePtr t))) (.prvalue (.tok (.star true t)))
  /-- `static Fat impl<Str>::repr(Str)` -/
  | strRepr {e : CE} (h : Value .str e) : CSig .strRepr e (.prvalue (.tok .fat))
  /-- `static Fat impl<Slice<T>>::repr(Slice<T>)` -/
  | sliceRepr (m : Bool) (t : CTok) {e : CE} (h : Value (.slice m t) e) :
      CSig (.sliceRepr (.slice m t)) e (.prvalue (.tok .fat))
  /-- `static Str impl<Str>::new_unchecked(Fat)` -/
  | strNew {e : CE} (h : Value .fat e) : CSig .strNew e (.prvalue (.tok .str))
  /-- `static Slice<T> impl<Slice<T>>::slice(Fat)` -/
  | sliceNew (m : Bool) (t : CTok) {e : CE} (h : Value .fat e) :
      CSig (.sliceNew (.slice m t)) e (.prvalue (.tok (.slice m t)))
  /-- `ManuallyDrop<T>(T &&)` -/
  | manuallyDrop (t : CTok) : CSig (.manuallyDrop t) (.xvalue (.tok t)) (.lvalue true (.manuallyDrop t))
  /-- the member `T value` of both unions -/
  | valueDrop (t : CTok) : CSig .value (.lvalue true (.manuallyDrop t)) (.lvalue true (.tok t))
  | valueUninit (t : CTok) : CSig .value (.lvalue true (.maybeUninit t)) (.lvalue true (.tok t))

/-- One operation after the other. -/
inductive CHasType : List COp → CE → CE → Prop
  | nil (e : CE) : CHasType [] e e
  | cons {op : COp} {ops : List COp} {e e' e'' : CE} (h : CSig op e e') (hs : CHasType ops e' e'') :
      CHasType (op :: ops) e e''

/-- The expression can initialise a variable, parameter or result of the type `c`: a reference, by an lvalue that is as
mutable; otherwise by a value that may be moved from, or copied if copying is trivial. -/
inductive Initialises (apis : List Api) : CTok → CE → Prop
  | bind {m m' : Bool} (t : CTok) (h : m = true → m' = true) : Initialises apis (.lref m t) (.lvalue m' (.tok t))
  | prvalue (c : CTok) (h : ∀ m t, c ≠ .lref m t) : Initialises apis c (.prvalue (.tok c))
  | xvalue (c : CTok) (h : ∀ m t, c ≠ .lref m t) : Initialises apis c (.xvalue (.tok c))
  | copy (m : Bool) (c : CTok) (h : ∀ m t, c ≠ .lref m t) (hc : ByValue apis c) :
      Initialises apis c (.lvalue m (.tok c))

/-- The operations lead from the expression to one that initialises a `c`. -/
def Gives (apis : List Api) (ops : List COp) (e : CE) (c : CTok) : Prop :=
  ∃ e', CHasType ops e e' ∧ Initialises apis c e'

end Verif.Conv
