import Verif.Prototype.Model
import Verif.CxxText.Spec
import Verif.RustSig.Spec
/-!
# When a Rust signature and a C++ prototype are of the same C function

A Rust signature is read as in `Verif/RustSig/Spec.lean`, a line of C++ as in `Verif/CxxText/Spec.lean`.  What is compared
here are the types that a reader of Rust and a reader of C++ see.
-/
namespace Verif.Prototype
open Verif.Syntax Verif.Parse Verif.Abi Verif.CxxText

/-- The path of a builtin type in the expanded Rust module. -/
def atomPath : Atom → List Ident
  | .bool => ["bool"]
  | .char => ["cxx", "core", "ffi", "c_char"]
  | .u8 => ["u8"]
  | .u16 => ["u16"]
  | .u32 => ["u32"]
  | .u64 => ["u64"]
  | .usize => ["usize"]
  | .i8 => ["i8"]
  | .i16 => ["i16"]
  | .i32 => ["i32"]
  | .i64 => ["i64"]
  | .isize => ["isize"]
  | .f32 => ["f32"]
  | .f64 => ["f64"]
  | .cxxString => ["cxx", "CxxString"]
  | .rustString => ["cxx", "alloc", "string", "String"]

/-- The C++ types of one word that hold the address of a `c`.  A `::rust::Box` and a `::std::unique_ptr` with the default
deleter have one member, the pointer (include/cxx.h, [unique.ptr]). -/
inductive Address : Bool → CType → CType → Prop
  | ptr (m : Bool) (c : CType) : Address m c (.ptr (c.unless m))
  | ref (m : Bool) (c : CType) : Address m c (.ref (c.unless m))
  | box (c : CType) : Address true c (inRust "Box" [c])
  | uniquePtr (c : CType) : Address true c (inStd "unique_ptr" [c])

/-- The Rust types of one word that hold the address of a `d`. -/
inductive Points : Bool → Den → Den → Prop
  | ptr (m : Bool) (d : Den) : Points m d (.ptr m d)
  | reference (l : Option Ident) (m : Bool) (d : Den) : Points m d (.reference l m d)
  | pin (l : Option Ident) (m : Bool) (d : Den) :
      Points m d (.apply ["cxx", "core", "pin", "Pin"] (.reference l m d))
  | box (d : Den) : Points true d (.apply ["cxx", "alloc", "boxed", "Box"] d)
  | uniquePtr (d : Den) : Points true d (.apply ["cxx", "UniquePtr"] d)

/-- The Rust types of an address and a length (src/rust_str.rs, src/rust_slice.rs). -/
inductive FatRust : Den → Prop
  | str (l : Option Ident) (m : Bool) (ls : List Ident) : FatRust (.reference l m (.named ["str"] ls))
  | slice (l : Option Ident) (m : Bool) (d : Den) : FatRust (.reference l m (.slice d))
  | rustStr : FatRust (.named ["cxx", "private", "RustStr"] [])
  | rustSlice : FatRust (.named ["cxx", "private", "RustSlice"] [])

/-- The C++ types of an address and a length (include/cxx.h). -/
inductive FatCxx : CType → Prop
  | str : FatCxx (inRust "Str" [])
  | slice (c : CType) : FatCxx (inRust "Slice" [c])
  | fat : FatCxx (.path ["rust".toList, "repr".toList, "Fat".toList] [])

/-- The generic types of Rust that are the same C++ template. -/
inductive Template : List Ident → (List CType → CType) → Prop
  | vec : Template ["cxx", "alloc", "vec", "Vec"] (inRust "Vec")
  | rustVec : Template ["cxx", "private", "RustVec"] (inRust "Vec")
  | sharedPtr : Template ["cxx", "SharedPtr"] (inStd "shared_ptr")
  | weakPtr : Template ["cxx", "WeakPtr"] (inStd "weak_ptr")
  | cxxVector : Template ["cxx", "CxxVector"] (inStd "vector")

/-- A Rust type and a C++ type are the same data.  Both may be an address: of the same data, with the same mutability, or on
the Rust side `c_void`. -/
inductive Same (apis : List Api) : Den → CType → Prop
  | atom (a : Atom) (ls : List Ident) : Same apis (.named (atomPath a) ls) (atomType a)
  | string : Same apis (.named ["cxx", "private", "RustString"] []) (atomType .rustString)
  | named (n : Ident) (p : Pair) (ls : List Ident) (h : Names apis n p) :
      Same apis (.named [n] ls) (.path (pathOf p) [])
  | address {m : Bool} {d d' : Den} {c c' : CType} (h : Same apis d c) (hd : Points m d d') (hc : Address m c c') :
      Same apis d' c'
  | erased {m : Bool} {c c' : CType} (hc : Address m c c') :
      Same apis (.ptr m (.named ["cxx", "core", "ffi", "c_void"] [])) c'
  | fat {d : Den} {c : CType} (hd : FatRust d) (hc : FatCxx c) : Same apis d c
  | template {p : List Ident} {t : List CType → CType} {d : Den} {c : CType} (hp : Template p t) (h : Same apis d c) :
      Same apis (.apply p d) (t [c])
  | array {d : Den} {c : CType} (n : Nat) (h : Same apis d c) :
      Same apis (.array d n) (inStd "array" [c, .number (Nat.repr n).toList])
  /-- src/function.rs, include/cxx.h: two words, the trampoline and the function -/
  | closure (r : CType) (ps : List CType) :
      Same apis (.named ["cxx", "private", "FatFunction"] []) (inRust "Fn" [.fn r ps])
  /-- src/result.rs, gen/src/builtin.rs: two words, the error message or null -/
  | result : Same apis (.named ["cxx", "private", "Result"] []) (.path ["rust".toList, "repr".toList, "PtrLen".toList] [])
  /-- what the trampoline of a function pointer hands on -/
  | handle : Same apis (.ptr false .unit) (.ptr (.prim "void".toList))

/-- A parameter or a result of this type is passed like the C struct with the same members: it is not of a class with a
non-trivial copy constructor or destructor, which the C++ ABI passes by hidden reference. -/
inductive AsInC (apis : List Api) : CType → Prop
  | atom (a : Atom) (h : a ≠ .rustString ∧ a ≠ .cxxString) : AsInC apis (atomType a)
  | named (p : Pair) (h : ¬ Pod.Owning apis (.ident ⟨p.rust, []⟩)) : AsInC apis (.path (pathOf p) [])
  | ptr (c : CType) : AsInC apis (.ptr c)
  | ref (c : CType) : AsInC apis (.ref c)
  | fat {c : CType} (h : FatCxx c) : AsInC apis c
  | closure (r : CType) (ps : List CType) : AsInC apis (inRust "Fn" [.fn r ps])
  | result : AsInC apis (.path ["rust".toList, "repr".toList, "PtrLen".toList] [])

/-- A Rust signature that is linked as `link`, and a C++ prototype: the same name, as many parameters, each the same, and
the same result or none on either side. -/
structure SameFunction (apis : List Api) (link : List Char) (r : RustSig.Decl) (c : FnDecl) : Prop where
  name : c.name = [link]
  count : r.params.length = c.params.length
  params : ∀ (i : Nat) p q, r.params[i]? = some p → c.params[i]? = some q → Same apis p.2 q.1 ∧ AsInC apis q.1
  result : (r.ret = .unit ∧ c.ret = .prim "void".toList) ∨ (Same apis r.ret c.ret ∧ AsInC apis c.ret)

/-- In all types `&str` is written with the name `str` (syntax/parse.rs:1172-1193). -/
def StrWritten (apis : List Api) : Prop :=
  ∀ p l m t, Check.Occurs apis (.str p l m t) → p = false ∧ ∃ ls, t = .ident ⟨"str", ls⟩

end Verif.Prototype
