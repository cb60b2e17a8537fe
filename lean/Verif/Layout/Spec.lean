import Verif.Layout.Model
import Verif.Abi.Spec
/-!
# Sizes, alignments and offsets

The rules by which Rust and C++ compilers lay out the definitions of `Verif/Layout/Model`: Rust's `#[repr(C)]` and
`#[repr(transparent)]`, and the C++ rule for a class without bases and virtual functions.  The sizes of the
builtin types are those of `src/` and `include/cxx.h`, in machine words.
-/
namespace Verif.Layout
open Verif.Syntax Verif.Types Verif.Abi

/-- Size and alignment in bytes. -/
structure Lay where
  size : Nat
  align : Nat
  deriving DecidableEq, Repr

/-- What is assumed of the platform: a machine word, and the number types, which have the same layout in
both languages. -/
structure Machine where
  word : Lay
  atom : Atom → Lay

/-- `k` words. -/
def Machine.words (m : Machine) (k : Nat) : Lay := ⟨k * m.word.size, m.word.align⟩

/-- The smallest multiple of `a` not below `n`. -/
def roundUp (n a : Nat) : Nat := (n + a - 1) / a * a

/-- The offsets of fields placed one after the other from `pos` on, and the end of the last one. -/
def place : Nat → List Lay → List Nat × Nat
  | pos, [] => ([], pos)
  | pos, l :: ls =>
    let start := roundUp pos l.align
    let r := place (start + l.size) ls
    (start :: r.1, r.2)

/-- The largest alignment. -/
def maxAlign (ls : List Lay) : Nat := ls.foldr (fun l a => max l.align a) 1

/-- A Rust struct with `#[repr(C)]`: the offsets of its fields, its size and alignment. -/
def rustRecord (ls : List Lay) : List Nat × Lay :=
  ((place 0 ls).1, ⟨roundUp (place 0 ls).2 (maxAlign ls), maxAlign ls⟩)

/-- A C++ class: as in Rust, except that an empty class has size 1. -/
def cxxRecord (ls : List Lay) : List Nat × Lay :=
  if ls = [] then ([], ⟨1, 1⟩)
  else ((place 0 ls).1, ⟨roundUp (place 0 ls).2 (maxAlign ls), maxAlign ls⟩)

/-- Number types, as opposed to the two string types. -/
def Number (a : Atom) : Prop := a ≠ .rustString ∧ a ≠ .cxxString

instance (a : Atom) : Decidable (Number a) := inferInstanceAs (Decidable (_ ∧ _))

/-- The layout of a Rust type, given the structs of the bridge and the layouts of imported types. -/
inductive RustLayout (m : Machine) (imported : Ident → Option Lay) (defs : List RDef) : Ty → Lay → Prop
  | number (t : NamedType) (a : Atom) (h : Atom.fromStr t.rust = some a) (hn : Number a) :
      RustLayout m imported defs (.ident t) (m.atom a)
  | string (t : NamedType) (h : Atom.fromStr t.rust = some .rustString) :
      RustLayout m imported defs (.ident t) (m.words 3)
  | reprC (t : NamedType) (hb : Atom.fromStr t.rust = none) (d : RDef) (hd : d ∈ defs) (hn : d.name = t.rust)
      (hr : d.repr = .c) (ls : List Lay) (hl : ls.length = d.fields.length)
      (hf : ∀ (i : Nat) (f : Ident × Ty) (l : Lay), d.fields[i]? = some f → ls[i]? = some l →
        RustLayout m imported defs f.2 l) :
      RustLayout m imported defs (.ident t) (rustRecord ls).2
  | transparent (t : NamedType) (hb : Atom.fromStr t.rust = none) (d : RDef) (hd : d ∈ defs) (hn : d.name = t.rust)
      (hr : d.repr = .transparent) (f : Ident × Ty) (hf : d.fields = [f]) (l : Lay)
      (h : RustLayout m imported defs f.2 l) : RustLayout m imported defs (.ident t) l
  | imported (t : NamedType) (hb : Atom.fromStr t.rust = none) (hn : ∀ d ∈ defs, d.name ≠ t.rust) (l : Lay)
      (h : imported t.rust = some l) : RustLayout m imported defs (.ident t) l
  | rustBox (t : Ty) : RustLayout m imported defs (.rustBox t) (m.words 1)
  | rustVec (t : Ty) : RustLayout m imported defs (.rustVec t) (m.words 3)
  | uniquePtr (t : Ty) : RustLayout m imported defs (.uniquePtr t) (m.words 1)
  | sharedPtr (t : Ty) : RustLayout m imported defs (.sharedPtr t) (m.words 2)
  | weakPtr (t : Ty) : RustLayout m imported defs (.weakPtr t) (m.words 2)
  | ref (p : Bool) (lt : Option Ident) (mu : Bool) (t : Ty) : RustLayout m imported defs (.ref p lt mu t) (m.words 1)
  | ptr (mu : Bool) (t : Ty) : RustLayout m imported defs (.ptr mu t) (m.words 1)
  | str (p : Bool) (lt : Option Ident) (mu : Bool) (t : Ty) : RustLayout m imported defs (.str p lt mu t) (m.words 2)
  | sliceRef (lt : Option Ident) (mu : Bool) (t : Ty) : RustLayout m imported defs (.sliceRef lt mu t) (m.words 2)
  /-- a function pointer -/
  | fn (u : Bool) (as : List Ty) (r : Option Ty) (th : Bool) : RustLayout m imported defs (.fn u as r th) (m.words 1)
  | array (t : Ty) (n : Nat) (l : Lay) (h : RustLayout m imported defs t l) :
      RustLayout m imported defs (.array t n) ⟨n * l.size, l.align⟩

/-- The compiler sees this definition: no earlier one has the same include guard. -/
def InEffect (defs : List CDef) (d : CDef) : Prop :=
  ∃ pre post, defs = pre ++ d :: post ∧ ∀ e ∈ pre, e.guard ≠ d.guard

/-- The same fully qualified C++ name. -/
def SameName (p q : Pair) : Prop := p.ns = q.ns ∧ p.cxx = q.cxx

/-- The layout of a C++ type, given the definitions printed for the bridge and the layouts of the types that
included headers define. -/
inductive CxxLayout (m : Machine) (header : Pair → Option Lay) (defs : List CDef) : CTok → Lay → Prop
  | number (a : Atom) (h : Number a) : CxxLayout m header defs (.atom a) (m.atom a)
  /-- `::rust::String` -/
  | string : CxxLayout m header defs (.atom .rustString) (m.words 3)
  | struct (p : Pair) (d : CDef) (hd : InEffect defs d) (hn : SameName d.name p) (fields : List (Ident × CTok))
      (hb : d.body = .struct fields) (ls : List Lay) (hl : ls.length = fields.length)
      (hf : ∀ (i : Nat) (f : Ident × CTok) (l : Lay), fields[i]? = some f → ls[i]? = some l →
        CxxLayout m header defs f.2 l) :
      CxxLayout m header defs (.named p) (cxxRecord ls).2
  | enum (p : Pair) (d : CDef) (hd : InEffect defs d) (hn : SameName d.name p) (repr : Atom)
      (hb : d.body = .enum repr) (hr : Number repr) : CxxLayout m header defs (.named p) (m.atom repr)
  | header (p : Pair) (hn : ∀ d ∈ defs, ¬ SameName d.name p) (l : Lay) (h : header p = some l) :
      CxxLayout m header defs (.named p) l
  | box (t : CTok) : CxxLayout m header defs (.box t) (m.words 1)
  | vec (t : CTok) : CxxLayout m header defs (.vec t) (m.words 3)
  | uniquePtr (t : CTok) : CxxLayout m header defs (.uniquePtr t) (m.words 1)
  | sharedPtr (t : CTok) : CxxLayout m header defs (.sharedPtr t) (m.words 2)
  | weakPtr (t : CTok) : CxxLayout m header defs (.weakPtr t) (m.words 2)
  | lref (mu : Bool) (t : CTok) : CxxLayout m header defs (.lref mu t) (m.words 1)
  | star (mu : Bool) (t : CTok) : CxxLayout m header defs (.star mu t) (m.words 1)
  | str : CxxLayout m header defs .str (m.words 2)
  | slice (mu : Bool) (t : CTok) : CxxLayout m header defs (.slice mu t) (m.words 2)
  /-- `::rust::Fn`: trampoline and function -/
  | fn (as : List CTok) (r : Option CTok) : CxxLayout m header defs (.fn as r) (m.words 2)
  /-- `std::array`; nothing is known about the size of an empty one -/
  | array (t : CTok) (n : Nat) (hn : n ≠ 0) (l : Lay) (h : CxxLayout m header defs t l) :
      CxxLayout m header defs (.array t n) ⟨n * l.size, l.align⟩

/-- The offsets of the fields of a Rust struct, its size and alignment. -/
def RustStructLayout (m : Machine) (imported : Ident → Option Lay) (defs : List RDef) (d : RDef)
    (offsets : List Nat) (l : Lay) : Prop :=
  ∃ ls : List Lay, ls.length = d.fields.length ∧
    (∀ (i : Nat) (f : Ident × Ty) (l : Lay), d.fields[i]? = some f → ls[i]? = some l →
      RustLayout m imported defs f.2 l) ∧ rustRecord ls = (offsets, l)

/-- The offsets of the fields of a C++ struct, its size and alignment. -/
def CxxStructLayout (m : Machine) (header : Pair → Option Lay) (defs : List CDef) (fields : List (Ident × CTok))
    (offsets : List Nat) (l : Lay) : Prop :=
  ∃ ls : List Lay, ls.length = fields.length ∧
    (∀ (i : Nat) (f : Ident × CTok) (l : Lay), fields[i]? = some f → ls[i]? = some l →
      CxxLayout m header defs f.2 l) ∧ cxxRecord ls = (offsets, l)

/-- A type of the bridge, usable by value, that is defined in a C++ header: an alias, an enum with variants from
a header, or a struct or enum that is also declared `type n;` in `extern "C++"`. -/
def FromHeader (apis : List Api) (n : Ident) : Prop :=
  Kind.alias ∈ definitions apis n ∨ Kind.headerEnum ∈ definitions apis n ∨
    (Kind.shared ∈ definitions apis n ∧ Kind.cxx ∈ definitions apis n)

/-- What the author of the bridge vouches for: types defined in C++ headers have the layout the bridge or the
imported Rust definition gives them. -/
def Vouched (m : Machine) (imported : Ident → Option Lay) (header : Pair → Option Lay) (apis : List Api) : Prop :=
  ∀ t : NamedType, FromHeader apis t.rust → ∀ p, Names apis t.rust p →
    ∀ l, RustLayout m imported (rustDefs apis) (.ident t) l ↔ header p = some l

/-- Types with different names in Rust have different names in C++. -/
def CxxNamesDistinct (apis : List Api) : Prop :=
  ∀ a ∈ apis, ∀ b ∈ apis, ∀ p gs q hs, resolves a = some (p, gs) → resolves b = some (q, hs) → SameName p q →
    p.rust = q.rust

/-- What the parser ensures: arrays are not empty (syntax/parse.rs:1347-1349) and enums are represented by number
types (syntax/discriminant.rs:29-64). -/
structure Parsed (apis : List Api) : Prop where
  arrays : ∀ t n, Check.Occurs apis (.array t n) → n ≠ 0
  enums : ∀ e, Api.enum e ∈ apis → Number e.repr

end Verif.Layout
