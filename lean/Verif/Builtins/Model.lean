import Verif.Syntax.Atom
/-!
# Tables of built-in instantiations

What the bridge accepts as type argument without generating code for it, what the Rust crate imports or
exports for it, and what `cxx.cc` defines or uses.  Tables are transcribed row by row.
-/
namespace Verif.Builtins
open Verif.Syntax (Atom)

/-- A built-in type argument: an atom, or `&str` (only of `Vec`). -/
inductive Elem
  | atom (a : Atom)
  | str
  deriving DecidableEq

/-- An instantiation: `SharedPtr<e>`, `WeakPtr<e>`, `UniquePtr<e>`, `UniquePtr<CxxVector<e>>`,
`CxxVector<e>`, `Vec<e>`. -/
inductive Inst
  | sharedPtr (e : Elem)
  | weakPtr (e : Elem)
  | uniquePtr (e : Elem)
  | uniquePtrVector (e : Elem)
  | cxxVector (e : Elem)
  | rustVec (e : Elem)
  deriving DecidableEq

/-- A symbol name: its segments, joined by `$` (syntax/symbol.rs:65-75). -/
abbrev Sym := List String

/-! ## What the bridge accepts -/

/-- syntax/check.rs:159-180 `check_type_shared_ptr`, and 179-200 `check_type_weak_ptr`. -/
def checkSharedPtr : Elem → Bool
  | .atom .bool | .atom .u8 | .atom .u16 | .atom .u32 | .atom .u64 | .atom .usize | .atom .i8 | .atom .i16 | .atom .i32
  | .atom .i64 | .atom .isize | .atom .f32 | .atom .f64 | .atom .cxxString => true
  | .atom .char | .atom .rustString | .str => false

/-- syntax/check.rs:205-226 `check_type_cxx_vector`. -/
def checkCxxVector : Elem → Bool
  | .atom .u8 | .atom .u16 | .atom .u32 | .atom .u64 | .atom .usize | .atom .i8 | .atom .i16 | .atom .i32
  | .atom .i64 | .atom .isize | .atom .f32 | .atom .f64 | .atom .cxxString => true
  | .atom .char | .atom .bool | .atom .rustString | .str => false

/-- syntax/check.rs:113-139 `check_type_rust_vec`. -/
def checkRustVec : Elem → Bool
  | .atom .bool | .atom .char | .atom .u8 | .atom .u16 | .atom .u32 | .atom .u64 | .atom .usize | .atom .i8 | .atom .i16
  | .atom .i32 | .atom .i64 | .atom .isize | .atom .f32 | .atom .f64 | .atom .rustString | .str => true
  | .atom .cxxString => false

/-- syntax/check.rs:141-157 `check_type_unique_ptr`. -/
def checkUniquePtr : Elem → Bool
  | .atom .cxxString => true
  | _ => false

/-- syntax/check.rs:45-61: every type is checked, and so are the types within it (syntax/visit.rs:9-33).
No code is generated for these: syntax/types.rs:177-190 and syntax/check.rs:512-540. -/
def accepts : Inst → Bool
  | .sharedPtr e | .weakPtr e => checkSharedPtr e
  | .uniquePtr e => checkUniquePtr e
  | .uniquePtrVector e | .cxxVector e => checkCxxVector e
  | .rustVec e => checkRustVec e

/-! ## The Rust crate -/

/-- src/shared_ptr.rs:296-316; the same list in src/weak_ptr.rs:159-179. -/
def rustSharedPtr : List (String × Elem) :=
  [("bool", .atom .bool), ("u8", .atom .u8), ("u16", .atom .u16), ("u32", .atom .u32), ("u64", .atom .u64),
   ("usize", .atom .usize), ("i8", .atom .i8), ("i16", .atom .i16), ("i32", .atom .i32), ("i64", .atom .i64),
   ("isize", .atom .isize), ("f32", .atom .f32), ("f64", .atom .f64), ("string", .atom .cxxString)]

def rustWeakPtr : List (String × Elem) :=
  [("bool", .atom .bool), ("u8", .atom .u8), ("u16", .atom .u16), ("u32", .atom .u32), ("u64", .atom .u64),
   ("usize", .atom .usize), ("i8", .atom .i8), ("i16", .atom .i16), ("i32", .atom .i32), ("i64", .atom .i64),
   ("isize", .atom .isize), ("f32", .atom .f32), ("f64", .atom .f64), ("string", .atom .cxxString)]

/-- src/cxx_vector.rs:484-503; the flag is `trivial`. -/
def rustCxxVector : List (Bool × String × Elem) :=
  [(true, "u8", .atom .u8), (true, "u16", .atom .u16), (true, "u32", .atom .u32), (true, "u64", .atom .u64),
   (true, "usize", .atom .usize), (true, "i8", .atom .i8), (true, "i16", .atom .i16), (true, "i32", .atom .i32),
   (true, "i64", .atom .i64), (true, "isize", .atom .isize), (true, "f32", .atom .f32), (true, "f64", .atom .f64),
   (false, "string", .atom .cxxString)]

/-- src/symbols/rust_vec.rs:53-75. -/
def rustVecShims : List (String × Elem) :=
  [("bool", .atom .bool), ("u8", .atom .u8), ("u16", .atom .u16), ("u32", .atom .u32), ("u64", .atom .u64),
   ("usize", .atom .usize), ("i8", .atom .i8), ("i16", .atom .i16), ("i32", .atom .i32), ("i64", .atom .i64),
   ("isize", .atom .isize), ("f32", .atom .f32), ("f64", .atom .f64), ("char", .atom .char), ("string", .atom .rustString),
   ("str", .str)]

def segmentOf (table : List (String × Elem)) (e : Elem) : Option String :=
  (table.find? fun r => r.2 == e).map (·.1)

/-- src/shared_ptr.rs:251-294 `impl_shared_ptr_target`. -/
def rustSharedPtrSymbols (seg : String) : List Sym :=
  ["null", "uninit", "clone", "get", "drop"].map fun m => ["cxxbridge1", "std", "shared_ptr"] ++ [seg, m]

/-- src/weak_ptr.rs:114-157 `impl_weak_ptr_target`. -/
def rustWeakPtrSymbols (seg : String) : List Sym :=
  ["null", "clone", "downgrade", "upgrade", "drop"].map fun m => ["cxxbridge1", "std", "weak_ptr"] ++ [seg, m]

/-- src/cxx_vector.rs:390-408 `vector_element_by_value_methods`, `impl_vector_element`: of the vector itself. -/
def rustCxxVectorSymbols (trivial : Bool) (seg : String) : List Sym :=
  (["new", "size", "get_unchecked"] ++ if trivial then ["push_back", "pop_back"] else []).map fun m =>
    ["cxxbridge1", "std", "vector"] ++ [seg, m]

/-- src/cxx_vector.rs:441-493 `impl_vector_element`: of a `UniquePtr` to it. -/
def rustUniquePtrVectorSymbols (seg : String) : List Sym :=
  ["null", "raw", "get", "release", "drop"].map fun m => ["cxxbridge1", "unique_ptr", "std", "vector"] ++ [seg, m]

/-- src/unique_ptr.rs:407-417. -/
def rustUniquePtrSymbols : List Sym :=
  [["cxxbridge1", "unique_ptr", "std", "string", "null"], ["cxxbridge1", "unique_ptr", "std", "string", "raw"], ["cxxbridge1", "unique_ptr", "std", "string", "get"],
   ["cxxbridge1", "unique_ptr", "std", "string", "release"], ["cxxbridge1", "unique_ptr", "std", "string", "drop"]]

/-- Symbols the Rust implementation of an instantiation imports; `none` if there is no implementation. -/
def rustImports : Inst → Option (List Sym)
  | .sharedPtr e => (segmentOf rustSharedPtr e).map rustSharedPtrSymbols
  | .weakPtr e => (segmentOf rustWeakPtr e).map rustWeakPtrSymbols
  | .cxxVector e => (rustCxxVector.find? fun r => r.2.2 == e).map fun r => rustCxxVectorSymbols r.1 r.2.1
  | .uniquePtrVector e => (rustCxxVector.find? fun r => r.2.2 == e).map fun r => rustUniquePtrVectorSymbols r.2.1
  -- src/unique_ptr.rs:420-452
  | .uniquePtr (.atom .cxxString) => some rustUniquePtrSymbols
  | .uniquePtr _ => none
  -- a Rust `Vec` needs nothing from C++
  | .rustVec _ => some []

/-- src/symbols/rust_vec.rs:10-51 `rust_vec_shims`. -/
def rustVecSymbols (seg : String) : List Sym :=
  ["new", "drop", "len", "capacity", "data", "reserve_total", "set_len", "truncate"].map fun m =>
    ["cxxbridge1", "rust_vec"] ++ [seg, m]

/-- Every symbol src/symbols/rust_vec.rs exports, with the element type it works on. -/
def rustVecExports : List (Sym × Elem) :=
  rustVecShims.flatMap fun r => (rustVecSymbols r.1).map fun n => (n, r.2)

/-! ## C++ -/

/-- C++ types named in the tables. -/
inductive CxxTy
  | bool | char | uint8 | uint16 | uint32 | uint64 | size | int8 | int16 | int32 | int64 | isize | float | double
  | stdString | rustString | rustStr
  | charIgnore | usizeIgnore | isizeIgnore
  deriving DecidableEq

/-- Which fixed-width type a C++ implementation takes for `size_t`, `rust::isize`, `char`, if any. -/
structure Platform where
  size : Option Bool    -- `some true` for uint64_t, `some false` for uint32_t
  isize : Option Bool   -- `some true` for int64_t, `some false` for int32_t
  char : Option Bool    -- `some true` for uint8_t, `some false` for int8_t
  deriving DecidableEq

/-- The C++ type behind aliases. -/
def canon (p : Platform) : CxxTy → CxxTy
  | .size => match p.size with | some true => .uint64 | some false => .uint32 | none => .size
  | .isize => match p.isize with | some true => .int64 | some false => .int32 | none => .isize
  | .char => match p.char with | some true => .uint8 | some false => .int8 | none => .char
  | t => t

/-- gen/src/write.rs:1341-1360 `write_atom`, and 1316-1318 for `&str`. -/
def cxxType : Elem → CxxTy
  | .atom .bool => .bool
  | .atom .char => .char
  | .atom .u8 => .uint8
  | .atom .u16 => .uint16
  | .atom .u32 => .uint32
  | .atom .u64 => .uint64
  | .atom .usize => .size
  | .atom .i8 => .int8
  | .atom .i16 => .int16
  | .atom .i32 => .int32
  | .atom .i64 => .int64
  | .atom .isize => .isize
  | .atom .f32 => .float
  | .atom .f64 => .double
  | .atom .cxxString => .stdString
  | .atom .rustString => .rustString
  | .str => .rustStr

/-- src/cxx.cc:767-777 `FOR_EACH_NUMERIC`. -/
def numeric : List (String × CxxTy) :=
  [("u8", .uint8), ("u16", .uint16), ("u32", .uint32), ("u64", .uint64), ("i8", .int8), ("i16", .int16), ("i32", .int32),
   ("i64", .int64), ("f32", .float), ("f64", .double)]

/-- src/cxx.cc:779-782. -/
def trivialStdVector : List (String × CxxTy) := numeric ++ [("usize", .size), ("isize", .isize)]
/-- src/cxx.cc:784-786. -/
def stdVector : List (String × CxxTy) := trivialStdVector ++ [("string", .stdString)]
/-- src/cxx.cc:797-802. -/
def sharedPtr : List (String × CxxTy) :=
  numeric ++ [("bool", .bool), ("usize", .size), ("isize", .isize), ("string", .stdString)]

/-- src/cxx.cc:540-543 `usize_if_unique`. -/
def usizeIfUnique (p : Platform) : CxxTy :=
  if canon p .size = canon p .uint64 ∨ canon p .size = canon p .uint32 then .usizeIgnore else .size
/-- src/cxx.cc:544-547 `isize_if_unique`. -/
def isizeIfUnique (p : Platform) : CxxTy :=
  if canon p .isize = canon p .int64 ∨ canon p .isize = canon p .int32 then .isizeIgnore else .isize
/-- src/cxx.cc:549-552 `char_if_unique`. -/
def charIfUnique (p : Platform) : CxxTy :=
  if canon p .char = canon p .uint8 ∨ canon p .char = canon p .int8 then .charIgnore else .char

/-- src/cxx.cc:788-795 `FOR_EACH_RUST_VEC`. -/
def rustVec (p : Platform) : List (String × CxxTy) :=
  numeric ++ [("bool", .bool), ("char", charIfUnique p), ("usize", usizeIfUnique p), ("isize", isizeIfUnique p),
    ("string", .rustString), ("str", .rustStr)]

/-- src/cxx.cc:613-647 `STD_VECTOR_OPS`. -/
def stdVectorOps (seg : String) : List Sym :=
  ["new", "size", "get_unchecked"].map (fun m => ["cxxbridge1", "std", "vector"] ++ [seg, m]) ++
  ["null", "raw", "get", "release", "drop"].map fun m => ["cxxbridge1", "unique_ptr", "std", "vector"] ++ [seg, m]
/-- src/cxx.cc:649-659 `STD_VECTOR_TRIVIAL_OPS`. -/
def stdVectorTrivialOps (seg : String) : List Sym :=
  ["push_back", "pop_back"].map fun m => ["cxxbridge1", "std", "vector"] ++ [seg, m]
/-- src/cxx.cc:713-764 `SHARED_PTR_OPS`. -/
def sharedPtrOps (seg : String) : List Sym :=
  ["null", "uninit", "clone", "get", "drop"].map (fun m => ["cxxbridge1", "std", "shared_ptr"] ++ [seg, m]) ++
  ["null", "clone", "downgrade", "upgrade", "drop"].map fun m => ["cxxbridge1", "std", "weak_ptr"] ++ [seg, m]
/-- src/cxx.cc:582-603. -/
def uniquePtrString : List Sym :=
  [["cxxbridge1", "unique_ptr", "std", "string", "null"], ["cxxbridge1", "unique_ptr", "std", "string", "raw"], ["cxxbridge1", "unique_ptr", "std", "string", "get"],
   ["cxxbridge1", "unique_ptr", "std", "string", "release"], ["cxxbridge1", "unique_ptr", "std", "string", "drop"]]

/-- src/cxx.cc:804-809: every `extern "C"` symbol defined, with the element type it works on. -/
def cxxDefines : List (Sym × CxxTy) :=
  uniquePtrString.map (fun n => (n, .stdString)) ++
  stdVector.flatMap (fun r => (stdVectorOps r.1).map fun n => (n, r.2)) ++
  trivialStdVector.flatMap (fun r => (stdVectorTrivialOps r.1).map fun n => (n, r.2)) ++
  sharedPtr.flatMap (fun r => (sharedPtrOps r.1).map fun n => (n, r.2))

/-- src/cxx.cc:679-711 `RUST_VEC_OPS`: the symbols the members call. -/
def vecSymbols (seg : String) : List Sym :=
  ["new", "drop", "len", "capacity", "data", "reserve_total", "set_len", "truncate"].map fun m =>
    ["cxxbridge1", "rust_vec"] ++ [seg, m]

/-- src/cxx.cc:811-815: the specialisations of `rust::Vec`, with the symbols each one calls. -/
def vecSpecialisations (p : Platform) : List (CxxTy × List Sym) :=
  (rustVec p).map fun r => (canon p r.2, vecSymbols r.1)

end Verif.Builtins
