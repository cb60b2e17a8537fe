import Verif.Thunk.Model
import Verif.Builtins.Model
/-!
# Both halves of the built-in instantiations

For smart pointers and vectors of built-in types no code is generated.  The Rust half is written out by the macros of `src/`,
the C++ half by those of `src/cxx.cc`.  The tables of element types are in `Verif/Builtins/Model.lean`; here are the functions.
-/
namespace Verif.Runtime
open Verif.Syntax Verif.Mangle Verif.Thunk Verif.Builtins

variable {W : Type}

/-! ### The C++ functions -/

/-- The names of the types in the tables of `src/cxx.cc`; `rust::isize` and the types that stand for no type are named by
their own names. -/
def cppName : CxxTy → CName
  | .bool => ⟨[], "bool"⟩
  | .char => ⟨[], "char"⟩
  | .uint8 => ⟨["std"], "uint8_t"⟩
  | .uint16 => ⟨["std"], "uint16_t"⟩
  | .uint32 => ⟨["std"], "uint32_t"⟩
  | .uint64 => ⟨["std"], "uint64_t"⟩
  | .size => ⟨["std"], "size_t"⟩
  | .int8 => ⟨["std"], "int8_t"⟩
  | .int16 => ⟨["std"], "int16_t"⟩
  | .int32 => ⟨["std"], "int32_t"⟩
  | .int64 => ⟨["std"], "int64_t"⟩
  | .isize => ⟨["rust"], "isize"⟩
  | .float => ⟨[], "float"⟩
  | .double => ⟨[], "double"⟩
  | .stdString => ⟨["std"], "string"⟩
  | .rustString => ⟨["rust"], "String"⟩
  | .rustStr => ⟨["rust"], "Str"⟩
  | .charIgnore => ⟨["rust", "detail"], "char_ignore"⟩
  | .usizeIgnore => ⟨["rust", "detail"], "usize_ignore"⟩
  | .isizeIgnore => ⟨["rust", "detail"], "isize_ignore"⟩

/-- src/cxx.cc:583-602: the functions of a `unique_ptr` to a string. -/
def uniqueString (lib : Lib W) : List (Thunk CPTy W) :=
  let t : CTy := .named (cppName .stdString)
  [⟨"cxxbridge1$unique_ptr$std$string$null".toList, [.unique t false], .void, fun
    | [ptr] => do let _ ← lib.run (.uniqueNull t ptr); unit
    | _ => fault⟩,
   ⟨"cxxbridge1$unique_ptr$std$string$raw".toList, [.unique t false, .obj t false], .void, fun
    | [ptr, raw] => do let _ ← lib.run (.uniqueFrom t ptr raw); unit
    | _ => fault⟩,
   ⟨"cxxbridge1$unique_ptr$std$string$get".toList, [.unique t true], .obj t true, fun
    | [ptr] => lib.run (.uniqueGet t ptr)
    | _ => fault⟩,
   ⟨"cxxbridge1$unique_ptr$std$string$release".toList, [.unique t false], .obj t false, fun
    | [ptr] => lib.run (.uniqueRelease t ptr)
    | _ => fault⟩,
   ⟨"cxxbridge1$unique_ptr$std$string$drop".toList, [.unique t false], .void, fun
    | [ptr] => do let _ ← lib.run (.uniqueDestroy t ptr); unit
    | _ => fault⟩]

/-- src/cxx.cc:613-647 `STD_VECTOR_OPS`. -/
def stdVectorFns (lib : Lib W) (seg : String) (t : CName) : List (Thunk CPTy W) :=
  [⟨written "cxxbridge1$std$vector$" seg.toList "new", [], .obj (.vector t) false, fun
    | [] => lib.run (.vectorNew t)
    | _ => fault⟩,
   ⟨written "cxxbridge1$std$vector$" seg.toList "size", [.obj (.vector t) true], .size, fun
    | [s] => lib.run (.vectorSize t s)
    | _ => fault⟩,
   ⟨written "cxxbridge1$std$vector$" seg.toList "get_unchecked", [.obj (.vector t) false, .size], .obj (.named t) false, fun
    | [s, pos] => lib.run (.vectorAt t s pos)
    | _ => fault⟩,
   ⟨written "cxxbridge1$unique_ptr$std$vector$" seg.toList "null", [.unique (.vector t) false], .void, fun
    | [ptr] => do let _ ← lib.run (.uniqueNull (.vector t) ptr); unit
    | _ => fault⟩,
   ⟨written "cxxbridge1$unique_ptr$std$vector$" seg.toList "raw", [.unique (.vector t) false, .obj (.vector t) false], .void, fun
    | [ptr, raw] => do let _ ← lib.run (.uniqueFrom (.vector t) ptr raw); unit
    | _ => fault⟩,
   ⟨written "cxxbridge1$unique_ptr$std$vector$" seg.toList "get", [.unique (.vector t) true], .obj (.vector t) true, fun
    | [ptr] => lib.run (.uniqueGet (.vector t) ptr)
    | _ => fault⟩,
   ⟨written "cxxbridge1$unique_ptr$std$vector$" seg.toList "release", [.unique (.vector t) false], .obj (.vector t) false, fun
    | [ptr] => lib.run (.uniqueRelease (.vector t) ptr)
    | _ => fault⟩,
   ⟨written "cxxbridge1$unique_ptr$std$vector$" seg.toList "drop", [.unique (.vector t) false], .void, fun
    | [ptr] => do let _ ← lib.run (.uniqueDestroy (.vector t) ptr); unit
    | _ => fault⟩]

/-- src/cxx.cc:649-659 `STD_VECTOR_TRIVIAL_OPS`, with `destroy` of 576-579. -/
def stdVectorTrivialFns (lib : Lib W) (seg : String) (t : CName) : List (Thunk CPTy W) :=
  [⟨written "cxxbridge1$std$vector$" seg.toList "push_back", [.obj (.vector t) false, .obj (.named t) false], .void, fun
    | [v, value] => do
      let _ ← lib.run (.vectorPush t v value)
      let _ ← lib.run (.destroy t value)
      unit
    | _ => fault⟩,
   ⟨written "cxxbridge1$std$vector$" seg.toList "pop_back", [.obj (.vector t) false, .obj (.named t) false], .void, fun
    | [v, out] => do
      let _ ← lib.run (.moveBack t out v)
      let _ ← lib.run (.vectorPop t v)
      unit
    | _ => fault⟩]

/-- src/cxx.cc:713-764 `SHARED_PTR_OPS`. -/
def sharedPtrFns (lib : Lib W) (seg : String) (n : CName) : List (Thunk CPTy W) :=
  let t : CTy := .named n
  [⟨written "cxxbridge1$std$shared_ptr$" seg.toList "null", [.shared t false], .void, fun
    | [ptr] => do let _ ← lib.run (.sharedNull t ptr); unit
    | _ => fault⟩,
   ⟨written "cxxbridge1$std$shared_ptr$" seg.toList "uninit", [.shared t false], .obj t false, fun
    | [ptr] => do
      let uninit ← lib.run (.newUninit t)
      let _ ← lib.run (.sharedFrom t ptr uninit)
      pure uninit
    | _ => fault⟩,
   ⟨written "cxxbridge1$std$shared_ptr$" seg.toList "clone", [.shared t true, .shared t false], .void, fun
    | [self, ptr] => do let _ ← lib.run (.sharedCopy t ptr self); unit
    | _ => fault⟩,
   ⟨written "cxxbridge1$std$shared_ptr$" seg.toList "get", [.shared t true], .obj t true, fun
    | [self] => lib.run (.sharedGet t self)
    | _ => fault⟩,
   ⟨written "cxxbridge1$std$shared_ptr$" seg.toList "drop", [.shared t true], .void, fun
    | [self] => do let _ ← lib.run (.sharedDestroy t self); unit
    | _ => fault⟩,
   ⟨written "cxxbridge1$std$weak_ptr$" seg.toList "null", [.weak t false], .void, fun
    | [ptr] => do let _ ← lib.run (.weakNull t ptr); unit
    | _ => fault⟩,
   ⟨written "cxxbridge1$std$weak_ptr$" seg.toList "clone", [.weak t true, .weak t false], .void, fun
    | [self, ptr] => do let _ ← lib.run (.weakCopy t ptr self); unit
    | _ => fault⟩,
   ⟨written "cxxbridge1$std$weak_ptr$" seg.toList "downgrade", [.shared t true, .weak t false], .void, fun
    | [shared, weak] => do let _ ← lib.run (.weakOf t weak shared); unit
    | _ => fault⟩,
   ⟨written "cxxbridge1$std$weak_ptr$" seg.toList "upgrade", [.weak t true, .shared t false], .void, fun
    | [weak, shared] => do let _ ← lib.run (.sharedLock t shared weak); unit
    | _ => fault⟩,
   ⟨written "cxxbridge1$std$weak_ptr$" seg.toList "drop", [.weak t true], .void, fun
    | [self] => do let _ ← lib.run (.weakDestroy t self); unit
    | _ => fault⟩]

/-- src/cxx.cc:582-603 and 804-809: the functions for instantiations that `cxx.cc` defines. -/
def cxxRuntime (lib : Lib W) : List (Thunk CPTy W) :=
  uniqueString lib ++ stdVector.flatMap (fun r => stdVectorFns lib r.1 (cppName r.2)) ++
  trivialStdVector.flatMap (fun r => stdVectorTrivialFns lib r.1 (cppName r.2)) ++
  sharedPtr.flatMap (fun r => sharedPtrFns lib r.1 (cppName r.2))

/-! ### The Rust callers -/

/-- The types in the tables of the Rust crate. -/
def rustName : Elem → Ident
  | .atom .bool => "bool"
  | .atom .char => "c_char"
  | .atom .u8 => "u8"
  | .atom .u16 => "u16"
  | .atom .u32 => "u32"
  | .atom .u64 => "u64"
  | .atom .usize => "usize"
  | .atom .i8 => "i8"
  | .atom .i16 => "i16"
  | .atom .i32 => "i32"
  | .atom .i64 => "i64"
  | .atom .isize => "isize"
  | .atom .f32 => "f32"
  | .atom .f64 => "f64"
  | .atom .cxxString => "CxxString"
  | .atom .rustString => "RustString"
  | .str => "&str"

/-- src/shared_ptr.rs:250-293 `impl_shared_ptr_target`. -/
def sharedTarget (lib : Lib W) (seg : String) (r : Ident) : List (Caller RPTy W) :=
  let link := linkName "cxxbridge1$std$shared_ptr$" seg.toList
  [⟨"__null", link "null", [.opaque_ true], .unit, fun f => fun
      | [new] => do let _ ← f [new]; unit
      | _ => fault⟩,
   ⟨"__new", link "uninit", [.opaque_ true], .opaque_ true, fun f => fun
      | [value, new] => do
        let uninit ← f [new]
        let _ ← lib.run (.store r uninit value)
        unit
      | _ => fault⟩,
   ⟨"__clone", link "clone", [.opaque_ false, .opaque_ true], .unit, fun f => fun
      | [this, new] => do let _ ← f [this, new]; unit
      | _ => fault⟩,
   ⟨"__get", link "get", [.opaque_ false], .opaque_ false, fun f => fun
      | [this] => f [this]
      | _ => fault⟩,
   ⟨"__drop", link "drop", [.opaque_ true], .unit, fun f => fun
      | [this] => do let _ ← f [this]; unit
      | _ => fault⟩]

/-- src/weak_ptr.rs:114-157 `impl_weak_ptr_target`. -/
def weakTarget (seg : String) : List (Caller RPTy W) :=
  let link := linkName "cxxbridge1$std$weak_ptr$" seg.toList
  [⟨"__null", link "null", [.opaque_ true], .unit, fun f => fun
      | [new] => do let _ ← f [new]; unit
      | _ => fault⟩,
   ⟨"__clone", link "clone", [.opaque_ false, .opaque_ true], .unit, fun f => fun
      | [this, new] => do let _ ← f [this, new]; unit
      | _ => fault⟩,
   ⟨"__downgrade", link "downgrade", [.opaque_ false, .opaque_ true], .unit, fun f => fun
      | [shared, weak] => do let _ ← f [shared, weak]; unit
      | _ => fault⟩,
   ⟨"__upgrade", link "upgrade", [.opaque_ false, .opaque_ true], .unit, fun f => fun
      | [weak, shared] => do let _ ← f [weak, shared]; unit
      | _ => fault⟩,
   ⟨"__drop", link "drop", [.opaque_ true], .unit, fun f => fun
      | [this] => do let _ ← f [this]; unit
      | _ => fault⟩]

/-- src/cxx_vector.rs:390-408 `vector_element_by_value_methods`. -/
def byValueMethods (trivial : Bool) (seg : String) (r : Ident) : List (Caller RPTy W) :=
  let link := linkName "cxxbridge1$std$vector$" seg.toList
  if trivial then
    [⟨"__push_back", link "push_back", [.cxxVector r true, .obj r true], .unit, fun f => fun
        | [v, value] => do let _ ← f [v, value]; unit
        | _ => fault⟩,
     ⟨"__pop_back", link "pop_back", [.cxxVector r true, .obj r true], .unit, fun f => fun
        | [v, out] => do let _ ← f [v, out]; unit
        | _ => fault⟩]
  else []

/-- src/cxx_vector.rs:410-482 `impl_vector_element`. -/
def vectorElement (lib : Lib W) (trivial : Bool) (seg : String) (r : Ident) : List (Caller RPTy W) :=
  let link := linkName "cxxbridge1$std$vector$" seg.toList
  let linkUnique := linkName "cxxbridge1$unique_ptr$std$vector$" seg.toList
  [⟨"__vector_new", link "new", [], .cxxVector r true, fun f => fun
      | [] => f []
      | _ => fault⟩,
   ⟨"__vector_size", link "size", [.cxxVector r false], .usize, fun f => fun
      | [v] => f [v]
      | _ => fault⟩,
   ⟨"__get_unchecked", link "get_unchecked", [.cxxVector r true, .usize], .obj r true, fun f => fun
      | [v, pos] => f [v, pos]
      | _ => fault⟩] ++
  byValueMethods trivial seg r ++
  [⟨"__unique_ptr_null", linkUnique "null", [.repr true], .unit, fun f => fun
      | [] => do
        let repr ← lib.run .freshLocal
        let _ ← f [repr]
        lib.run (.bitsOf repr)
      | _ => fault⟩,
   ⟨"__unique_ptr_raw", linkUnique "raw", [.repr true, .cxxVector r true], .unit, fun f => fun
      | [raw] => do
        let repr ← lib.run .freshLocal
        let _ ← f [repr, raw]
        lib.run (.bitsOf repr)
      | _ => fault⟩,
   ⟨"__unique_ptr_get", linkUnique "get", [.repr false], .cxxVector r false, fun f => fun
      | [bits] => do
        let repr ← lib.run (.localOf bits)
        f [repr]
      | _ => fault⟩,
   ⟨"__unique_ptr_release", linkUnique "release", [.repr true], .cxxVector r true, fun f => fun
      | [bits] => do
        let repr ← lib.run (.localOf bits)
        f [repr]
      | _ => fault⟩,
   ⟨"__unique_ptr_drop", linkUnique "drop", [.repr true], .unit, fun f => fun
      | [bits] => do
        let repr ← lib.run (.localOf bits)
        let _ ← f [repr]
        unit
      | _ => fault⟩]

/-- src/unique_ptr.rs:406-446: `UniquePtrTarget` for `CxxString`. -/
def stringTarget (lib : Lib W) : List (Caller RPTy W) :=
  [⟨"__null", "cxxbridge1$unique_ptr$std$string$null".toList, [.repr true], .unit, fun f => fun
      | [] => do
        let repr ← lib.run .freshLocal
        let _ ← f [repr]
        lib.run (.bitsOf repr)
      | _ => fault⟩,
   ⟨"__raw", "cxxbridge1$unique_ptr$std$string$raw".toList, [.repr true, .obj "CxxString" true], .unit, fun f => fun
      | [raw] => do
        let repr ← lib.run .freshLocal
        let _ ← f [repr, raw]
        lib.run (.bitsOf repr)
      | _ => fault⟩,
   ⟨"__get", "cxxbridge1$unique_ptr$std$string$get".toList, [.repr false], .obj "CxxString" false, fun f => fun
      | [bits] => do
        let repr ← lib.run (.localOf bits)
        f [repr]
      | _ => fault⟩,
   ⟨"__release", "cxxbridge1$unique_ptr$std$string$release".toList, [.repr true], .obj "CxxString" true, fun f => fun
      | [bits] => do
        let repr ← lib.run (.localOf bits)
        f [repr]
      | _ => fault⟩,
   ⟨"__drop", "cxxbridge1$unique_ptr$std$string$drop".toList, [.repr true], .unit, fun f => fun
      | [bits] => do
        let repr ← lib.run (.localOf bits)
        let _ ← f [repr]
        unit
      | _ => fault⟩]

/-- src/unique_ptr.rs:448-469: `UniquePtrTarget` for `CxxVector<T>` calls the methods of `T`. -/
def vectorTargetMethod : String → Option String
  | "__null" => some "__unique_ptr_null"
  | "__raw" => some "__unique_ptr_raw"
  | "__get" => some "__unique_ptr_get"
  | "__release" => some "__unique_ptr_release"
  | "__drop" => some "__unique_ptr_drop"
  | _ => none

/-- The trait of a built-in instantiation, if it is implemented: src/shared_ptr.rs:295-316, src/weak_ptr.rs:159-179,
src/cxx_vector.rs:484-503, src/unique_ptr.rs:420-452. -/
def methods (lib : Lib W) : Inst → Option (List (Caller RPTy W))
  | .sharedPtr e => (rustSharedPtr.find? fun r => r.2 == e).map fun r => sharedTarget lib r.1 (rustName r.2)
  | .weakPtr e => (rustWeakPtr.find? fun r => r.2 == e).map fun r => weakTarget r.1
  | .cxxVector e => (rustCxxVector.find? fun r => r.2.2 == e).map fun r => vectorElement lib r.1 r.2.1 (rustName r.2.2)
  | .uniquePtrVector e => (rustCxxVector.find? fun r => r.2.2 == e).map fun r => vectorElement lib r.1 r.2.1 (rustName r.2.2)
  | .uniquePtr (.atom .cxxString) => some (stringTarget lib)
  | .uniquePtr _ => none
  | .rustVec _ => none

/-- A call of a trait method of a built-in instantiation in Rust. -/
def call (lib : Lib W) (i : Inst) (name : String) (args : List Nat) : Run W Nat :=
  match i with
  | .uniquePtrVector _ => match vectorTargetMethod name with
    | some m => callBy (methods lib i) (some (cxxRuntime lib)) m args
    | none => fault
  | _ => callBy (methods lib i) (some (cxxRuntime lib)) name args

/-! ### Vectors of Rust -/

/-- src/symbols/rust_vec.rs:10-51 `rust_vec_shims`. -/
def vecShims (lib : Lib W) (seg : String) (r : Ident) : List (Thunk RPTy W) :=
  let link := linkName "cxxbridge1$rust_vec$" seg.toList
  [⟨link "new", [.vec r true], .unit, fun
      | [this] => do let _ ← lib.run (.vecNew r this); unit
      | _ => fault⟩,
   ⟨link "drop", [.vec r true], .unit, fun
      | [this] => do let _ ← lib.run (.vecDrop r this); unit
      | _ => fault⟩,
   ⟨link "len", [.vec r false], .usize, fun
      | [this] => lib.run (.vecLen r this)
      | _ => fault⟩,
   ⟨link "capacity", [.vec r false], .usize, fun
      | [this] => lib.run (.vecCapacity r this)
      | _ => fault⟩,
   ⟨link "data", [.vec r false], .obj r false, fun
      | [this] => lib.run (.vecData r this)
      | _ => fault⟩,
   ⟨link "reserve_total", [.vec r true, .usize], .unit, fun
      | [this, newCap] => do let _ ← lib.run (.vecReserveTotal r this newCap); unit
      | _ => fault⟩,
   ⟨link "set_len", [.vec r true, .usize], .unit, fun
      | [this, len] => do let _ ← lib.run (.vecSetLen r this len); unit
      | _ => fault⟩,
   ⟨link "truncate", [.vec r true, .usize], .unit, fun
      | [this, len] => do let _ ← lib.run (.vecTruncate r this len); unit
      | _ => fault⟩]

/-- src/symbols/rust_vec.rs:53-75. -/
def rustRuntime (lib : Lib W) : List (Thunk RPTy W) := rustVecShims.flatMap fun r => vecShims lib r.1 (rustName r.2)

/-- src/cxx.cc:661-711 `RUST_VEC_EXTERNS` and `RUST_VEC_OPS`. -/
def vecOps (seg : String) (t : CName) : List (Caller CPTy W) :=
  [⟨"Vec", written "cxxbridge1$rust_vec$" seg.toList "new", [.vec t false], .void, fun f => fun
      | [this] => do let _ ← f [this]; unit
      | _ => fault⟩,
   ⟨"drop", written "cxxbridge1$rust_vec$" seg.toList "drop", [.vec t false], .void, fun f => fun
      | [this] => do let _ ← f [this]; unit
      | _ => fault⟩,
   ⟨"size", written "cxxbridge1$rust_vec$" seg.toList "len", [.vec t true], .size, fun f => fun
      | [this] => f [this]
      | _ => fault⟩,
   ⟨"capacity", written "cxxbridge1$rust_vec$" seg.toList "capacity", [.vec t true], .size, fun f => fun
      | [this] => f [this]
      | _ => fault⟩,
   ⟨"data", written "cxxbridge1$rust_vec$" seg.toList "data", [.vec t true], .obj (.named t) true, fun f => fun
      | [this] => f [this]
      | _ => fault⟩,
   ⟨"reserve_total", written "cxxbridge1$rust_vec$" seg.toList "reserve_total", [.vec t false, .size], .void, fun f => fun
      | [this, newCap] => do let _ ← f [this, newCap]; unit
      | _ => fault⟩,
   ⟨"set_len", written "cxxbridge1$rust_vec$" seg.toList "set_len", [.vec t false, .size], .void, fun f => fun
      | [this, len] => do let _ ← f [this, len]; unit
      | _ => fault⟩,
   ⟨"truncate", written "cxxbridge1$rust_vec$" seg.toList "truncate", [.vec t false, .size], .void, fun f => fun
      | [this, len] => do let _ ← f [this, len]; unit
      | _ => fault⟩]

/-- src/cxx.cc:811-815: the members of `rust::Vec<T>`, from the specialisation for the type that `T` is on the platform. -/
def vecMembersOf (p : Platform) (t : CxxTy) : Option (List (Caller CPTy W)) :=
  ((rustVec p).find? fun r => canon p r.2 == canon p t).map fun r => vecOps r.1 (cppName r.2)

/-- A call of a member function of `rust::Vec<T>` in C++. -/
def vecCall (lib : Lib W) (p : Platform) (t : CxxTy) (name : String) (args : List Nat) : Run W Nat :=
  callBy (vecMembersOf p t) (some (rustRuntime lib)) name args

end Verif.Runtime
