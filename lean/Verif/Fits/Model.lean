import Verif.Thunk.Model
import Verif.Assert.Model
/-!
# Operations that take or give values

`UniquePtr::new`, `SharedPtr::new`, `CxxVector::push` and `CxxVector::pop` call a method of the trait for the type argument
whose default is `unreachable!()`.
-/
namespace Verif.Fits
open Verif.Syntax Verif.Types Verif.Assert

/-- The four operations. -/
inductive Op
  | uniqueNew | sharedNew | push | pop
  deriving DecidableEq

/-- The trait method that the operation calls on its type argument: src/unique_ptr.rs:46-54 `UniquePtr::new`,
src/shared_ptr.rs:41-51 `SharedPtr::new`, src/cxx_vector.rs:180-189 `CxxVector::push`, 193-207 `CxxVector::pop`. -/
def Op.method : Op → String
  | .uniqueNew | .sharedNew => "__new"
  | .push => "__push_back"
  | .pop => "__pop_back"

/-- The instantiation whose code implements that trait for the type `T` of a bridge. -/
def Op.key (T : Ident) : Op → ImplKey
  | .uniqueNew => .uniquePtr T
  | .sharedNew => .sharedPtr T
  | .push | .pop => .cxxVector T

/-- What a call of a trait method runs. -/
inductive Runs
  | implementation
  /-- `unreachable!()` -/
  | panic
  deriving DecidableEq

/-- The implementation's method, or else the default of the trait: src/unique_ptr.rs:388-397, src/shared_ptr.rs:233-242,
src/cxx_vector.rs:362-377. -/
def dispatch (methods : List String) (op : Op) : Runs :=
  if op.method ∈ methods then .implementation else .panic

/-! ### Builtin types -/

/-- src/extern_type.rs:201-224: the kinds of builtin types.  `c_char` has none. -/
def builtinKind : Atom → Option TKind
  | .bool | .u8 | .u16 | .u32 | .u64 | .usize | .i8 | .i16 | .i32 | .i64 | .isize | .f32 | .f64 => some .trivial
  | .rustString => some .trivial
  | .cxxString => some .opaque
  | .char => none

/-- src/unique_ptr.rs:420-445: `UniquePtrTarget` is implemented for `CxxString` only. -/
def uniqueBuiltin : Atom → Option (List String)
  | .cxxString => some ["__typename", "__null", "__raw", "__get", "__release", "__drop"]
  | _ => none

/-- src/shared_ptr.rs:251-316 `impl_shared_ptr_target!`. -/
def sharedBuiltin : Atom → Option (List String)
  | .char | .rustString => none
  | _ => some ["__typename", "__null", "__new", "__clone", "__get", "__drop"]

/-- src/cxx_vector.rs:390-408 `vector_element_by_value_methods!`, with the kind that `impl_vector_element!` is given. -/
def byValueMethods : TKind → List String
  | .opaque => []
  | .trivial => ["__push_back", "__pop_back"]

/-- src/cxx_vector.rs:484-503: `impl_vector_element!` for the builtin types. -/
def vectorBuiltin : Atom → Option (List String)
  | .u8 | .u16 | .u32 | .u64 | .usize | .i8 | .i16 | .i32 | .i64 | .isize | .f32 | .f64 => some (vectorMethods .trivial)
  | .cxxString => some (vectorMethods .opaque)
  | .bool | .char | .rustString => none
where
  /-- src/cxx_vector.rs:410-482 `impl_vector_element!`. -/
  vectorMethods (k : TKind) : List String :=
    ["__typename", "__vector_new", "__vector_size", "__get_unchecked"] ++ byValueMethods k ++
    ["__unique_ptr_null", "__unique_ptr_raw", "__unique_ptr_get", "__unique_ptr_release", "__unique_ptr_drop"]

/-- The methods that the runtime implements, for the trait that an operation demands. -/
def builtinMethods : Op → Atom → Option (List String)
  | .uniqueNew => uniqueBuiltin
  | .sharedNew => sharedBuiltin
  | .push | .pop => vectorBuiltin

end Verif.Fits
