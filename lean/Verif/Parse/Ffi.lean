import Verif.Parse.ItemModel
import Verif.Check.Model
import Verif.CxxText.Model
import Verif.Once.Model
/-!
# The bridges of tests/ffi and of the demo

The bridges that the project itself compiles and links: the model parses and accepts them, and the line of each C++ function that binds
a pointer to it has the type with which tests/ffi/tests.h, tests/ffi/tests.cc or demo/include/blobstore.h declares the function.  The
items and the declarations were translated from these files by a script.  These are tests of the model, not proofs of a property; they
are run by the evaluator (`#guard`), no theorem depends on them.
-/
namespace Verif.Parse.Ffi
open Verif.Syntax Verif.Parse Verif.Types Verif.Check

private def ty (s : Ident) (args : PathArgs RTy := .none) : RTy := .path false false [] s args

/-- `#[namespace = "A::B"]` -/
private def readNamespace : Meta → Option Namespace
  | .nameValue (.str s) => some (s.splitOn "::")
  | _ => none

private def readers : Readers := ⟨readNamespace, fun _ => none, some, some⟩

/-- tests/ffi/lib.rs, `mod ffi` -/
private def lib : List ItemSrc := [
  .struct ⟨[⟨false, ["derive"], .list [.ident "Clone", .comma, .ident "Debug", .comma, .ident "PartialEq", .comma, .ident "Eq", .comma, .ident "PartialOrd", .comma, .ident "Ord"]⟩], "Shared", ⟨[], false⟩, .named [⟨[], "z", (ty "usize")⟩]⟩,
  .struct ⟨[⟨false, ["derive"], .list [.ident "PartialEq", .comma, .ident "PartialOrd"]⟩], "SharedString", ⟨[], false⟩, .named [⟨[], "msg", (ty "String")⟩]⟩,
  .enum ⟨[⟨false, ["derive"], .list [.ident "Debug", .comma, .ident "Hash", .comma, .ident "PartialOrd", .comma, .ident "Ord"]⟩], "Enum", ⟨[], false⟩, [⟨[], "AVal", ⟨true, none⟩⟩, ⟨[], "BVal", ⟨true, (some (.lit 2020 ""))⟩⟩, ⟨[⟨false, ["cxx_name"], .nameValue (.str "CVal")⟩], "LastVal", ⟨true, none⟩⟩]⟩,
  .struct ⟨[⟨false, ["namespace"], .nameValue (.str "A")⟩, ⟨false, ["derive"], .list [.ident "Copy", .comma, .ident "Clone", .comma, .ident "Default"]⟩], "AShared", ⟨[], false⟩, .named [⟨[⟨false, ["cxx_name"], .nameValue (.str "type")⟩], "z", (ty "usize")⟩]⟩,
  .enum ⟨[⟨false, ["namespace"], .nameValue (.str "A")⟩], "AEnum", ⟨[], false⟩, [⟨[], "AAVal", ⟨true, none⟩⟩, ⟨[], "ABVal", ⟨true, (some (.lit 2020 ""))⟩⟩, ⟨[], "ACVal", ⟨true, none⟩⟩]⟩,
  .enum ⟨[⟨false, ["namespace"], .nameValue (.str "A::B")⟩], "ABEnum", ⟨[], false⟩, [⟨[], "ABAVal", ⟨true, none⟩⟩, ⟨[], "ABBVal", ⟨true, (some (.lit 2020 ""))⟩⟩, ⟨[], "ABCVal", ⟨true, none⟩⟩]⟩,
  .struct ⟨[⟨false, ["namespace"], .nameValue (.str "A::B")⟩, ⟨false, ["derive"], .list [.ident "Clone"]⟩], "ABShared", ⟨[], false⟩, .named [⟨[], "z", (ty "usize")⟩]⟩,
  .struct ⟨[⟨false, ["namespace"], .nameValue (.str "first")⟩], "First", ⟨[], false⟩, .named [⟨[], "second", (ty "Box" (.angle [.type (ty "Second")]))⟩]⟩,
  .struct ⟨[⟨false, ["namespace"], .nameValue (.str "second")⟩, ⟨false, ["derive"], .list [.ident "Hash"]⟩], "Second", ⟨[], false⟩, .named [⟨[], "i", (ty "i32")⟩, ⟨[], "e", (ty "COwnedEnum")⟩]⟩,
  .struct ⟨[], "Array", ⟨[], false⟩, .named [⟨[], "a", (.array (ty "i32") (.int 4))⟩, ⟨[], "b", (ty "Buffer")⟩]⟩,
  .struct ⟨[⟨false, ["derive"], .list [.ident "Copy", .comma, .ident "Clone", .comma, .ident "Debug", .comma, .ident "Default", .comma, .ident "Eq", .comma, .ident "Hash", .comma, .ident "Ord", .comma, .ident "PartialEq", .comma, .ident "PartialOrd"]⟩], "StructWithLifetime", ⟨[.lifetime "a" false], false⟩, .named [⟨[], "s", (.reference (some "a") false (ty "str"))⟩]⟩,
  .foreignMod ⟨[], true, some "C++", [
    .include (some "tests/ffi/tests.h"),
    .type ⟨[], "C", ⟨[], false⟩⟩,
    .fn ⟨[], "c_return_primitive", ⟨[], false⟩, false, false, false, false, false, none, [], (some (ty "usize"))⟩,
    .fn ⟨[], "c_return_shared", ⟨[], false⟩, false, false, false, false, false, none, [], (some (ty "Shared"))⟩,
    .fn ⟨[], "c_return_box", ⟨[], false⟩, false, false, false, false, false, none, [], (some (ty "Box" (.angle [.type (ty "R")])))⟩,
    .fn ⟨[], "c_return_unique_ptr", ⟨[], false⟩, false, false, false, false, false, none, [], (some (ty "UniquePtr" (.angle [.type (ty "C")])))⟩,
    .fn ⟨[], "c_return_shared_ptr", ⟨[], false⟩, false, false, false, false, false, none, [], (some (ty "SharedPtr" (.angle [.type (ty "C")])))⟩,
    .fn ⟨[], "c_return_ref", ⟨[], false⟩, false, false, false, false, false, none, [(.ident "shared", (.reference none false (ty "Shared")))], (some (.reference none false (ty "usize")))⟩,
    .fn ⟨[], "c_return_mut", ⟨[], false⟩, false, false, false, false, false, none, [(.ident "shared", (.reference none true (ty "Shared")))], (some (.reference none true (ty "usize")))⟩,
    .fn ⟨[], "c_return_str", ⟨[], false⟩, false, false, false, false, false, none, [(.ident "shared", (.reference none false (ty "Shared")))], (some (.reference none false (ty "str")))⟩,
    .fn ⟨[], "c_return_slice_char", ⟨[], false⟩, false, false, false, false, false, none, [(.ident "shared", (.reference none false (ty "Shared")))], (some (.reference none false (.slice (ty "c_char"))))⟩,
    .fn ⟨[], "c_return_mutsliceu8", ⟨[], false⟩, false, false, false, false, false, none, [(.ident "slice", (.reference none true (.slice (ty "u8"))))], (some (.reference none true (.slice (ty "u8"))))⟩,
    .fn ⟨[], "c_return_rust_string", ⟨[], false⟩, false, false, false, false, false, none, [], (some (ty "String"))⟩,
    .fn ⟨[], "c_return_rust_string_lossy", ⟨[], false⟩, false, false, false, false, false, none, [], (some (ty "String"))⟩,
    .fn ⟨[], "c_return_unique_ptr_string", ⟨[], false⟩, false, false, false, false, false, none, [], (some (ty "UniquePtr" (.angle [.type (ty "CxxString")])))⟩,
    .fn ⟨[], "c_return_unique_ptr_vector_u8", ⟨[], false⟩, false, false, false, false, false, none, [], (some (ty "UniquePtr" (.angle [.type (ty "CxxVector" (.angle [.type (ty "u8")]))])))⟩,
    .fn ⟨[], "c_return_unique_ptr_vector_f64", ⟨[], false⟩, false, false, false, false, false, none, [], (some (ty "UniquePtr" (.angle [.type (ty "CxxVector" (.angle [.type (ty "f64")]))])))⟩,
    .fn ⟨[], "c_return_unique_ptr_vector_string", ⟨[], false⟩, false, false, false, false, false, none, [], (some (ty "UniquePtr" (.angle [.type (ty "CxxVector" (.angle [.type (ty "CxxString")]))])))⟩,
    .fn ⟨[], "c_return_unique_ptr_vector_shared", ⟨[], false⟩, false, false, false, false, false, none, [], (some (ty "UniquePtr" (.angle [.type (ty "CxxVector" (.angle [.type (ty "Shared")]))])))⟩,
    .fn ⟨[], "c_return_unique_ptr_vector_opaque", ⟨[], false⟩, false, false, false, false, false, none, [], (some (ty "UniquePtr" (.angle [.type (ty "CxxVector" (.angle [.type (ty "C")]))])))⟩,
    .fn ⟨[], "c_return_ref_vector", ⟨[], false⟩, false, false, false, false, false, none, [(.ident "c", (.reference none false (ty "C")))], (some (.reference none false (ty "CxxVector" (.angle [.type (ty "u8")]))))⟩,
    .fn ⟨[], "c_return_mut_vector", ⟨[], false⟩, false, false, false, false, false, none, [(.ident "c", (ty "Pin" (.angle [.type (.reference none true (ty "C"))])))], (some (ty "Pin" (.angle [.type (.reference none true (ty "CxxVector" (.angle [.type (ty "u8")])))])))⟩,
    .fn ⟨[], "c_return_rust_vec_u8", ⟨[], false⟩, false, false, false, false, false, none, [], (some (ty "Vec" (.angle [.type (ty "u8")])))⟩,
    .fn ⟨[], "c_return_ref_rust_vec", ⟨[], false⟩, false, false, false, false, false, none, [(.ident "c", (.reference none false (ty "C")))], (some (.reference none false (ty "Vec" (.angle [.type (ty "u8")]))))⟩,
    .fn ⟨[], "c_return_mut_rust_vec", ⟨[], false⟩, false, false, false, false, false, none, [(.ident "c", (ty "Pin" (.angle [.type (.reference none true (ty "C"))])))], (some (.reference none true (ty "Vec" (.angle [.type (ty "u8")]))))⟩,
    .fn ⟨[], "c_return_rust_vec_string", ⟨[], false⟩, false, false, false, false, false, none, [], (some (ty "Vec" (.angle [.type (ty "String")])))⟩,
    .fn ⟨[], "c_return_rust_vec_bool", ⟨[], false⟩, false, false, false, false, false, none, [], (some (ty "Vec" (.angle [.type (ty "bool")])))⟩,
    .fn ⟨[], "c_return_identity", ⟨[], false⟩, false, false, false, false, false, none, [(.wild, (ty "usize"))], (some (ty "usize"))⟩,
    .fn ⟨[], "c_return_sum", ⟨[], false⟩, false, false, false, false, false, none, [(.wild, (ty "usize")), (.wild, (ty "usize"))], (some (ty "usize"))⟩,
    .fn ⟨[], "c_return_enum", ⟨[], false⟩, false, false, false, false, false, none, [(.ident "n", (ty "u16"))], (some (ty "Enum"))⟩,
    .fn ⟨[], "c_return_ns_ref", ⟨[], false⟩, false, false, false, false, false, none, [(.ident "shared", (.reference none false (ty "AShared")))], (some (.reference none false (ty "usize")))⟩,
    .fn ⟨[], "c_return_nested_ns_ref", ⟨[], false⟩, false, false, false, false, false, none, [(.ident "shared", (.reference none false (ty "ABShared")))], (some (.reference none false (ty "usize")))⟩,
    .fn ⟨[], "c_return_ns_enum", ⟨[], false⟩, false, false, false, false, false, none, [(.ident "n", (ty "u16"))], (some (ty "AEnum"))⟩,
    .fn ⟨[], "c_return_nested_ns_enum", ⟨[], false⟩, false, false, false, false, false, none, [(.ident "n", (ty "u16"))], (some (ty "ABEnum"))⟩,
    .fn ⟨[], "c_return_const_ptr", ⟨[], false⟩, false, false, false, false, false, none, [(.ident "n", (ty "usize"))], (some (.ptr false (ty "C")))⟩,
    .fn ⟨[], "c_return_mut_ptr", ⟨[], false⟩, false, false, false, false, false, none, [(.ident "n", (ty "usize"))], (some (.ptr true (ty "C")))⟩,
    .fn ⟨[], "c_take_primitive", ⟨[], false⟩, false, false, false, false, false, none, [(.ident "n", (ty "usize"))], none⟩,
    .fn ⟨[], "c_take_shared", ⟨[], false⟩, false, false, false, false, false, none, [(.ident "shared", (ty "Shared"))], none⟩,
    .fn ⟨[], "c_take_box", ⟨[], false⟩, false, false, false, false, false, none, [(.ident "r", (ty "Box" (.angle [.type (ty "R")])))], none⟩,
    .fn ⟨[], "c_take_ref_r", ⟨[], false⟩, false, false, false, false, false, none, [(.ident "r", (.reference none false (ty "R")))], none⟩,
    .fn ⟨[], "c_take_ref_c", ⟨[], false⟩, false, false, false, false, false, none, [(.ident "c", (.reference none false (ty "C")))], none⟩,
    .fn ⟨[], "c_take_str", ⟨[], false⟩, false, false, false, false, false, none, [(.ident "s", (.reference none false (ty "str")))], none⟩,
    .fn ⟨[], "c_take_slice_char", ⟨[], false⟩, false, false, false, false, false, none, [(.ident "s", (.reference none false (.slice (ty "c_char"))))], none⟩,
    .fn ⟨[], "c_take_slice_shared", ⟨[], false⟩, false, false, false, false, false, none, [(.ident "s", (.reference none false (.slice (ty "Shared"))))], none⟩,
    .fn ⟨[], "c_take_slice_shared_sort", ⟨[], false⟩, false, false, false, false, false, none, [(.ident "s", (.reference none true (.slice (ty "Shared"))))], none⟩,
    .fn ⟨[], "c_take_slice_r", ⟨[], false⟩, false, false, false, false, false, none, [(.ident "s", (.reference none false (.slice (ty "R"))))], none⟩,
    .fn ⟨[], "c_take_slice_r_sort", ⟨[], false⟩, false, false, false, false, false, none, [(.ident "s", (.reference none true (.slice (ty "R"))))], none⟩,
    .fn ⟨[], "c_take_rust_string", ⟨[], false⟩, false, false, false, false, false, none, [(.ident "s", (ty "String"))], none⟩,
    .fn ⟨[], "c_take_unique_ptr_string", ⟨[], false⟩, false, false, false, false, false, none, [(.ident "s", (ty "UniquePtr" (.angle [.type (ty "CxxString")])))], none⟩,
    .fn ⟨[], "c_take_unique_ptr_vector_u8", ⟨[], false⟩, false, false, false, false, false, none, [(.ident "v", (ty "UniquePtr" (.angle [.type (ty "CxxVector" (.angle [.type (ty "u8")]))])))], none⟩,
    .fn ⟨[], "c_take_unique_ptr_vector_f64", ⟨[], false⟩, false, false, false, false, false, none, [(.ident "v", (ty "UniquePtr" (.angle [.type (ty "CxxVector" (.angle [.type (ty "f64")]))])))], none⟩,
    .fn ⟨[], "c_take_unique_ptr_vector_string", ⟨[], false⟩, false, false, false, false, false, none, [(.ident "v", (ty "UniquePtr" (.angle [.type (ty "CxxVector" (.angle [.type (ty "CxxString")]))])))], none⟩,
    .fn ⟨[], "c_take_unique_ptr_vector_shared", ⟨[], false⟩, false, false, false, false, false, none, [(.ident "v", (ty "UniquePtr" (.angle [.type (ty "CxxVector" (.angle [.type (ty "Shared")]))])))], none⟩,
    .fn ⟨[], "c_take_ref_vector", ⟨[], false⟩, false, false, false, false, false, none, [(.ident "v", (.reference none false (ty "CxxVector" (.angle [.type (ty "u8")]))))], none⟩,
    .fn ⟨[], "c_take_rust_vec", ⟨[], false⟩, false, false, false, false, false, none, [(.ident "v", (ty "Vec" (.angle [.type (ty "u8")])))], none⟩,
    .fn ⟨[], "c_take_rust_vec_shared", ⟨[], false⟩, false, false, false, false, false, none, [(.ident "v", (ty "Vec" (.angle [.type (ty "Shared")])))], none⟩,
    .fn ⟨[], "c_take_rust_vec_string", ⟨[], false⟩, false, false, false, false, false, none, [(.ident "v", (ty "Vec" (.angle [.type (ty "String")])))], none⟩,
    .fn ⟨[], "c_take_rust_vec_index", ⟨[], false⟩, false, false, false, false, false, none, [(.ident "v", (ty "Vec" (.angle [.type (ty "u8")])))], none⟩,
    .fn ⟨[], "c_take_rust_vec_shared_index", ⟨[], false⟩, false, false, false, false, false, none, [(.ident "v", (ty "Vec" (.angle [.type (ty "Shared")])))], none⟩,
    .fn ⟨[], "c_take_rust_vec_shared_push", ⟨[], false⟩, false, false, false, false, false, none, [(.ident "v", (ty "Vec" (.angle [.type (ty "Shared")])))], none⟩,
    .fn ⟨[], "c_take_rust_vec_shared_truncate", ⟨[], false⟩, false, false, false, false, false, none, [(.ident "v", (ty "Vec" (.angle [.type (ty "Shared")])))], none⟩,
    .fn ⟨[], "c_take_rust_vec_shared_clear", ⟨[], false⟩, false, false, false, false, false, none, [(.ident "v", (ty "Vec" (.angle [.type (ty "Shared")])))], none⟩,
    .fn ⟨[], "c_take_rust_vec_shared_forward_iterator", ⟨[], false⟩, false, false, false, false, false, none, [(.ident "v", (ty "Vec" (.angle [.type (ty "Shared")])))], none⟩,
    .fn ⟨[], "c_take_rust_vec_shared_sort", ⟨[], false⟩, false, false, false, false, false, none, [(.ident "v", (ty "Vec" (.angle [.type (ty "Shared")])))], none⟩,
    .fn ⟨[], "c_take_ref_rust_vec", ⟨[], false⟩, false, false, false, false, false, none, [(.ident "v", (.reference none false (ty "Vec" (.angle [.type (ty "u8")]))))], none⟩,
    .fn ⟨[], "c_take_ref_rust_vec_string", ⟨[], false⟩, false, false, false, false, false, none, [(.ident "v", (.reference none false (ty "Vec" (.angle [.type (ty "String")]))))], none⟩,
    .fn ⟨[], "c_take_ref_rust_vec_index", ⟨[], false⟩, false, false, false, false, false, none, [(.ident "v", (.reference none false (ty "Vec" (.angle [.type (ty "u8")]))))], none⟩,
    .fn ⟨[], "c_take_ref_rust_vec_copy", ⟨[], false⟩, false, false, false, false, false, none, [(.ident "v", (.reference none false (ty "Vec" (.angle [.type (ty "u8")]))))], none⟩,
    .fn ⟨[], "c_take_ref_shared_string", ⟨[], false⟩, false, false, false, false, false, none, [(.ident "s", (.reference none false (ty "SharedString")))], (some (.reference none false (ty "SharedString")))⟩,
    .fn ⟨[], "c_take_callback", ⟨[], false⟩, false, false, false, false, false, none, [(.ident "callback", (.bareFn false false none [(none, (ty "String"))] false (some (ty "usize"))))], none⟩,
    .fn ⟨[], "c_take_callback_ref", ⟨[], false⟩, false, false, false, false, false, none, [(.ident "callback", (.bareFn false false none [(none, (.reference none false (ty "String")))] false none))], none⟩,
    .fn ⟨[⟨false, ["cxx_name"], .nameValue (.str "c_take_callback_ref")⟩], "c_take_callback_ref_lifetime", ⟨[.lifetime "a" false], false⟩, false, false, false, false, false, none, [(.ident "callback", (.bareFn false false none [(none, (.reference (some "a") false (ty "String")))] false none))], none⟩,
    .fn ⟨[], "c_take_callback_mut", ⟨[], false⟩, false, false, false, false, false, none, [(.ident "callback", (.bareFn false false none [(none, (.reference none true (ty "String")))] false none))], none⟩,
    .fn ⟨[], "c_take_enum", ⟨[], false⟩, false, false, false, false, false, none, [(.ident "e", (ty "Enum"))], none⟩,
    .fn ⟨[], "c_take_ns_enum", ⟨[], false⟩, false, false, false, false, false, none, [(.ident "e", (ty "AEnum"))], none⟩,
    .fn ⟨[], "c_take_nested_ns_enum", ⟨[], false⟩, false, false, false, false, false, none, [(.ident "e", (ty "ABEnum"))], none⟩,
    .fn ⟨[], "c_take_ns_shared", ⟨[], false⟩, false, false, false, false, false, none, [(.ident "shared", (ty "AShared"))], none⟩,
    .fn ⟨[], "c_take_nested_ns_shared", ⟨[], false⟩, false, false, false, false, false, none, [(.ident "shared", (ty "ABShared"))], none⟩,
    .fn ⟨[], "c_take_rust_vec_ns_shared", ⟨[], false⟩, false, false, false, false, false, none, [(.ident "v", (ty "Vec" (.angle [.type (ty "AShared")])))], none⟩,
    .fn ⟨[], "c_take_rust_vec_nested_ns_shared", ⟨[], false⟩, false, false, false, false, false, none, [(.ident "v", (ty "Vec" (.angle [.type (ty "ABShared")])))], none⟩,
    .fn ⟨[], "c_take_const_ptr", ⟨[], false⟩, false, false, false, false, true, none, [(.ident "c", (.ptr false (ty "C")))], (some (ty "usize"))⟩,
    .fn ⟨[], "c_take_mut_ptr", ⟨[], false⟩, false, false, false, false, true, none, [(.ident "c", (.ptr true (ty "C")))], (some (ty "usize"))⟩,
    .fn ⟨[], "c_try_return_void", ⟨[], false⟩, false, false, false, false, false, none, [], (some (ty "Result" (.angle [.type (.tuple [])])))⟩,
    .fn ⟨[], "c_try_return_primitive", ⟨[], false⟩, false, false, false, false, false, none, [], (some (ty "Result" (.angle [.type (ty "usize")])))⟩,
    .fn ⟨[], "c_fail_return_primitive", ⟨[], false⟩, false, false, false, false, false, none, [], (some (ty "Result" (.angle [.type (ty "usize")])))⟩,
    .fn ⟨[], "c_try_return_box", ⟨[], false⟩, false, false, false, false, false, none, [], (some (ty "Result" (.angle [.type (ty "Box" (.angle [.type (ty "R")]))])))⟩,
    .fn ⟨[], "c_try_return_ref", ⟨[], false⟩, false, false, false, false, false, none, [(.ident "s", (.reference none false (ty "String")))], (some (ty "Result" (.angle [.type (.reference none false (ty "String"))])))⟩,
    .fn ⟨[], "c_try_return_str", ⟨[], false⟩, false, false, false, false, false, none, [(.ident "s", (.reference none false (ty "str")))], (some (ty "Result" (.angle [.type (.reference none false (ty "str"))])))⟩,
    .fn ⟨[], "c_try_return_sliceu8", ⟨[], false⟩, false, false, false, false, false, none, [(.ident "s", (.reference none false (.slice (ty "u8"))))], (some (ty "Result" (.angle [.type (.reference none false (.slice (ty "u8")))])))⟩,
    .fn ⟨[], "c_try_return_mutsliceu8", ⟨[], false⟩, false, false, false, false, false, none, [(.ident "s", (.reference none true (.slice (ty "u8"))))], (some (ty "Result" (.angle [.type (.reference none true (.slice (ty "u8")))])))⟩,
    .fn ⟨[], "c_try_return_rust_string", ⟨[], false⟩, false, false, false, false, false, none, [], (some (ty "Result" (.angle [.type (ty "String")])))⟩,
    .fn ⟨[], "c_try_return_unique_ptr_string", ⟨[], false⟩, false, false, false, false, false, none, [], (some (ty "Result" (.angle [.type (ty "UniquePtr" (.angle [.type (ty "CxxString")]))])))⟩,
    .fn ⟨[], "c_try_return_rust_vec", ⟨[], false⟩, false, false, false, false, false, none, [], (some (ty "Result" (.angle [.type (ty "Vec" (.angle [.type (ty "u8")]))])))⟩,
    .fn ⟨[], "c_try_return_rust_vec_string", ⟨[], false⟩, false, false, false, false, false, none, [], (some (ty "Result" (.angle [.type (ty "Vec" (.angle [.type (ty "String")]))])))⟩,
    .fn ⟨[], "c_try_return_ref_rust_vec", ⟨[], false⟩, false, false, false, false, false, none, [(.ident "c", (.reference none false (ty "C")))], (some (ty "Result" (.angle [.type (.reference none false (ty "Vec" (.angle [.type (ty "u8")])))])))⟩,
    .fn ⟨[], "get", ⟨[], false⟩, false, false, false, false, false, (some (.typed (.reference none false (ty "C")))), [], (some (ty "usize"))⟩,
    .fn ⟨[], "set", ⟨[], false⟩, false, false, false, false, false, (some (.typed (ty "Pin" (.angle [.type (.reference none true (ty "C"))])))), [(.ident "n", (ty "usize"))], (some (ty "usize"))⟩,
    .fn ⟨[], "get2", ⟨[], false⟩, false, false, false, false, false, (some (.ref none false)), [], (some (ty "usize"))⟩,
    .fn ⟨[], "getRef", ⟨[], false⟩, false, false, false, false, false, (some (.typed (.reference none false (ty "C")))), [], (some (.reference none false (ty "usize")))⟩,
    .fn ⟨[], "getMut", ⟨[], false⟩, false, false, false, false, false, (some (.typed (ty "Pin" (.angle [.type (.reference none true (ty "C"))])))), [], (some (.reference none true (ty "usize")))⟩,
    .fn ⟨[], "set_succeed", ⟨[], false⟩, false, false, false, false, false, (some (.typed (ty "Pin" (.angle [.type (.reference none true (ty "C"))])))), [(.ident "n", (ty "usize"))], (some (ty "Result" (.angle [.type (ty "usize")])))⟩,
    .fn ⟨[], "get_fail", ⟨[], false⟩, false, false, false, false, false, (some (.typed (ty "Pin" (.angle [.type (.reference none true (ty "C"))])))), [], (some (ty "Result" (.angle [.type (ty "usize")])))⟩,
    .fn ⟨[], "c_method_on_shared", ⟨[], false⟩, false, false, false, false, false, (some (.typed (.reference none false (ty "Shared")))), [], (some (ty "usize"))⟩,
    .fn ⟨[], "c_method_ref_on_shared", ⟨[], false⟩, false, false, false, false, false, (some (.typed (.reference none false (ty "Shared")))), [], (some (.reference none false (ty "usize")))⟩,
    .fn ⟨[], "c_method_mut_on_shared", ⟨[], false⟩, false, false, false, false, false, (some (.typed (.reference none true (ty "Shared")))), [], (some (.reference none true (ty "usize")))⟩,
    .fn ⟨[], "c_set_array", ⟨[], false⟩, false, false, false, false, false, (some (.typed (.reference none true (ty "Array")))), [(.ident "value", (ty "i32"))], none⟩,
    .fn ⟨[], "c_get_use_count", ⟨[], false⟩, false, false, false, false, false, none, [(.ident "weak", (.reference none false (ty "WeakPtr" (.angle [.type (ty "C")]))))], (some (ty "usize"))⟩,
    .fn ⟨[⟨false, ["rust_name"], .nameValue (.str "i32_overloaded_method")⟩], "cOverloadedMethod", ⟨[], false⟩, false, false, false, false, false, (some (.ref none false)), [(.ident "x", (ty "i32"))], (some (ty "String"))⟩,
    .fn ⟨[⟨false, ["rust_name"], .nameValue (.str "str_overloaded_method")⟩], "cOverloadedMethod", ⟨[], false⟩, false, false, false, false, false, (some (.ref none false)), [(.ident "x", (.reference none false (ty "str")))], (some (ty "String"))⟩,
    .fn ⟨[⟨false, ["rust_name"], .nameValue (.str "i32_overloaded_function")⟩], "cOverloadedFunction", ⟨[], false⟩, false, false, false, false, false, none, [(.ident "x", (ty "i32"))], (some (ty "String"))⟩,
    .fn ⟨[⟨false, ["rust_name"], .nameValue (.str "str_overloaded_function")⟩], "cOverloadedFunction", ⟨[], false⟩, false, false, false, false, false, none, [(.ident "x", (.reference none false (ty "str")))], (some (ty "String"))⟩,
    .fn ⟨[⟨false, ["namespace"], .nameValue (.str "other")⟩], "ns_c_take_ns_shared", ⟨[], false⟩, false, false, false, false, false, none, [(.ident "shared", (ty "AShared"))], none⟩]⟩,
  .foreignMod ⟨[], false, some "C++", [
    .include (some "tests/ffi/module.rs.h"),
    .type ⟨[], "COwnedEnum", ⟨[], false⟩⟩,
    .alias ⟨[], "Job", ⟨[], false⟩⟩]⟩,
  .foreignMod ⟨[], false, some "Rust", [
    .type ⟨[⟨false, ["derive"], .list [.ident "ExternType"]⟩], "Reference", ⟨[.lifetime "a" false], false⟩⟩]⟩,
  .foreignMod ⟨[], true, some "C++", [
    .type ⟨[], "Borrow", ⟨[.lifetime "a" false], false⟩⟩,
    .fn ⟨[], "c_return_borrow", ⟨[.lifetime "a" false], false⟩, false, false, false, false, false, none, [(.ident "s", (.reference (some "a") false (ty "CxxString")))], (some (ty "UniquePtr" (.angle [.type (ty "Borrow" (.angle [.lifetime "a"]))])))⟩,
    .fn ⟨[⟨false, ["rust_name"], .nameValue (.str "c_return_borrow_elided")⟩], "c_return_borrow", ⟨[], false⟩, false, false, false, false, false, none, [(.ident "s", (.reference none false (ty "CxxString")))], (some (ty "UniquePtr" (.angle [.type (ty "Borrow")])))⟩,
    .fn ⟨[], "const_member", ⟨[], false⟩, false, false, false, false, false, (some (.typed (.reference none false (ty "Borrow")))), [], none⟩,
    .fn ⟨[], "nonconst_member", ⟨[], false⟩, false, false, false, false, false, (some (.typed (ty "Pin" (.angle [.type (.reference none true (ty "Borrow"))])))), [], none⟩]⟩,
  .enum ⟨[⟨false, ["repr"], .list [.ident "u32"]⟩, ⟨false, ["derive"], .list [.ident "Hash"]⟩], "COwnedEnum", ⟨[], false⟩, [⟨[⟨false, ["cxx_name"], .nameValue (.str "CVAL1")⟩], "CVal1", ⟨true, none⟩⟩, ⟨[⟨false, ["cxx_name"], .nameValue (.str "CVAL2")⟩], "CVal2", ⟨true, none⟩⟩]⟩,
  .foreignMod ⟨[], false, some "C++", [
    .alias ⟨[], "Buffer", ⟨[], false⟩⟩]⟩,
  .foreignMod ⟨[], false, some "Rust", [
    .type ⟨[], "R", ⟨[], false⟩⟩,
    .fn ⟨[], "r_return_primitive", ⟨[], false⟩, false, false, false, false, false, none, [], (some (ty "usize"))⟩,
    .fn ⟨[], "r_return_shared", ⟨[], false⟩, false, false, false, false, false, none, [], (some (ty "Shared"))⟩,
    .fn ⟨[], "r_return_box", ⟨[], false⟩, false, false, false, false, false, none, [], (some (ty "Box" (.angle [.type (ty "R")])))⟩,
    .fn ⟨[], "r_return_unique_ptr", ⟨[], false⟩, false, false, false, false, false, none, [], (some (ty "UniquePtr" (.angle [.type (ty "C")])))⟩,
    .fn ⟨[], "r_return_shared_ptr", ⟨[], false⟩, false, false, false, false, false, none, [], (some (ty "SharedPtr" (.angle [.type (ty "C")])))⟩,
    .fn ⟨[], "r_return_ref", ⟨[], false⟩, false, false, false, false, false, none, [(.ident "shared", (.reference none false (ty "Shared")))], (some (.reference none false (ty "usize")))⟩,
    .fn ⟨[], "r_return_mut", ⟨[], false⟩, false, false, false, false, false, none, [(.ident "shared", (.reference none true (ty "Shared")))], (some (.reference none true (ty "usize")))⟩,
    .fn ⟨[], "r_return_str", ⟨[], false⟩, false, false, false, false, false, none, [(.ident "shared", (.reference none false (ty "Shared")))], (some (.reference none false (ty "str")))⟩,
    .fn ⟨[], "r_return_str_via_out_param", ⟨[.lifetime "a" false], false⟩, false, false, false, false, true, none, [(.ident "shared", (.reference (some "a") false (ty "Shared"))), (.ident "out_param", (.reference none true (.reference (some "a") false (ty "str"))))], none⟩,
    .fn ⟨[], "r_return_sliceu8", ⟨[], false⟩, false, false, false, false, false, none, [(.ident "shared", (.reference none false (ty "Shared")))], (some (.reference none false (.slice (ty "u8"))))⟩,
    .fn ⟨[], "r_return_mutsliceu8", ⟨[], false⟩, false, false, false, false, false, none, [(.ident "slice", (.reference none true (.slice (ty "u8"))))], (some (.reference none true (.slice (ty "u8"))))⟩,
    .fn ⟨[], "r_return_rust_string", ⟨[], false⟩, false, false, false, false, false, none, [], (some (ty "String"))⟩,
    .fn ⟨[], "r_return_unique_ptr_string", ⟨[], false⟩, false, false, false, false, false, none, [], (some (ty "UniquePtr" (.angle [.type (ty "CxxString")])))⟩,
    .fn ⟨[], "r_return_rust_vec", ⟨[], false⟩, false, false, false, false, false, none, [], (some (ty "Vec" (.angle [.type (ty "u8")])))⟩,
    .fn ⟨[], "r_return_rust_vec_string", ⟨[], false⟩, false, false, false, false, false, none, [], (some (ty "Vec" (.angle [.type (ty "String")])))⟩,
    .fn ⟨[], "r_return_rust_vec_extern_struct", ⟨[], false⟩, false, false, false, false, false, none, [], (some (ty "Vec" (.angle [.type (ty "Job")])))⟩,
    .fn ⟨[], "r_return_ref_rust_vec", ⟨[], false⟩, false, false, false, false, false, none, [(.ident "shared", (.reference none false (ty "Shared")))], (some (.reference none false (ty "Vec" (.angle [.type (ty "u8")]))))⟩,
    .fn ⟨[], "r_return_mut_rust_vec", ⟨[], false⟩, false, false, false, false, false, none, [(.ident "shared", (.reference none true (ty "Shared")))], (some (.reference none true (ty "Vec" (.angle [.type (ty "u8")]))))⟩,
    .fn ⟨[], "r_return_identity", ⟨[], false⟩, false, false, false, false, false, none, [(.wild, (ty "usize"))], (some (ty "usize"))⟩,
    .fn ⟨[], "r_return_sum", ⟨[], false⟩, false, false, false, false, false, none, [(.wild, (ty "usize")), (.wild, (ty "usize"))], (some (ty "usize"))⟩,
    .fn ⟨[], "r_return_enum", ⟨[], false⟩, false, false, false, false, false, none, [(.ident "n", (ty "u32"))], (some (ty "Enum"))⟩,
    .fn ⟨[], "r_take_primitive", ⟨[], false⟩, false, false, false, false, false, none, [(.ident "n", (ty "usize"))], none⟩,
    .fn ⟨[], "r_take_shared", ⟨[], false⟩, false, false, false, false, false, none, [(.ident "shared", (ty "Shared"))], none⟩,
    .fn ⟨[], "r_take_box", ⟨[], false⟩, false, false, false, false, false, none, [(.ident "r", (ty "Box" (.angle [.type (ty "R")])))], none⟩,
    .fn ⟨[], "r_take_unique_ptr", ⟨[], false⟩, false, false, false, false, false, none, [(.ident "c", (ty "UniquePtr" (.angle [.type (ty "C")])))], none⟩,
    .fn ⟨[], "r_take_shared_ptr", ⟨[], false⟩, false, false, false, false, false, none, [(.ident "c", (ty "SharedPtr" (.angle [.type (ty "C")])))], none⟩,
    .fn ⟨[], "r_take_ref_r", ⟨[], false⟩, false, false, false, false, false, none, [(.ident "r", (.reference none false (ty "R")))], none⟩,
    .fn ⟨[], "r_take_ref_c", ⟨[], false⟩, false, false, false, false, false, none, [(.ident "c", (.reference none false (ty "C")))], none⟩,
    .fn ⟨[], "r_take_str", ⟨[], false⟩, false, false, false, false, false, none, [(.ident "s", (.reference none false (ty "str")))], none⟩,
    .fn ⟨[], "r_take_slice_char", ⟨[], false⟩, false, false, false, false, false, none, [(.ident "s", (.reference none false (.slice (ty "c_char"))))], none⟩,
    .fn ⟨[], "r_take_rust_string", ⟨[], false⟩, false, false, false, false, false, none, [(.ident "s", (ty "String"))], none⟩,
    .fn ⟨[], "r_take_unique_ptr_string", ⟨[], false⟩, false, false, false, false, false, none, [(.ident "s", (ty "UniquePtr" (.angle [.type (ty "CxxString")])))], none⟩,
    .fn ⟨[], "r_take_ref_vector", ⟨[], false⟩, false, false, false, false, false, none, [(.ident "v", (.reference none false (ty "CxxVector" (.angle [.type (ty "u8")]))))], none⟩,
    .fn ⟨[], "r_take_ref_empty_vector", ⟨[], false⟩, false, false, false, false, false, none, [(.ident "v", (.reference none false (ty "CxxVector" (.angle [.type (ty "u64")]))))], none⟩,
    .fn ⟨[], "r_take_rust_vec", ⟨[], false⟩, false, false, false, false, false, none, [(.ident "v", (ty "Vec" (.angle [.type (ty "u8")])))], none⟩,
    .fn ⟨[], "r_take_rust_vec_string", ⟨[], false⟩, false, false, false, false, false, none, [(.ident "v", (ty "Vec" (.angle [.type (ty "String")])))], none⟩,
    .fn ⟨[], "r_take_ref_rust_vec", ⟨[], false⟩, false, false, false, false, false, none, [(.ident "v", (.reference none false (ty "Vec" (.angle [.type (ty "u8")]))))], none⟩,
    .fn ⟨[], "r_take_ref_rust_vec_string", ⟨[], false⟩, false, false, false, false, false, none, [(.ident "v", (.reference none false (ty "Vec" (.angle [.type (ty "String")]))))], none⟩,
    .fn ⟨[], "r_take_enum", ⟨[], false⟩, false, false, false, false, false, none, [(.ident "e", (ty "Enum"))], none⟩,
    .fn ⟨[], "r_try_return_void", ⟨[], false⟩, false, false, false, false, false, none, [], (some (ty "Result" (.angle [.type (.tuple [])])))⟩,
    .fn ⟨[], "r_try_return_primitive", ⟨[], false⟩, false, false, false, false, false, none, [], (some (ty "Result" (.angle [.type (ty "usize")])))⟩,
    .fn ⟨[], "r_try_return_box", ⟨[], false⟩, false, false, false, false, false, none, [], (some (ty "Result" (.angle [.type (ty "Box" (.angle [.type (ty "R")]))])))⟩,
    .fn ⟨[], "r_fail_return_primitive", ⟨[], false⟩, false, false, false, false, false, none, [], (some (ty "Result" (.angle [.type (ty "usize")])))⟩,
    .fn ⟨[], "r_try_return_sliceu8", ⟨[], false⟩, false, false, false, false, false, none, [(.ident "s", (.reference none false (.slice (ty "u8"))))], (some (ty "Result" (.angle [.type (.reference none false (.slice (ty "u8")))])))⟩,
    .fn ⟨[], "r_try_return_mutsliceu8", ⟨[], false⟩, false, false, false, false, false, none, [(.ident "s", (.reference none true (.slice (ty "u8"))))], (some (ty "Result" (.angle [.type (.reference none true (.slice (ty "u8")))])))⟩,
    .fn ⟨[], "get", ⟨[], false⟩, false, false, false, false, false, (some (.typed (.reference none false (ty "R")))), [], (some (ty "usize"))⟩,
    .fn ⟨[], "set", ⟨[], false⟩, false, false, false, false, false, (some (.typed (.reference none true (ty "R")))), [(.ident "n", (ty "usize"))], (some (ty "usize"))⟩,
    .fn ⟨[], "r_method_on_shared", ⟨[], false⟩, false, false, false, false, false, (some (.typed (.reference none false (ty "Shared")))), [], (some (ty "String"))⟩,
    .fn ⟨[], "r_get_array_sum", ⟨[], false⟩, false, false, false, false, false, (some (.typed (.reference none false (ty "Array")))), [], (some (ty "i32"))⟩,
    .fn ⟨[⟨false, ["cxx_name"], .nameValue (.str "rAliasedFunction")⟩], "r_aliased_function", ⟨[], false⟩, false, false, false, false, false, none, [(.ident "x", (ty "i32"))], (some (ty "String"))⟩]⟩,
  .struct ⟨[], "Dag0", ⟨[], false⟩, .named [⟨[], "i", (ty "i32")⟩]⟩,
  .struct ⟨[], "Dag1", ⟨[], false⟩, .named [⟨[], "dag2", (ty "Dag2")⟩, ⟨[], "vec", (ty "Vec" (.angle [.type (ty "Dag3")]))⟩]⟩,
  .struct ⟨[], "Dag2", ⟨[], false⟩, .named [⟨[], "dag4", (ty "Dag4")⟩]⟩,
  .struct ⟨[], "Dag3", ⟨[], false⟩, .named [⟨[], "dag1", (ty "Dag1")⟩]⟩,
  .struct ⟨[], "Dag4", ⟨[], false⟩, .named [⟨[], "dag0", (ty "Dag0")⟩]⟩,
  .impl ⟨[], ⟨[], false⟩, false, true, false, (ty "Box" (.angle [.type (ty "Shared")]))⟩,
  .impl ⟨[], ⟨[], false⟩, false, true, false, (ty "CxxVector" (.angle [.type (ty "SharedString")]))⟩]

/-- tests/ffi/module.rs, `mod ffi` -/
private def module1 : List ItemSrc := [
  .struct ⟨[], "Job", ⟨[], false⟩, .named [⟨[], "raw", (ty "u32")⟩]⟩,
  .foreignMod ⟨[], true, some "C++", [
    .include (some "tests/ffi/tests.h"),
    .alias ⟨[], "C", ⟨[], false⟩⟩,
    .fn ⟨[], "c_take_unique_ptr", ⟨[], false⟩, false, false, false, false, false, none, [(.ident "c", (ty "UniquePtr" (.angle [.type (ty "C")])))], none⟩]⟩,
  .impl ⟨[], ⟨[], false⟩, false, true, false, (ty "Vec" (.angle [.type (ty "Job")]))⟩]

/-- tests/ffi/module.rs, `mod ffi2` -/
private def module2 : List ItemSrc := [
  .foreignMod ⟨[], true, some "C++", [
    .include (some "tests/ffi/tests.h"),
    .alias ⟨[], "D", ⟨[], false⟩⟩,
    .alias ⟨[], "E", ⟨[], false⟩⟩,
    .alias ⟨[⟨false, ["namespace"], .nameValue (.str "F")⟩], "F", ⟨[], false⟩⟩,
    .alias ⟨[⟨false, ["namespace"], .nameValue (.str "G")⟩], "G", ⟨[], false⟩⟩,
    .type ⟨[⟨false, ["namespace"], .nameValue (.str "H")⟩], "H", ⟨[], false⟩⟩,
    .fn ⟨[], "c_take_trivial_ptr", ⟨[], false⟩, false, false, false, false, false, none, [(.ident "d", (ty "UniquePtr" (.angle [.type (ty "D")])))], none⟩,
    .fn ⟨[], "c_take_trivial_ref", ⟨[], false⟩, false, false, false, false, false, none, [(.ident "d", (.reference none false (ty "D")))], none⟩,
    .fn ⟨[], "c_take_trivial_mut_ref", ⟨[], false⟩, false, false, false, false, false, none, [(.ident "d", (.reference none true (ty "D")))], none⟩,
    .fn ⟨[], "c_take_trivial_pin_ref", ⟨[], false⟩, false, false, false, false, false, none, [(.ident "d", (ty "Pin" (.angle [.type (.reference none false (ty "D"))])))], none⟩,
    .fn ⟨[], "c_take_trivial_pin_mut_ref", ⟨[], false⟩, false, false, false, false, false, none, [(.ident "d", (ty "Pin" (.angle [.type (.reference none true (ty "D"))])))], none⟩,
    .fn ⟨[], "c_take_trivial_ref_method", ⟨[], false⟩, false, false, false, false, false, (some (.typed (.reference none false (ty "D")))), [], none⟩,
    .fn ⟨[], "c_take_trivial_mut_ref_method", ⟨[], false⟩, false, false, false, false, false, (some (.typed (.reference none true (ty "D")))), [], none⟩,
    .fn ⟨[], "c_take_trivial", ⟨[], false⟩, false, false, false, false, false, none, [(.ident "d", (ty "D"))], none⟩,
    .fn ⟨[], "c_take_trivial_ns_ptr", ⟨[], false⟩, false, false, false, false, false, none, [(.ident "g", (ty "UniquePtr" (.angle [.type (ty "G")])))], none⟩,
    .fn ⟨[], "c_take_trivial_ns_ref", ⟨[], false⟩, false, false, false, false, false, none, [(.ident "g", (.reference none false (ty "G")))], none⟩,
    .fn ⟨[], "c_take_trivial_ns", ⟨[], false⟩, false, false, false, false, false, none, [(.ident "g", (ty "G"))], none⟩,
    .fn ⟨[], "c_take_opaque_ptr", ⟨[], false⟩, false, false, false, false, false, none, [(.ident "e", (ty "UniquePtr" (.angle [.type (ty "E")])))], none⟩,
    .fn ⟨[], "c_take_opaque_ref", ⟨[], false⟩, false, false, false, false, false, none, [(.ident "e", (.reference none false (ty "E")))], none⟩,
    .fn ⟨[], "c_take_opaque_ref_method", ⟨[], false⟩, false, false, false, false, false, (some (.typed (.reference none false (ty "E")))), [], none⟩,
    .fn ⟨[], "c_take_opaque_mut_ref_method", ⟨[], false⟩, false, false, false, false, false, (some (.typed (ty "Pin" (.angle [.type (.reference none true (ty "E"))])))), [], none⟩,
    .fn ⟨[], "c_take_opaque_ns_ptr", ⟨[], false⟩, false, false, false, false, false, none, [(.ident "e", (ty "UniquePtr" (.angle [.type (ty "F")])))], none⟩,
    .fn ⟨[], "c_take_opaque_ns_ref", ⟨[], false⟩, false, false, false, false, false, none, [(.ident "e", (.reference none false (ty "F")))], none⟩,
    .fn ⟨[], "c_return_trivial_ptr", ⟨[], false⟩, false, false, false, false, false, none, [], (some (ty "UniquePtr" (.angle [.type (ty "D")])))⟩,
    .fn ⟨[], "c_return_trivial", ⟨[], false⟩, false, false, false, false, false, none, [], (some (ty "D"))⟩,
    .fn ⟨[], "c_return_trivial_ns_ptr", ⟨[], false⟩, false, false, false, false, false, none, [], (some (ty "UniquePtr" (.angle [.type (ty "G")])))⟩,
    .fn ⟨[], "c_return_trivial_ns", ⟨[], false⟩, false, false, false, false, false, none, [], (some (ty "G"))⟩,
    .fn ⟨[], "c_return_opaque_ptr", ⟨[], false⟩, false, false, false, false, false, none, [], (some (ty "UniquePtr" (.angle [.type (ty "E")])))⟩,
    .fn ⟨[], "c_return_opaque_mut_pin", ⟨[], false⟩, false, false, false, false, false, none, [(.ident "e", (ty "Pin" (.angle [.type (.reference none true (ty "E"))])))], (some (ty "Pin" (.angle [.type (.reference none true (ty "E"))])))⟩,
    .fn ⟨[], "c_return_ns_opaque_ptr", ⟨[], false⟩, false, false, false, false, false, none, [], (some (ty "UniquePtr" (.angle [.type (ty "F")])))⟩,
    .fn ⟨[], "c_return_ns_unique_ptr", ⟨[], false⟩, false, false, false, false, false, none, [], (some (ty "UniquePtr" (.angle [.type (ty "H")])))⟩,
    .fn ⟨[], "c_take_ref_ns_c", ⟨[], false⟩, false, false, false, false, false, none, [(.ident "h", (.reference none false (ty "H")))], none⟩,
    .fn ⟨[⟨false, ["namespace"], .nameValue (.str "other")⟩], "ns_c_take_trivial", ⟨[], false⟩, false, false, false, false, false, none, [(.ident "d", (ty "D"))], none⟩,
    .fn ⟨[⟨false, ["namespace"], .nameValue (.str "other")⟩], "ns_c_return_trivial", ⟨[], false⟩, false, false, false, false, false, none, [], (some (ty "D"))⟩,
    .type ⟨[⟨false, ["namespace"], .nameValue (.str "I")⟩], "I", ⟨[], false⟩⟩,
    .fn ⟨[], "get", ⟨[], false⟩, false, false, false, false, false, (some (.typed (.reference none false (ty "I")))), [], (some (ty "u32"))⟩,
    .fn ⟨[⟨false, ["namespace"], .nameValue (.str "I")⟩], "ns_c_return_unique_ptr_ns", ⟨[], false⟩, false, false, false, false, false, none, [], (some (ty "UniquePtr" (.angle [.type (ty "I")])))⟩]⟩,
  .impl ⟨[], ⟨[], false⟩, false, true, false, (ty "UniquePtr" (.angle [.type (ty "D")]))⟩,
  .impl ⟨[], ⟨[], false⟩, false, true, false, (ty "UniquePtr" (.angle [.type (ty "E")]))⟩,
  .impl ⟨[], ⟨[], false⟩, false, true, false, (ty "UniquePtr" (.angle [.type (ty "F")]))⟩,
  .impl ⟨[], ⟨[], false⟩, false, true, false, (ty "UniquePtr" (.angle [.type (ty "G")]))⟩]

/-- demo/src/main.rs, `mod ffi` -/
private def blob : List ItemSrc := [
  .struct ⟨[], "BlobMetadata", ⟨[], false⟩, .named [⟨[], "size", (ty "usize")⟩, ⟨[], "tags", (ty "Vec" (.angle [.type (ty "String")]))⟩]⟩,
  .foreignMod ⟨[], false, some "Rust", [
    .type ⟨[], "MultiBuf", ⟨[], false⟩⟩,
    .fn ⟨[], "next_chunk", ⟨[], false⟩, false, false, false, false, false, none, [(.ident "buf", (.reference none true (ty "MultiBuf")))], (some (.reference none false (.slice (ty "u8"))))⟩]⟩,
  .foreignMod ⟨[], true, some "C++", [
    .include (some "demo/include/blobstore.h"),
    .type ⟨[], "BlobstoreClient", ⟨[], false⟩⟩,
    .fn ⟨[], "new_blobstore_client", ⟨[], false⟩, false, false, false, false, false, none, [], (some (ty "UniquePtr" (.angle [.type (ty "BlobstoreClient")])))⟩,
    .fn ⟨[], "put", ⟨[], false⟩, false, false, false, false, false, (some (.ref none false)), [(.ident "parts", (.reference none true (ty "MultiBuf")))], (some (ty "u64"))⟩,
    .fn ⟨[], "tag", ⟨[], false⟩, false, false, false, false, false, (some (.ref none false)), [(.ident "blobid", (ty "u64")), (.ident "tag", (.reference none false (ty "str")))], none⟩,
    .fn ⟨[], "metadata", ⟨[], false⟩, false, false, false, false, false, (some (.ref none false)), [(.ident "blobid", (ty "u64"))], (some (ty "BlobMetadata"))⟩]⟩]

/-- The functions of tests/ffi/tests.h, and those of tests/ffi/tests.cc that belong to shared structs. -/
private def header : List String := [
  "::std::size_t (::tests::C::*)() const = &::tests::C::get;",
  "::std::size_t (::tests::C::*)(::std::size_t) = &::tests::C::set;",
  "::std::size_t (::tests::C::*)() const = &::tests::C::get2;",
  "::std::size_t const &(::tests::C::*)() const = &::tests::C::getRef;",
  "::std::size_t &(::tests::C::*)() = &::tests::C::getMut;",
  "::std::size_t (::tests::C::*)(::std::size_t) = &::tests::C::set_succeed;",
  "::std::size_t (::tests::C::*)() = &::tests::C::get_fail;",
  "::std::vector<::std::uint8_t> const &(::tests::C::*)() const = &::tests::C::get_v;",
  "::std::vector<::std::uint8_t> &(::tests::C::*)() = &::tests::C::get_v;",
  "::rust::String (::tests::C::*)(::std::int32_t) const = &::tests::C::cOverloadedMethod;",
  "::rust::String (::tests::C::*)(::rust::Str) const = &::tests::C::cOverloadedMethod;",
  "void (::tests::D::*)() const = &::tests::D::c_take_trivial_ref_method;",
  "void (::tests::D::*)() = &::tests::D::c_take_trivial_mut_ref_method;",
  "void (::tests::E::*)() const = &::tests::E::c_take_opaque_ref_method;",
  "void (::tests::E::*)() = &::tests::E::c_take_opaque_mut_ref_method;",
  "void (::tests::Borrow::*)() const = &::tests::Borrow::const_member;",
  "void (::tests::Borrow::*)() = &::tests::Borrow::nonconst_member;",
  "::std::size_t (*)() = ::tests::c_return_primitive;",
  "::tests::Shared (*)() = ::tests::c_return_shared;",
  "::A::AShared (*)() = ::tests::c_return_ns_shared;",
  "::A::B::ABShared (*)() = ::tests::c_return_nested_ns_shared;",
  "::rust::Box<::tests::R> (*)() = ::tests::c_return_box;",
  "::std::unique_ptr<::tests::C> (*)() = ::tests::c_return_unique_ptr;",
  "::std::shared_ptr<::tests::C> (*)() = ::tests::c_return_shared_ptr;",
  "::std::unique_ptr<::H::H> (*)() = ::tests::c_return_ns_unique_ptr;",
  "::std::size_t const &(*)(::tests::Shared const &) = ::tests::c_return_ref;",
  "::std::size_t const &(*)(::A::AShared const &) = ::tests::c_return_ns_ref;",
  "::std::size_t const &(*)(::A::B::ABShared const &) = ::tests::c_return_nested_ns_ref;",
  "::std::size_t &(*)(::tests::Shared &) = ::tests::c_return_mut;",
  "::rust::Str (*)(::tests::Shared const &) = ::tests::c_return_str;",
  "::rust::Slice<char const> (*)(::tests::Shared const &) = ::tests::c_return_slice_char;",
  "::rust::Slice<::std::uint8_t> (*)(::rust::Slice<::std::uint8_t>) = ::tests::c_return_mutsliceu8;",
  "::rust::String (*)() = ::tests::c_return_rust_string;",
  "::rust::String (*)() = ::tests::c_return_rust_string_lossy;",
  "::std::unique_ptr<::std::string> (*)() = ::tests::c_return_unique_ptr_string;",
  "::std::unique_ptr<::std::vector<::std::uint8_t>> (*)() = ::tests::c_return_unique_ptr_vector_u8;",
  "::std::unique_ptr<::std::vector<double>> (*)() = ::tests::c_return_unique_ptr_vector_f64;",
  "::std::unique_ptr<::std::vector<::std::string>> (*)() = ::tests::c_return_unique_ptr_vector_string;",
  "::std::unique_ptr<::std::vector<::tests::Shared>> (*)() = ::tests::c_return_unique_ptr_vector_shared;",
  "::std::unique_ptr<::std::vector<::tests::C>> (*)() = ::tests::c_return_unique_ptr_vector_opaque;",
  "::std::vector<::std::uint8_t> const &(*)(::tests::C const &) = ::tests::c_return_ref_vector;",
  "::std::vector<::std::uint8_t> &(*)(::tests::C &) = ::tests::c_return_mut_vector;",
  "::rust::Vec<::std::uint8_t> (*)() = ::tests::c_return_rust_vec_u8;",
  "::rust::Vec<::std::uint8_t> const &(*)(::tests::C const &) = ::tests::c_return_ref_rust_vec;",
  "::rust::Vec<::std::uint8_t> &(*)(::tests::C &) = ::tests::c_return_mut_rust_vec;",
  "::rust::Vec<::rust::String> (*)() = ::tests::c_return_rust_vec_string;",
  "::rust::Vec<bool> (*)() = ::tests::c_return_rust_vec_bool;",
  "::std::size_t (*)(::std::size_t) = ::tests::c_return_identity;",
  "::std::size_t (*)(::std::size_t, ::std::size_t) = ::tests::c_return_sum;",
  "::tests::Enum (*)(::std::uint16_t) = ::tests::c_return_enum;",
  "::A::AEnum (*)(::std::uint16_t) = ::tests::c_return_ns_enum;",
  "::A::B::ABEnum (*)(::std::uint16_t) = ::tests::c_return_nested_ns_enum;",
  "::std::unique_ptr<::tests::Borrow> (*)(::std::string const &) = ::tests::c_return_borrow;",
  "::tests::C const *(*)(::std::size_t) = ::tests::c_return_const_ptr;",
  "::tests::C *(*)(::std::size_t) = ::tests::c_return_mut_ptr;",
  "void (*)(::std::size_t) = ::tests::c_take_primitive;",
  "void (*)(::tests::Shared) = ::tests::c_take_shared;",
  "void (*)(::A::AShared) = ::tests::c_take_ns_shared;",
  "void (*)(::A::B::ABShared) = ::tests::c_take_nested_ns_shared;",
  "void (*)(::rust::Box<::tests::R>) = ::tests::c_take_box;",
  "void (*)(::std::unique_ptr<::tests::C>) = ::tests::c_take_unique_ptr;",
  "void (*)(::tests::R const &) = ::tests::c_take_ref_r;",
  "void (*)(::tests::C const &) = ::tests::c_take_ref_c;",
  "void (*)(::H::H const &) = ::tests::c_take_ref_ns_c;",
  "void (*)(::rust::Str) = ::tests::c_take_str;",
  "void (*)(::rust::Slice<char const>) = ::tests::c_take_slice_char;",
  "void (*)(::rust::Slice<::tests::Shared const>) = ::tests::c_take_slice_shared;",
  "void (*)(::rust::Slice<::tests::Shared>) = ::tests::c_take_slice_shared_sort;",
  "void (*)(::rust::Slice<::tests::R const>) = ::tests::c_take_slice_r;",
  "void (*)(::rust::Slice<::tests::R>) = ::tests::c_take_slice_r_sort;",
  "void (*)(::rust::String) = ::tests::c_take_rust_string;",
  "void (*)(::std::unique_ptr<::std::string>) = ::tests::c_take_unique_ptr_string;",
  "void (*)(::std::unique_ptr<::std::vector<::std::uint8_t>>) = ::tests::c_take_unique_ptr_vector_u8;",
  "void (*)(::std::unique_ptr<::std::vector<double>>) = ::tests::c_take_unique_ptr_vector_f64;",
  "void (*)(::std::unique_ptr<::std::vector<::std::string>>) = ::tests::c_take_unique_ptr_vector_string;",
  "void (*)(::std::unique_ptr<::std::vector<::tests::Shared>>) = ::tests::c_take_unique_ptr_vector_shared;",
  "void (*)(::std::vector<::std::uint8_t> const &) = ::tests::c_take_ref_vector;",
  "void (*)(::rust::Vec<::std::uint8_t>) = ::tests::c_take_rust_vec;",
  "void (*)(::rust::Vec<::std::uint8_t>) = ::tests::c_take_rust_vec_index;",
  "void (*)(::rust::Vec<::tests::Shared>) = ::tests::c_take_rust_vec_shared;",
  "void (*)(::rust::Vec<::A::AShared>) = ::tests::c_take_rust_vec_ns_shared;",
  "void (*)(::rust::Vec<::A::B::ABShared>) = ::tests::c_take_rust_vec_nested_ns_shared;",
  "void (*)(::rust::Vec<::rust::String>) = ::tests::c_take_rust_vec_string;",
  "void (*)(::rust::Vec<::tests::Shared>) = ::tests::c_take_rust_vec_shared_index;",
  "void (*)(::rust::Vec<::tests::Shared>) = ::tests::c_take_rust_vec_shared_push;",
  "void (*)(::rust::Vec<::tests::Shared>) = ::tests::c_take_rust_vec_shared_truncate;",
  "void (*)(::rust::Vec<::tests::Shared>) = ::tests::c_take_rust_vec_shared_clear;",
  "void (*)(::rust::Vec<::tests::Shared>) = ::tests::c_take_rust_vec_shared_forward_iterator;",
  "void (*)(::rust::Vec<::tests::Shared>) = ::tests::c_take_rust_vec_shared_sort;",
  "void (*)(::rust::Vec<::std::uint8_t> const &) = ::tests::c_take_ref_rust_vec;",
  "void (*)(::rust::Vec<::rust::String> const &) = ::tests::c_take_ref_rust_vec_string;",
  "void (*)(::rust::Vec<::std::uint8_t> const &) = ::tests::c_take_ref_rust_vec_index;",
  "void (*)(::rust::Vec<::std::uint8_t> const &) = ::tests::c_take_ref_rust_vec_copy;",
  "::tests::SharedString const &(*)(::tests::SharedString const &) = ::tests::c_take_ref_shared_string;",
  "void (*)(::rust::Fn<::std::size_t(::rust::String)>) = ::tests::c_take_callback;",
  "void (*)(::rust::Fn<void(::rust::String const &)>) = ::tests::c_take_callback_ref;",
  "void (*)(::rust::Fn<void(::rust::String &)>) = ::tests::c_take_callback_mut;",
  "void (*)(::tests::Enum) = ::tests::c_take_enum;",
  "void (*)(::A::AEnum) = ::tests::c_take_ns_enum;",
  "void (*)(::A::B::ABEnum) = ::tests::c_take_nested_ns_enum;",
  "::std::size_t (*)(::tests::C const *) = ::tests::c_take_const_ptr;",
  "::std::size_t (*)(::tests::C *) = ::tests::c_take_mut_ptr;",
  "void (*)() = ::tests::c_try_return_void;",
  "::std::size_t (*)() = ::tests::c_try_return_primitive;",
  "::std::size_t (*)() = ::tests::c_fail_return_primitive;",
  "::rust::Box<::tests::R> (*)() = ::tests::c_try_return_box;",
  "::rust::String const &(*)(::rust::String const &) = ::tests::c_try_return_ref;",
  "::rust::Str (*)(::rust::Str) = ::tests::c_try_return_str;",
  "::rust::Slice<::std::uint8_t const> (*)(::rust::Slice<::std::uint8_t const>) = ::tests::c_try_return_sliceu8;",
  "::rust::Slice<::std::uint8_t> (*)(::rust::Slice<::std::uint8_t>) = ::tests::c_try_return_mutsliceu8;",
  "::rust::String (*)() = ::tests::c_try_return_rust_string;",
  "::std::unique_ptr<::std::string> (*)() = ::tests::c_try_return_unique_ptr_string;",
  "::rust::Vec<::std::uint8_t> (*)() = ::tests::c_try_return_rust_vec;",
  "::rust::Vec<::rust::String> (*)() = ::tests::c_try_return_rust_vec_string;",
  "::rust::Vec<::std::uint8_t> const &(*)(::tests::C const &) = ::tests::c_try_return_ref_rust_vec;",
  "::std::size_t (*)(::std::weak_ptr<::tests::C> const &) = ::tests::c_get_use_count;",
  "void (*)(::std::unique_ptr<::tests::D>) = ::tests::c_take_trivial_ptr;",
  "void (*)(::tests::D const &) = ::tests::c_take_trivial_ref;",
  "void (*)(::tests::D &) = ::tests::c_take_trivial_mut_ref;",
  "void (*)(::tests::D const &) = ::tests::c_take_trivial_pin_ref;",
  "void (*)(::tests::D &) = ::tests::c_take_trivial_pin_mut_ref;",
  "void (*)(::tests::D) = ::tests::c_take_trivial;",
  "void (*)(::std::unique_ptr<::G::G>) = ::tests::c_take_trivial_ns_ptr;",
  "void (*)(::G::G const &) = ::tests::c_take_trivial_ns_ref;",
  "void (*)(::G::G) = ::tests::c_take_trivial_ns;",
  "void (*)(::std::unique_ptr<::tests::E>) = ::tests::c_take_opaque_ptr;",
  "void (*)(::std::unique_ptr<::F::F>) = ::tests::c_take_opaque_ns_ptr;",
  "void (*)(::tests::E const &) = ::tests::c_take_opaque_ref;",
  "void (*)(::F::F const &) = ::tests::c_take_opaque_ns_ref;",
  "::std::unique_ptr<::tests::D> (*)() = ::tests::c_return_trivial_ptr;",
  "::tests::D (*)() = ::tests::c_return_trivial;",
  "::std::unique_ptr<::G::G> (*)() = ::tests::c_return_trivial_ns_ptr;",
  "::G::G (*)() = ::tests::c_return_trivial_ns;",
  "::std::unique_ptr<::tests::E> (*)() = ::tests::c_return_opaque_ptr;",
  "::tests::E &(*)(::tests::E &) = ::tests::c_return_opaque_mut_pin;",
  "::std::unique_ptr<::F::F> (*)() = ::tests::c_return_ns_opaque_ptr;",
  "::rust::String (*)(::std::int32_t) = ::tests::cOverloadedFunction;",
  "::rust::String (*)(::rust::Str) = ::tests::cOverloadedFunction;",
  "void (*)(::tests::D) = ::other::ns_c_take_trivial;",
  "::tests::D (*)() = ::other::ns_c_return_trivial;",
  "void (*)(::A::AShared) = ::other::ns_c_take_ns_shared;",
  "::std::uint32_t (::I::I::*)() const = &::I::I::get;",
  "::std::unique_ptr<::I::I> (*)() = ::I::ns_c_return_unique_ptr_ns;",
  "::std::size_t (::tests::Shared::*)() const = &::tests::Shared::c_method_on_shared;",
  "::std::size_t const &(::tests::Shared::*)() const = &::tests::Shared::c_method_ref_on_shared;",
  "::std::size_t &(::tests::Shared::*)() = &::tests::Shared::c_method_mut_on_shared;",
  "void (::tests::Array::*)(::std::int32_t) = &::tests::Array::c_set_array;",
  "void (::tests::Borrow::*)() const = &::tests::Borrow::const_member;",
  "void (::tests::Borrow::*)() = &::tests::Borrow::nonconst_member;"]

/-- The functions of demo/include/blobstore.h. -/
private def blobHeader : List String := [
  "::std::uint64_t (::org::blobstore::BlobstoreClient::*)(::org::blobstore::MultiBuf &) const = &::org::blobstore::BlobstoreClient::put;",
  "void (::org::blobstore::BlobstoreClient::*)(::std::uint64_t, ::rust::Str) const = &::org::blobstore::BlobstoreClient::tag;",
  "::org::blobstore::BlobMetadata (::org::blobstore::BlobstoreClient::*)(::std::uint64_t) const = &::org::blobstore::BlobstoreClient::metadata;",
  "::std::unique_ptr<::org::blobstore::BlobstoreClient> (*)() = ::org::blobstore::new_blobstore_client;"]

private def parsed (ns : Namespace) (items : List ItemSrc) : Option (List Api) :=
  match parseItems readers true false ns items with
  | ([], outs) => some (outs.map (·.api))
  | _ => none

/-- No errors, neither from the macro nor from the generator of C++ code. -/
private def accepted (ns : Namespace) (items : List ItemSrc) : Bool :=
  match parsed ns items with
  | some apis => (typecheck ⟨apis, collect apis, .macro⟩).isEmpty && (typecheck ⟨apis, collect apis, .build⟩).isEmpty
  | none => false

/-- The line of the pointer to a C++ function, without the name of the pointer and without the space that gen/src/write.rs:1309-1315 puts at the end
of the element type of a mutable slice. -/
private def pointer (cx : Abi.Ctx) (f : ExternFn) : Option String := do
  let self ← CxxText.selfOf cx f.sig.receiver
  let params ← Abi.writeTypes cx.types (f.sig.args.map (·.ty))
  let ret ← Abi.writeOpt cx.types f.sig.ret
  some (((String.ofList (CxxText.pointerLine "" f.name self params ret)).replace "$" "").replace " >" ">")

private def pointers (ns : Namespace) (items : List ItemSrc) : List (Option String) :=
  match parsed ns items with
  | some apis =>
    let cx : Abi.Ctx := ⟨collect apis, [], 9⟩
    apis.filterMap fun | .cxxFunction f => some (pointer cx f) | _ => none
  | none => []

/-- The lines that no declaration explains, and the number of all. -/
private def strangers (ns : Namespace) (items : List ItemSrc) (header : List String) : List (Option String) × Nat :=
  let ps := pointers ns items
  (ps.filter fun l => !(header.map some).contains l, ps.length)

#guard accepted ["tests"] lib
#guard accepted ["tests"] module1
#guard accepted ["tests"] module2
#guard accepted ["org", "blobstore"] blob
#guard strangers ["tests"] lib header = ([], 114)
#guard strangers ["tests"] module1 header = ([], 1)
#guard strangers ["tests"] module2 header = ([], 30)
#guard strangers ["org", "blobstore"] blob blobHeader = ([], 4)

/-- tests/cxx_gen.rs, `BRIDGE0` -/
private def bridge0 : List ItemSrc :=
  [.foreignMod ⟨[], true, some "C++", [.fn ⟨[], "do_cpp_thing", ⟨[], false⟩, false, false, false, false, false, none,
    [(.ident "foo", .reference none false (ty "str"))], none⟩]⟩]

/-- The heads of the shims of the C++ functions. -/
private def shims (ns : Namespace) (items : List ItemSrc) : List (Option String) :=
  match parsed ns items with
  | some apis =>
    let cx : Abi.Ctx := ⟨collect apis, [], 9⟩
    apis.filterMap fun | .cxxFunction f => some ((CxxText.cxxLine cx f).map String.ofList) | _ => none
  | none => []

#guard accepted [] bridge0
#guard shims [] bridge0 = [some "void cxxbridge1$do_cpp_thing(::rust::Str foo) noexcept"]

/-! ### The bridges of tests/ffi as one program

It compiles and links, so that no trait may be implemented twice for a type and no function be defined twice (C119), and what the
smart pointers and vectors of one bridge need has to be in another if it is not in the bridge itself (C120).  Types of the
same name are the same in these bridges. -/

private def program : List (List Api) := [lib, module1, module2].filterMap (parsed ["tests"])

private def impls : List (Once.ImplOf × Ident) :=
  program.flatMap fun apis => (Once.pieces (collect apis) apis).map fun x => (x.trait, x.name)

private def functions : List (Option Mangle.Symbol) :=
  program.flatMap fun apis => (Once.pieces (collect apis) apis).flatMap (·.functions)

/-- The instantiations that are used and not there. -/
private def missing : List (Once.ImplOf × Ident) :=
  (program.flatMap fun apis => (collect apis).all.iter.filterMap fun t => (implKey t).map fun k => (Once.implOf k, k.rust)).filter
    fun e => (Atom.fromStr e.2).isNone && !impls.contains e

#guard program.length = 3
#guard impls.eraseDups.length = impls.length
#guard !functions.contains none
#guard functions.eraseDups.length = functions.length
#guard functions.length > 100
#guard missing = []

end Verif.Parse.Ffi

