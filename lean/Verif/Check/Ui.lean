import Verif.Check.Model
/-!
# The bridges of tests/ui

For the tests of `/repo/tests/ui` whose errors come from syntax/check.rs: the model reports the errors of the `.stderr` file, all of them
and in that order.  These are tests of the model, not proofs of a property.
-/
namespace Verif.Check.Ui
open Verif.Syntax Verif.Types Verif.Check

private def nm (s : String) : Pair := ⟨[], s, s⟩
private def var (s : String) (t : Ty) : Var := ⟨nm s, t⟩
private def cxx (s : String) (trusted : Bool := true) : Api := .cxxType ⟨.cxx, [], nm s, [], [], trusted⟩
private def rust (s : String) (ls : List Ident := []) : Api := .rustType ⟨.rust, [], nm s, ls, [], false⟩
private def cxxFn (s : String) (sig : Sig) (trusted : Bool := true) : Api := .cxxFunction ⟨.cxx, nm s, sig, trusted⟩
private def rustFn (s : String) (sig : Sig) : Api := .rustFunction ⟨.rust, nm s, sig, false⟩
private def strct (s : String) (fs : List Var) : Api := .struct ⟨[], nm s, [], fs⟩
private def sig (as : List Var) (ret : Option Ty := none) (self : Option Receiver := none) (ls : List Ident := [])
    (u : Bool := false) : Sig := ⟨u, ls, self, as, ret, false⟩
private def errors (apis : List Api) : List Err := typecheck ⟨apis, collect apis, .macro⟩
private def str (l : Option Ident) : Ty := .str false l false (Ty.named "str")

/-- tests/ui/bad_explicit_impl.rs -/
example : errors [strct "S" [var "x" (Ty.named "u8")],
    .impl ⟨[], false, .fn false [] (some (.ref false none false (Ty.named "S"))) false⟩] = [.unsupportedImpl] := by decide +kernel

/-- tests/ui/by_value_not_supported.rs -/
example : errors [strct "S" [var "c" (Ty.named "C"), var "r" (Ty.named "R"), var "s" (Ty.named "CxxString")],
    cxx "C" false, rust "R",
    rustFn "f" (sig [var "c" (Ty.named "C")] (some (Ty.named "C"))),
    rustFn "g" (sig [var "r" (Ty.named "R")] (some (Ty.named "R"))),
    rustFn "h" (sig [var "s" (Ty.named "CxxString")] (some (Ty.named "CxxString")))] =
    [.fieldByValue, .fieldByValue, .fieldByValue, .needsExternType, .argByValue, .returnByValue, .argByValue, .returnByValue,
      .argByValue, .returnByValue] := by decide +kernel

/-- tests/ui/empty_enum.rs -/
example : errors [.enum ⟨[], nm "A", [], [], false, .u8, false⟩] = [.emptyEnum] := by decide +kernel

/-- tests/ui/empty_struct.rs -/
example : errors [strct "Empty" []] = [.emptyStruct] := by decide +kernel

/-- tests/ui/enum_receiver.rs -/
example : errors [.enum ⟨[], nm "Enum", [], [nm "Variant"], false, .u8, false⟩,
    rustFn "f" (sig [] none (some ⟨false, none, false, ⟨"Enum", []⟩, false⟩))] = [.enumReceiver] := by decide +kernel

/-- tests/ui/extern_type_bound.rs, the first bridge -/
example : errors [.cxxType ⟨.cxx, [], nm "Opaque", [], [.partialEq, .partialOrd], false⟩] = [.bounds] := by decide +kernel

/-- tests/ui/fallible_fnptr.rs -/
example : errors [cxxFn "f" (sig [var "callback" (.fn false [] none true)])] = [.fnPtrThrows] := by decide +kernel

/-- tests/ui/lifetime_extern_cxx.rs -/
example : errors [cxx "Opaque" false,
    cxxFn "f" (sig [var "arg" (str none)] (some (str (some "a"))) (some ⟨false, some "a", false, ⟨"Opaque", []⟩, true⟩) ["a"] true) false] =
    [.untrustedLifetimes] := by decide +kernel

/-- tests/ui/lifetime_extern_rust.rs -/
example : errors [rust "Opaque",
    rustFn "f" (sig [var "arg" (str none)] (some (str (some "a"))) (some ⟨false, some "a", false, ⟨"Opaque", []⟩, true⟩) ["a"])] =
    [.unsafeLifetimes] := by decide +kernel

/-- tests/ui/mut_return.rs -/
example : errors [rust "Mut" ["a"], cxx "Thing",
    cxxFn "f" (sig [var "t" (.ref false none false (Ty.named "Thing"))] (some (.ref true none true (Ty.named "CxxString")))),
    cxxFn "g" (sig [var "t" (.ref false none false (Ty.named "Thing"))] (some (.ref true none true (Ty.named "CxxString"))) none [] true),
    cxxFn "h" (sig [var "t" (.rustBox (Ty.named "Mut"))] (some (.ref true none true (Ty.named "CxxString")))),
    cxxFn "i" (sig [var "t" (.rustBox (.ident ⟨"Mut", ["a"]⟩))] (some (.ref true (some "a") true (Ty.named "CxxString"))) none ["a"]),
    cxxFn "j" (sig [var "t" (.ref false none false (Ty.named "Thing"))] (some (.sliceRef none true (Ty.named "u8"))))] =
    [.mutReturn, .mutReturn] := by decide +kernel

/-- tests/ui/pin_mut_opaque.rs -/
example : errors [cxx "Opaque",
    cxxFn "f" (sig [var "arg" (.ref false none true (Ty.named "Opaque"))]),
    cxxFn "g" (sig [] none (some ⟨false, none, true, ⟨"Opaque", []⟩, true⟩)),
    cxxFn "h" (sig [] none (some ⟨false, none, true, ⟨"Opaque", []⟩, false⟩)),
    cxxFn "s" (sig [var "s" (.ref false none true (Ty.named "CxxString"))]),
    cxxFn "v" (sig [var "v" (.ref false none true (.cxxVector (Ty.named "u8")))])] =
    [.requiresPin, .requiresPin, .requiresPin, .needsExternType, .receiverPin, .receiverPin] := by decide +kernel

/-- tests/ui/ptr_in_fnptr.rs -/
example : errors [cxxFn "f" (sig [var "callback" (.fn false [.ptr false (Ty.named "u8")] none false)])] =
    [.fnPtrPointerArg] := by decide +kernel

/-- tests/ui/ptr_missing_unsafe.rs -/
example : errors [cxx "C", cxxFn "not_unsafe_ptr" (sig [var "c" (.ptr true (Ty.named "C"))])] = [.pointerArg] := by decide +kernel

/-- tests/ui/ptr_unsupported.rs -/
example : errors [cxx "C",
    cxxFn "get_ptr_to_reference" (sig [] (some (.ptr true (.ref false none false (Ty.named "C"))))),
    cxxFn "get_uniqueptr_to_ptr" (sig [] (some (.uniquePtr (.ptr true (Ty.named "C"))))),
    cxxFn "get_vector_of_ptr" (sig [] (some (.uniquePtr (.cxxVector (.ptr true (Ty.named "C"))))))] =
    [.ptrToRef, .unsupportedUniquePtr, .unsupportedCxxVector] := by decide +kernel

/-- tests/ui/reference_to_reference.rs -/
example : errors [cxx "ThingC",
    cxxFn "repro_c" (sig [var "t" (.ref false none false (.ref false none false (Ty.named "ThingC")))]), rust "ThingR",
    rustFn "repro_r" (sig [var "t" (.ref false none false (.ref false none false (Ty.named "ThingR")))])] =
    [.refToRef, .refToRef] := by decide +kernel

/-- tests/ui/reserved_lifetime.rs: the macro leaves this error to the compiler, the C++ generator reports it. -/
example : (errors [cxx "Logger", cxxFn "logger" (sig [] (some (.ref true (some "static") false (Ty.named "Logger"))) none ["static"])] = []) ∧
    typecheck ⟨[cxx "Logger", cxxFn "logger" (sig [] (some (.ref true (some "static") false (Ty.named "Logger"))) none ["static"])],
      collect [cxx "Logger", cxxFn "logger" (sig [] (some (.ref true (some "static") false (Ty.named "Logger"))) none ["static"])],
      .build⟩ = [.reservedLifetime] := by decide +kernel

/-- tests/ui/reserved_name.rs -/
example : errors [strct "UniquePtr" [var "val" (Ty.named "usize")], cxx "Box" false, rust "String"] =
    [.reservedName, .reservedName, .reservedName] := by decide +kernel

/-- tests/ui/slice_unsupported.rs -/
example : errors [cxx "Opaque", cxxFn "f" (sig [var "_" (.sliceRef none true (Ty.named "Opaque"))])] =
    [.unsupportedSlice, .needsExternType] := by decide +kernel

/-- tests/ui/unnamed_receiver.rs -/
example : errors [cxx "One", cxx "Two",
    cxxFn "f" (sig [] none (some ⟨false, none, true, ⟨"Self", []⟩, true⟩)),
    rustFn "f" (sig [] none (some ⟨false, none, false, ⟨"Self", []⟩, false⟩))] =
    [.unnamedReceiver, .unnamedReceiver] := by decide +kernel

/-- tests/ui/unrecognized_receiver.rs -/
example : errors [cxxFn "f" (sig [] none (some ⟨false, none, false, ⟨"Unrecognized", []⟩, false⟩))] = [.unknownReceiver] := by
  decide +kernel

/-- tests/ui/vec_opaque.rs: the second bridge, and the third, which the macro accepts. -/
example : errors [cxx "Job" false, rustFn "f" (sig [] (some (.rustVec (Ty.named "Job"))))] = [.vecOfCxxType, .needsExternType] ∧
    errors [.typeAlias ⟨[], nm "Job", []⟩, rustFn "f" (sig [] (some (.rustVec (Ty.named "Job"))))] = [] := by decide +kernel

end Verif.Check.Ui
