import Verif.Parse.ItemModel
import Verif.Toposort.Model
/-!
# The bridges of tests/ui that do not parse

For the tests of `/repo/tests/ui` whose errors come from syntax/parse.rs or syntax/toposort.rs: the model reports the errors of the
`.stderr` file, all of them and in that order.  These are tests of the model, not proofs of a property.
-/
namespace Verif.Parse.Ui
open Verif.Syntax Verif.Parse Verif.Discriminant

private def readers : Readers := ⟨fun _ => none, fun _ => none, some, some⟩
private def errors (items : List ItemSrc) : List ItemErr := (parseItems readers true false [] items).1
private def path (s : Ident) (args : PathArgs RTy := .none) : RTy := .path false false [] s args
private def plain : Generics := ⟨[], false⟩
private def fn (s : Ident) (inputs : List (PatSrc × RTy) := []) (output : Option RTy := none) : FnSrc :=
  ⟨[], s, plain, false, false, false, false, false, none, inputs, output⟩
private def block (abi : String) (items : List ForeignSrc) (unsafety : Bool := false) : ItemSrc :=
  .foreignMod ⟨[], unsafety, some abi, items⟩
private def unitVariant (s : Ident) (e : Option Expr := none) : VariantItem := ⟨[], s, ⟨true, e⟩⟩
private def enum (s : Ident) (vs : List VariantItem) (attrs : List Attr := []) (g : Generics := plain) : ItemSrc :=
  .enum ⟨attrs, s, g, vs⟩
private def strct (s : Ident) (fs : List (Ident × RTy)) : ItemSrc :=
  .struct ⟨[], s, plain, .named (fs.map fun f => ⟨[], f.1, f.2⟩)⟩

/-- tests/ui/array_len_expr.rs -/
example : errors [strct "Shared" [("arraystr", .array (path "String") .lit), ("arraysub", .array (path "String") .expr),
    ("arrayzero", .array (path "String") (.int 0))]] =
    [.type .lengthNotInteger, .type .lengthNotLiteral, .type .zeroLength] := rfl

/-- tests/ui/async_fn.rs -/
example : errors [block "Rust" [.fn { fn "f" with asyncness := true }], block "C++" [.fn { fn "g" with asyncness := true }]] =
    [.async, .async] := rfl

/-- tests/ui/const_fn.rs -/
example : errors [block "Rust" [.fn { fn "f" with constness := true }]] = [.constFn] := rfl

/-- tests/ui/cxx_crate_name_qualified_cxx_string.rs -/
example : errors [block "Rust" [.fn (fn "foo" [(.ident "x", path "CxxString")]),
    .fn (fn "bar" [(.ident "x", .reference none false (.path false false ["cxx"] "CxxString" .none))])]] =
    [.type .cxxQualifier] := rfl

/-- tests/ui/data_enums.rs -/
example : errors [enum "A" [⟨[], "Field", ⟨false, none⟩⟩]] = [.disc .enumWithData] := rfl

/-- tests/ui/enum_inconsistent.rs -/
example : errors [enum "Bad" [unitVariant "A" (some (.lit 1 "u16")), unitVariant "B" (some (.lit 2 "i64"))]] =
    [.disc .expectedFound] := rfl

/-- tests/ui/enum_out_of_bounds.rs -/
example : errors [enum "Bad1" [unitVariant "A" (some (.lit 0xFFFFFFFFFFFFFFFF ""))] [⟨false, ["repr"], .list [.ident "u32"]⟩],
    enum "Bad2" [unitVariant "A" (some (.lit 2000 "")), unitVariant "B" (some (.lit 1 "u8"))]] =
    [.disc .outsideLimits, .disc .outsideLimits] := rfl

/-- tests/ui/enum_overflows.rs -/
example : errors [enum "Good1" [unitVariant "A" (some (.lit 0xFFFFFFFFFFFFFFFF ""))],
    enum "Good2" [unitVariant "B" (some (.lit 0xFFFFFFFFFFFFFFFF "")), unitVariant "C" (some (.lit 2020 ""))],
    enum "Bad" [unitVariant "D" (some (.lit 0xFFFFFFFFFFFFFFFE "")), unitVariant "E", unitVariant "F"]] =
    [.disc .nextOverflow] := rfl

/-- tests/ui/enum_unsatisfiable.rs -/
example : errors [enum "Bad" [unitVariant "A" (some (.neg (.lit 0xFFFFFFFFFFFFFFFF ""))),
    unitVariant "B" (some (.lit 0xFFFFFFFFFFFFFFFF ""))]] = [.disc .noReprFits] := rfl

/-- tests/ui/expected_named.rs: the bridge parses, the error is one of the compiler. -/
example : errors [block "C++" [.type ⟨[], "Borrowed", ⟨[.lifetime "a" false], false⟩⟩,
    .fn (fn "borrowed" [] (some (path "UniquePtr" (.angle [.type (path "Borrowed")]))))] true] = [] := rfl

/-- tests/ui/extern_fn_abi.rs -/
example : errors [block "C++" [.fn { fn "f" with abi := true }]] = [.explicitAbi] := rfl

/-- tests/ui/extern_type_bound.rs, the second bridge -/
example : errors [block "C++" [.bounded ⟨[], "Opaque", plain⟩ [none]]] = [.unsupportedTrait] := rfl

/-- tests/ui/extern_type_generic.rs -/
example : errors [block "C++" [.type ⟨[], "Generic", ⟨[.type], false⟩⟩]] = [.genericParam] := rfl

/-- tests/ui/extern_type_lifetime_bound.rs -/
example : errors [block "C++" [.type ⟨[], "Complex", ⟨[.lifetime "a" false, .lifetime "b" true], false⟩⟩]] = [.boundedLifetime] := rfl

/-- tests/ui/generic_enum.rs -/
example : errors [enum "A" [unitVariant "Field"] [] ⟨[.type], false⟩, enum "B" [unitVariant "Field"] [] ⟨[.type], true⟩,
    enum "C" [unitVariant "Field"] [] ⟨[], true⟩] = [.genericParam, .genericParam, .whereClause] := rfl

/-- tests/ui/impl_trait_for_type.rs -/
example : errors [strct "S" [("x", path "u8")], .impl ⟨[], plain, true, true, false, path "S"⟩] = [.implTrait] := rfl

/-- tests/ui/include.rs -/
example : errors [block "C++" [.include none, .include none, .include none, .include none, .include none]] =
    List.replicate 5 .include := rfl

/-- tests/ui/multiple_parse_error.rs -/
example : errors [.struct ⟨[], "Monad", ⟨[.type], false⟩, .unit⟩, block "Haskell" []] = [.unitStruct, .unknownAbi] := rfl

/-- tests/ui/non_integer_discriminant_enum.rs -/
example : errors [enum "A" [unitVariant "Field" (some .other)]] = [.disc .notIntegerLiteral] := rfl

/-- tests/ui/nonempty_impl_block.rs -/
example : errors [strct "S" [("x", path "u8")],
    .impl ⟨[], plain, false, false, false, path "UniquePtr" (.angle [.type (path "S")])⟩] = [.implNotEmpty] := rfl

/-- tests/ui/type_alias_rust.rs -/
example : errors [block "Rust" [.alias ⟨[⟨false, ["doc"], .nameValue (.str " Incorrect.")⟩], "Alias", plain⟩]] = [.rustAlias] := rfl

private def node (name : Ident) (fields : List Ty) : Struct :=
  ⟨[], ⟨[], name, name⟩, [], fields.map fun t => ⟨⟨[], "f", "f"⟩, t⟩⟩

private def nodes : List Struct :=
  [node "Node0" [Ty.named "i32"], node "Node1" [Ty.named "Node2", .rustVec (Ty.named "Node3")], node "Node2" [Ty.named "Node4"],
    node "Node3" [Ty.named "Node1"], node "Node4" [Ty.named "Node0", Ty.named "Node5"], node "Node5" [Ty.named "Node2"],
    node "Node6" [Ty.named "Node2"]]

/-- tests/ui/struct_cycle.rs: the errors are in the fields of Node5, Node4, Node2 and Node1, in that order. -/
example : (Toposort.visitAll (Toposort.targets nodes) 8 (List.range 7) ⟨[], fun _ => none, []⟩).map (·.errors) = some [5, 4, 2, 1] ∧
    (Toposort.sort nodes).map (·.2) = some 4 := by decide +kernel

end Verif.Parse.Ui
