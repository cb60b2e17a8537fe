import Verif.Discriminant.Model
import Verif.Syntax.Ast
/-!
# The values of shared enums on both sides
-/
namespace Verif.Layout
open Verif.Syntax Verif.Discriminant

/-- syntax/mod.rs:121-140 `struct Enum` and 252-262 `struct Variant`: the representation type, and names and
discriminants of the variants. -/
structure EnumOut where
  name : Pair
  repr : Atom
  variants : List (Pair × Disc)

/-- syntax/parse.rs:227-281: the enum parsed from variants with the given names. -/
def enumOut (name : Pair) (attr : Option Atom) (names : List Pair) (vs : List VariantSrc) : EnumOut :=
  let r := parseEnum true attr vs
  ⟨name, r.repr, names.zip r.discs⟩

/-- An integer in Rust tokens: an optional minus sign and an unsuffixed literal. -/
structure RustInt where
  minus : Bool
  lit : Nat
  deriving DecidableEq, Repr

/-- syntax/discriminant.rs:215-222 `ToTokens for Discriminant`. -/
def discTokens (d : Disc) : RustInt := ⟨d.neg, d.mag⟩

/-- syntax/discriminant.rs:206-213 `Display for Discriminant`. -/
def discText (d : Disc) : List Char := (if d.neg then ['-'] else []) ++ (Nat.repr d.mag).toList

/-- macro/src/expand.rs:326-338: `pub const N: Self = E { repr: value };` for every variant. -/
def rustConsts (e : EnumOut) : List (Ident × RustInt) :=
  e.variants.map (fun v => (v.1.rust, discTokens v.2))

/-- gen/src/write.rs:439-442: `N = value,` for every variant. -/
def cxxEnumerators (e : EnumOut) : List (Ident × List Char) :=
  e.variants.map (fun v => (v.1.cxx, discText v.2))

/-- The assertions of `check_enum`. -/
inductive Assert
  /-- `::std::is_enum<E>::value` -/
  | isEnum
  /-- `sizeof(E) == sizeof(repr)` -/
  | size (repr : Atom)
  /-- `static_cast<repr>(E::N) == value` -/
  | value (repr : Atom) (name : Ident) (text : List Char)

/-- gen/src/write.rs:447-472 `check_enum`. -/
def checkEnum (e : EnumOut) : List Assert :=
  .isEnum :: .size e.repr :: e.variants.map (fun v => .value e.repr v.1.cxx (discText v.2))

end Verif.Layout
