import Verif.Load.Model
/-!
# What the C++ headers say about an enum

A translation unit as C++ sees it, and the tree that clang dumps for it.
-/
namespace Verif.Load.Spec
open Verif.Load Verif.Discriminant

/-- What stands between the braces of an enum. -/
inductive Member
  /-- an enumerator and the value that is given for it, with so many implicit conversions around it -/
  | constant (name : String) (value : Option (Nat × Int))
  /-- a comment or an attribute -/
  | note

/-- A declaration of an enum: its fixed underlying type, if it has one (and what that type is an alias of), and the
members, if it is a definition. -/
structure EnumDecl where
  name : String
  underlying : Option QualType
  members : List Member

/-- A declaration in C++. -/
inductive Item
  | ns (name : Option String) (items : List Item)
  | enum (d : EnumDecl)
  | unnamedEnum (underlying : Option QualType) (members : List Member)
  /-- `extern "C" { .. }` and other things that are no scope of their own -/
  | transparent (items : List Item)
  /-- the body of a class or of a function -/
  | body (items : List Item)

/-! ### The dump -/

/-- A constant expression under some implicit conversions. -/
def dumpValue (v : Int) : Nat → Node
  | 0 => .mk (.constantExpr (some v)) [.mk .unknown []]
  | n + 1 => .mk .implicitCastExpr [dumpValue v n]

def dumpMember : Member → Node
  | .constant name none => .mk (.enumConstantDecl name) []
  | .constant name (some (casts, v)) => .mk (.enumConstantDecl name) [dumpValue v casts]
  | .note => .mk .unknown []

mutual
def dump : Item → Node
  | .ns name items => .mk (.namespaceDecl name) (dumps items)
  | .enum d => .mk (.enumDecl (some d.name) d.underlying) (d.members.map dumpMember)
  | .unnamedEnum t members => .mk (.enumDecl none t) (members.map dumpMember)
  | .transparent items => .mk .unknown (dumps items)
  | .body items => .mk .unknown (dumps items)
def dumps : List Item → List Node
  | [] => []
  | i :: is => dump i :: dumps is
end

/-- The dump of a translation unit. -/
def dumpUnit (unit : List Item) : Node := .mk .unknown (dumps unit)

/-! ### What it means -/

mutual
/-- The declarations of enums, each with the namespace it is in, in the order of the text.  Those in unnamed namespaces
have no name that the bridge could use.  Those in the bodies of classes and functions count if `bodies` is set, with the
namespace around the body. -/
def enumsOf (bodies : Bool) (path : List String) : Item → List (List String × EnumDecl)
  | .ns none _ => []
  | .ns (some name) items => enumsOfAll bodies (path ++ [name]) items
  | .enum d => [(path, d)]
  | .unnamedEnum _ _ => []
  | .transparent items => enumsOfAll bodies path items
  | .body items => if bodies then enumsOfAll bodies path items else []
def enumsOfAll (bodies : Bool) (path : List String) : List Item → List (List String × EnumDecl)
  | [] => []
  | i :: is => enumsOf bodies path i ++ enumsOfAll bodies path is
end

/-- The declarations of the enum `ns::name`. -/
def declarations (bodies : Bool) (unit : List Item) (ns : List String) (name : String) : List EnumDecl :=
  ((enumsOfAll bodies [] unit).filter (fun d => d.1 = ns ∧ d.2.name = name)).map (·.2)

/-- No class or function in the namespace has an enum of that name inside. -/
def NoLocal (unit : List Item) (ns : List String) (name : String) : Prop :=
  declarations true unit ns name = declarations false unit ns name

/-- The enumerators with their values: an enumerator without a value has the value after that of the one before it,
the first one 0. -/
def values : Int → List Member → List (String × Int)
  | _, [] => []
  | next, .constant name none :: ms => (name, next) :: values (next + 1) ms
  | _, .constant name (some (_, v)) :: ms => (name, v) :: values (v + 1) ms
  | next, .note :: ms => values next ms

/-- The enumerators of a declaration. -/
def EnumDecl.values (d : EnumDecl) : List (String × Int) := Spec.values 0 d.members

/-- The type of C that a type in `core::ffi` stands for. -/
def ctype : String → String
  | "c_char" => "char"
  | "c_schar" => "signed char"
  | "c_uchar" => "unsigned char"
  | "c_short" => "short"
  | "c_ushort" => "unsigned short"
  | "c_int" => "int"
  | "c_uint" => "unsigned int"
  | "c_long" => "long"
  | "c_ulong" => "unsigned long"
  | "c_longlong" => "long long"
  | "c_ulonglong" => "unsigned long long"
  | _ => ""

/-- The type behind a name for it. -/
def canonical (t : QualType) : String := t.desugared.getD t.qualType

/-- The integer types of C, but for `bool` and the types of wide characters. -/
def integerTypes : List String :=
  ["char", "signed char", "unsigned char", "short", "unsigned short", "int", "unsigned int", "long", "unsigned long",
    "long long", "unsigned long long"]

/-- The number that a discriminant stands for. -/
def number (d : Disc) : Int := if d.neg then -(d.mag : Int) else d.mag

/-- The enum has got the enumerators of `d`: under their names, with their values, in order, and its representation is
the underlying type of `d`. -/
def Mirrors (e : Enum) (d : EnumDecl) : Prop :=
  e.variants.map (fun v => (v.cxx, number v.disc)) = d.values ∧
  ∃ t name, d.underlying = some t ∧ e.repr = some name ∧ ctype name = canonical t

end Verif.Load.Spec
