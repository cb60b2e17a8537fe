import Verif.Discriminant.Model
/-!
# Enums whose variants come from a C++ header: `macro/src/load.rs`

With `#![variants_from_header]` the variants of an enum are not written in the bridge but found in a dump of the syntax
tree that clang makes of the C++ headers.

Reading the file, unpacking it and parsing the JSON are left out: the model starts from the tree, or from there being
none.  The text of a constant is its integer, or nothing if the text is not an integer: `str::parse` of decimal digits
(syntax/discriminant.rs:234) is not modelled.  Whether a text is an identifier is decided by syn and is a parameter.
-/
namespace Verif.Load
open Verif.Discriminant

/-- macro/src/clang.rs:42-48 `Type`. -/
structure QualType where
  qualType : String
  desugared : Option String
deriving DecidableEq, Repr

/-- macro/src/clang.rs:5-13 `Clang` and the structs below it. -/
inductive Kind
  | namespaceDecl (name : Option String)
  | enumDecl (name : Option String) (fixedUnderlyingType : Option QualType)
  | enumConstantDecl (name : String)
  | implicitCastExpr
  | constantExpr (value : Option Int)
  | unknown

/-- `clang_ast::Node` (macro/src/clang.rs:3). -/
inductive Node
  | mk (kind : Kind) (inner : List Node)

/-- Which texts syn takes for an identifier: `any` with keywords (syntax/names.rs:41 `Ident::parse_any`), `rust` without
(macro/src/load.rs:172 `syn::parse_str`). -/
structure Lex where
  any : String → Bool
  rust : String → Bool

/-- syntax/mod.rs:252-262 `Variant`, as macro/src/load.rs:202-213 makes it. -/
structure Variant where
  cxx : String
  rust : String
  disc : Disc
deriving DecidableEq, Repr

/-- syntax/mod.rs:121-140 `Enum`: the parts that macro/src/load.rs reads and writes.  `repr` is the name of the type in
`core::ffi` once it is known. -/
structure Enum where
  ns : List String
  cxx : String
  fromHeader : Bool
  variants : List Variant
  repr : Option String
deriving DecidableEq, Repr

/-- The errors of macro/src/load.rs. -/
inductive Err
  | explicitVariants
  | noEnvironment
  | notFound
  | multiple
  | implicitRepr
  | unsupportedRepr
  | unsupportedName
  | overflow
  | noValue
deriving DecidableEq, Repr

/-- The mutable arguments of macro/src/load.rs:98-104 `traverse`. -/
structure State where
  errors : List Err
  stack : List String
  enums : List Enum
deriving DecidableEq, Repr

/-- syntax/report.rs:14-16 `Errors::error`. -/
def State.error (st : State) (e : Err) : State := { st with errors := st.errors ++ [e] }

/-- Changes one of the enums in place. -/
def State.update (st : State) (i : Nat) (f : Enum → Enum) : State := { st with enums := st.enums.modify i f }

/-- macro/src/load.rs:226-252, the table in `translate_qual_type`. -/
def ffiName : String → Option String
  | "char" => some "c_char"
  | "int" => some "c_int"
  | "long" => some "c_long"
  | "long long" => some "c_longlong"
  | "signed char" => some "c_schar"
  | "short" => some "c_short"
  | "unsigned char" => some "c_uchar"
  | "unsigned int" => some "c_uint"
  | "unsigned long" => some "c_ulong"
  | "unsigned long long" => some "c_ulonglong"
  | "unsigned short" => some "c_ushort"
  | _ => none

/-- macro/src/load.rs:139-147 with 226-261 `translate_qual_type`: sets the representation of the enum. -/
def setRepr (st : State) (i : Nat) (t : QualType) : State :=
  match ffiName (t.desugared.getD t.qualType) with
  | some name => st.update i (fun e => { e with repr := some name })
  | none => (st.error .unsupportedRepr).update i (fun e => { e with repr := some "c_int" })

/-- macro/src/load.rs:263-267 `ParsedDiscriminant`. -/
inductive Parsed
  | constant (d : Disc)
  | successor
  | fail

/-- syntax/discriminant.rs:227-241 `from_str`, on the integer that the text stands for. -/
def fromStr : Option Int → Option Disc
  | none => none
  | some v => if v.natAbs < u64Size then some ⟨decide (v < 0), v.natAbs⟩ else none

/-- macro/src/load.rs:276-290, the loop of `discriminant_value` from one node on. -/
def constantOf : Node → Parsed
  | .mk .implicitCastExpr [inner] => constantOf inner
  | .mk (.constantExpr value) _ =>
    match fromStr value with
    | some d => .constant d
    | none => .fail
  | _ => .fail

/-- macro/src/load.rs:269-291 `discriminant_value`. -/
def discriminantValue : List Node → Parsed
  | [] => .successor
  | [node] => constantOf node
  | _ => .fail

/-- syntax/discriminant.rs:183-203 `Discriminant::checked_succ`.  `magnitude` is a `u64`. -/
def succ (d : Disc) : Option Disc :=
  if d.neg then
    if d.mag = 1 then some .zero else some ⟨true, d.mag - 1⟩
  else if d.mag + 1 < u64Size then some ⟨false, d.mag + 1⟩ else none

/-- The name at macro/src/load.rs:172-175: as in C++, or made up from the number of variants before it. -/
def rustName (lex : Lex) (name : String) (count : Nat) : String :=
  if lex.rust name then name else "__Variant" ++ toString count

/-- The discriminant at macro/src/load.rs:176-201, and the error found on the way.  `none` if the variant is given up. -/
def discriminantOf (inner : List Node) (variants : List Variant) : Except Err (Disc × Option Err) :=
  match discriminantValue inner with
  | .constant d => .ok (d, none)
  | .successor =>
    match variants.getLast? with
    | none => .ok (.zero, none)
    | some last =>
      match succ last.disc with
      | some d => .ok (d, none)
      | none => .error .overflow
  | .fail => .ok (.zero, some .noValue)

/-- macro/src/load.rs:157-214: an enumerator of the enum with index `i`.  The flag tells whether `traverse` goes on to
the inner nodes. -/
def addConstant (lex : Lex) (st : State) (i : Nat) (name : String) (inner : List Node) : State × Bool :=
  match st.enums[i]? with
  | none => (st, true)
  | some e =>
    if lex.any name then
      match discriminantOf inner e.variants with
      | .error err => (st.error err, false)
      | .ok (d, err) =>
        let st := match err with
          | some err => st.error err
          | none => st
        (st.update i (fun e => { e with
          variants := e.variants ++ [⟨name, rustName lex name e.variants.length, d⟩] }), true)
    else (st.error .unsupportedName, false)

/-- The test at macro/src/load.rs:120. -/
def Enum.is (e : Enum) (name : String) (stack : List String) : Bool := e.cxx = name && e.ns = stack

mutual
/-- macro/src/load.rs:98-224 `traverse`. -/
def traverse (lex : Lex) : Node → Option Nat → State → State
  | .mk (.namespaceDecl none) _, _, st => st
  | .mk (.namespaceDecl (some name)) inner, _, st =>
    let st := { st with stack := st.stack ++ [name] }
    let st := traverseAll lex inner none st
    { st with stack := st.stack.dropLast }
  | .mk (.enumDecl none _) _, _, st => st
  | .mk (.enumDecl (some name) underlying) inner, _, st =>
    match st.enums.findIdx? (·.is name st.stack) with
    | none => st
    | some i =>
      match st.enums[i]? with
      | none => st
      | some e =>
        if e.variants ≠ [] then st.error .multiple
        else
          match underlying with
          | none => st.error .implicitRepr
          | some t => traverseAll lex inner (some i) (setRepr st i t)
  | .mk (.enumConstantDecl name) inner, idx, st =>
    match idx with
    | none => traverseAll lex inner idx st
    | some i =>
      match addConstant lex st i name inner with
      | (st, true) => traverseAll lex inner idx st
      | (st, false) => st
  | .mk .implicitCastExpr inner, idx, st => traverseAll lex inner idx st
  | .mk (.constantExpr _) inner, idx, st => traverseAll lex inner idx st
  | .mk .unknown inner, idx, st => traverseAll lex inner idx st

/-- The loop at macro/src/load.rs:218-220. -/
def traverseAll (lex : Lex) : List Node → Option Nat → State → State
  | [], _, st => st
  | n :: ns, idx, st => traverseAll lex ns idx (traverse lex n idx st)
end

/-- macro/src/load.rs:21-96 `load`: the errors, and the enums with `#![variants_from_header]` as they are in the end.
`dump` is the tree, or `none` if the variable is not set or the file cannot be read. -/
def load (lex : Lex) (enums : List Enum) (dump : Option Node) : List Err × List Enum :=
  let early := (enums.filter (fun e => e.fromHeader && !e.variants.isEmpty)).map (fun _ => Err.explicitVariants)
  let wanted := enums.filter (fun e => e.fromHeader && e.variants.isEmpty)
  if wanted = [] then (early, [])
  else
    match dump with
    | none => (early ++ [.noEnvironment], wanted)
    | some root =>
      let st := traverse lex root none ⟨early, [], wanted⟩
      (st.errors ++ (st.enums.filter (·.variants.isEmpty)).map (fun _ => Err.notFound), st.enums)

end Verif.Load
