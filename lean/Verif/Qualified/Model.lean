import Verif.Syntax.Ast
/-!
# `syntax/qualified.rs`, `syntax/namespace.rs`, `macro/src/type_id.rs`

Tokens are as the Rust lexer delivers them; the lexer itself is not modelled.  A raw identifier `r#name` is a
token of its own kind, and as a string it is the name with `r#` in front.
-/
namespace Verif.Qualified
open Verif.Syntax

/-- A token.  A string literal has its emptiness and the tokens of its text, if it can be lexed. -/
inductive Tok
  | ident (raw : Bool) (name : Ident)
  | colons
  | eq
  | comma
  | lit (empty : Bool) (inner : Option (List Tok))
  | other

/-- Why parsing failed. -/
inductive Err
  | rawNotAllowed
  | expectedPath
  | expectedSegment
  | expected
  | unsupported
  deriving DecidableEq

/-- `Ident::to_string`. -/
def identText (raw : Bool) (name : Ident) : Ident := if raw then "r#" ++ name else name

/-- syntax/qualified.rs:41-56: the loop.  The result is the segments, whether punctuation came last, and the
remaining input.  The text after `strip_prefix("r#")` is the name of the token. -/
def segments (allowRaw : Bool) : List Tok → Except Err (List Ident × Bool × List Tok)
  | .ident raw name :: rest =>
    if raw && !allowRaw then .error .rawNotAllowed
    else match rest with
      | .colons :: rest =>
        match segments allowRaw rest with
        | .ok (segs, trailing, rest) => .ok (name :: segs, trailing, rest)
        | .error e => .error e
      | rest => .ok ([name], false, rest)
  | toks => .ok ([], true, toks)

/-- syntax/qualified.rs:40: the optional leading `::`. -/
def leading : List Tok → Bool × List Tok
  | .colons :: rest => (true, rest)
  | toks => (false, toks)

/-- syntax/qualified.rs:37-63 `parse_unquoted`. -/
def parseUnquoted (allowRaw : Bool) (toks : List Tok) : Except Err (List Ident × List Tok) :=
  match segments allowRaw (leading toks).2 with
  | .error e => .error e
  | .ok (segs, trailing, rest) =>
    if segs.isEmpty && !(leading toks).1 then .error .expectedPath
    else if trailing then .error .expectedSegment
    else .ok (segs, rest)

/-- syntax/qualified.rs:10-20 `QualifiedName::parse_quoted`; `lit.parse_with` requires that nothing is left. -/
def parseQuoted (empty : Bool) (inner : Option (List Tok)) : Except Err (List Ident) :=
  if empty then .ok []
  else match inner with
    | none => .error .expected
    | some toks => match parseUnquoted false toks with
      | .error e => .error e
      | .ok (segs, []) => .ok segs
      | .ok (_, _ :: _) => .error .expected

/-- syntax/qualified.rs:27-34 `QualifiedName::parse_quoted_or_unquoted`. -/
def parseQuotedOrUnquoted : List Tok → Except Err (List Ident × List Tok)
  | .lit empty inner :: rest =>
    match parseQuoted empty inner with
    | .ok segs => .ok (segs, rest)
    | .error e => .error e
  | toks => parseUnquoted true toks

/-- syntax/namespace.rs:26-36 `Namespace::parse_bridge_attr_namespace`, applied to the arguments of
`#[cxx::bridge(..)]`; the caller requires that nothing is left. -/
def parseBridgeAttr : List Tok → Except Err Namespace
  | [] => .ok []
  | .ident false "namespace" :: .eq :: rest =>
    match parseQuotedOrUnquoted rest with
    | .ok (segs, []) => .ok segs
    | .ok (segs, [.comma]) => .ok segs
    | .ok _ => .error .expected
    | .error e => .error e
  | _ => .error .expected

/-- A segment of a path expression: the identifier and whether it has generic arguments. -/
structure PathSegment where
  raw : Bool
  name : Ident
  arguments : Bool

/-- The value of a `name = value` attribute. -/
inductive Expr
  | litStr (empty : Bool) (inner : Option (List Tok))
  | path (qself leadingColon : Bool) (segs : List PathSegment)
  | other

/-- syntax/namespace.rs:38-67 `Namespace::parse_meta`; `none` is an attribute that is not `name = value`. -/
def parseMeta : Option Expr → Except Err Namespace
  | some (.litStr empty inner) => parseQuoted empty inner
  | some (.path qself _ segs) =>
    if !qself && segs.all (fun s => !s.arguments) then .ok (segs.map (fun s => identText s.raw s.name))
    else .error .unsupported
  | _ => .error .unsupported

/-- syntax/attrs.rs:47-206 `attrs::parse`, the `namespace` attributes of one item: each one overwrites, the
first malformed one is an error. -/
def attrNamespace (inherited : Namespace) : List (Option Expr) → Except Err Namespace
  | [] => .ok inherited
  | a :: rest => match parseMeta a with
    | .ok ns => attrNamespace ns rest
    | .error e => .error e

/-- The namespace of an item: syntax/parse.rs:62-75, 195-210 (structs and enums directly in the bridge, no
block), 362-372 and 468-481, 525-537, 855-868 (in an extern block). -/
def itemNamespace (bridge : Namespace) (block : List (Option Expr)) (item : List (Option Expr)) :
    Except Err Namespace :=
  match attrNamespace bridge block with
  | .ok ns => attrNamespace ns item
  | .error e => .error e

/-! ### Type ids -/

/-- `Ident::unraw`. -/
def unraw (s : List Char) : List Char :=
  match s with
  | 'r' :: '#' :: rest => rest
  | s => s

/-- An element of the tuple type that is a type id. -/
inductive IdElem
  /-- `::cxx::name` -/
  | cxx (name : List Char)
  /-- `()` -/
  | unit
  /-- `[(); n]` -/
  | units (n : Nat)
  deriving DecidableEq

/-- macro/src/type_id.rs:29-39. -/
def charElem (c : Char) : IdElem :=
  if ('A' ≤ c ∧ c ≤ 'Z') ∨ ('a' ≤ c ∧ c ≤ 'z') then .cxx [c]
  else if ('0' ≤ c ∧ c ≤ '9') ∨ c = '_' then .cxx ['_', c]
  else .units c.toNat

/-- macro/src/type_id.rs:24-41: the loop. -/
def idElems (ids : List IdElem) : List Ident → List IdElem
  | [] => ids
  | word :: rest =>
    idElems ((if ids.isEmpty then ids else ids ++ [.unit]) ++ (unraw word.toList).map charElem) rest

/-- macro/src/type_id.rs:21-44 `expand`.  `$crate` and `::cxx` are the same crate. -/
def typeId (segs : List Ident) : List IdElem := idElems [] segs

/-- macro/src/expand.rs:1291-1298 `type_id`, where it returns: `Ident::new` panics for a C++ name that begins with `r#`
(`Verif/Panics`). -/
def pairTypeId (p : Pair) : List IdElem := typeId (p.ns ++ [p.cxx])

/-- macro/src/expand.rs:1266-1289 `expand_type_alias_verify` with src/extern_type.rs:184: whether the bound
`T: ExternType<Id = Id>` holds; `none` if the macro panics (1295: `Ident::new` does not accept `r#`). -/
def aliasVerified (alias : Pair) (declared : List IdElem) : Option Bool :=
  if alias.cxx.toList.take 2 = ['r', '#'] then none else some (decide (declared = pairTypeId alias))

/-- macro/src/lib.rs:76-94 `type_id!`: the argument of the macro. -/
def typeIdMacro (toks : List Tok) : Except Err (List IdElem) :=
  match parseQuotedOrUnquoted toks with
  | .ok (segs, []) => .ok (typeId segs)
  | .ok _ => .error .expected
  | .error e => .error e

/-- src/lib.rs:521-528 `chars!`. -/
def chars : List (List Char) :=
  ["_0", "_1", "_2", "_3", "_4", "_5", "_6", "_7", "_8", "_9",
   "A", "B", "C", "D", "E", "F", "G", "H", "I", "J", "K", "L", "M", "N", "O", "P", "Q", "R", "S", "T", "U", "V",
   "W", "X", "Y", "Z",
   "a", "b", "c", "d", "e", "f", "g", "h", "i", "j", "k", "l", "m", "n", "o", "p", "q", "r", "s", "t", "u", "v",
   "w", "x", "y", "z", "__"].map String.toList

end Verif.Qualified
