import Verif.Syntax.Ast
import Verif.Cfg.Model
/-!
# Attributes in a bridge: `syntax/attrs.rs`

The feature `experimental-enum-variants-from-header` is off.
-/
namespace Verif.Parse
open Verif.Syntax Verif.Cfg

/-- The expression behind `=` in an attribute. -/
inductive Value
  | str (s : String)
  | ident (i : Ident)
  | other
  deriving DecidableEq

/-- A token between the parentheses of an attribute. -/
inductive ArgTok
  | ident (s : Ident)
  /-- `::` -/
  | colon2
  | comma
  | other (s : String)
  deriving DecidableEq

/-- `syn::Meta`, what follows the path of an attribute. -/
inductive Meta
  | path
  | list (args : List ArgTok)
  | nameValue (v : Value)
  deriving DecidableEq

/-- `syn::Attribute`. -/
structure Attr where
  leadingColon : Bool
  path : List Ident
  content : Meta
  deriving DecidableEq

/-- `Path::is_ident`. -/
def Attr.isIdent (a : Attr) (name : Ident) : Bool := !a.leadingColon && decide (a.path = [name])

/-- The readers of the contents of attributes that are modelled elsewhere or belong to syn: `Namespace::parse_meta`
(`Verif/Qualified`), `cfg::parse_attribute` (`Verif/Cfg`), `ForeignName::parse`, and the parser of identifiers. -/
structure Readers where
  readNamespace : Meta → Option Namespace
  readCfg : Meta → Option CfgExpr
  foreignName : String → Option Ident
  identifier : String → Option Ident

/-- syntax/attrs.rs:29-45 `struct Parser`: which attributes are looked for. -/
structure Wants where
  cfg : Bool := false
  doc : Bool := false
  derives : Bool := false
  repr : Bool := false
  «namespace» : Bool := false
  cxxName : Bool := false
  rustName : Bool := false
  ignoreUnrecognized : Bool := false

/-- What the fields of `struct Parser` point to. -/
structure Found where
  cfg : CfgExpr
  doc : List String
  hidden : Bool
  derives : List Trait
  repr : Option Atom
  «namespace» : Namespace
  cxxName : Option Ident
  rustName : Option Ident

/-- The errors of syntax/attrs.rs. -/
inductive AttrErr
  /-- the contents of an attribute -/
  | malformed (attr : Attr)
  | unsupportedDerive (path : List Ident)
  | unsupported (attr : Attr)

/-- syntax/attrs.rs:187-190 `enum DocAttribute`. -/
inductive DocAttribute
  | doc (text : String)
  | hidden

/-- syntax/attrs.rs:196-212 `parse_doc_attribute`. -/
def parseDoc : Meta → Option DocAttribute
  | .nameValue (.str s) => some (.doc s)
  | .list [.ident s] => if s = "hidden" then some .hidden else none
  | _ => none

/-- syntax/derive.rs:27-45 `Derive::from`. -/
def traitOf (name : Ident) : Option Trait :=
  if name = "Clone" then some .clone
  else if name = "Copy" then some .copy
  else if name = "Debug" then some .debug
  else if name = "Default" then some .default
  else if name = "Eq" then some .eq
  else if name = "ExternType" then some .externType
  else if name = "Hash" then some .hash
  else if name = "Ord" then some .ord
  else if name = "PartialEq" then some .partialEq
  else if name = "PartialOrd" then some .partialOrd
  else if name = "Serialize" then some .serialize
  else if name = "Deserialize" then some .deserialize
  else none

/-- `Path::parse_mod_style` followed by the comma or the end that `parse_terminated` wants: whether there is a leading
`::`, the identifiers, and the tokens after the comma.  `expectIdent` says what comes next. -/
def parsePaths (leading : Bool) (path : List Ident) (expectIdent : Bool) : List ArgTok → Option (List (Bool × List Ident))
  | [] => if expectIdent then (if !leading ∧ path = [] then some [] else none) else some [(leading, path)]
  | .ident s :: rest => if expectIdent then parsePaths leading (path ++ [s]) false rest else none
  | .colon2 :: rest =>
    if expectIdent then (if !leading ∧ path = [] then parsePaths true [] true rest else none)
    else parsePaths leading path true rest
  | .comma :: rest =>
    if expectIdent then none else (parsePaths false [] true rest).map ((leading, path) :: ·)
  | .other _ :: _ => none

/-- syntax/attrs.rs:217-226: the loop over the paths. -/
def derivesOf : List (Bool × List Ident) → List Trait × List AttrErr
  | [] => ([], [])
  | (leading, path) :: rest =>
    match derivesOf rest with
    | (ts, es) =>
      match leading, path with
      | false, [name] =>
        match traitOf name with
        | some t => (t :: ts, es)
        | none => (ts, .unsupportedDerive path :: es)
      | _, _ => (ts, .unsupportedDerive path :: es)

/-- syntax/attrs.rs:214-228 `parse_derive_attribute`, called through `parse_args_with`. -/
def parseDerive : Meta → Option (List Trait × List AttrErr)
  | .list args => (parsePaths false [] true args).map derivesOf
  | _ => none

/-- syntax/attrs.rs:230-245 `parse_repr_attribute`, called through `parse_args_with`. -/
def parseRepr : Meta → Option Atom
  | .list [.ident s] =>
    match Atom.fromStr s with
    | some .u8 => some .u8
    | some .u16 => some .u16
    | some .u32 => some .u32
    | some .u64 => some .u64
    | some .usize => some .usize
    | some .i8 => some .i8
    | some .i16 => some .i16
    | some .i32 => some .i32
    | some .i64 => some .i64
    | some .isize => some .isize
    | _ => none
  | _ => none

/-- syntax/attrs.rs:247-264 `parse_cxx_name_attribute`. -/
def parseCxxName (r : Readers) : Meta → Option Ident
  | .nameValue (.str s) => r.foreignName s
  | .nameValue (.ident i) => r.foreignName i
  | _ => none

/-- syntax/attrs.rs:266-283 `parse_rust_name_attribute`. -/
def parseRustName (r : Readers) : Meta → Option Ident
  | .nameValue (.str s) => r.identifier s
  | .nameValue (.ident i) => some i
  | _ => none

/-- What the loop of `parse` does with one attribute. -/
inductive Step
  /-- `continue`, with the attribute in `passthrough_attrs` or not, and with the errors that were pushed -/
  | next (f : Found) (pass : Bool) (errors : List AttrErr)
  /-- to the end of the loop's body -/
  | fallThrough (errors : List AttrErr)
  /-- `break` with an error -/
  | stop (e : AttrErr)

/-- syntax/attrs.rs:50-178: the body of the loop, up to its last statement. -/
def step (r : Readers) (w : Wants) (f : Found) (a : Attr) : Step :=
  if a.isIdent "doc" then
    match parseDoc a.content with
    | some d =>
      if w.doc then
        match d with
        | .doc s => .next { f with doc := f.doc ++ [s] } false []
        | .hidden => .next { f with hidden := true } false []
      else .fallThrough []
    | none => .stop (.malformed a)
  else if a.isIdent "derive" then
    match parseDerive a.content with
    | some (ts, es) => if w.derives then .next { f with derives := f.derives ++ ts } false es else .fallThrough es
    | none => .stop (.malformed a)
  else if a.isIdent "repr" then
    match parseRepr a.content with
    | some atom => if w.repr then .next { f with repr := some atom } false [] else .fallThrough []
    | none => .stop (.malformed a)
  else if a.isIdent "namespace" then
    match r.readNamespace a.content with
    | some ns => if w.namespace then .next { f with «namespace» := ns } false [] else .fallThrough []
    | none => .stop (.malformed a)
  else if a.isIdent "cxx_name" then
    match parseCxxName r a.content with
    | some n => if w.cxxName then .next { f with cxxName := some n } false [] else .fallThrough []
    | none => .stop (.malformed a)
  else if a.isIdent "rust_name" then
    match parseRustName r a.content with
    | some n => if w.rustName then .next { f with rustName := some n } false [] else .fallThrough []
    | none => .stop (.malformed a)
  else if a.isIdent "cfg" then
    match r.readCfg a.content with
    | some e => if w.cfg then .next { f with cfg := f.cfg.merge e } true [] else .fallThrough []
    | none => .stop (.malformed a)
  else if a.isIdent "allow" || a.isIdent "warn" || a.isIdent "deny" || a.isIdent "forbid" || a.isIdent "deprecated" ||
      a.isIdent "must_use" then .next f true []
  else if a.isIdent "serde" then .next f true []
  else
    match a.path with
    | tool :: _ :: _ =>
      if tool = "rustfmt" then .next f false []
      else if tool = "clippy" then .next f true []
      else .fallThrough []
    | _ => .fallThrough []

/-- syntax/attrs.rs:47-185 `parse`: the errors, what was found, and the attributes that are passed through. -/
def parseAttrs (r : Readers) (w : Wants) (f : Found) : List Attr → List AttrErr × Found × List Attr
  | [] => ([], f, [])
  | a :: rest =>
    match step r w f a with
    | .next f pass es =>
      match parseAttrs r w f rest with
      | (es', f, others) => (es ++ es', f, if pass then a :: others else others)
    | .fallThrough es =>
      if !w.ignoreUnrecognized then (es ++ [.unsupported a], f, [])
      else
        match parseAttrs r w f rest with
        | (es', f, others) => (es ++ es', f, others)
    | .stop e => ([e], f, [])

end Verif.Parse
