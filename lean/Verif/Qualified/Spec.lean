import Verif.Qualified.Model
/-!
# What a qualified name denotes
-/
namespace Verif.Qualified
open Verif.Syntax

/-- A written path `a::b::c` and the names in it. -/
inductive Path (rawOk : Bool) : List Tok → List Ident → Prop
  | last (raw : Bool) (n : Ident) (h : raw = true → rawOk = true) : Path rawOk [.ident raw n] [n]
  | cons (raw : Bool) (n : Ident) (h : raw = true → rawOk = true) {ts : List Tok} {ns : List Ident}
      (rest : Path rawOk ts ns) : Path rawOk (.ident raw n :: .colons :: ts) (n :: ns)

/-- A path with or without a leading `::`. -/
def Written (rawOk : Bool) (ts : List Tok) (ns : List Ident) : Prop :=
  Path rawOk ts ns ∨ ∃ ts', ts = .colons :: ts' ∧ Path rawOk ts' ns

/-- What a string literal denotes: the empty one the root namespace, any other the path written in it. -/
inductive Quoted : Bool → Option (List Tok) → List Ident → Prop
  | empty (inner : Option (List Tok)) : Quoted true inner []
  | path {ts : List Tok} {ns : List Ident} (h : Written false ts ns) : Quoted false (some ts) ns

/-- What the arguments of `#[cxx::bridge(..)]` denote. -/
inductive BridgeArgs : List Tok → Namespace → Prop
  | none : BridgeArgs [] []
  | quoted {e : Bool} {i : Option (List Tok)} {ns : Namespace} (h : Quoted e i ns) (comma : List Tok)
      (hc : comma = [] ∨ comma = [.comma]) :
      BridgeArgs (.ident false "namespace" :: .eq :: .lit e i :: comma) ns
  | unquoted {ts : List Tok} {ns : Namespace} (h : Written true ts ns) (comma : List Tok)
      (hc : comma = [] ∨ comma = [.comma]) :
      BridgeArgs (.ident false "namespace" :: .eq :: ts ++ comma) ns

/-- What the value of a `#[namespace = ..]` attribute denotes: an unquoted path denotes its names. -/
inductive AttrValue : Expr → Namespace → Prop
  | quoted {e : Bool} {i : Option (List Tok)} {ns : Namespace} (h : Quoted e i ns) : AttrValue (.litStr e i) ns
  | path (leadingColon : Bool) (segs : List PathSegment) (h : ∀ s ∈ segs, s.arguments = false) :
      AttrValue (.path false leadingColon segs) (segs.map (·.name))

/-- The value of an attribute has no raw identifier in it. -/
def NoRaw : Expr → Prop
  | .path _ _ segs => ∀ s ∈ segs, s.raw = false
  | _ => True

/-- The attributes on one item: the last one counts. -/
def Governs (attrs : List (Option Expr)) (inherited ns : Namespace) : Prop :=
  (attrs = [] ∧ ns = inherited) ∨ ∃ front e, attrs = front ++ [some e] ∧ AttrValue e ns

/-- What a C++ programmer writes: identifiers separated by `::`. -/
def print : List Ident → List Tok
  | [] => []
  | [n] => [.ident false n]
  | n :: rest => .ident false n :: .colons :: print rest

/-- The name without `r#`. -/
def plainName (s : Ident) : List Char :=
  if s.toList.take 2 = ['r', '#'] then s.toList.drop 2 else s.toList

/-- A proper identifier, raw or not. -/
def Proper (s : Ident) : Prop := plainName s ≠ []

end Verif.Qualified
