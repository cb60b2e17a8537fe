import Verif.Types.Model
import Verif.Out.Model
/-!
# `gen/src/nested.rs`, `gen/src/namespace.rs`, and the forward declarations of `gen/src/write.rs`

`none` is a panic, or that the fuel ran out.
-/
namespace Verif.Nested
open Verif.Syntax Verif.Types Verif.Out

/-- gen/src/namespace.rs:5-13 `Api::namespace`. -/
def apiNamespace : Api → Namespace
  | .cxxFunction f | .rustFunction f => f.name.ns
  | .cxxType t | .rustType t => t.name.ns
  | .enum e => e.name.ns
  | .struct s => s.name.ns
  | .impl _ | .include _ | .typeAlias _ => []

/-- gen/src/nested.rs:5-8 `struct NamespaceEntries`. -/
inductive Entries (α : Type)
  | mk (direct : List α) (nested : List (Ident × Entries α))

variable {α : Type}

/-- The vectors of the loop in `sort_by_inner_namespace`. -/
structure Groups (α : Type) where
  direct : List α
  nested : List (Ident × List α)
  index : List (Ident × Nat)

/-- gen/src/nested.rs:40: `nested_namespaces[index].1.push(*api)`. -/
def pushAt (a : α) : List (Ident × List α) → Nat → Option (List (Ident × List α))
  | [], _ => none
  | (k, as) :: rest, 0 => some ((k, as ++ [a]) :: rest)
  | g :: rest, i + 1 => (pushAt a rest i).map (g :: ·)

/-- gen/src/nested.rs:31-43: one iteration of the loop. -/
def groupStep (nsOf : α → Namespace) (depth : Nat) (g : Groups α) (a : α) : Option (Groups α) :=
  match (nsOf a)[depth]? with
  | some first =>
    match mapGet g.index first with
    | none => some { g with index := mapInsert g.index first g.nested.length, nested := g.nested ++ [(first, [a])] }
    | some i => (pushAt a g.nested i).map ({ g with nested := · })
  | none => some { g with direct := g.direct ++ [a] }

/-- gen/src/nested.rs:31-43: the loop. -/
def groupAll (nsOf : α → Namespace) (depth : Nat) : Groups α → List α → Option (Groups α)
  | g, [] => some g
  | g, a :: rest =>
    match groupStep nsOf depth g a with
    | none => none
    | some g => groupAll nsOf depth g rest

/-- gen/src/nested.rs:46-48: `into_iter().map(..).collect()`. -/
def sortAll (sort : List α → Option (Entries α)) : List (Ident × List α) → Option (List (Ident × Entries α))
  | [] => some []
  | (k, as) :: rest =>
    match sort as with
    | none => none
    | some e => (sortAll sort rest).map ((k, e) :: ·)

/-- gen/src/nested.rs:26-51 `sort_by_inner_namespace`; the recursion takes fuel. -/
def sortByInnerNamespace (nsOf : α → Namespace) : (fuel depth : Nat) → List α → Option (Entries α)
  | 0, _, _ => none
  | fuel + 1, depth, apis =>
    match groupAll nsOf depth ⟨[], [], []⟩ apis with
    | none => none
    | some g => (sortAll (sortByInnerNamespace nsOf fuel (depth + 1)) g.nested).map (.mk g.direct ·)

/-- gen/src/nested.rs:11-13 `NamespaceEntries::new`. -/
def entries (nsOf : α → Namespace) (fuel : Nat) (apis : List α) : Option (Entries α) :=
  sortByInnerNamespace nsOf fuel 0 apis

mutual
/-- gen/src/write.rs:72-91 `write` in `write_forward_declarations`: the declaration of each direct item, then a
block per nested namespace.  `decl` gives the text of a declaration; the indentation is left out. -/
def writeForward (decl : α → String) : Entries α → List Piece
  | .mk direct nested => direct.map (fun a => .text (decl a)) ++ writeNested decl nested
/-- gen/src/write.rs:86-90: the loop over the nested namespaces. -/
def writeNested (decl : α → String) : List (Ident × Entries α) → List Piece
  | [] => []
  | (k, e) :: rest =>
    .open (.userDefinedNamespace k) :: writeForward decl e ++ [.close (.userDefinedNamespace k)] ++ writeNested decl rest
end

end Verif.Nested
