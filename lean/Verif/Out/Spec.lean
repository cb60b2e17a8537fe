import Verif.Out.Model
/-!
# Properly nested output
-/
namespace Verif.Out
open Verif.Syntax

/-- The blocks of a namespace, outermost first. -/
def nsBlocks (ns : Namespace) : List Block := ns.map .userDefinedNamespace

/-- A text together with the blocks it is in, outermost first. -/
abbrev Placed := String × List Block

/-- `Nested S ns calls P S' ns'`: with the blocks `S` open (outermost first) and the namespace `ns` set, the
calls are properly nested, the non-empty texts written are `P`, each with the blocks open at that moment, and
`S'` and `ns'` are left. -/
inductive Nested : List Block → Namespace → List Call → List Placed → List Block → Namespace → Prop
  | done (S : List Block) (ns : Namespace) : Nested S ns [] [] S ns
  | write {S S' : List Block} {ns ns' : Namespace} {cs : List Call} {P : List Placed} (s : String) (hs : s ≠ "")
      (h : Nested S ns cs P S' ns') : Nested S ns (.write s :: cs) ((s, S) :: P) S' ns'
  | nothing {S S' : List Block} {ns ns' : Namespace} {cs : List Call} {P : List Placed}
      (h : Nested S ns cs P S' ns') : Nested S ns (.write "" :: cs) P S' ns'
  | section {S S' : List Block} {ns ns' : Namespace} {cs : List Call} {P : List Placed}
      (h : Nested S ns cs P S' ns') : Nested S ns (.nextSection :: cs) P S' ns'
  | begin {S S' : List Block} {ns ns' : Namespace} {cs : List Call} {P : List Placed} (b : Block)
      (h : Nested (S ++ [b]) ns cs P S' ns') : Nested S ns (.beginBlock b :: cs) P S' ns'
  | end {S S' : List Block} {ns ns' : Namespace} {cs : List Call} {P : List Placed} (b : Block)
      (h : Nested S ns cs P S' ns') : Nested (S ++ [b]) ns (.endBlock b :: cs) P S' ns'
  | setNamespace {S S' : List Block} {ns ns' : Namespace} {cs : List Call} {P : List Placed} (new : Namespace)
      (h : Nested (S ++ nsBlocks new) new cs P S' ns') :
      Nested (S ++ nsBlocks ns) ns (.setNamespace new :: cs) P S' ns'

/-- `Reads S out P S'`: in the context of the open blocks `S`, every closing in `out` closes the innermost open
block, the texts in it are `P` with the blocks around them, and `S'` is left open. -/
inductive Reads : List Block → List Piece → List Placed → List Block → Prop
  | done (S : List Block) : Reads S [] [] S
  | text {S S' : List Block} {out : List Piece} {P : List Placed} (s : String) (h : Reads S out P S') :
      Reads S (.text s :: out) ((s, S) :: P) S'
  | newline {S S' : List Block} {out : List Piece} {P : List Placed} (h : Reads S out P S') :
      Reads S (.newline :: out) P S'
  | open {S S' : List Block} {out : List Piece} {P : List Placed} (b : Block) (h : Reads (S ++ [b]) out P S') :
      Reads S (.open b :: out) P S'
  | close {S S' : List Block} {out : List Piece} {P : List Placed} (b : Block) (h : Reads S out P S') :
      Reads (S ++ [b]) (.close b :: out) P S'

/-- No block is closed before any text has been written since the last opening. -/
def NoEmptyBlock (out : List Piece) : Prop :=
  ∀ p q r b b', out = p ++ .open b :: q ++ .close b' :: r → ∃ s, .text s ∈ q

/-- How often a character occurs. -/
def occurrences (c : Char) (s : String) : Nat := s.toList.count c

end Verif.Out
