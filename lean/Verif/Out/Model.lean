import Verif.Syntax.Ast
/-!
# `gen/src/out.rs`, `gen/src/block.rs`

The output is kept as a list of pieces instead of one string; `render` gives the string.  `none` is a panic.
-/
namespace Verif.Out
open Verif.Syntax

/-- gen/src/block.rs:3-10 `enum Block`. -/
inductive Block
  | anonymousNamespace
  | builtinNamespace (name : String)
  | userDefinedNamespace (name : Ident)
  | inlineNamespace (name : String)
  | externC
  deriving DecidableEq, Repr

/-- gen/src/block.rs:27-44 `write_common`. -/
def Block.common : Block → String
  | .anonymousNamespace => "namespace"
  | .builtinNamespace name => "namespace " ++ name
  | .userDefinedNamespace name => "namespace " ++ name
  | .inlineNamespace name => "namespace " ++ name
  | .externC => "extern \"C\""

/-- gen/src/block.rs:14-16: the word in front of an opening. -/
def Block.inlineWord : Block → String
  | .inlineNamespace _ => "inline "
  | _ => ""

/-- gen/src/block.rs:13-19 `write_begin`. -/
def Block.writeBegin (b : Block) : String := b.inlineWord ++ b.common ++ " {\n"

/-- gen/src/block.rs:21-25 `write_end`. -/
def Block.writeEnd (b : Block) : String := "} // " ++ b.common ++ "\n"

/-- gen/src/out.rs:29-32 `enum BlockBoundary`. -/
inductive Boundary
  | begin (b : Block)
  | end (b : Block)
  deriving DecidableEq, Repr

/-- gen/src/out.rs:204-209 `BlockBoundary::rev`. -/
def Boundary.rev : Boundary → Boundary
  | .begin b => .end b
  | .end b => .begin b

/-- A piece of output. -/
inductive Piece
  | text (s : String)
  | newline
  | open (b : Block)
  | close (b : Block)
  deriving DecidableEq, Repr

def Piece.render : Piece → String
  | .text s => s
  | .newline => "\n"
  | .open b => b.writeBegin
  | .close b => b.writeEnd

/-- gen/src/out.rs:20-26 `struct Content`. -/
structure Content where
  bytes : List Piece
  nspace : Namespace
  blocks : List Boundary
  sectionPending : Bool
  blocksPending : Nat

/-- gen/src/out.rs:111-113 `Content::new`. -/
def Content.new : Content := ⟨[], [], [], false, 0⟩

/-- gen/src/out.rs:115-117 `next_section`. -/
def Content.nextSection (c : Content) : Content := { c with sectionPending := true }

/-- gen/src/out.rs:155-163 `push_block_boundary`. -/
def Content.pushBlockBoundary (c : Content) (boundary : Boundary) : Option Content :=
  if c.blocksPending > 0 then
    match c.blocks.getLast? with
    | none => none
    | some last =>
      if boundary = last.rev then
        some { c with blocks := c.blocks.dropLast, blocksPending := c.blocksPending - 1 }
      else some { c with blocks := c.blocks ++ [boundary], blocksPending := c.blocksPending + 1 }
  else some { c with blocks := c.blocks ++ [boundary], blocksPending := c.blocksPending + 1 }

/-- gen/src/out.rs:119-121 `begin_block`. -/
def Content.beginBlock (c : Content) (b : Block) : Option Content := c.pushBlockBoundary (.begin b)

/-- gen/src/out.rs:123-125 `end_block`. -/
def Content.endBlock (c : Content) (b : Block) : Option Content := c.pushBlockBoundary (.end b)

/-- gen/src/out.rs:128-130: the first loop of `set_namespace`, over the reversed namespace. -/
def Content.endAll (c : Content) : List Ident → Option Content
  | [] => some c
  | name :: rest =>
    match c.endBlock (.userDefinedNamespace name) with
    | none => none
    | some c => c.endAll rest

/-- gen/src/out.rs:131-133: the second loop. -/
def Content.beginAll (c : Content) : List Ident → Option Content
  | [] => some c
  | name :: rest =>
    match c.beginBlock (.userDefinedNamespace name) with
    | none => none
    | some c => c.beginAll rest

/-- gen/src/out.rs:127-135 `set_namespace`. -/
def Content.setNamespace (c : Content) (ns : Namespace) : Option Content :=
  match c.endAll c.nspace.reverse with
  | none => none
  | some c =>
    match c.beginAll ns with
    | none => none
    | some c => some { c with nspace := ns }

/-- gen/src/out.rs:178-202: the loop of `flush_blocks`.  `todo` is `blocks.len() - read`. -/
def flushLoop : (todo read write : Nat) → List Boundary → (sectionPending : Bool) → List Piece →
    Option (Nat × List Boundary × Bool × List Piece)
  | 0, _, write, blocks, pending, bytes => some (write, blocks, pending, bytes)
  | todo + 1, read, write, blocks, pending, bytes =>
    match blocks[read]? with
    | none => none
    | some (.begin b) =>
      let bytes := if pending then bytes ++ [.newline] else bytes
      flushLoop todo (read + 1) (write + 1) (blocks.set write (.begin b)) false (bytes ++ [.open b])
    | some (.end b) =>
      match write with
      | 0 => none
      | write + 1 =>
        if blocks[write]? = some (.begin b) then
          flushLoop todo (read + 1) write blocks true (bytes ++ [.close b])
        else none

/-- gen/src/out.rs:172-200 `flush_blocks`. -/
def Content.flushBlocks (c : Content) : Option Content :=
  let read := c.blocks.length - c.blocksPending
  match flushLoop (c.blocks.length - read) read read c.blocks (!c.bytes.isEmpty) c.bytes with
  | none => none
  | some (write, blocks, pending, bytes) =>
    some { c with bytes, blocks := blocks.take write, sectionPending := pending }

/-- gen/src/out.rs:141-153 `write`. -/
def Content.write (c : Content) (s : String) : Option Content :=
  if s = "" then some c
  else
    match (if c.blocksPending > 0 then c.flushBlocks else some c) with
    | none => none
    | some c =>
      let bytes := if c.sectionPending && !c.bytes.isEmpty then c.bytes ++ [.newline] else c.bytes
      some { c with bytes := bytes ++ [.text s], sectionPending := false, blocksPending := 0 }

/-- gen/src/out.rs:165-170 `flush`. -/
def Content.flush (c : Content) : Option Content :=
  match c.setNamespace [] with
  | none => none
  | some c => if c.blocksPending > 0 then c.flushBlocks else some c

/-- A call of the generator. -/
inductive Call
  | write (s : String)
  | nextSection
  | beginBlock (b : Block)
  | endBlock (b : Block)
  | setNamespace (ns : Namespace)

/-- One call. -/
def Content.call (c : Content) : Call → Option Content
  | .write s => c.write s
  | .nextSection => some c.nextSection
  | .beginBlock b => c.beginBlock b
  | .endBlock b => c.endBlock b
  | .setNamespace ns => c.setNamespace ns

/-- A sequence of calls. -/
def Content.calls (c : Content) : List Call → Option Content
  | [] => some c
  | x :: rest => match c.call x with
    | none => none
    | some c => c.calls rest

/-- gen/src/out.rs:68-88 `OutFile::content` for the main part: everything written, then flushed. -/
def output (calls : List Call) : Option (List Piece) :=
  match Content.new.calls calls with
  | none => none
  | some c => c.flush.map (·.bytes)

end Verif.Out
