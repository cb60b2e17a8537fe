import Verif.Together.Model
import Verif.Preamble.BuiltinSpec
/-!
# What is left after preprocessing, and which types it defines
-/
namespace Verif.Together
open Verif.Preamble
open Verif.Header (Chunk Chunk.lines Cxx.layout)

/-! ### The preprocessor -/

/-- What a line tells the preprocessor. -/
inductive Directive
  | ifndef (macro_ : Text)
  | define (macro_ : Text)
  /-- `#if` and `#ifdef` -/
  | cond (line : Text)
  | els
  | endif
  /-- no matter -/
  | nothing

/-- What follows these bytes at the start of the line. -/
def after : Text → Text → Option Text
  | [], l => some l
  | _ :: _, [] => none
  | b :: p, c :: l => bif Nat.beq b c then after p l else none

noncomputable def directive (l : Text) : Directive :=
  match l with
  | 35 :: _ =>
    match after b!"#ifndef " l with
    | some g => .ifndef g
    | none => match after b!"#define " l with
      | some g => .define g
      | none => match after b!"#if" l with
        | some _ => .cond l
        | none => match after b!"#else" l with
          | some _ => .els
          | none => match after b!"#endif" l with
            | some _ => .endif
            | none => .nothing
  | _ => .nothing

/-- The other branch of the innermost conditional. -/
def flip : List Bool → List Bool
  | [] => []
  | b :: taken => (!b) :: taken

/-- Reads lines, given which macros are defined and, for each open conditional, whether its current branch is taken.
The conditions other than `#ifndef` are those of the compiler and platform: `cond` says which hold.  The result is the
lines that are left, and the macros that are defined in the end. -/
noncomputable def preprocess (cond : Text → Bool) : List Bool → List Text → List Text → List Text × List Text
  | _, defined, [] => ([], defined)
  | taken, defined, l :: ls =>
    match directive l with
    | .ifndef g => preprocess cond ((!defined.contains g) :: taken) defined ls
    | .cond c => preprocess cond (cond c :: taken) defined ls
    | .els => preprocess cond (flip taken) defined ls
    | .endif => preprocess cond taken.tail defined ls
    | .define g => preprocess cond taken (if taken.all id then g :: defined else defined) ls
    | .nothing =>
      let rest := preprocess cond taken defined ls
      (if taken.all id then l :: rest.1 else rest.1, rest.2)

/-! ### Definitions of types -/

/-- `class` and the like. -/
def typeWord (t : Tok) : Bool := [w!"class", w!"struct", w!"union", w!"enum"].any (Nat.beq t)

inductive Head
  | other | type | namespace_

/-- Reading a text: the names of the open blocks (innermost first; `none` for the body of a function), what the
declaration read so far is, whether its name is being read, and its name backwards. -/
structure Scan where
  blocks : List (Option (List Tok))
  head : Head
  naming : Bool
  name : List Tok

/-- The name with that of the blocks around it. -/
def Scan.full (s : Scan) : List Tok := s.blocks.reverse.flatMap (fun b => (b.getD []).flatMap fun t => [t, w!"::"]) ++ s.name.reverse

/-- The block that a brace opens; inline and unnamed namespaces add nothing to names. -/
def Scan.block (s : Scan) : Option (List Tok) :=
  match s.head with
  | .other => none
  | .type => some s.name.reverse
  | .namespace_ => some (if s.name = [w!"cxxbridge1"] then [] else s.name.reverse)

/-- Reads one token. -/
def Scan.next (s : Scan) (t : Tok) : Scan :=
  bif Nat.beq t w!"{" then ⟨s.block :: s.blocks, .other, false, []⟩
  else bif Nat.beq t w!"}" then ⟨s.blocks.tail, .other, false, []⟩
  else bif Nat.beq t w!";" then ⟨s.blocks, .other, false, []⟩
  else bif typeWord t then ⟨s.blocks, .type, true, []⟩
  else bif Nat.beq t w!"namespace" then ⟨s.blocks, .namespace_, true, []⟩
  else bif Nat.beq t w!"final" || Nat.beq t w!":" then { s with naming := false }
  else bif s.naming then { s with name := t :: s.name }
  else s

/-- The type whose definition begins with this token: `class Str {`, but not `class Str;`. -/
def Scan.defines (s : Scan) (t : Tok) : List (List Tok) :=
  match s.head with
  | .type => bif Nat.beq t w!"{" && s.blocks.all Option.isSome then [s.full] else []
  | _ => []

/-- The types that are defined, and where reading ends. -/
def scan : Scan → List Tok → List (List Tok) × Scan
  | s, [] => ([], s)
  | s, t :: ts => (s.defines t ++ (scan (s.next t) ts).1, (scan (s.next t) ts).2)

/-! ### Translation units -/

/-- The types defined in a translation unit of these files, by their qualified names. -/
noncomputable def definitions (cond : Text → Bool) (unit : List File) : List (List Tok) :=
  (scan ⟨[], .other, false, []⟩ (tokensOf (preprocess cond [] [] (unit.flatMap File.lines)).1)).1

/-- A generated source file. -/
def File.Source : File → Prop
  | .cxx => False
  | .generated o _ => o.header = false

instance : DecidablePred File.Source := fun f => by cases f <;> unfold File.Source <;> infer_instance

/-- The user had rust/cxx.h included. -/
def File.AsksCxx : File → Prop
  | .cxx => False
  | .generated _ custom => UserHasCxx custom

end Verif.Together
