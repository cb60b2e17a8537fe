import Verif.Header.Model
/-!
# A header with guarded sections

A header is given by its lines.  Some runs of lines stand between `#ifndef G` and `#endif // G`.
-/
namespace Verif.Header

inductive Chunk
  | text (line : Text)
  | guarded (guard : Text) (body : List Text)

/-- `#ifndef `, `#define ` and `#endif // ` in ASCII. -/
def ifndef : Text := [35, 105, 102, 110, 100, 101, 102, 32]
def define : Text := [35, 100, 101, 102, 105, 110, 101, 32]
def endif : Text := [35, 101, 110, 100, 105, 102, 32, 47, 47, 32]

/-- The lines of the chunk. -/
def Chunk.lines : Chunk → List Text
  | .text l => [l]
  | .guarded g body => (ifndef ++ g) :: body ++ [endif ++ g]

/-- The text of the header: every line ends in a newline. -/
def textOf (layout : List Chunk) : Text := layout.flatMap fun c => c.lines.flatMap (· ++ [10])

/-- The sections of a guard. -/
def bodies (guard : Text) (layout : List Chunk) : List (List Text) :=
  layout.filterMap fun
    | .text _ => none
    | .guarded g body => if g = guard then some body else none

/-- The lines that do not mark the sections of a guard. -/
def others (guard : Text) (layout : List Chunk) : List Text :=
  layout.flatMap fun
    | .text l => [l]
    | .guarded g body => if g = guard then body else (ifndef ++ g) :: body ++ [endif ++ g]

/-- Neither a newline nor a carriage return in it. -/
def OneLine (t : Text) : Prop := 10 ∉ t ∧ 13 ∉ t

/-- The line `l` ends with `t`. -/
def EndsWith (l t : Text) : Prop := ∃ s, l = s ++ t

/-- Space, tab and the like. -/
def Blank (b : Nat) : Prop := b = 32 ∨ (9 ≤ b ∧ b ≤ 13)

/-- `core` is `body` without the empty lines around it; it starts and ends with something other than blanks. -/
def Trimmed (body core : List Text) : Prop :=
  (∃ i j, body = List.replicate i [] ++ core ++ List.replicate j []) ∧
  (∃ b l rest, core = (b :: l) :: rest ∧ ¬ Blank b) ∧ (∃ init l b, core = init ++ [l ++ [b]] ∧ ¬ Blank b)

/-- The layout is a proper one for this guard. -/
structure Proper (guard : Text) (layout : List Chunk) : Prop where
  guardLine : OneLine guard
  guardHash : 35 ∉ guard
  oneLine : ∀ c ∈ layout, ∀ l ∈ c.lines, OneLine l
  noOther : ∀ l ∈ others guard layout, ¬ EndsWith l (ifndef ++ guard) ∧ ¬ EndsWith l (endif ++ guard)
  solid : ∀ body ∈ bodies guard layout, ∃ core, Trimmed body core

/-- A line comment, maybe indented. -/
def IsComment (l : Text) : Prop := ∃ blanks rest, l = blanks ++ 47 :: 47 :: rest ∧ ∀ b ∈ blanks, Blank b

/-- `kept` is `body` without the comments and the lines that are `define`, in order. -/
inductive Kept (define : Text) : List Text → List Text → Prop
  | nil : Kept define [] []
  | drop {l : Text} {body kept : List Text} (h : l = define ∨ IsComment l) (hk : Kept define body kept) :
      Kept define (l :: body) kept
  | keep {l : Text} {body kept : List Text} (h : l ≠ define) (h' : ¬ IsComment l) (hk : Kept define body kept) :
      Kept define (l :: body) (l :: kept)

/-- The output for the sections after the first line. -/
inductive Copied (guard : Text) : List (List Text) → List Emit → Prop
  | nil : Copied guard [] []
  | cons {body core kept : List Text} {rest : List (List Text)} {out : List Emit} (ht : Trimmed body core)
      (h : Kept (define ++ guard) core kept) (hr : Copied guard rest out) : Copied guard (body :: rest) (.nextSection :: kept.map .line ++ out)

end Verif.Header
