import Verif.Report.Model
/-!
# What it is for an error to be reported where it is

Only the types `Pos`, `Err` and `Diagnostic` of the model are used here.
-/
namespace Verif.Report.Spec
open Verif.Report

/-- The number of bytes of a text in UTF-8. -/
def bytes (text : List Char) : Nat := (text.map Char.utf8Size).sum

/-- The position just after the text `before`: one line more than it has
newlines, and as many columns as it has characters after the last of them. -/
def posAfter (before : List Char) : Pos :=
  { line := 1 + before.count '\n'
    column := (before.reverse.takeWhile (· ≠ '\n')).length }

/-- The span of `e` is the piece `inside` of a text `before ++ inside ++ after`. -/
def Spans (e : Err) (before inside : List Char) : Prop :=
  e.start = posAfter before ∧ e.stop = posAfter (before ++ inside)

/-- The span of `e` is a piece of `text`. -/
def SpanIn (text : List Char) (e : Err) : Prop :=
  ∃ before inside after, text = before ++ inside ++ after ∧ Spans e before inside

/-- `d` shows `e` at the piece `inside` of `text`: it carries the message and
marks exactly the bytes of that piece. -/
def ShowsAt (text : List Char) (e : Err) (d : Diagnostic) : Prop :=
  d.message = e.message ∧
  ∃ before inside after, text = before ++ inside ++ after ∧ Spans e before inside ∧
    d.from_ = bytes before ∧ d.to_ = bytes (before ++ inside)

/-- `a` starts no later in the file than `b`. -/
def NotAfter (a b : Err) : Prop :=
  a.start.line < b.start.line ∨ a.start.line = b.start.line ∧ a.start.column ≤ b.start.column

/-- The entries of two lists of one length are related, pair by pair. -/
def Each {α β : Type} (R : α → β → Prop) : List α → List β → Prop
  | [], [] => True
  | a :: l, b :: m => R a b ∧ Each R l m
  | _, _ => False

/-- `ds` shows each of `errors` once, in the order of the file, and the errors
that start at one place in the order in which they were found. -/
def ShowsAll (text : List Char) (errors : List Err) (ds : List Diagnostic) : Prop :=
  ∃ sorted : List Err,
    sorted.Perm errors ∧ sorted.Pairwise NotAfter ∧
    (∀ p, sorted.filter (·.start = p) = errors.filter (·.start = p)) ∧
    Each (ShowsAt text) sorted ds

end Verif.Report.Spec
