import Verif.Preamble.PathModel
/-!
# What a C++ preprocessor reads
-/
namespace Verif.Preamble

/-- Lines end at a line feed or carriage return. -/
def OneLine (t : Text) : Prop := ∀ c ∈ t, c ≠ 10 ∧ c ≠ 13

/-- The header a directive names: `#include`, a blank, and either everything between two quotes or everything between
angle brackets, where a backslash means nothing special ([lex.header]); then the end of the line. -/
inductive Names : Text → Kind → Text → Prop
  | quoted (header : Text) : OneLine header → 34 ∉ header →
      Names ("#include \"".toList.map Char.toNat ++ header ++ [34]) .quoted header
  | bracketed (header : Text) : OneLine header → 62 ∉ header →
      Names ("#include <".toList.map Char.toNat ++ header ++ [62]) .bracketed header

/-- A character that may be in a header's name without trouble: a visible one or a blank, but no quote or backslash. -/
def Plain (c : Nat) : Prop := 32 ≤ c ∧ c ≤ 126 ∧ c ≠ 34 ∧ c ≠ 39 ∧ c ≠ 92

instance (c : Nat) : Decidable (Plain c) := by unfold Plain; infer_instance

/-- What is in a source file: tokens, each with the blanks and comments before it. -/
abbrev Written := List (Text × RTok)

/-- The text of a token; of a group or string not used. -/
def RTok.source : RTok → Text
  | .ident t | .literal t => t
  | .punct c => [c]
  | .str _ | .group => []

/-- The text in the source file. -/
def Written.text (w : Written) : Text := w.flatMap fun x => x.1 ++ x.2.source

def StartsWithDigit (t : Text) : Prop := ∃ d ∈ "0123456789".toList, ∃ rest, t = d.toNat :: rest

/-- A token a path may consist of: a word, a number or a sign, as the Rust lexer has them (no line ends and no `>` inside). -/
def RTok.OfPath : RTok → Prop
  | .ident t => t ≠ [] ∧ OneLine t ∧ 62 ∉ t
  | .literal t => StartsWithDigit t ∧ OneLine t ∧ 62 ∉ t
  | .punct c => c ≠ 10 ∧ c ≠ 13 ∧ c ≠ 62
  | .str _ | .group => False

end Verif.Preamble
