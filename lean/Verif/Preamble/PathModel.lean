import Verif.Preamble.IncludeModel
/-!
# `include!`: from what is written to a line of C++

Text is a list of code points.  The tokens between the parentheses are those of the Rust lexer.
-/
namespace Verif.Preamble

/-- A token of the Rust lexer, with its text. -/
inductive RTok
  | ident (text : Text)
  /-- A number, a character, a byte string and so on; not a string. -/
  | literal (text : Text)
  /-- A string literal, with its value. -/
  | str (value : Text)
  | punct (c : Nat)
  | group
  deriving DecidableEq

/-- An ASCII digit; syntax/parse.rs:1119. -/
def startsWithDigit : Text → Bool
  | c :: _ => decide (48 ≤ c ∧ c ≤ 57)
  | [] => false

/-- syntax/parse.rs:1111-1126: the tokens up to `>`, put together.  `none`: an unexpected token, or no `>`. -/
def bracketedPath (path : Text) : List RTok → Option (Text × List RTok)
  | [] => none
  | .punct c :: ts => if c = 62 then some (path, ts) else bracketedPath (path ++ [c]) ts
  | .ident t :: ts => bracketedPath (path ++ t) ts
  | .literal t :: ts => if startsWithDigit t then bracketedPath (path ++ t) ts else none
  | .str _ :: _ => none
  | .group :: _ => none

/-- syntax/parse.rs:1095-1139 `parse_include` and 387 `parse_body_with`, which wants nothing to be left over. -/
def parseInclude : List RTok → Option Include
  | [.str value] => some ⟨value, .quoted⟩
  | .punct 60 :: ts =>
    match bracketedPath [] ts with
    | some (path, []) => some ⟨path, .bracketed⟩
    | _ => none
  | _ => none

end Verif.Preamble
