/-!
# Unicode encoding forms, from the Unicode Standard (table 3-5, 3-6; D76, D84-D93, U+FFFD practice)

Nothing here refers to the model.
-/
namespace Verif.Utf8.Spec

/-- Unicode scalar value (D76). -/
def IsScalar (c : Nat) : Prop := c < 0xD800 ∨ (0xE000 ≤ c ∧ c < 0x110000)

/-- UTF-8 encoding of a scalar value (table 3-6). -/
def encode8 (c : Nat) : List Nat :=
  if c < 0x80 then [c]
  else if c < 0x800 then [0xC0 + c / 64, 0x80 + c % 64]
  else if c < 0x10000 then [0xE0 + c / 4096, 0x80 + c / 64 % 64, 0x80 + c % 64]
  else [0xF0 + c / 262144, 0x80 + c / 4096 % 64, 0x80 + c / 64 % 64, 0x80 + c % 64]

/-- UTF-16 encoding of a scalar value (table 3-5). -/
def encode16 (c : Nat) : List Nat :=
  if c < 0x10000 then [c] else [0xD800 + (c - 0x10000) / 1024, 0xDC00 + (c - 0x10000) % 1024]

/-- Well-formed UTF-8: a concatenation of encodings of scalar values. -/
def WellFormed8 (bs : List Nat) : Prop := ∃ cs : List Nat, (∀ c ∈ cs, IsScalar c) ∧ bs = cs.flatMap encode8

/-- Well-formed UTF-16. -/
def WellFormed16 (us : List Nat) : Prop := ∃ cs : List Nat, (∀ c ∈ cs, IsScalar c) ∧ us = cs.flatMap encode16

/-- `p` is a non-empty, proper beginning of the encoding of some scalar value. -/
def Incomplete (p : List Nat) : Prop :=
  p ≠ [] ∧ ∃ c q, IsScalar c ∧ q ≠ [] ∧ encode8 c = p ++ q

/-- Some scalar value's encoding is at the front of `bs`. -/
def StartsWithChar (bs : List Nat) : Prop := ∃ c rest, IsScalar c ∧ bs = encode8 c ++ rest

/-- `bad` is the maximal ill-formed subsequence at the front of `bad ++ rest`: no character starts
there, and `bad` is either the longest incomplete beginning of a character found there, or a single
byte when not even the first byte begins a character. -/
def MaximalIllFormed (bad rest : List Nat) : Prop :=
  ¬ StartsWithChar (bad ++ rest) ∧
  (∀ p s, Incomplete p → bad ++ rest = p ++ s → p.length ≤ bad.length) ∧
  (Incomplete bad ∨ (bad.length = 1 ∧ ¬ Incomplete bad))

/-- Splitting of a byte string into characters and maximal ill-formed subsequences. -/
inductive Piece
  | char (c : Nat)
  | bad (bytes : List Nat)

/-- `Pieces bs ps`: `ps` is the decomposition of `bs`. -/
inductive Pieces : List Nat → List Piece → Prop
  | nil : Pieces [] []
  | char {c rest ps} : IsScalar c → Pieces rest ps → Pieces (encode8 c ++ rest) (.char c :: ps)
  | bad {bad rest ps} : bad ≠ [] → MaximalIllFormed bad rest → Pieces rest ps →
      Pieces (bad ++ rest) (.bad bad :: ps)

/-- `Lossy16 us cs`: `cs` are the scalar values of `us`, with one U+FFFD for each surrogate code unit
that is not part of a high-low pair. -/
inductive Lossy16 : List Nat → List Nat → Prop
  | nil : Lossy16 [] []
  | char {c rest cs} : IsScalar c → Lossy16 rest cs → Lossy16 (encode16 c ++ rest) (c :: cs)
  | bad {u rest cs} : 0xD800 ≤ u → u ≤ 0xDFFF → (¬ ∃ c r, IsScalar c ∧ u :: rest = encode16 c ++ r) →
      Lossy16 rest cs → Lossy16 (u :: rest) (0xFFFD :: cs)

/-- Replace each ill-formed piece by U+FFFD. -/
def lossy (ps : List Piece) : List Nat :=
  ps.flatMap fun p => match p with
    | .char c => encode8 c
    | .bad _ => encode8 0xFFFD

/-- `hexDigits n ds`: `ds` is the shortest lower-case hexadecimal numeral of `n`. -/
def digitValue (d : Nat) : Nat := if d ≤ 57 then d - 48 else d - 87
def isHexDigit (d : Nat) : Prop := (48 ≤ d ∧ d ≤ 57) ∨ (97 ≤ d ∧ d ≤ 102)
def IsHexNumeral (n : Nat) (ds : List Nat) : Prop :=
  (∀ d ∈ ds, isHexDigit d) ∧ ds.foldl (fun a d => a * 16 + digitValue d) 0 = n

/-- How `str`'s `Debug` shows the character `c`, given which characters are printable without
escape (`plain c`): the usual backslash escapes, a plain character as itself, anything else as
`\u{…}`. A single quote is not escaped inside a string. -/
inductive ShowsChar (plain : Nat → Prop) : Nat → List Nat → Prop
  | nul : ShowsChar plain 0 [92, 48]
  | tab : ShowsChar plain 9 [92, 116]
  | cr : ShowsChar plain 13 [92, 114]
  | lf : ShowsChar plain 10 [92, 110]
  | backslash : ShowsChar plain 92 [92, 92]
  | doubleQuote : ShowsChar plain 34 [92, 34]
  | singleQuote : ShowsChar plain 39 [39]
  | plain {c} : c ∉ [0, 9, 13, 10, 92, 34, 39] → plain c → ShowsChar plain c (encode8 c)
  | unicode {c ds} : c ∉ [0, 9, 13, 10, 92, 34, 39] → ¬ plain c → ds ≠ [] →
      (ds.head? = some 48 → ds = [48]) → IsHexNumeral c ds → ShowsChar plain c ([92, 117, 123] ++ ds ++ [125])

/-- `\xNN` with two hexadecimal digits. -/
inductive ShowsByte : Nat → List Nat → Prop
  | mk {b h l} : IsHexNumeral b [h, l] → ShowsByte b [92, 120, h, l]

/-- Concatenation of one output for each element. -/
inductive ShowsAll {α : Type} (R : α → List Nat → Prop) : List α → List Nat → Prop
  | nil : ShowsAll R [] []
  | cons {a as o os} : R a o → ShowsAll R as os → ShowsAll R (a :: as) (o ++ os)

/-- How a piece is shown by Debug. -/
def ShowsPiece (plain : Nat → Prop) : Piece → List Nat → Prop
  | .char c, o => ShowsChar plain c o
  | .bad bs, o => ShowsAll ShowsByte bs o

end Verif.Utf8.Spec
