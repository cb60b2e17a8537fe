/-!
# `gen/src/ifndef.rs`: copying a section of rust/cxx.h

Text is a list of bytes, as `str` is in Rust.  The functions of `str` used here are modelled for ASCII text, which
the header is.
-/
namespace Verif.Header

abbrev Text := List Nat

/-- `str::starts_with`. -/
def startsWith : Text → Text → Bool
  | _, [] => true
  | [], _ :: _ => false
  | a :: s, b :: p => decide (a = b) && startsWith s p

/-- `str::find`: the first position. -/
def find : Text → Text → Option Nat
  | [], p => if startsWith [] p then some 0 else none
  | a :: rest, p => if startsWith (a :: rest) p then some 0 else (find rest p).map (· + 1)

/-- gen/src/ifndef.rs:37-46 `find_line`.  The loop takes fuel; it gives up a byte at least each time. -/
def findLine (header : Text) (line : Text) : Nat → Nat → Option Nat
  | 0, _ => none
  | fuel + 1, offset =>
    match find (header.drop offset) line with
    | none => none
    | some i =>
      let offset := offset + i
      let rest := header.drop (offset + line.length)
      if startsWith rest [10] || startsWith rest [13] then some offset
      else findLine header line fuel (offset + line.length)

/-- `char::is_whitespace` on ASCII. -/
def isSpace (b : Nat) : Bool := decide (b = 32) || (decide (9 ≤ b) && decide (b ≤ 13))

/-- `str::trim_start`. -/
def trimStart (s : Text) : Text := s.dropWhile isSpace

/-- `str::trim`. -/
def trim (s : Text) : Text := (trimStart (trimStart s).reverse).reverse

/-- `str::lines`, but for the `\r` in front of a `\n`. -/
def splitLines : Text → List Text
  | [] => []
  | b :: s =>
    if b = 10 then [] :: splitLines s
    else match splitLines s with
      | [] => [[b]]
      | l :: ls => (b :: l) :: ls

/-- `str::lines`: without the `\r`. -/
def lines (s : Text) : List Text :=
  (splitLines s).map fun l => if l.getLast? = some 13 then l.dropLast else l

/-- What is sent to the output. -/
inductive Emit
  | nextSection
  | line (s : Text)
  deriving DecidableEq

/-- The three texts made from a guard. -/
def ifndefOf (guard : Text) : Text := [35, 105, 102, 110, 100, 101, 102, 32] ++ guard
def defineOf (guard : Text) : Text := [35, 100, 101, 102, 105, 110, 101, 32] ++ guard
def endifOf (guard : Text) : Text := [35, 101, 110, 100, 105, 102, 32, 47, 47, 32] ++ guard

/-- gen/src/ifndef.rs:23-27: the loop over the lines. -/
def copy (define : Text) (body : Text) : List Emit :=
  ((lines (trim body)).filter fun line => decide (line ≠ define) && !startsWith (trimStart line) [47, 47]).map .line

/-- gen/src/ifndef.rs:9-34: the loop of `write`; `none` is a panic.  It takes fuel; each turn moves on past an
`#endif`. -/
def writeLoop (header : Text) (needed : Bool) (guard : Text) : Nat → Nat → Option (List Emit)
  | 0, _ => none
  | fuel + 1, offset =>
    match findLine header (ifndefOf guard) (header.length + 1) offset,
          findLine header (endifOf guard) (header.length + 1) offset with
    | some begin, some «end» =>
      if !needed then some []
      else if «end» < begin + (ifndefOf guard).length then none
      else
        let body := (header.take «end»).drop (begin + (ifndefOf guard).length)
        (writeLoop header needed guard fuel («end» + (endifOf guard).length)).map fun rest =>
          [.nextSection] ++ (if offset = 0 then [.line (ifndefOf guard), .line (defineOf guard)] else []) ++
            copy (defineOf guard) body ++ rest
    | _, _ => if offset = 0 then none else some [.line (endifOf guard)]

/-- gen/src/ifndef.rs:4-35 `write`. -/
def write (header : Text) (needed : Bool) (guard : Text) : Option (List Emit) :=
  writeLoop header needed guard (header.length + 1) 0

end Verif.Header
