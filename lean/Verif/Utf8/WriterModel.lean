import Verif.Utf8.Model
/-!
# `src/lossy.rs` with a writer that may fail

`Verif/Utf8/Model.lean` has what is written in the end; here are the calls of the formatter one by one, the `?` behind each, and
the slices, which panic when they are out of bounds or cut a character.
-/
namespace Verif.Utf8

/-- The `fmt::Formatter`: what `write_str` and `write_char` do to it, and whether they succeed.  A `&str` is its bytes. -/
structure Writer (σ : Type) where
  str : σ → List Nat → σ × Bool
  char : σ → Nat → σ × Bool

/-- What `display` and `debug` do: return `Ok(())`, return the error of the writer, or panic.  A loop that does not end is also
`panic`. -/
inductive Outcome
  | ok
  | err
  | panic
  deriving DecidableEq

/-- Code that writes. -/
abbrev Write (σ : Type) := σ → σ × Outcome

variable {σ : Type}

/-- `f.write_str(s)?` -/
def Writer.writeStr (w : Writer σ) (bytes : List Nat) : Write σ := fun s =>
  match w.str s bytes with
  | (s, true) => (s, .ok)
  | (s, false) => (s, .err)

/-- `f.write_char(c)?` -/
def Writer.writeChar (w : Writer σ) (c : Nat) : Write σ := fun s =>
  match w.char s c with
  | (s, true) => (s, .ok)
  | (s, false) => (s, .err)

/-- One after the other. -/
def Write.then (a b : Write σ) : Write σ := fun s =>
  match a s with
  | (s, .ok) => b s
  | r => r

/-- `for x in xs { body(x)? }` -/
def Write.each {α : Type} (body : α → Write σ) : List α → Write σ
  | [] => fun s => (s, .ok)
  | x :: xs => (body x).then (Write.each body xs)

/-- An index that may be out of bounds. -/
def Write.index {α : Type} (x : Option α) (f : α → Write σ) : Write σ :=
  match x with
  | none => fun s => (s, .panic)
  | some x => f x

/-- `&bytes[a..b]` of a `&[u8]`. -/
def byteSlice (bytes : List Nat) (a b : Nat) : Option (List Nat) :=
  if a ≤ b ∧ b ≤ bytes.length then some ((bytes.drop a).take (b - a)) else none

/-- `str::is_char_boundary`. -/
def charBoundary (s : List Nat) (i : Nat) : Bool := i == 0 || i == s.length || (s[i]?.any fun b => !isCont b)

/-- `&s[a..b]` of a `&str`. -/
def strSlice (s : List Nat) (a b : Nat) : Option (List Nat) :=
  if a ≤ b ∧ b ≤ s.length ∧ charBoundary s a = true ∧ charBoundary s b = true then some ((s.drop a).take (b - a)) else none

/-- src/lossy.rs:6-21: the loop of `display`.  The first argument bounds the number of iterations. -/
def displayLoop (w : Writer σ) : Nat → List Nat → Write σ
  | 0, _ => fun s => (s, .panic)
  | n + 1, bytes =>
    match fromUtf8 bytes with
    | none => w.writeStr bytes
    | some e =>
      Write.index (byteSlice bytes 0 e.validUpTo) fun valid =>
        (w.writeStr valid).then <| (w.writeChar 0xFFFD).then <|
          match e.errorLen with
          | some errorLen => Write.index (byteSlice bytes (e.validUpTo + errorLen) bytes.length) fun rest => displayLoop w n rest
          | none => fun s => (s, .ok)

/-- src/lossy.rs:5-22 `display`. -/
def displayTo (w : Writer σ) (bytes : List Nat) : Write σ := displayLoop w (bytes.length + 1) bytes

/-- src/lossy.rs:37-48: the inner loop of `debug`, and the rest. -/
def debugCharsTo (t : Tables) (w : Writer σ) (valid : List Nat) : List (Nat × Nat) → Nat → Write σ
  | [], written => Write.index (strSlice valid written valid.length) w.writeStr
  | (i, ch) :: more, written =>
    let esc := escapeDebug t ch
    if esc.length ≠ 1 ∧ ch ≠ 39 then
      (Write.index (strSlice valid written i) w.writeStr).then <|
        (Write.each w.writeChar esc).then (debugCharsTo t w valid more (i + lenUtf8 ch))
    else debugCharsTo t w valid more written

/-- src/lossy.rs:27-64: the outer loop of `debug`.  `write!(f, "\\x{:02x}", b)` is one `write_str`. -/
def debugLoopTo (t : Tables) (w : Writer σ) : Nat → List Nat → Write σ
  | 0, _ => fun s => (s, .panic)
  | n + 1, bytes =>
    if bytes = [] then fun s => (s, .ok)
    else
      match fromUtf8 bytes with
      | none => debugCharsTo t w bytes (charIndices 0 bytes) 0
      | some e =>
        Write.index (byteSlice bytes 0 e.validUpTo) fun valid =>
          (debugCharsTo t w valid (charIndices 0 valid) 0).then <|
            let stop := endOfBroken valid.length bytes.length e.errorLen
            Write.index (byteSlice bytes valid.length stop) fun broken =>
              (Write.each (fun b => w.writeStr ([92, 120] ++ hex2 b)) broken).then <|
                Write.index (byteSlice bytes stop bytes.length) fun rest => debugLoopTo t w n rest

/-- src/lossy.rs:24-67 `debug`. -/
def debugTo (t : Tables) (w : Writer σ) (bytes : List Nat) : Write σ :=
  (w.writeChar 34).then <| (debugLoopTo t w (bytes.length + 1) bytes).then (w.writeChar 34)

end Verif.Utf8
