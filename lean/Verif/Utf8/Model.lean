/-!
# UTF-8 and UTF-16 handling

Bytes and UTF-16 code units are natural numbers.  A number that is not a byte (≥ 256) is refused by
every range test below, so the theorems need no side condition.

`str::from_utf8`, `String::from_utf8_lossy`, `String::from_utf16(_lossy)` are Rust standard library
functions that cxx calls.  Their definitions here follow `core::str::validations` and
`core::char::decode_utf16` and are part of the trusted base; `Props.lean` proves they decide
well-formedness.
-/
namespace Verif.Utf8

/-- A continuation byte (`b as i8 < -64` in `core::str::validations::run_utf8_validation`). -/
def isCont (b : Nat) : Bool := 0x80 ≤ b && b ≤ 0xBF

/-- Allowed second byte of a three-byte sequence (`run_utf8_validation`, arm `3`). -/
def second3 (b0 b1 : Nat) : Bool :=
  (b0 = 0xE0 && 0xA0 ≤ b1 && b1 ≤ 0xBF) || (0xE1 ≤ b0 && b0 ≤ 0xEC && 0x80 ≤ b1 && b1 ≤ 0xBF)
  || (b0 = 0xED && 0x80 ≤ b1 && b1 ≤ 0x9F) || (0xEE ≤ b0 && b0 ≤ 0xEF && 0x80 ≤ b1 && b1 ≤ 0xBF)

/-- Allowed second byte of a four-byte sequence (`run_utf8_validation`, arm `4`). -/
def second4 (b0 b1 : Nat) : Bool :=
  (b0 = 0xF0 && 0x90 ≤ b1 && b1 ≤ 0xBF) || (0xF1 ≤ b0 && b0 ≤ 0xF3 && 0x80 ≤ b1 && b1 ≤ 0xBF)
  || (b0 = 0xF4 && 0x80 ≤ b1 && b1 ≤ 0x8F)

/-- Outcome of looking at one character. -/
inductive Step
  /-- A well-formed character: the first byte and `extra` more. -/
  | ok (extra : Nat)
  /-- `err!(len)`: the `error_len` of the `Utf8Error`. -/
  | bad (len : Option Nat)
  deriving DecidableEq, Repr

/-- One iteration of `core::str::validations::run_utf8_validation` (the ASCII fast path reads the
same bytes one word at a time and is left out). -/
def step (b0 : Nat) (rest : List Nat) : Step :=
  if b0 < 0x80 then .ok 0
  else if 0xC2 ≤ b0 ∧ b0 ≤ 0xDF then
    match rest with
    | [] => .bad none
    | b1 :: _ => if isCont b1 then .ok 1 else .bad (some 1)
  else if 0xE0 ≤ b0 ∧ b0 ≤ 0xEF then
    match rest with
    | [] => .bad none
    | b1 :: rest =>
      if second3 b0 b1 then
        match rest with
        | [] => .bad none
        | b2 :: _ => if isCont b2 then .ok 2 else .bad (some 2)
      else .bad (some 1)
  else if 0xF0 ≤ b0 ∧ b0 ≤ 0xF4 then
    match rest with
    | [] => .bad none
    | b1 :: rest =>
      if second4 b0 b1 then
        match rest with
        | [] => .bad none
        | b2 :: rest =>
          if isCont b2 then
            match rest with
            | [] => .bad none
            | b3 :: _ => if isCont b3 then .ok 3 else .bad (some 3)
          else .bad (some 2)
      else .bad (some 1)
  else .bad (some 1)

/-- `core::str::Utf8Error`. -/
structure Utf8Error where
  validUpTo : Nat
  errorLen : Option Nat
  deriving DecidableEq, Repr

/-- `core::str::from_utf8`; `none` is `Ok`. -/
def fromUtf8 : List Nat → Option Utf8Error
  | [] => none
  | b0 :: rest =>
    match step b0 rest with
    | .bad len => some ⟨0, len⟩
    | .ok extra =>
      match fromUtf8 (rest.drop extra) with
      | none => none
      | some e => some ⟨extra + 1 + e.validUpTo, e.errorLen⟩
termination_by bs => bs.length
decreasing_by simp; omega

/-- UTF-8 encoding of U+FFFD REPLACEMENT CHARACTER. -/
def replacement : List Nat := [0xEF, 0xBF, 0xBD]

/-- `String::from_utf8_lossy`: for each chunk of `Utf8Chunks`, the valid part and, if the invalid
part is not empty, U+FFFD.  `Utf8Chunks` cuts at the same places as `Utf8Error` reports. -/
def fromUtf8Lossy : List Nat → List Nat
  | [] => []
  | b0 :: rest =>
    match step b0 rest with
    | .bad none => replacement
    | .bad (some k) => replacement ++ fromUtf8Lossy (rest.drop (k - 1))
    | .ok extra => (b0 :: rest.take extra) ++ fromUtf8Lossy (rest.drop extra)
termination_by bs => bs.length
decreasing_by all_goals (simp; omega)

/-! ### src/lossy.rs -/

/-- src/lossy.rs:5-22 `display`: the bytes written to the formatter.  (`f.write_str` is assumed to
succeed; an error of the underlying writer is passed on by `?`.) -/
def display (bytes : List Nat) : List Nat :=
  match _h : fromUtf8 bytes with
  | none => bytes
  | some e =>
    let out := bytes.take e.validUpTo ++ replacement
    match e.errorLen with
    | some errorLen =>
      -- `error_len` is never 0; the test only makes the recursion visibly terminate
      if e.validUpTo + errorLen = 0 ∨ bytes = [] then out
      else out ++ display (bytes.drop (e.validUpTo + errorLen))
    | none => out
termination_by bytes.length
decreasing_by
  rename_i hne
  cases bytes with
  | nil => simp at hne
  | cons b bs => simp; omega

/-- `char::len_utf8`. -/
def lenUtf8 (c : Nat) : Nat := if c < 0x80 then 1 else if c < 0x800 then 2 else if c < 0x10000 then 3 else 4

/-- `char::encode_utf8`, which `String::push` and `f.write_char` use: the UTF-8 bytes of a scalar
value. -/
def push (c : Nat) : List Nat :=
  if c < 0x80 then [c]
  else if c < 0x800 then [c / 64 % 32 + 0xC0, c % 64 + 0x80]
  else if c < 0x10000 then [c / 4096 % 16 + 0xE0, c / 64 % 64 + 0x80, c % 64 + 0x80]
  else [c / 262144 % 8 + 0xF0, c / 4096 % 64 + 0x80, c / 64 % 64 + 0x80, c % 64 + 0x80]

/-- `core::str::validations::next_code_point` on a valid string: the scalar value that starts with
byte `x`, and the number of bytes after `x` it takes. -/
def nextCodePoint (x : Nat) (rest : List Nat) : Nat × Nat :=
  if x < 128 then (x, 0)
  else
    let init := x % 32
    let y := rest.getD 0 0 % 64
    if x < 0xE0 then (init * 64 + y, 1)
    else
      let z := rest.getD 1 0 % 64
      if x < 0xF0 then (init * 4096 + (y * 64 + z), 2)
      else
        let w := rest.getD 2 0 % 64
        (init % 8 * 262144 + ((y * 64 + z) * 64 + w), 3)

/-- `str::char_indices`, starting at byte index `i`. -/
def charIndices (i : Nat) : List Nat → List (Nat × Nat)
  | [] => []
  | x :: rest =>
    (i, (nextCodePoint x rest).1) ::
      charIndices (i + 1 + (nextCodePoint x rest).2) (rest.drop (nextCodePoint x rest).2)
termination_by bs => bs.length
decreasing_by simp; omega

/-- Lower-case hexadecimal digit, as an ASCII code. -/
def hexDigit (d : Nat) : Nat := if d < 10 then 48 + d else 87 + d

/-- Hexadecimal digits without leading zeros, at least one (`{:x}`). -/
def hex (n : Nat) : List Nat :=
  if n < 16 then [hexDigit n] else hex (n / 16) ++ [hexDigit (n % 16)]
termination_by n
decreasing_by omega

/-- `{:02x}` of a byte. -/
def hex2 (b : Nat) : List Nat := if b < 16 then 48 :: hex b else hex b

/-- The two Unicode tables `char::escape_debug` consults: `is_grapheme_extended`, `is_printable`. -/
structure Tables where
  graphemeExtended : Nat → Bool
  printable : Nat → Bool

/-- `char::escape_debug`: the characters of the escape. -/
def escapeDebug (t : Tables) (c : Nat) : List Nat :=
  if c = 0 then [92, 48]            -- \0
  else if c = 9 then [92, 116]      -- \t
  else if c = 13 then [92, 114]     -- \r
  else if c = 10 then [92, 110]     -- \n
  else if c = 92 ∨ c = 34 ∨ c = 39 then [92, c]  -- \\ \" \'
  else if t.graphemeExtended c then [92, 117, 123] ++ hex c ++ [125]  -- \u{...}
  else if t.printable c then [c]
  else [92, 117, 123] ++ hex c ++ [125]

/-- src/lossy.rs:37-48: the inner loop of `debug` over `valid.char_indices()`, then the rest. -/
def debugChars (t : Tables) (valid : List Nat) : List (Nat × Nat) → Nat → List Nat
  | [], written => valid.drop written
  | (i, ch) :: more, written =>
    let esc := escapeDebug t ch
    if esc.length ≠ 1 ∧ ch ≠ 39 then
      (valid.drop written).take (i - written) ++ esc.flatMap push ++ debugChars t valid more (i + lenUtf8 ch)
    else debugChars t valid more written

/-- src/lossy.rs:53-57 `end_of_broken`. -/
def endOfBroken (validLen bytesLen : Nat) : Option Nat → Nat
  | some errorLen => validLen + errorLen
  | none => bytesLen

/-- src/lossy.rs:27-64: the outer loop of `debug`. -/
def debugLoop (t : Tables) (bytes : List Nat) : List Nat :=
  if hne : bytes = [] then []
  else
    match fromUtf8 bytes with
    | none => debugChars t bytes (charIndices 0 bytes) 0
    | some e =>
      let valid := bytes.take e.validUpTo
      let stop := endOfBroken valid.length bytes.length e.errorLen
      let out := debugChars t valid (charIndices 0 valid) 0
        ++ ((bytes.drop valid.length).take (stop - valid.length)).flatMap (fun b => [92, 120] ++ hex2 b)
      -- `stop` is never 0; the test only makes the recursion visibly terminate
      if stop = 0 then out else out ++ debugLoop t (bytes.drop stop)
termination_by bytes.length
decreasing_by
  have : bytes.length ≠ 0 := by simpa using hne
  simp only [List.length_drop]
  show bytes.length - stop < bytes.length
  omega

/-- src/lossy.rs:24-67 `debug`: the bytes written to the formatter. -/
def debug (t : Tables) (bytes : List Nat) : List Nat := [34] ++ debugLoop t bytes ++ [34]

/-! ### UTF-16 -/

/-- One item of `char::decode_utf16`: a decoded scalar or an unpaired surrogate, and the number of
units consumed after the first. -/
def step16 (u : Nat) (rest : List Nat) : Option Nat × Nat :=
  if u < 0xD800 ∨ 0xDFFF < u then (some u, 0)
  else if 0xDC00 ≤ u then (none, 0)
  else match rest with
    | [] => (none, 0)
    | u2 :: _ =>
      if u2 < 0xDC00 ∨ 0xDFFF < u2 then (none, 0)
      else (some ((u % 1024) * 1024 + u2 % 1024 + 0x10000), 1)

/-- `char::decode_utf16(v)`. -/
def decodeUtf16 : List Nat → List (Option Nat)
  | [] => []
  | u :: rest => (step16 u rest).1 :: decodeUtf16 (rest.drop (step16 u rest).2)
termination_by us => us.length
decreasing_by simp; omega

/-- `String::from_utf16`. -/
def fromUtf16 (us : List Nat) : Option (List Nat) :=
  let ds := decodeUtf16 us
  if ds.all (·.isSome) then some (ds.flatMap (fun d => match d with | some c => push c | none => []))
  else none

/-- `String::from_utf16_lossy`: unpaired surrogates become U+FFFD. -/
def fromUtf16Lossy (us : List Nat) : List Nat :=
  (decodeUtf16 us).flatMap (fun d => push (d.getD 0xFFFD))

/-! ### Constructors of rust::String and rust::Str -/

/-- A C++ `const T *` argument with a length, as the constructors take it: a null pointer (only
allowed with length 0 by the `assert`), or memory. -/
inductive Ptr (α : Type)
  | null
  | mem (units : List α)

/-- What the C++ constructors may do besides returning: throw `std::invalid_argument`, or fail the
`assert` on a null pointer with a non-zero length. -/
inductive Cxx
  | invalidArgument
  | assertion
  deriving DecidableEq, Repr

/-- The slice the Rust side sees: `slice::from_raw_parts(ptr, len)`; for a null pointer with length
0 the constructor passes the dangling pointer 1 (or 2), which with length 0 is the empty slice. -/
def slice {α : Type} : Ptr α → Nat → Except Cxx (List α)
  | .null, 0 => .ok []
  | .null, _ + 1 => .error .assertion
  | .mem us, len => .ok (us.take len)

/-- src/cxx.cc:126-131 `String::String(const char *s, std::size_t len)`, 107-111 `initString`,
src/symbols/rust_string.rs:24-40 `string_from_utf8`.  The result is the new string's bytes. -/
def stringCtor (s : Ptr Nat) (len : Nat) : Except Cxx (List Nat) :=
  match slice s len with
  | .error e => .error e
  | .ok bs => match fromUtf8 bs with
    | none => .ok bs
    | some _ => .error .invalidArgument

/-- src/cxx.cc:119 `String::String(const std::string &s)`. -/
def stringCtorStd (s : List Nat) : Except Cxx (List Nat) := stringCtor (.mem s) s.length

/-- `std::strlen` of NUL-terminated memory. -/
def strlen (mem : List Nat) : Nat := (mem.takeWhile (· ≠ 0)).length

/-- src/cxx.cc:121-124 `String::String(const char *s)`. -/
def stringCtorCStr (mem : List Nat) : Except Cxx (List Nat) := stringCtor (.mem mem) (strlen mem)

/-- src/cxx.cc:146-153 `String::String(const char16_t *s, std::size_t len)`, 113-117 `initString`,
src/symbols/rust_string.rs:54-69 `string_from_utf16`. -/
def stringCtor16 (s : Ptr Nat) (len : Nat) : Except Cxx (List Nat) :=
  match slice s len with
  | .error e => .error e
  | .ok us => match fromUtf16 us with
    | some bs => .ok bs
    | none => .error .invalidArgument

/-- src/cxx.cc:179-182 `String::lossy(const char *s, std::size_t len)`, 157-161,
src/symbols/rust_string.rs:42-52 `string_from_utf8_lossy`. -/
def stringLossy (s : Ptr Nat) (len : Nat) : Except Cxx (List Nat) :=
  match slice s len with
  | .error e => .error e
  | .ok bs => .ok (fromUtf8Lossy bs)

/-- src/cxx.cc:190-194 `String::lossy(const char16_t *s, std::size_t len)`, 163-168,
src/symbols/rust_string.rs:71-81 `string_from_utf16_lossy`. -/
def stringLossy16 (s : Ptr Nat) (len : Nat) : Except Cxx (List Nat) :=
  match slice s len with
  | .error e => .error e
  | .ok us => .ok (fromUtf16Lossy us)

/-- src/cxx.cc:317-322 `Str::Str(const char *s, std::size_t len)`, 304-308 `initStr`,
src/symbols/rust_str.rs:22-33 `str_from`.  The result is the bytes the view shows. -/
def strCtor (s : Ptr Nat) (len : Nat) : Except Cxx (List Nat) :=
  match slice s len with
  | .error e => .error e
  | .ok bs => match fromUtf8 bs with
    | none => .ok bs
    | some _ => .error .invalidArgument

end Verif.Utf8
