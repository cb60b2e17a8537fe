/-!
# How the C++ generator reports an error

Model of `gen/src/error.rs`, of the entry points in `gen/src/mod.rs` that call
it, and of the table of messages in `syntax/error.rs`.

A source text is a list of characters.  Offsets count bytes, as in Rust, and a
slice `&source[n..]` that Rust would refuse is the value `none`, which here and
below stands for a panic.  The parser and the generator proper are parameters;
`codespan_reporting`, which draws a diagnostic on the terminal, is not
modelled: what is modelled is the diagnostic handed to it.
-/
namespace Verif.Report

/-- `proc_macro2::LineColumn`: lines count from 1, columns count characters from
0.  Not code of this repository; the type of the arguments of
gen/src/error.rs:115-142. -/
structure Pos where
  line : Nat
  column : Nat
deriving DecidableEq, Repr

/-- One message of a `syn::Error`, with the two ends of its span
(gen/src/error.rs:115-117 `error.span()`, `start()`, `end()`). -/
structure Err where
  start : Pos
  stop : Pos
  message : String
deriving DecidableEq, Repr

/-- The sum of `char::len_utf8` over some characters (gen/src/error.rs:123-127). -/
def size : List Char → Nat
  | [] => 0
  | c :: cs => c.utf8Size + size cs

/-- `&source[off..]` (gen/src/error.rs:121, 123, 135, 138).  It panics past the
end and inside a character. -/
def sliceFrom : List Char → Nat → Option (List Char)
  | cs, 0 => some cs
  | [], _ + 1 => none
  | c :: cs, n + 1 => if c.utf8Size ≤ n + 1 then sliceFrom cs (n + 1 - c.utf8Size) else none

/-- `str::find('\n')` (gen/src/error.rs:121, 135): the offset of the first newline. -/
def findNewline : List Char → Option Nat
  | [] => none
  | c :: cs => if c = '\n' then some 0 else (findNewline cs).map (c.utf8Size + ·)

/-- The loops at gen/src/error.rs:120-122 and 134-136, run `n` times from the
offset `off`: go to the byte after the next newline. -/
def advance (source : List Char) : Nat → Nat → Option Nat
  | 0, off => some off
  | n + 1, off => do
    let rest ← sliceFrom source off
    let i ← findNewline rest
    advance source n (off + (i + 1))

/-- gen/src/error.rs:119-142, the first part of `display_syn_error`: the range
of bytes that a span covers.  `end.line - start.line` overflows when the span
ends on an earlier line than it starts; that is a panic too. -/
def range (source : List Char) (start stop : Pos) : Option (Nat × Nat) := do
  let startLine ← advance source (start.line - 1) 0
  let rest ← sliceFrom source startLine
  let startColumn := size (rest.take start.column)
  let startOffset := startLine + startColumn
  let endLine ←
    if start.line = stop.line then some (startOffset - startColumn)
    else if stop.line < start.line then none
    else advance source (stop.line - start.line) startOffset
  let rest ← sliceFrom source endLine
  some (startOffset, endLine + size (rest.take stop.column))

/-- syntax/error.rs:3-10 `Error`. -/
structure Known where
  msg : String
  label : Option String
  note : Option String
deriving DecidableEq, Repr

/-- syntax/error.rs:18-30 `ERRORS`, with the entries defined at 32-101. -/
def known : List Known :=
  [ { msg := "Box of a C++ type is not supported yet"
      label := none
      note := some "hint: use UniquePtr<> or SharedPtr<>" },
    { msg := "identifiers starting with cxxbridge are reserved"
      label := some "reserved identifier"
      note := some "identifiers starting with cxxbridge are reserved" },
    { msg := "C++ string by value is not supported"
      label := none
      note := some "hint: wrap it in a UniquePtr<>" },
    { msg := "C++ type by value is not supported"
      label := none
      note := some "hint: wrap it in a UniquePtr<> or SharedPtr<>" },
    { msg := "discriminant overflow on value after "
      label := some "discriminant overflow"
      note := some "note: explicitly set `= 0` if that is desired outcome" },
    { msg := "#include relative to `.` or `..` is not supported in Cargo builds"
      label := some "#include relative to `.` or `..` is not supported in Cargo builds"
      note := some "note: use a path starting with the crate name" },
    { msg := "identifiers containing double underscore are reserved in C++"
      label := some "reserved identifier"
      note := some "identifiers containing double underscore are reserved in C++" },
    { msg := "invalid lifetime parameter name: `'static`"
      label := some "'static is a reserved lifetime name"
      note := none },
    { msg := "opaque Rust type by value is not supported"
      label := none
      note := some "hint: wrap it in a Box<>" },
    { msg := "unsupported type: "
      label := some "unsupported type"
      note := none },
    { msg := "`use` items are not allowed within cxx bridge"
      label := some "not allowed"
      note := some "`use` items are not allowed within cxx bridge; only types defined\nwithin your bridge, primitive types, or types exported by the cxx\ncrate may be used" } ]

/-- `str::contains` (gen/src/error.rs:162). -/
def contains (message msg : String) : Bool := decide (msg.toList <:+: message.toList)

/-- `codespan_reporting::diagnostic::Diagnostic`, as far as
gen/src/error.rs:158-175 fills it: one primary label. -/
structure Diagnostic where
  message : String
  from_ : Nat
  to_ : Nat
  label : String
  notes : List String
deriving DecidableEq, Repr

/-- gen/src/error.rs:158-175 `diagnose`. -/
def diagnose (r : Nat × Nat) (message : String) : Diagnostic :=
  match known.find? (fun e => contains message e.msg) with
  | some info =>
    { message, from_ := r.1, to_ := r.2
      label := info.label.getD message
      notes := info.note.toList }
  | none => { message, from_ := r.1, to_ := r.2, label := message, notes := [] }

/-- gen/src/error.rs:114-156 `display_syn_error`. -/
def displaySynError (source : List Char) (e : Err) : Option Diagnostic := do
  let r ← range source e.start e.stop
  some (diagnose r e.message)

/-- The order of the keys `(start.line, start.column)` at gen/src/error.rs:107-110. -/
def keyLe (a b : Err) : Bool :=
  decide (a.start.line < b.start.line) ||
    (decide (a.start.line = b.start.line) && decide (a.start.column ≤ b.start.column))

/-- One step of a stable sort: put `a` before the first entry that may not precede it. -/
def insertErr (a : Err) : List Err → List Err
  | [] => [a]
  | b :: l => if keyLe a b then a :: b :: l else b :: insertErr a l

/-- gen/src/error.rs:105-112 `sort_syn_errors`.  `sort_by_key` is the stable sort
of the standard library; here it is insertion. -/
def sortSynErrors : List Err → List Err
  | [] => []
  | e :: l => insertErr e (sortSynErrors l)

/-- gen/src/error.rs:18-24 `Error`.  A failure of the file system or of UTF-8
decoding is its message and the messages of its chain of causes
(gen/src/error.rs:37-46 `source`). -/
inductive Error where
  | noBridgeMod
  | chain (message : String) (causes : List String)
  | syn (errors : List Err)

/-- gen/src/error.rs:85-103 `report`. -/
def report (message : String) (causes : List String) : String :=
  causes.foldl (fun s cause => s ++ ("\n\nCaused by:\n    " ++ cause)) message

/-- What `format_err` writes to the standard error stream. -/
inductive Written where
  | text (s : String)
  | diagnostics (ds : List Diagnostic)
deriving DecidableEq, Repr

/-- All diagnostics, in order; `none` if drawing one of them panics
(the loop at gen/src/error.rs:66-69). -/
def displayAll (source : List Char) : List Err → Option (List Diagnostic)
  | [] => some []
  | e :: l => do
    let d ← displaySynError source e
    let ds ← displayAll source l
    some (d :: ds)

/-- gen/src/error.rs:60-83 `format_err`: what is written before
`process::exit(1)`; `none` if it panics. -/
def formatErr (path : String) (source : List Char) : Error → Option Written
  | .syn errors => (displayAll source (sortSynErrors errors)).map .diagnostics
  | .noBridgeMod =>
    some (.text ("cxxbridge: no #[cxx::bridge] module found in " ++ path))
  | .chain message causes => some (.text ("cxxbridge: " ++ report message causes))

/-- gen/src/mod.rs:134-138, the first lines of `generate_from_string`: leave out
a `#!` line, but keep the newline that ends it. -/
def stripShebang : List Char → List Char
  | '#' :: '!' :: '[' :: cs => '#' :: '!' :: '[' :: cs
  | '#' :: '!' :: cs => ('#' :: '!' :: cs).dropWhile (· ≠ '\n')
  | cs => cs

/-- How a run of the command ends. -/
inductive Outcome (Code : Type) where
  | code (c : Code)
  /-- `process::exit(1)` after writing this -/
  | refused (w : Written)
  /-- a panic while reporting -/
  | panicked

/-- gen/src/mod.rs:110-141 `generate_from_path` and `generate_from_string`.
`read` is the result of gen/src/mod.rs:121-131 `read_to_string`; `generate` is
the parser of syn followed by gen/src/mod.rs:143-199 `generate`, applied to the
text that is left. -/
def generateFromPath {Code : Type} (path : String)
    (read : Except (String × List String) (List Char))
    (generate : List Char → Except Error Code) : Outcome Code :=
  let refuse (source : List Char) (e : Error) : Outcome Code :=
    match formatErr path source e with
    | some w => .refused w
    | none => .panicked
  match read with
  | .error (message, causes) => refuse [] (.chain message causes)
  | .ok source =>
    match generate (stripShebang source) with
    | .ok c => .code c
    | .error e => refuse source e

end Verif.Report
