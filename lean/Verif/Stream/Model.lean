/-!
# Streams behind a UniquePtr

`Read`, `Seek` and `Write` of `UniquePtr<T>`, for a target that implements their methods in any way at all, and
`Write` of a C++ string.  Bytes are naturals.  Methods that take the stream by value or only borrow it (`by_ref`, `take`,
`chain`, `bytes`) are built from the ones here.  The unstable methods are not modelled.
-/
namespace Verif.Stream

/-- `std::io::SeekFrom`. -/
inductive Pos
  | start (n : Nat)
  | fromEnd (n : Int)
  | current (n : Int)
  deriving DecidableEq

/-- A call of a method of `std::io::Read`, `Seek` or `Write` that can be overridden. -/
inductive Call
  | read (buf : List Nat)
  | readVectored (bufs : List (List Nat))
  | readToEnd (buf : List Nat)
  | readToString (buf : List Nat)
  | readExact (buf : List Nat)
  | seek (pos : Pos)
  | rewind
  | streamPosition
  | seekRelative (offset : Int)
  | write (buf : List Nat)
  | writeVectored (bufs : List (List Nat))
  | flush
  | writeAll (buf : List Nat)
  /-- The pieces the arguments are formatted into. -/
  | writeFmt (pieces : List (List Nat))
  deriving DecidableEq

inductive Result
  /-- `Ok`, with the number if there is one. -/
  | ok (n : Nat)
  | err (e : Nat)
  | panicked (message : String)
  deriving DecidableEq

/-- What the caller sees: the buffers it lent for reading, and the result. -/
structure Reply where
  bufs : List (List Nat)
  result : Result
  deriving DecidableEq

/-- What `Pin<&mut T>` implements. -/
abbrev Target (σ : Type) := Call → σ → σ × Reply

/-- The buffers a call lends to be written into. -/
def Call.lent : Call → List (List Nat)
  | .read buf | .readToEnd buf | .readToString buf | .readExact buf => [buf]
  | .readVectored bufs => bufs
  | _ => []

/-- src/unique_ptr.rs:85-94 `pin_mut`, followed by a call on the target. -/
def onTarget (t : Target σ) (name : String) (call : Call) : Option σ → Option σ × Reply
  | none => (none, ⟨call.lent, .panicked ("called pin_mut on a null UniquePtr<" ++ name ++ ">")⟩)
  | some s => (some (t call s).1, (t call s).2)

/-- src/unique_ptr.rs:260-263 `read`. -/
def read (t : Target σ) (name : String) (buf : List Nat) (p : Option σ) : Option σ × Reply := onTarget t name (.read buf) p

/-- `Read::read_vectored` is not overridden: `std::io::default_read_vectored` hands the first buffer that is not empty
to `read`, and an empty one if there is none. -/
def readVectored (t : Target σ) (name : String) (bufs : List (List Nat)) (p : Option σ) : Option σ × Reply :=
  match bufs.dropWhile (·.isEmpty) with
  | buf :: after =>
    let (p1, r) := read t name buf p
    (p1, ⟨bufs.takeWhile (·.isEmpty) ++ r.bufs ++ after, r.result⟩)
  | [] =>
    let (p1, r) := read t name [] p
    (p1, ⟨bufs, r.result⟩)

/-- src/unique_ptr.rs:265-268 `read_to_end`. -/
def readToEnd (t : Target σ) (name : String) (buf : List Nat) (p : Option σ) : Option σ × Reply :=
  onTarget t name (.readToEnd buf) p

/-- src/unique_ptr.rs:270-273 `read_to_string`. -/
def readToString (t : Target σ) (name : String) (buf : List Nat) (p : Option σ) : Option σ × Reply :=
  onTarget t name (.readToString buf) p

/-- src/unique_ptr.rs:275-278 `read_exact`. -/
def readExact (t : Target σ) (name : String) (buf : List Nat) (p : Option σ) : Option σ × Reply :=
  onTarget t name (.readExact buf) p

/-- src/unique_ptr.rs:293-296 `seek`. -/
def seek (t : Target σ) (name : String) (pos : Pos) (p : Option σ) : Option σ × Reply := onTarget t name (.seek pos) p

/-- src/unique_ptr.rs:298-301 `rewind`. -/
def rewind (t : Target σ) (name : String) (p : Option σ) : Option σ × Reply := onTarget t name .rewind p

/-- src/unique_ptr.rs:303-306 `stream_position`. -/
def streamPosition (t : Target σ) (name : String) (p : Option σ) : Option σ × Reply := onTarget t name .streamPosition p

/-- build.rs:48-51: the flag that says the compiler has `Seek::seek_relative`, by its minor version. -/
def seekRelativeFlag (rustc : Nat) : Bool := decide (rustc ≥ 80)

/-- src/unique_ptr.rs:311-313 `seek_relative`; without the flag the default of the trait, which seeks from the current
position and drops the new one. -/
def seekRelative (rustc : Nat) (t : Target σ) (name : String) (offset : Int) (p : Option σ) : Option σ × Reply :=
  if seekRelativeFlag rustc then onTarget t name (.seekRelative offset) p
  else
    let (p1, r) := seek t name (.current offset) p
    (p1, ⟨r.bufs, match r.result with | .ok _ => .ok 0 | e => e⟩)

/-- src/unique_ptr.rs:328-331 `write`. -/
def write (t : Target σ) (name : String) (buf : List Nat) (p : Option σ) : Option σ × Reply := onTarget t name (.write buf) p

/-- src/unique_ptr.rs:333-336 `write_vectored`. -/
def writeVectored (t : Target σ) (name : String) (bufs : List (List Nat)) (p : Option σ) : Option σ × Reply :=
  onTarget t name (.writeVectored bufs) p

/-- src/unique_ptr.rs:338-341 `flush`. -/
def flush (t : Target σ) (name : String) (p : Option σ) : Option σ × Reply := onTarget t name .flush p

/-- src/unique_ptr.rs:343-346 `write_all`. -/
def writeAll (t : Target σ) (name : String) (buf : List Nat) (p : Option σ) : Option σ × Reply :=
  onTarget t name (.writeAll buf) p

/-- src/unique_ptr.rs:348-351 `write_fmt`. -/
def writeFmt (t : Target σ) (name : String) (pieces : List (List Nat)) (p : Option σ) : Option σ × Reply :=
  onTarget t name (.writeFmt pieces) p

/-- What `UniquePtr<T>` implements; src/unique_ptr.rs:250-355. -/
def uniquePtr (rustc : Nat) (t : Target σ) (name : String) : Target (Option σ)
  | .read buf, p => read t name buf p
  | .readVectored bufs, p => readVectored t name bufs p
  | .readToEnd buf, p => readToEnd t name buf p
  | .readToString buf, p => readToString t name buf p
  | .readExact buf, p => readExact t name buf p
  | .seek pos, p => seek t name pos p
  | .rewind, p => rewind t name p
  | .streamPosition, p => streamPosition t name p
  | .seekRelative offset, p => seekRelative rustc t name offset p
  | .write buf, p => write t name buf p
  | .writeVectored bufs, p => writeVectored t name bufs p
  | .flush, p => flush t name p
  | .writeAll buf, p => writeAll t name buf p
  | .writeFmt pieces, p => writeFmt t name pieces p

/-! ## Writing to a C++ string -/

/-- src/cxx_string.rs:216-224 `push_str` and `push_bytes`; a string too long for C++ ends the process, which is in
`CxxString.Model`. -/
def pushBytes (s bytes : List Nat) : List Nat := s ++ bytes

/-- src/cxx_string.rs:286-289 `io::Write::write`. -/
def stringWrite (buf s : List Nat) : List Nat × Nat := (pushBytes s buf, buf.length)

/-- `Write::write_all` is not overridden: it calls `write` until nothing is left.  `Ok(0)` gives the error `WriteZero` (0 here). -/
def stringWriteAll (buf s : List Nat) : List Nat × Result :=
  match buf with
  | [] => (s, .ok 0)
  | b :: rest =>
    match (stringWrite (b :: rest) s).2 with
    | 0 => ((stringWrite (b :: rest) s).1, .err 0)
    | n + 1 =>
      if n + 1 > (b :: rest).length then ((stringWrite (b :: rest) s).1, .panicked "range start index out of range")
      else stringWriteAll (rest.drop n) (stringWrite (b :: rest) s).1
termination_by buf.length
decreasing_by simp only [List.length_drop, List.length_cons]; omega

/-- `Write::write_fmt` is not overridden: `write_all` for every piece, up to the first error. -/
def stringWriteFmt : List (List Nat) → List Nat → List Nat × Result
  | [], s => (s, .ok 0)
  | piece :: rest, s =>
    match stringWriteAll piece s with
    | (s1, .ok _) => stringWriteFmt rest s1
    | (s1, e) => (s1, e)

/-- src/cxx_string.rs:284-294: `io::Write for Pin<&mut CxxString>`; `write_vectored` is not overridden and writes the
first buffer that is not empty.  It implements neither `Read` nor `Seek`. -/
def cxxString : Target (List Nat)
  | .write buf, s => ((stringWrite buf s).1, ⟨[], .ok (stringWrite buf s).2⟩)
  | .writeVectored bufs, s =>
    let buf := (bufs.find? (!·.isEmpty)).getD []
    ((stringWrite buf s).1, ⟨[], .ok (stringWrite buf s).2⟩)
  | .flush, s => (s, ⟨[], .ok 0⟩)
  | .writeAll buf, s => ((stringWriteAll buf s).1, ⟨[], (stringWriteAll buf s).2⟩)
  | .writeFmt pieces, s => ((stringWriteFmt pieces s).1, ⟨[], (stringWriteFmt pieces s).2⟩)
  | call, s => (s, ⟨call.lent, .panicked "no such method"⟩)

/-- src/cxx_string.rs:277-282: `fmt::Write for Pin<&mut CxxString>`, which never fails, and `write!` to it: every piece in
turn, up to the first error. -/
def fmtWriteStr (piece s : List Nat) : List Nat × Bool := (pushBytes s piece, true)

def fmtWriteFmt : List (List Nat) → List Nat → List Nat × Bool
  | [], s => (s, true)
  | piece :: rest, s =>
    match fmtWriteStr piece s with
    | (s1, true) => fmtWriteFmt rest s1
    | (s1, false) => (s1, false)

end Verif.Stream
