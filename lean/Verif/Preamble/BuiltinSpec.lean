import Verif.Preamble.BuiltinModel
import Verif.Preamble.IncludeSpec
/-!
# Which names a piece of C++ declares and which it mentions

Read off the text: it is split into tokens, and braces are followed.  A token is a number, its bytes in base 256.
(The functions are written with recursors so that the kernel evaluates them quickly.)
-/
namespace Verif.Preamble

abbrev Tok := Nat

/-- The token of a literal. -/
macro:max "w!" s:str : term => do
  let n := s.getString.toUTF8.toList.foldl (fun acc b => 256 * acc + b.toNat) 0
  return Lean.quote n

/-- Letters, digits, `_` and `$`. -/
def wordByte (b : Nat) : Bool :=
  (Nat.ble 97 b && Nat.ble b 122) || (Nat.ble 65 b && Nat.ble b 90) || (Nat.ble 48 b && Nat.ble b 57) || Nat.beq b 95 ||
    Nat.beq b 36

/-- Ends the word read so far (0 if there is none). -/
noncomputable def flush (word : Nat) (rest : List Tok) : List Tok :=
  Nat.rec (motive := fun _ => List Tok) rest (fun k _ => (k + 1) :: rest) word

/-- Words, and single bytes other than spaces. -/
noncomputable def tokens (line : Text) : List Tok :=
  List.rec (motive := fun _ => Nat → List Tok) (fun word => flush word [])
    (fun b _ more word =>
      bif wordByte b then more (256 * word + b) else bif Nat.beq b 32 then flush word (more 0) else flush word (b :: more 0))
    line 0

/-- Joins `::` and drops a comment at the end of the line. -/
def join : List Tok → List Tok
  | a :: b :: rest =>
    bif Nat.beq a 58 && Nat.beq b 58 then w!"::" :: join rest
    else bif Nat.beq a 47 && Nat.beq b 47 then []
    else a :: join (b :: rest)
  | rest => rest

/-- The tokens of a line, of which there are none if it is for the preprocessor. -/
noncomputable def lineTokens (line : Text) : List Tok :=
  match line with
  | 35 :: _ => []
  | line => join (tokens line)

noncomputable def tokensOf (lines : List Text) : List Tok := lines.flatMap lineTokens

/-- A name behind one of these is being declared. -/
def declarer (t : Tok) : Bool :=
  [w!"class", w!"struct", w!"union", w!"using", w!"void", w!"size_t", w!"unsafe_bitcopy_t", w!"missing", w!"Str", w!"Fat",
   w!"Error", w!">"].any (Nat.beq t)

/-- A name behind one of these is the name of the next block. -/
def scoper (t : Tok) : Bool := [w!"namespace", w!"class", w!"struct", w!"union"].any (Nat.beq t)

/-- Reading a text: the names of the open blocks (innermost first; 0 for blocks of functions, 1 for an unnamed
namespace), the name of the next block, and the last three tokens. -/
structure Reader where
  blocks : List Tok
  next : Tok
  last : Tok
  last2 : Tok
  last3 : Tok

/-- The path of the open blocks; inline and unnamed namespaces do not count. -/
def Reader.path (r : Reader) : List Tok :=
  (r.blocks.filter fun t => !Nat.beq t 1 && !Nat.beq t w!"cxxbridge1").reverse

/-- The declaration that ends at the last token, given the next one: `class Str` is one, but in `friend class Str`,
`class Str::uninit` and `class impl<Str>` nothing is declared. -/
def Reader.found (r : Reader) (t : Tok) : List (List Tok × Tok) :=
  bif declarer r.last2 && !Nat.beq r.last3 w!"friend" && !Nat.beq t w!"::" && !Nat.beq t w!"<" &&
    !r.blocks.any (Nat.beq 0)
  then [(r.path, r.last)] else []

/-- Reads one token. -/
def Reader.advance (r : Reader) (t : Tok) : Reader :=
  bif Nat.beq t w!"{" then
    ⟨(bif Nat.beq r.last w!"namespace" then 1 else r.next) :: r.blocks, 0, t, r.last, r.last2⟩
  else bif Nat.beq t w!"}" then ⟨r.blocks.tail, 0, t, r.last, r.last2⟩
  else bif Nat.beq t w!";" then ⟨r.blocks, 0, t, r.last, r.last2⟩
  else ⟨r.blocks, bif scoper r.last then t else r.next, t, r.last, r.last2⟩

/-- The names declared in a text, outside of functions, each with the path of the blocks around it. -/
def declared : Reader → List Tok → List (List Tok × Tok)
  | _, [] => []
  | r, t :: ts => r.found t ++ declared (r.advance t) ts

/-- The names a text declares. -/
noncomputable def declares (lines : List Text) : List (List Tok × Tok) := declared ⟨[], 0, 0, 0, 0⟩ (tokensOf lines)

/-- The names a text takes from `std`. -/
def stdNames : List Tok → List Tok
  | a :: b :: c :: rest =>
    bif Nat.beq a w!"std" && Nat.beq b w!"::" then c :: stdNames (b :: c :: rest) else stdNames (b :: c :: rest)
  | _ => []

/-! ### Helpers -/

/-- The helpers that generated code and other helpers refer to. -/
inductive Helper
  | panic | unsafeBitcopyT | unsafeBitcopy | impl | string | opaque | sizeOf | alignOf | str | slice | box | vec | fn | error
  | isize | isComplete | layout | isRelocatable | fat | ptrLen | operatorNew | fail | manuallyDrop | maybeUninit | destroy
  | deleterIf | isRelocatableOrArray | trycatch | newUnchecked | sliceFrom | reprOf | errorFrom
  deriving DecidableEq

/-- What the helper is called in C++. -/
def Helper.name : Helper → List Tok × Tok
  | .panic => ([w!"rust"], w!"panic")
  | .unsafeBitcopyT => ([w!"rust"], w!"unsafe_bitcopy_t")
  | .unsafeBitcopy => ([w!"rust"], w!"unsafe_bitcopy")
  | .impl => ([w!"rust"], w!"impl")
  | .string => ([w!"rust"], w!"String")
  | .opaque => ([w!"rust"], w!"Opaque")
  | .sizeOf => ([w!"rust"], w!"size_of")
  | .alignOf => ([w!"rust"], w!"align_of")
  | .str => ([w!"rust"], w!"Str")
  | .slice => ([w!"rust"], w!"Slice")
  | .box => ([w!"rust"], w!"Box")
  | .vec => ([w!"rust"], w!"Vec")
  | .fn => ([w!"rust"], w!"Fn")
  | .error => ([w!"rust"], w!"Error")
  | .isize => ([w!"rust"], w!"isize")
  | .isComplete => ([w!"rust", w!"detail"], w!"is_complete")
  | .layout => ([w!"rust"], w!"layout")
  | .isRelocatable => ([w!"rust"], w!"IsRelocatable")
  | .fat => ([w!"rust", w!"repr"], w!"Fat")
  | .ptrLen => ([w!"rust", w!"repr"], w!"PtrLen")
  | .operatorNew => ([w!"rust", w!"detail"], w!"operator_new")
  | .fail => ([w!"rust", w!"detail"], w!"Fail")
  | .manuallyDrop => ([w!"rust"], w!"ManuallyDrop")
  | .maybeUninit => ([w!"rust"], w!"MaybeUninit")
  | .destroy => ([w!"rust"], w!"destroy")
  | .deleterIf => ([w!"rust"], w!"deleter_if")
  | .isRelocatableOrArray => ([w!"rust"], w!"IsRelocatableOrArray")
  | .trycatch => ([w!"rust", w!"behavior"], w!"trycatch")
  | .newUnchecked => ([w!"rust", w!"impl"], w!"new_unchecked")
  | .sliceFrom => ([w!"rust", w!"impl"], w!"slice")
  | .reprOf => ([w!"rust", w!"impl"], w!"repr")
  | .errorFrom => ([w!"rust", w!"impl"], w!"error")

/-- Members of classes: other texts have variables of the same names. -/
def Helper.Member (h : Helper) : Prop := h = .newUnchecked ∨ h = .sliceFrom ∨ h = .reprOf ∨ h = .errorFrom

/-- The text mentions the helper. -/
def Mentions (lines : List Text) (h : Helper) : Prop := h.name.2 ∈ tokensOf lines ∧ ¬ h.Member

/-! ### The output -/

/-- The namespace a block opens. -/
def Blk.path : Blk → List Tok
  | .rust => [w!"rust"]
  | .cxxbridge1 => []
  | .repr => [w!"repr"]
  | .detail => [w!"detail"]
  | .behavior => [w!"behavior"]
  | .anonymous => []

/-- The pieces of the output with the blocks around each, outermost last; `none` if blocks do not match up. -/
def place : List Blk → List Ev → Option (List (List Blk × Piece))
  | [], [] => some []
  | _ :: _, [] => none
  | s, .begin b :: evs => place (b :: s) evs
  | s, .piece p :: evs => (place s evs).map ((s, p) :: ·)
  | [], .end _ :: _ => none
  | b' :: s, .end b :: evs => if b = b' then place s evs else none

/-- The helper is declared by one of the pieces. -/
def Declared (placed : List (List Blk × Piece)) (h : Helper) : Prop :=
  ∃ e ∈ placed, ∃ inner, (inner, h.name.2) ∈ declares e.2.lines ∧ e.1.reverse.flatMap Blk.path ++ inner = h.name.1

/-- The helper is declared by rust/cxx.h. -/
def InHeader (h : Helper) : Prop :=
  h.name ∈ declares (Verif.Header.Cxx.layout.flatMap Verif.Header.Chunk.lines)

/-! ### The standard library -/

/-- The headers that declare a name of the standard library. -/
def providers (t : Tok) : List Std :=
  if t = w!"size_t" ∨ t = w!"ptrdiff_t" then [.cstddef]
  else if t = w!"uintptr_t" ∨ t = w!"uint8_t" ∨ t = w!"uint16_t" ∨ t = w!"uint32_t" ∨ t = w!"uint64_t" ∨ t = w!"int8_t" ∨
    t = w!"int16_t" ∨ t = w!"int32_t" ∨ t = w!"int64_t" then [.cstdint]
  else if t = w!"array" then [.array]
  else if t = w!"string" then [.string]
  else if t = w!"string_view" then [.stringView]
  else if t = w!"vector" then [.vector]
  else if t = w!"unique_ptr" ∨ t = w!"shared_ptr" ∨ t = w!"weak_ptr" then [.memory]
  else if t = w!"hash" then [.functional]
  else if t = w!"ranges" then [.ranges]
  else if t = w!"exception" then [.exception]
  else if t = w!"out_of_range" then [.stdexcept]
  else if t = w!"initializer_list" then [.initializerList]
  else if t = w!"copy" then [.algorithm]
  else if t = w!"distance" ∨ t = w!"back_inserter" ∨ t = w!"random_access_iterator_tag" ∨ t = w!"contiguous_iterator" ∨
    t = w!"contiguous_iterator_tag" then [.iterator]
  else if t = w!"move" ∨ t = w!"swap" ∨ t = w!"forward" ∨ t = w!"declval" then [.utility]
  else if t = w!"add_lvalue_reference" ∨ t = w!"add_pointer" ∨ t = w!"add_const" ∨ t = w!"is_const" ∨ t = w!"remove_const" ∨
    t = w!"remove_reference_t" ∨ t = w!"true_type" ∨ t = w!"false_type" ∨ t = w!"enable_if" ∨ t = w!"is_base_of" ∨
    t = w!"conditional" ∨ t = w!"integral_constant" ∨ t = w!"is_same" ∨ t = w!"is_enum" ∨
    t = w!"is_trivially_destructible" ∨ t = w!"is_trivially_move_constructible" then [.typeTraits]
  else []

/-- What these texts of rust/cxx.h take from a header that nothing asks for: `std::size_t` of <cstddef> in `rust::String`,
`rust::Str` and `rust::Error`; `std::swap` and `std::declval` of <utility> in `rust::Slice`. -/
def Gap (p : Piece) (t : Tok) : Prop :=
  (p = .copied .rustString ∨ p = .copied .rustStr ∨ p = .copied .rustError) ∧ t = w!"size_t" ∨
  p = .copied .rustSlice ∧ (t = w!"swap" ∨ t = w!"declval")

/-! ### Requests -/

/-- Helpers that are requested with those they are made for. -/
structure Coherent (b : Builtins) : Prop where
  newUnchecked : b.rustStrNewUnchecked = true → b.rustStr = true ∧ b.reprFat = true
  strRepr : b.rustStrRepr = true → b.rustStr = true ∧ b.reprFat = true
  sliceNew : b.rustSliceNew = true → b.rustSlice = true ∧ b.reprFat = true
  sliceRepr : b.rustSliceRepr = true → b.rustSlice = true ∧ b.reprFat = true
  error : b.rustError = true → b.ptrLen = true

/-- The request for a helper. -/
def Asked (b : Builtins) : Helper → Prop
  | .panic => b.panic = true | .unsafeBitcopyT => b.unsafeBitcopyT = true | .unsafeBitcopy => b.unsafeBitcopy = true
  | .impl => b.friendImpl = true | .string => b.rustString = true | .opaque => b.rustOpaque = true
  | .sizeOf => b.layout = true | .alignOf => b.layout = true | .str => b.rustStr = true | .slice => b.rustSlice = true
  | .box => b.rustBox = true | .vec => b.rustVec = true | .fn => b.rustFn = true | .error => b.rustError = true
  | .isize => b.rustIsize = true | .isComplete => b.isComplete = true | .layout => b.layout = true
  | .isRelocatable => b.relocatable = true | .fat => b.reprFat = true | .ptrLen => b.ptrLen = true
  | .operatorNew => b.maybeUninit = true | .fail => b.trycatch = true | .manuallyDrop => b.manuallyDrop = true
  | .maybeUninit => b.maybeUninit = true | .destroy => b.destroy = true | .deleterIf => b.deleterIf = true
  | .isRelocatableOrArray => b.relocatableOrArray = true | .trycatch => b.trycatch = true
  | .newUnchecked => b.rustStrNewUnchecked = true | .sliceFrom => b.rustSliceNew = true
  | .reprOf => b.rustStrRepr = true ∨ b.rustSliceRepr = true | .errorFrom => b.rustError = true

end Verif.Preamble
