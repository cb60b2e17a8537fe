import Verif.CxxText.Model
import Verif.CxxText.Spec
/-!
# The tokens of what the generator writes
-/
namespace Verif.CxxText
set_option linter.unusedSimpArgs false
open Verif.Syntax Verif.Abi

/-- Tokens of a path. -/
def pathToks (p : List (List Char)) : List Tok := p.flatMap fun w => [.colons, .word w]

/-- Tokens of an atom. -/
def atomToks (a : Atom) : List Tok :=
  match atomType a with
  | .prim w => [.word w]
  | .path p _ => pathToks p
  | _ => []

/-- `const`, unless mutable. -/
def constTok (mutable : Bool) : List Tok := if mutable then [] else [.word "const".toList]

/-- Tokens of `::ns::name<`. -/
def openToks (ns name : String) : List Tok := [.colons, .word ns.toList, .colons, .word name.toList, .lt]

/-- Tokens of a list. -/
def commaToks : List (List Tok) → List Tok
  | [] => []
  | [p] => p
  | p :: q :: rest => p ++ .comma :: commaToks (q :: rest)

mutual
/-- The tokens of a type. -/
def toks : CTok → List Tok
  | .atom a => atomToks a
  | .named p => pathToks (pathOf p)
  | .box t => openToks "rust" "Box" ++ toks t ++ [.gt]
  | .vec t => openToks "rust" "Vec" ++ toks t ++ [.gt]
  | .uniquePtr t => openToks "std" "unique_ptr" ++ toks t ++ [.gt]
  | .sharedPtr t => openToks "std" "shared_ptr" ++ toks t ++ [.gt]
  | .weakPtr t => openToks "std" "weak_ptr" ++ toks t ++ [.gt]
  | .vector t => openToks "std" "vector" ++ toks t ++ [.gt]
  | .lref m t => toks t ++ constTok m ++ [.amp]
  | .star m t => toks t ++ constTok m ++ [.star]
  | .str => pathToks ["rust".toList, "Str".toList]
  | .slice m t => openToks "rust" "Slice" ++ toks t ++ constTok m ++ [.gt]
  | .fn as r => openToks "rust" "Fn" ++ toksRet r ++ .lparen :: commaToks (toksArgs as) ++ [.rparen, .gt]
  | .array t n => openToks "std" "array" ++ toks t ++ [.comma, .word (Nat.repr n).toList, .gt]
  | .fat => pathToks ["rust".toList, "repr".toList, "Fat".toList]
  | .ptrLen => pathToks ["rust".toList, "repr".toList, "PtrLen".toList]
  | .voidPtr => [.word "void".toList, .star]
/-- Tokens of a return type. -/
def toksRet : Option CTok → List Tok
  | none => [.word "void".toList]
  | some t => toks t
/-- Tokens of each of the parameters. -/
def toksArgs : List CTok → List (List Tok)
  | [] => []
  | t :: rest => toks t :: toksArgs rest
end

/-! The equations of both, by unfolding. -/

theorem text_atom (a : Atom) : text (.atom a) = atomText a := rfl
theorem text_named (p : Pair) : text (.named p) = qualified p := rfl
theorem text_box (t : CTok) : text (.box t) = "::rust::Box<".toList ++ text t ++ ">".toList := rfl
theorem text_vec (t : CTok) : text (.vec t) = "::rust::Vec<".toList ++ text t ++ ">".toList := rfl
theorem text_uniquePtr (t : CTok) : text (.uniquePtr t) = "::std::unique_ptr<".toList ++ text t ++ ">".toList := rfl
theorem text_sharedPtr (t : CTok) : text (.sharedPtr t) = "::std::shared_ptr<".toList ++ text t ++ ">".toList := rfl
theorem text_weakPtr (t : CTok) : text (.weakPtr t) = "::std::weak_ptr<".toList ++ text t ++ ">".toList := rfl
theorem text_vector (t : CTok) : text (.vector t) = "::std::vector<".toList ++ text t ++ ">".toList := rfl
theorem text_lref (m : Bool) (t : CTok) : text (.lref m t) = text t ++ spaceAfter t ++ constSpace m ++ "&".toList := rfl
theorem text_star (m : Bool) (t : CTok) : text (.star m t) = text t ++ spaceAfter t ++ constSpace m ++ "*".toList := rfl
theorem text_str : text (.str) = "::rust::Str".toList := rfl
theorem text_slice (m : Bool) (t : CTok) : text (.slice m t) = "::rust::Slice<".toList ++ text t ++ spaceAfter t ++ (if m then [] else "const".toList) ++ ">".toList := rfl
theorem text_fn (as : List CTok) (r : Option CTok) : text (.fn as r) = "::rust::Fn<".toList ++ textRet r ++ "(".toList ++ commaSep (textArgs as) ++ ")>".toList := rfl
theorem text_array (t : CTok) (n : Nat) : text (.array t n) = "::std::array<".toList ++ text t ++ ", ".toList ++ (Nat.repr n).toList ++ ">".toList := rfl
theorem text_fat : text (.fat) = "::rust::repr::Fat".toList := rfl
theorem text_ptrLen : text (.ptrLen) = "::rust::repr::PtrLen".toList := rfl
theorem text_voidPtr : text (.voidPtr) = "void *".toList := rfl

theorem toks_atom (a : Atom) : toks (.atom a) = atomToks a := rfl
theorem toks_named (p : Pair) : toks (.named p) = pathToks (pathOf p) := rfl
theorem toks_box (t : CTok) : toks (.box t) = openToks "rust" "Box" ++ toks t ++ [.gt] := rfl
theorem toks_vec (t : CTok) : toks (.vec t) = openToks "rust" "Vec" ++ toks t ++ [.gt] := rfl
theorem toks_uniquePtr (t : CTok) : toks (.uniquePtr t) = openToks "std" "unique_ptr" ++ toks t ++ [.gt] := rfl
theorem toks_sharedPtr (t : CTok) : toks (.sharedPtr t) = openToks "std" "shared_ptr" ++ toks t ++ [.gt] := rfl
theorem toks_weakPtr (t : CTok) : toks (.weakPtr t) = openToks "std" "weak_ptr" ++ toks t ++ [.gt] := rfl
theorem toks_vector (t : CTok) : toks (.vector t) = openToks "std" "vector" ++ toks t ++ [.gt] := rfl
theorem toks_lref (m : Bool) (t : CTok) : toks (.lref m t) = toks t ++ constTok m ++ [.amp] := rfl
theorem toks_star (m : Bool) (t : CTok) : toks (.star m t) = toks t ++ constTok m ++ [.star] := rfl
theorem toks_str : toks (.str) = pathToks ["rust".toList, "Str".toList] := rfl
theorem toks_slice (m : Bool) (t : CTok) : toks (.slice m t) = openToks "rust" "Slice" ++ toks t ++ constTok m ++ [.gt] := rfl
theorem toks_fn (as : List CTok) (r : Option CTok) : toks (.fn as r) = openToks "rust" "Fn" ++ toksRet r ++ .lparen :: commaToks (toksArgs as) ++ [.rparen, .gt] := rfl
theorem toks_array (t : CTok) (n : Nat) : toks (.array t n) = openToks "std" "array" ++ toks t ++ [.comma, .word (Nat.repr n).toList, .gt] := rfl
theorem toks_fat : toks (.fat) = pathToks ["rust".toList, "repr".toList, "Fat".toList] := rfl
theorem toks_ptrLen : toks (.ptrLen) = pathToks ["rust".toList, "repr".toList, "PtrLen".toList] := rfl
theorem toks_voidPtr : toks (.voidPtr) = [.word "void".toList, .star] := rfl

mutual
/-- The names are names of C++, and there is no reference to a reference. -/
def Ok : CTok → Prop
  | .named p => (pathOf p).all isName = true
  | .box t | .vec t | .uniquePtr t | .sharedPtr t | .weakPtr t | .vector t | .star _ t | .slice _ t | .array t _ => Ok t
  | .lref _ t => Ok t ∧ ∀ m u, t ≠ .lref m u
  | .fn as r => OkRet r ∧ OkArgs as
  | _ => True
/-- For a return type. -/
def OkRet : Option CTok → Prop
  | none => True
  | some t => Ok t
/-- For the parameters. -/
def OkArgs : List CTok → Prop
  | [] => True
  | t :: rest => Ok t ∧ OkArgs rest
end

/-- What may follow the text of a type. -/
def Stop : CTok → List Char → Prop
  | .atom _, r | .named _, r | .str, r | .fat, r | .ptrLen, r => ∀ c, r.head? = some c → isWordChar c = false
  | .lref .., r => r.head? ≠ some '&'
  | _, _ => True

theorem lex_char {c : Char} (h : isWordChar c = true) (w r : List Char) : lex w (c :: r) = lex (w ++ [c]) r := by
  have h1 : c ≠ ':' := by rintro rfl; exact absurd h (by decide)
  have h2 : c ≠ '&' := by rintro rfl; exact absurd h (by decide)
  rw [lex]
  · simp [h]
  · rintro r' h3 _; exact h1 h3
  · rintro r' h3 _; exact h2 h3

theorem lex_word {s : List Char} (h : s.all isWordChar = true) : ∀ w r, lex w (s ++ r) = lex (w ++ s) r := by
  induction s with
  | nil => intro w r; simp
  | cons c s ih =>
    intro w r
    simp only [List.all_cons, Bool.and_eq_true] at h
    rw [List.cons_append, lex_char h.1, ih h.2]
    simp

theorem lex_flush {r : List Char} (h : ∀ c, r.head? = some c → isWordChar c = false) (w : List Char) :
    lex w r = flush w ++ lex [] r := by
  cases r with
  | nil => simp [lex, flush]
  | cons c r =>
    have hc := h c rfl
    rw [lex.eq_def, lex.eq_def [] (c :: r)]
    split
    · next h1 => cases h1
    · next h1 => cases h1; simp [flush]
    · next h1 => cases h1; simp [flush]
    · next c' r' n1 n2 h1 =>
      cases h1
      simp [hc, flush]

/-- A whole word. -/
theorem lex_whole {s r : List Char} (hs : s.all isWordChar = true) (hn : s ≠ [])
    (h : ∀ c, r.head? = some c → isWordChar c = false) : lex [] (s ++ r) = .word s :: lex [] r := by
  rw [lex_word hs, lex_flush h]
  simp [flush, hn]

theorem isName_word {w : List Char} (h : isName w = true) : w.all isWordChar = true ∧ w ≠ [] := by
  simp only [isName, Bool.and_eq_true, bne_iff_ne, ne_eq] at h
  exact ⟨h.1.1.2, h.1.1.1⟩

theorem lex_colons (r : List Char) : lex [] (':' :: ':' :: r) = .colons :: lex [] r := by simp [lex, flush]

theorem lex_qualified {p : Pair} (h : (pathOf p).all isName = true) {r : List Char}
    (hr : ∀ c, r.head? = some c → isWordChar c = false) : lex [] (qualified p ++ r) = pathToks (pathOf p) ++ lex [] r := by
  obtain ⟨ns, cxx, rust⟩ := p
  simp only [qualified, pathOf] at *
  induction ns with
  | nil =>
    simp only [List.map_nil, List.nil_append, List.all_cons, List.all_nil, Bool.and_true] at h
    obtain ⟨h1, h2⟩ := isName_word h
    simp only [List.flatMap_nil, List.nil_append, List.append_assoc, List.map_nil, pathToks, List.flatMap_cons]
    change lex [] (':' :: ':' :: (cxx.toList ++ r)) = _
    rw [lex_colons, lex_whole h1 h2 hr]
    rfl
  | cons s ns ih =>
    simp only [List.map_cons, List.cons_append, List.all_cons, Bool.and_eq_true] at h
    obtain ⟨h1, h2⟩ := isName_word h.1
    have := ih h.2
    simp only [List.flatMap_cons, List.append_assoc, List.map_cons, List.cons_append, pathToks] at this ⊢
    change lex [] (':' :: ':' :: (s.toList ++ _)) = _
    rw [lex_colons, lex_whole h1 h2, this]
    · simp
    · intro c hc
      cases ns with
      | nil => cases hc; decide
      | cons _ _ => cases hc; decide

/-! ### How a text begins -/

/-- A text of a type begins with a letter or with `::` and a letter. -/
def Starts (s : List Char) : Prop := (∃ c r, s = c :: r ∧ isWordChar c = true) ∨ ∃ c r, s = ':' :: ':' :: c :: r ∧ isWordChar c = true

theorem starts_bracket {s : List Char} (h : Starts s) (r : List Char) : bracket (s ++ r) = false := by
  rcases h with ⟨c, t, rfl, hc⟩ | ⟨c, t, rfl, hc⟩
  · have h1 : c ≠ ':' := by rintro rfl; exact absurd hc (by decide)
    simp only [List.cons_append]
    unfold bracket
    split
    · next h => exact absurd (List.cons.inj h).1 h1
    · next h => exact absurd (List.cons.inj h).1 h1
    · rfl
  · have h1 : c ≠ ':' := by rintro rfl; exact absurd hc (by decide)
    have h2 : c ≠ '>' := by rintro rfl; exact absurd hc (by decide)
    simp [bracket, h1, h2]

theorem starts_append {s : List Char} (h : Starts s) (r : List Char) : Starts (s ++ r) := by
  rcases h with ⟨c, t, rfl, hc⟩ | ⟨c, t, rfl, hc⟩
  · exact .inl ⟨c, t ++ r, rfl, hc⟩
  · exact .inr ⟨c, t ++ r, rfl, hc⟩

theorem starts_word {s : List Char} (h : isName s = true) : Starts (':' :: ':' :: s) := by
  obtain ⟨h1, h2⟩ := isName_word h
  cases s with
  | nil => exact absurd rfl h2
  | cons c s => exact .inr ⟨c, s, rfl, by simpa using (List.all_eq_true.1 h1 c (by simp))⟩

theorem starts_qualified {p : Pair} (h : (pathOf p).all isName = true) : Starts (qualified p) := by
  obtain ⟨ns, cxx, rust⟩ := p
  simp only [qualified, pathOf] at *
  cases ns with
  | nil => simp only [List.map_nil, List.nil_append, List.all_cons, List.all_nil, Bool.and_true] at h; exact starts_word h
  | cons s ns =>
    simp only [List.map_cons, List.cons_append, List.all_cons, Bool.and_eq_true] at h
    simp only [List.flatMap_cons, List.append_assoc]
    exact starts_append (starts_word h.1) _

theorem starts_atom (a : Atom) : Starts (atomText a) := by
  cases a with
  | bool | char | f32 | f64 => exact .inl ⟨_, _, rfl, by decide⟩
  | _ => exact .inr ⟨_, _, rfl, by decide⟩

theorem starts (t : CTok) (h : Ok t) : Starts (text t) := by
  cases t with
  | atom a => simp only [text_atom]; exact starts_atom a
  | named p => simp only [text_named]; simp only [Ok] at h; exact starts_qualified h
  | lref m t =>
    simp only [text_lref, List.append_assoc]
    simp only [Ok] at h
    exact starts_append (starts t h.1) _
  | star m t =>
    simp only [text_star, List.append_assoc]
    simp only [Ok] at h
    exact starts_append (starts t h) _
  | voidPtr => simp only [text_voidPtr]; exact .inl ⟨_, _, rfl, by decide⟩
  | box t | vec t | uniquePtr t | sharedPtr t | weakPtr t | vector t | str | slice m t | fn as r | array t n | fat
  | ptrLen => simp only [text_box, text_vec, text_uniquePtr, text_sharedPtr, text_weakPtr, text_vector, text_str, text_slice, text_fn, text_array, text_fat, text_ptrLen, List.append_assoc]; exact .inr ⟨_, _, rfl, by decide⟩
termination_by structural t

/-! ### Literal pieces -/

theorem lex_open {s : List Char} (hs : Starts s) (r : List Char) :
    lex [] ("::rust::Box<".toList ++ (s ++ r)) = openToks "rust" "Box" ++ lex [] (s ++ r) ∧
    lex [] ("::rust::Vec<".toList ++ (s ++ r)) = openToks "rust" "Vec" ++ lex [] (s ++ r) ∧
    lex [] ("::rust::Slice<".toList ++ (s ++ r)) = openToks "rust" "Slice" ++ lex [] (s ++ r) ∧
    lex [] ("::rust::Fn<".toList ++ (s ++ r)) = openToks "rust" "Fn" ++ lex [] (s ++ r) ∧
    lex [] ("::std::unique_ptr<".toList ++ (s ++ r)) = openToks "std" "unique_ptr" ++ lex [] (s ++ r) ∧
    lex [] ("::std::shared_ptr<".toList ++ (s ++ r)) = openToks "std" "shared_ptr" ++ lex [] (s ++ r) ∧
    lex [] ("::std::weak_ptr<".toList ++ (s ++ r)) = openToks "std" "weak_ptr" ++ lex [] (s ++ r) ∧
    lex [] ("::std::vector<".toList ++ (s ++ r)) = openToks "std" "vector" ++ lex [] (s ++ r) ∧
    lex [] ("::std::array<".toList ++ (s ++ r)) = openToks "std" "array" ++ lex [] (s ++ r) := by
  have hb := starts_bracket hs r
  have key : ∀ x : List Char, bracket x = false →
      (if bracket x then Tok.bad else Tok.lt) :: lex [] x = .lt :: lex [] x := fun x h => by simp [h]
  refine ⟨?_, ?_, ?_, ?_, ?_, ?_, ?_, ?_, ?_⟩
  · exact congrArg (fun x => [Tok.colons, .word "rust".toList, .colons, .word "Box".toList] ++ x) (key _ hb)
  · exact congrArg (fun x => [Tok.colons, .word "rust".toList, .colons, .word "Vec".toList] ++ x) (key _ hb)
  · exact congrArg (fun x => [Tok.colons, .word "rust".toList, .colons, .word "Slice".toList] ++ x) (key _ hb)
  · exact congrArg (fun x => [Tok.colons, .word "rust".toList, .colons, .word "Fn".toList] ++ x) (key _ hb)
  · exact congrArg (fun x => [Tok.colons, .word "std".toList, .colons, .word "unique_ptr".toList] ++ x) (key _ hb)
  · exact congrArg (fun x => [Tok.colons, .word "std".toList, .colons, .word "shared_ptr".toList] ++ x) (key _ hb)
  · exact congrArg (fun x => [Tok.colons, .word "std".toList, .colons, .word "weak_ptr".toList] ++ x) (key _ hb)
  · exact congrArg (fun x => [Tok.colons, .word "std".toList, .colons, .word "vector".toList] ++ x) (key _ hb)
  · exact congrArg (fun x => [Tok.colons, .word "std".toList, .colons, .word "array".toList] ++ x) (key _ hb)

theorem lex_space (r : List Char) : lex [] (' ' :: r) = lex [] r := rfl

theorem stop_after (t : CTok) (s : List Char) (hs : s.head? ≠ some '&' ∨ ∀ m u, t ≠ .lref m u) :
    Stop t (spaceAfter t ++ s) := by
  cases t with
  | lref m t =>
    rcases hs with hs | hs
    · exact hs
    · exact absurd rfl (hs m t)
  | atom _ | named _ | str | fat | ptrLen => intro c hc; cases hc; decide
  | _ => trivial

theorem lex_after (t : CTok) (s : List Char) : lex [] (spaceAfter t ++ s) = lex [] s := by
  cases t <;> first | rfl

/-- A type is followed by punctuation. -/
theorem stop_punct (t : CTok) {c : Char} (hc : isWordChar c = false) (h2 : c ≠ '&') (s : List Char) : Stop t (c :: s) := by
  cases t with
  | lref m t => simp [Stop, h2]
  | atom _ | named _ | str | fat | ptrLen => intro c hc; cases hc; assumption
  | _ => trivial

theorem punct : ">".toList = ['>'] ∧ ")>".toList = [')', '>'] ∧ "(".toList = ['('] ∧ ", ".toList = [',', ' '] ∧
    "&".toList = ['&'] ∧ "*".toList = ['*'] ∧ ")".toList = [')'] := by decide

theorem lex_amp {r : List Char} (h : r.head? ≠ some '&') : lex [] ('&' :: r) = .amp :: lex [] r := by
  rw [lex]
  · simp [isWordChar, flush]
  · rintro r' h3 _; exact absurd h3 (by decide)
  · rintro r' _ h3; subst h3; exact h rfl

theorem starts_ret (t : Option CTok) (h : OkRet t) : Starts (textRet t) := by
  cases t with
  | none => exact .inl ⟨_, _, rfl, by decide⟩
  | some t => exact starts t h

theorem digit_bounds {c : Char} (h : c.isDigit = true) : '0' ≤ c ∧ c ≤ '9' := by
  simp only [Char.isDigit, Bool.and_eq_true, decide_eq_true_eq] at h
  exact ⟨h.1, h.2⟩

theorem repr_word (n : Nat) : (Nat.repr n).toList.all isWordChar = true ∧ (Nat.repr n).toList ≠ [] ∧
    isNumber (Nat.repr n).toList = true := by
  have hl : (Nat.repr n).toList = Nat.toDigits 10 n := by simp [Nat.repr]
  have hd : ∀ c ∈ Nat.toDigits 10 n, '0' ≤ c ∧ c ≤ '9' := fun c hc =>
    digit_bounds (Nat.isDigit_of_mem_toDigits (by decide) (by decide) hc)
  have hn : Nat.toDigits 10 n ≠ [] := by simp [Nat.toDigits_ne_nil]
  rw [hl]
  refine ⟨?_, hn, ?_⟩
  · rw [List.all_eq_true]
    intro c hc
    simp [isWordChar, hd c hc]
  · cases h : Nat.toDigits 10 n with
    | nil => exact absurd h hn
    | cons c r =>
      have := hd c (by simp [h])
      simp [isNumber, this]

theorem lex_atom (a : Atom) {r : List Char} (hr : ∀ c, r.head? = some c → isWordChar c = false) :
    lex [] (atomText a ++ r) = atomToks a ++ lex [] r := by
  cases a with
  | u8 => exact lex_qualified (p := ⟨["std"], "uint8_t", ""⟩) (by decide) hr
  | u16 => exact lex_qualified (p := ⟨["std"], "uint16_t", ""⟩) (by decide) hr
  | u32 => exact lex_qualified (p := ⟨["std"], "uint32_t", ""⟩) (by decide) hr
  | u64 => exact lex_qualified (p := ⟨["std"], "uint64_t", ""⟩) (by decide) hr
  | usize => exact lex_qualified (p := ⟨["std"], "size_t", ""⟩) (by decide) hr
  | i8 => exact lex_qualified (p := ⟨["std"], "int8_t", ""⟩) (by decide) hr
  | i16 => exact lex_qualified (p := ⟨["std"], "int16_t", ""⟩) (by decide) hr
  | i32 => exact lex_qualified (p := ⟨["std"], "int32_t", ""⟩) (by decide) hr
  | i64 => exact lex_qualified (p := ⟨["std"], "int64_t", ""⟩) (by decide) hr
  | cxxString => exact lex_qualified (p := ⟨["std"], "string", ""⟩) (by decide) hr
  | isize => exact lex_qualified (p := ⟨["rust"], "isize", ""⟩) (by decide) hr
  | rustString => exact lex_qualified (p := ⟨["rust"], "String", ""⟩) (by decide) hr
  | bool => exact lex_whole (s := "bool".toList) (by decide) (by decide) hr
  | char => exact lex_whole (s := "char".toList) (by decide) (by decide) hr
  | f32 => exact lex_whole (s := "float".toList) (by decide) (by decide) hr
  | f64 => exact lex_whole (s := "double".toList) (by decide) (by decide) hr

mutual
/-- The tokens of a type. -/
theorem lex_text (t : CTok) (h : Ok t) (r : List Char) (hr : Stop t r) : lex [] (text t ++ r) = toks t ++ lex [] r := by
  cases t with
  | atom a => simp only [text_atom, toks_atom]; exact lex_atom a hr
  | named p => simp only [text_named, toks_named]; simp only [Ok] at h; exact lex_qualified h hr
  | str => simp only [text_str, toks_str]; exact lex_qualified (p := ⟨["rust"], "Str", ""⟩) (by decide) hr
  | fat => simp only [text_fat, toks_fat]; exact lex_qualified (p := ⟨["rust", "repr"], "Fat", ""⟩) (by decide) hr
  | ptrLen => simp only [text_ptrLen, toks_ptrLen]; exact lex_qualified (p := ⟨["rust", "repr"], "PtrLen", ""⟩) (by decide) hr
  | voidPtr => simp only [text_voidPtr, toks_voidPtr]; rfl
  | box t =>
    simp only [Ok] at h
    simp only [text_box, toks_box, List.append_assoc, punct.1, punct.2.1, punct.2.2.1, punct.2.2.2.1, punct.2.2.2.2.1, punct.2.2.2.2.2.1, List.cons_append,
      List.nil_append]
    rw [(lex_open (starts t h) _).1, lex_text t h _ (stop_punct t (by decide) (by decide) _)]; rfl
  | vec t =>
    simp only [Ok] at h
    simp only [text_vec, toks_vec, List.append_assoc, punct.1, punct.2.1, punct.2.2.1, punct.2.2.2.1, punct.2.2.2.2.1, punct.2.2.2.2.2.1, List.cons_append,
      List.nil_append]
    rw [(lex_open (starts t h) _).2.1, lex_text t h _ (stop_punct t (by decide) (by decide) _)]; rfl
  | uniquePtr t =>
    simp only [Ok] at h
    simp only [text_uniquePtr, toks_uniquePtr, List.append_assoc, punct.1, punct.2.1, punct.2.2.1, punct.2.2.2.1, punct.2.2.2.2.1, punct.2.2.2.2.2.1, List.cons_append,
      List.nil_append]
    rw [(lex_open (starts t h) _).2.2.2.2.1, lex_text t h _ (stop_punct t (by decide) (by decide) _)]; rfl
  | sharedPtr t =>
    simp only [Ok] at h
    simp only [text_sharedPtr, toks_sharedPtr, List.append_assoc, punct.1, punct.2.1, punct.2.2.1, punct.2.2.2.1, punct.2.2.2.2.1, punct.2.2.2.2.2.1, List.cons_append,
      List.nil_append]
    rw [(lex_open (starts t h) _).2.2.2.2.2.1, lex_text t h _ (stop_punct t (by decide) (by decide) _)]; rfl
  | weakPtr t =>
    simp only [Ok] at h
    simp only [text_weakPtr, toks_weakPtr, List.append_assoc, punct.1, punct.2.1, punct.2.2.1, punct.2.2.2.1, punct.2.2.2.2.1, punct.2.2.2.2.2.1, List.cons_append,
      List.nil_append]
    rw [(lex_open (starts t h) _).2.2.2.2.2.2.1, lex_text t h _ (stop_punct t (by decide) (by decide) _)]; rfl
  | vector t =>
    simp only [Ok] at h
    simp only [text_vector, toks_vector, List.append_assoc, punct.1, punct.2.1, punct.2.2.1, punct.2.2.2.1, punct.2.2.2.2.1, punct.2.2.2.2.2.1, List.cons_append,
      List.nil_append]
    rw [(lex_open (starts t h) _).2.2.2.2.2.2.2.1, lex_text t h _ (stop_punct t (by decide) (by decide) _)]; rfl
  | array t n =>
    simp only [Ok] at h
    simp only [text_array, toks_array, List.append_assoc, punct.1, punct.2.1, punct.2.2.1, punct.2.2.2.1, punct.2.2.2.2.1, punct.2.2.2.2.2.1, List.cons_append,
      List.nil_append]
    obtain ⟨w1, w2, _⟩ := repr_word n
    rw [(lex_open (starts t h) _).2.2.2.2.2.2.2.2, lex_text t h _ (stop_punct t (by decide) (by decide) _)]
    change _ ++ (_ ++ .comma :: lex [] ((Nat.repr n).toList ++ _)) = _
    rw [lex_whole w1 w2 (by intro c hc; cases hc; decide)]
    rfl
  | lref m t =>
    simp only [Ok] at h
    simp only [text_lref, toks_lref, List.append_assoc, punct.1, punct.2.1, punct.2.2.1, punct.2.2.2.1, punct.2.2.2.2.1, punct.2.2.2.2.2.1, List.cons_append,
      List.nil_append]
    rw [lex_text t h.1 _ (stop_after t _ (.inr h.2)), lex_after]
    cases m
    · change _ ++ (.word "const".toList :: lex [] ('&' :: r)) = _
      rw [lex_amp hr]; rfl
    · change _ ++ (lex [] ('&' :: r)) = _
      rw [lex_amp hr]; rfl
  | star m t =>
    simp only [Ok] at h
    simp only [text_star, toks_star, List.append_assoc, punct.1, punct.2.1, punct.2.2.1, punct.2.2.2.1, punct.2.2.2.2.1, punct.2.2.2.2.2.1, List.cons_append,
      List.nil_append]
    rw [lex_text t h _ (stop_after t _ (.inl (by cases m <;> simp [constSpace]))), lex_after]
    cases m <;> rfl
  | slice m t =>
    simp only [Ok] at h
    simp only [text_slice, toks_slice, List.append_assoc, punct.1, punct.2.1, punct.2.2.1, punct.2.2.2.1, punct.2.2.2.2.1, punct.2.2.2.2.2.1, List.cons_append,
      List.nil_append]
    rw [(lex_open (starts t h) _).2.2.1, lex_text t h _ (stop_after t _ (.inl (by cases m <;> simp))), lex_after]
    cases m <;> rfl
  | fn as ret =>
    simp only [Ok] at h
    simp only [text_fn, toks_fn, List.append_assoc, punct.1, punct.2.1, punct.2.2.1, punct.2.2.2.1, punct.2.2.2.2.1, punct.2.2.2.2.2.1, List.cons_append,
      List.nil_append]
    rw [(lex_open (starts_ret ret h.1) _).2.2.2.1, lex_ret ret h.1 (by decide) (by decide)]
    change _ ++ (_ ++ .lparen :: lex [] (commaSep (textArgs as) ++ _)) = _
    rw [lex_args as h.2]
    simp; rfl
/-- The tokens of a return type. -/
theorem lex_ret (t : Option CTok) (h : OkRet t) {c : Char} (hc : isWordChar c = false) (h2 : c ≠ '&') (s : List Char) :
    lex [] (textRet t ++ c :: s) = toksRet t ++ lex [] (c :: s) := by
  cases t with
  | none => exact lex_whole (s := "void".toList) (by decide) (by decide) (by intro c hc; cases hc; assumption)
  | some t => exact lex_text t h _ (stop_punct t hc h2 s)
/-- The tokens of the parameters. -/
theorem lex_args (as : List CTok) (h : OkArgs as) (s : List Char) :
    lex [] (commaSep (textArgs as) ++ (')' :: s)) = commaToks (toksArgs as) ++ .rparen :: lex [] s := by
  match as with
  | [] => rfl
  | [t] =>
    simp only [OkArgs] at h
    simp only [textArgs, toksArgs, commaSep, commaToks]
    rw [lex_text t h.1 _ (stop_punct t (by decide) (by decide) s)]
    rfl
  | t :: u :: rest =>
    simp only [OkArgs] at h
    have := lex_args (u :: rest) h.2 s
    simp only [textArgs, toksArgs, commaSep, commaToks, List.append_assoc, punct.2.2.2.1, List.cons_append,
      List.nil_append] at this ⊢
    rw [lex_text t h.1 _ (stop_punct t (by decide) (by decide) _)]
    change _ ++ .comma :: lex [] (commaSep _ ++ _) = _
    rw [this]
end

end Verif.CxxText
