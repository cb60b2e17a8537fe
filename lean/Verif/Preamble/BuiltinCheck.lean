import Verif.Preamble.BuiltinSpec
import Verif.Header.Check
/-!
# The helpers, one by one

What each piece of text mentions, declares and takes from `std`, checked against the text by the kernel.
-/
namespace Verif.Preamble
open Verif.Header (Cxx.layout bodies core startsWith trimStart Kept Copied Trimmed Emit guards)

/-! ### The text of a section -/

noncomputable def keptB (define : Text) (body : List Text) : List Text :=
  (core body).filter fun line => decide (line ≠ define) && !startsWith (trimStart line) [47, 47]

/-- The lines copied for a guard. -/
noncomputable def sectionLines (g : Text) : List Text :=
  [Verif.Header.ifndef ++ g, Verif.Header.define ++ g] ++
    (bodies g Cxx.layout).flatMap (keptB (Verif.Header.define ++ g)) ++ [Verif.Header.endif ++ g]

def Emit.line? : Emit → Option Text
  | .line l => some l
  | .nextSection => none

theorem replicate_core {i j : Nat} {a : List Text} {x y : Text} {init rest : List Text}
    (hx : a = x :: rest) (hx' : x ≠ []) (hy : a = init ++ [y]) (hy' : y ≠ []) :
    core (List.replicate i [] ++ a ++ List.replicate j []) = a := by
  have drop : ∀ (n : Nat) (z : Text) (t : List Text), z ≠ [] →
      Verif.Header.dropEmpty (List.replicate n [] ++ z :: t) = z :: t := by
    intro n z t hz
    induction n with
    | zero => cases z with
      | nil => exact absurd rfl hz
      | cons b z => rfl
    | succ n ih => rw [List.replicate_succ]; simpa [Verif.Header.dropEmpty] using ih
  unfold core
  have e1 : Verif.Header.dropEmpty (List.replicate i [] ++ a ++ List.replicate j []) = a ++ List.replicate j [] := by
    rw [hx, List.append_assoc, List.cons_append, drop _ _ _ hx']
  rw [e1, List.reverse_append, List.reverse_replicate]
  conv => lhs; rw [hy]
  rw [List.reverse_append]
  simp only [List.reverse_cons, List.reverse_nil, List.nil_append, List.singleton_append]
  rw [drop _ _ _ hy']
  simp [hy]

theorem core_unique {body c : List Text} (h : Trimmed body c) : core body = c := by
  obtain ⟨⟨i, j, rfl⟩, ⟨b, l, rest, h1, -⟩, init, l', b', h2, -⟩ := h
  exact replicate_core h1 (by simp) h2 (by simp)

theorem copied_lines {g : Text} {bs : List (List Text)} {out : List Emit} (h : Copied g bs out) :
    out.filterMap Emit.line? = bs.flatMap (keptB (Verif.Header.define ++ g)) := by
  induction h with
  | nil => rfl
  | @cons body c kept rest out ht hk _ ih =>
    have hu : keptB (Verif.Header.define ++ g) body = kept := by
      unfold keptB
      rw [core_unique ht]
      exact Verif.Header.kept_unique (Verif.Header.kept_filter _ _) hk
    have hm : ∀ k : List Text, (k.map Emit.line).filterMap Emit.line? = k := by
      intro k
      induction k with
      | nil => rfl
      | cons x k ih => simp [Emit.line?, ih]
    rw [List.flatMap_cons, List.filterMap_append, List.filterMap_cons, hm, ih, hu]
    rfl

theorem guard_mem (s : Sec) : s.guard ∈ guards := by
  cases s <;> simp [Sec.guard, guards]

theorem copied_unfold (s : Sec) :
    (Piece.copied s).lines = linesWritten (Verif.Header.write (Verif.Header.textOf Cxx.layout) true s.guard) := by
  rw [Piece.lines]

theorem emit_lines {g : Text} {bs : List (List Text)} {out : List Emit} {w : Option (List Emit)}
    (hc : Copied g bs (.nextSection :: out))
    (hw : w = some (.nextSection :: .line (Verif.Header.ifndef ++ g) :: .line (Verif.Header.define ++ g) :: out ++
      [.line (Verif.Header.endif ++ g)])) :
    linesWritten w = [Verif.Header.ifndef ++ g, Verif.Header.define ++ g] ++
      bs.flatMap (keptB (Verif.Header.define ++ g)) ++ [Verif.Header.endif ++ g] := by
  have := copied_lines hc
  subst hw
  simp only [linesWritten]
  simp only [List.filterMap_cons, Emit.line?] at this
  simp only [List.cons_append, List.filterMap_cons, List.filterMap_append, List.filterMap_nil, List.nil_append,
    List.cons.injEq, true_and, ← this]
  congr 2

theorem copied_text (s : Sec) : (Piece.copied s).lines = sectionLines s.guard := by
  obtain ⟨out, hc, hw⟩ := Verif.Header.cxx_sections (guard_mem s)
  rw [copied_unfold]
  exact emit_lines hc hw

/-! ### Checks -/

def Helper.all : List Helper :=
  [.panic, .unsafeBitcopyT, .unsafeBitcopy, .impl, .string, .opaque, .sizeOf, .alignOf, .str, .slice, .box, .vec, .fn, .error,
   .isize, .isComplete, .layout, .isRelocatable, .fat, .ptrLen, .operatorNew, .fail, .manuallyDrop, .maybeUninit, .destroy,
   .deleterIf, .isRelocatableOrArray, .trycatch]

theorem Helper.all_mem (h : Helper) (hm : ¬ h.Member) : h ∈ Helper.all := by
  unfold Helper.Member at hm
  cases h <;> simp_all [Helper.all]

/-- The text mentions no helpers but these. -/
def onlyB (toks : List Tok) (hs : List Helper) : Bool :=
  toks.all fun t => Helper.all.all fun h => !Nat.beq t h.name.2 || hs.contains h

theorem onlyB_spec {lines : List Text} {hs : List Helper} (h : onlyB (tokensOf lines) hs = true) {x : Helper}
    (hx : Mentions lines x) : x ∈ hs := by
  unfold onlyB at h
  rw [List.all_eq_true] at h
  have := h _ hx.1
  rw [List.all_eq_true] at this
  have := this x (Helper.all_mem x hx.2)
  simpa using this

def stdB (toks : List Tok) (ts : List Tok) : Bool := (stdNames toks).all fun t => ts.any (Nat.beq t)

theorem stdB_spec {toks ts : List Tok} (h : stdB toks ts = true) {t : Tok} (ht : t ∈ stdNames toks) : t ∈ ts := by
  unfold stdB at h
  rw [List.all_eq_true] at h
  simpa [List.any_eq_true] using h t ht

def sameB : List Tok → List Tok → Bool
  | [], [] => true
  | a :: s, b :: t => Nat.beq a b && sameB s t
  | _, _ => false

theorem sameB_spec : ∀ {s t : List Tok}, sameB s t = true → s = t
  | [], [], _ => rfl
  | a :: s, b :: t, h => by
    simp only [sameB, Bool.and_eq_true] at h
    rw [sameB_spec h.2, Nat.eq_of_beq_eq_true h.1]

def givesB (ds : List (List Tok × Tok)) (gs : List (List Tok × Tok)) : Bool :=
  gs.all fun g => ds.any fun d => Nat.beq d.2 g.2 && sameB d.1 g.1

theorem givesB_spec {ds gs : List (List Tok × Tok)} (h : givesB ds gs = true) {g : List Tok × Tok} (hg : g ∈ gs) : g ∈ ds := by
  unfold givesB at h
  rw [List.all_eq_true] at h
  have := h g hg
  rw [List.any_eq_true] at this
  obtain ⟨d, hd, he⟩ := this
  rw [Bool.and_eq_true] at he
  obtain ⟨e1, e2⟩ := he
  have := Nat.eq_of_beq_eq_true e1
  have := sameB_spec e2
  cases d; cases g; simp_all

/-! ### Tables -/

/-- What a piece mentions. -/
def Piece.uses : Piece → List Helper
  | .comment => []
  | .copied .panic => [.panic]
  | .copied .rustString => [.unsafeBitcopyT, .string]
  | .copied .rustStr => [.impl, .string, .str]
  | .copied .rustSlice => [.panic, .impl, .sizeOf, .alignOf, .slice]
  | .copied .rustBox => [.box]
  | .copied .bitcopyT => [.unsafeBitcopyT]
  | .copied .bitcopy => [.unsafeBitcopyT, .unsafeBitcopy]
  | .copied .rustVec => [.panic, .unsafeBitcopyT, .sizeOf, .slice, .vec]
  | .copied .rustFn => [.fn]
  | .copied .rustError => [.impl, .error]
  | .copied .rustIsize => [.isize]
  | .copied .rustOpaque => [.opaque]
  | .copied .isComplete => [.isComplete]
  | .copied .layout => [.opaque, .sizeOf, .alignOf, .isComplete, .layout]
  | .copied .relocatable => [.isRelocatable]
  | .fwdBitcopyT => [.unsafeBitcopyT]
  | .fwdImpl => [.impl]
  | .fwdString => [.string]
  | .fwdOpaque => [.opaque]
  | .fwdLayout => [.sizeOf, .alignOf]
  | .strUninit => [.str]
  | .sliceUninit => [.slice]
  | .fat => [.fat]
  | .ptrLen => [.ptrLen]
  | .operatorNew => [.operatorNew]
  | .fail => [.ptrLen, .fail]
  | .manuallyDrop => [.manuallyDrop]
  | .maybeUninit => [.operatorNew, .maybeUninit]
  | .implStr _ _ => [.impl, .str, .fat]
  | .implSlice _ _ => [.impl, .slice, .fat]
  | .implError => [.impl, .error, .ptrLen]
  | .destroy => [.destroy]
  | .deleterIf => [.deleterIf]
  | .relocatableOrArray => [.isRelocatable, .isRelocatableOrArray]
  | .trycatch => [.fail, .trycatch]

/-- What a piece declares; for members the class around it is given. -/
def Piece.gives : Piece → List (List Tok × Helper)
  | .copied .panic => [([], .panic)]
  | .copied .rustString => [([], .string)]
  | .copied .rustStr => [([], .str)]
  | .copied .rustSlice => [([], .slice)]
  | .copied .rustBox => [([], .box)]
  | .copied .bitcopyT => [([], .unsafeBitcopyT)]
  | .copied .bitcopy => [([], .unsafeBitcopy)]
  | .copied .rustVec => [([], .vec)]
  | .copied .rustFn => [([], .fn)]
  | .copied .rustError => [([], .error)]
  | .copied .rustIsize => [([], .isize)]
  | .copied .rustOpaque => [([], .opaque)]
  | .copied .isComplete => [([w!"detail"], .isComplete)]
  | .copied .layout => [([], .layout), ([], .sizeOf), ([], .alignOf)]
  | .copied .relocatable => [([], .isRelocatable)]
  | .fwdBitcopyT => [([], .unsafeBitcopyT)]
  | .fwdImpl => [([], .impl)]
  | .fwdString => [([], .string)]
  | .fwdOpaque => [([], .opaque)]
  | .fwdLayout => [([], .sizeOf), ([], .alignOf)]
  | .fat => [([], .fat)]
  | .ptrLen => [([], .ptrLen)]
  | .operatorNew => [([], .operatorNew)]
  | .fail => [([], .fail)]
  | .manuallyDrop => [([], .manuallyDrop)]
  | .maybeUninit => [([], .maybeUninit)]
  | .implStr new repr => (if new then [([w!"impl"], .newUnchecked)] else []) ++ (if repr then [([w!"impl"], .reprOf)] else [])
  | .implSlice new repr => (if new then [([w!"impl"], .sliceFrom)] else []) ++ (if repr then [([w!"impl"], .reprOf)] else [])
  | .implError => [([w!"impl"], .errorFrom)]
  | .destroy => [([], .destroy)]
  | .deleterIf => [([], .deleterIf)]
  | .relocatableOrArray => [([], .isRelocatableOrArray)]
  | .trycatch => [([], .trycatch)]
  | _ => []

/-- What a piece takes from `std`. -/
def Piece.stds : Piece → List Tok
  | .copied .rustString => [w!"array", w!"size_t", w!"string", w!"uintptr_t"]
  | .copied .rustStr => [w!"array", w!"size_t", w!"string", w!"string_view", w!"uintptr_t"]
  | .copied .rustSlice =>
    [w!"add_lvalue_reference", w!"add_pointer", w!"array", w!"contiguous_iterator", w!"contiguous_iterator_tag", w!"declval",
     w!"distance", w!"is_const", w!"out_of_range", w!"ptrdiff_t", w!"random_access_iterator_tag", w!"ranges",
     w!"remove_const", w!"remove_reference_t", w!"size_t", w!"swap", w!"uintptr_t"]
  | .copied .rustBox => [w!"add_const", w!"add_pointer", w!"forward", w!"move", w!"swap"]
  | .copied .rustVec =>
    [w!"array", w!"back_inserter", w!"copy", w!"forward", w!"initializer_list", w!"move", w!"out_of_range", w!"size_t",
     w!"swap", w!"uintptr_t"]
  | .copied .rustFn => [w!"forward"]
  | .copied .rustError => [w!"exception", w!"size_t"]
  | .copied .isComplete => [w!"false_type", w!"size_t", w!"true_type"]
  | .copied .layout => [w!"enable_if", w!"is_base_of", w!"size_t"]
  | .copied .relocatable =>
    [w!"conditional", w!"false_type", w!"integral_constant", w!"is_same", w!"is_trivially_destructible",
     w!"is_trivially_move_constructible", w!"true_type"]
  | .fwdLayout | .ptrLen | .operatorNew | .maybeUninit | .relocatableOrArray => [w!"size_t"]
  | .fat => [w!"array", w!"uintptr_t"]
  | .fail => [w!"string"]
  | .manuallyDrop => [w!"move"]
  | .trycatch => [w!"declval", w!"enable_if", w!"exception", w!"is_same"]
  | _ => []

/-- All three tables against a text. -/
noncomputable def agrees (p : Piece) (lines : List Text) : Bool :=
  onlyB (tokensOf lines) p.uses && givesB (declares lines) (p.gives.map fun g => (g.1, g.2.name.2)) &&
    stdB (tokensOf lines) p.stds

theorem agrees_section (s : Sec) : agrees (.copied s) (sectionLines s.guard) = true := by
  cases s <;> decide +kernel

theorem agrees_piece (p : Piece) : agrees p p.lines = true := by
  match p with
  | .copied s => rw [copied_text]; exact agrees_section s
  | .implStr true true | .implStr true false | .implStr false true | .implStr false false
  | .implSlice true true | .implSlice true false | .implSlice false true | .implSlice false false
  | .comment | .fwdBitcopyT | .fwdImpl | .fwdString | .fwdOpaque | .fwdLayout | .strUninit | .sliceUninit | .fat | .ptrLen
  | .operatorNew | .fail | .manuallyDrop | .maybeUninit | .implError | .destroy | .deleterIf | .relocatableOrArray
  | .trycatch => decide +kernel

theorem uses_spec {p : Piece} {h : Helper} (hm : Mentions p.lines h) : h ∈ p.uses := by
  have := agrees_piece p
  simp only [agrees, Bool.and_eq_true] at this
  exact onlyB_spec this.1.1 hm

theorem gives_spec {p : Piece} {inner : List Tok} {h : Helper} (hm : (inner, h) ∈ p.gives) :
    (inner, h.name.2) ∈ declares p.lines := by
  have := agrees_piece p
  simp only [agrees, Bool.and_eq_true] at this
  exact givesB_spec this.1.2 (List.mem_map.2 ⟨_, hm, rfl⟩)

theorem stds_spec {p : Piece} {t : Tok} (hm : t ∈ stdNames (tokensOf p.lines)) : t ∈ p.stds := by
  have := agrees_piece p
  simp only [agrees, Bool.and_eq_true] at this
  exact stdB_spec this.2 hm

/-- The helpers of rust/cxx.h. -/
def headerGives : List Helper :=
  [.panic, .unsafeBitcopyT, .unsafeBitcopy, .impl, .string, .opaque, .sizeOf, .alignOf, .str, .slice, .box, .vec, .fn, .error,
   .isize, .isComplete, .layout, .isRelocatable]

theorem header_gives {h : Helper} (hm : h ∈ headerGives) : InHeader h := by
  have : givesB (declares (Cxx.layout.flatMap Verif.Header.Chunk.lines)) (headerGives.map Helper.name) = true := by
    decide +kernel
  exact givesB_spec this (List.mem_map.2 ⟨_, hm, rfl⟩)

end Verif.Preamble
