import Verif.Preamble.BuiltinCheck
import Verif.Preamble.IncludeProps
/-! # Helpers come with what they need -/
namespace Verif.Preamble

/-! ### Requests that follow from others -/

theorem pair_ite {α β : Type} (c : Prop) [Decidable c] (a a' : α) (x x' : β) :
    (if c then (a, x) else (a', x')) = (if c then a else a', if c then x else x') := by
  by_cases h : c <;> simp [h]

/-- The helpers written in the end. -/
theorem propagate_flags (b : Builtins) (i : Std → Bool) : (propagate b i).1 = { b with
    friendImpl := b.friendImpl || b.rustStr || b.rustVec || b.rustSlice || b.rustError
    panic := b.panic || b.rustVec || b.rustSlice
    rustSlice := b.rustSlice || b.rustVec
    unsafeBitcopyT := b.unsafeBitcopyT || b.rustVec || b.unsafeBitcopy
    layout := b.layout || b.rustSlice || b.rustVec
    relocatable := b.relocatable || b.relocatableOrArray
    isComplete := b.isComplete || b.layout || b.rustSlice || b.rustVec
    ptrLen := b.ptrLen || b.trycatch } := by
  obtain ⟨b1, b2, b3, b4, b5, b6, b7, b8, b9, b10, b11, b12, b13, b14, b15, b16, b17, b18, b19, b20, b21, b22, b23, b24, b25,
    b26, b27, b28⟩ := b
  simp only [propagate, pair_ite]
  cases b3 <;> cases b6 <;> cases b4 <;> cases b13 <;> cases b24 <;> cases b10 <;> cases b11 <;> cases b16 <;> simp

theorem ask_apply (i : Std → Bool) (hs : List Std) (h : Std) : ask i hs h = (i h || hs.contains h) := rfl

theorem ask_if (c : Prop) [Decidable c] (i : Std → Bool) (hs : List Std) :
    (if c then ask i hs else i) = fun h => i h || (decide c && hs.contains h) := by
  funext h
  by_cases hc : c <;> simp [hc, ask]

/-- The headers asked for in front of the output. -/
theorem propagate_headers (b : Builtins) (i : Std → Bool) (h : Std) : (propagate b i).2 h = (i h ||
    b.rustString && [.array, .cstdint, .string].contains h ||
    b.rustStr && [.array, .cstdint, .string, .stringView].contains h ||
    b.rustVec && [.algorithm, .array, .cassert, .cstddef, .cstdint, .initializerList, .iterator, .new, .stdexcept, .typeTraits,
      .utility].contains h ||
    (b.rustVec || b.rustSlice) && [.array, .cassert, .cstddef, .cstdint, .iterator, .ranges, .stdexcept, .typeTraits].contains h ||
    b.rustBox && [.new, .typeTraits, .utility].contains h ||
    b.rustFn && [.utility].contains h ||
    b.rustError && [.exception].contains h ||
    b.rustIsize && [.basetsd, .sysTypes].contains h ||
    b.relocatableOrArray && [.cstddef].contains h ||
    (b.relocatableOrArray || b.relocatable) && [.typeTraits].contains h ||
    (b.rustVec || b.rustSlice || b.layout) && [.typeTraits, .cstddef].contains h ||
    (b.rustVec || b.rustSlice || b.layout || b.isComplete) && [.cstddef, .typeTraits].contains h) := by
  simp only [propagate, pair_ite, ask_if, apply_ite Builtins.rustString, apply_ite Builtins.rustStr, apply_ite Builtins.rustSlice, apply_ite Builtins.rustBox, apply_ite Builtins.rustVec, apply_ite Builtins.rustFn, apply_ite Builtins.rustIsize, apply_ite Builtins.layout, apply_ite Builtins.rustError, apply_ite Builtins.relocatable, apply_ite Builtins.relocatableOrArray, apply_ite Builtins.isComplete, apply_ite Builtins.unsafeBitcopy, apply_ite Builtins.trycatch,
    ite_self, Bool.decide_eq_true, Bool.if_true_left, Bool.if_false_left]

/-- The headers asked for in the end. -/
theorem own_headers (b : Builtins) (i : Std → Bool) (h : Std) : ownIncludes b i h = (i h ||
    b.reprFat && [.array, .cstdint].contains h || b.ptrLen && [.cstddef].contains h ||
    b.maybeUninit && [.cstddef, .new].contains h || b.trycatch && [.string].contains h ||
    b.manuallyDrop && [.utility].contains h || b.maybeUninit && [.cstddef].contains h ||
    b.trycatch && [.exception, .typeTraits, .utility].contains h) := by
  simp only [ownIncludes, ask_if, Bool.decide_eq_true]

/-! ### The output as a table -/

abbrev Row := Bool × List Blk × Piece

def top : List Blk := [.cxxbridge1, .rust]
def anon : List Blk := .anonymous :: top

/-- The pieces in order with their conditions: first those that rust/cxx.h has too. -/
def rowsCopied (b : Builtins) : List Row :=
  [(true, top, .comment), (b.panic, top, .copied .panic), (b.rustString, top, .fwdBitcopyT),
   (b.friendImpl, anon, .fwdImpl), (b.rustStr && !b.rustString, top, .fwdString),
   (b.layout && !b.rustOpaque, top, .fwdOpaque), (b.rustSlice, top, .fwdLayout),
   (b.rustString, top, .copied .rustString), (b.rustStr, top, .copied .rustStr),
   (b.rustSlice, top, .copied .rustSlice), (b.rustBox, top, .copied .rustBox),
   (b.unsafeBitcopyT, top, .copied .bitcopyT), (b.unsafeBitcopy, top, .copied .bitcopy),
   (b.rustVec, top, .copied .rustVec), (b.rustFn, top, .copied .rustFn),
   (b.rustError, top, .copied .rustError), (b.rustIsize, top, .copied .rustIsize),
   (b.rustOpaque, top, .copied .rustOpaque), (b.isComplete, top, .copied .isComplete),
   (b.layout, top, .copied .layout), (b.relocatable, top, .copied .relocatable)]

/-- The rest. -/
def rowsOwn (b : Builtins) : List Row :=
  [(b.rustStrNewUnchecked, top, .strUninit), (b.rustSliceNew, top, .sliceUninit),
   (b.reprFat, .repr :: top, .fat), (b.ptrLen, .repr :: top, .ptrLen),
   (b.maybeUninit, .detail :: top, .operatorNew), (b.trycatch, .detail :: top, .fail),
   (b.manuallyDrop, top, .manuallyDrop), (b.maybeUninit, top, .maybeUninit),
   (b.rustStrNewUnchecked || b.rustStrRepr, anon, .implStr b.rustStrNewUnchecked b.rustStrRepr),
   (b.rustSliceNew || b.rustSliceRepr, anon, .implSlice b.rustSliceNew b.rustSliceRepr),
   (b.rustError, anon, .implError), (b.destroy, anon, .destroy), (b.deleterIf, anon, .deleterIf),
   (b.relocatableOrArray, anon, .relocatableOrArray), (b.trycatch, [.behavior, .rust], .trycatch)]

def rows (b : Builtins) (cxx : Bool) : List Row := (if cxx then [] else rowsCopied b) ++ rowsOwn b

def chosen (rows : List Row) : List (List Blk × Piece) :=
  rows.flatMap fun r => if r.1 then [r.2] else []

theorem chosen_mem {rows : List Row} {e : List Blk × Piece} :
    e ∈ chosen rows ↔ (true, e) ∈ rows := by
  unfold chosen
  rw [List.mem_flatMap]
  constructor
  · rintro ⟨⟨c, e'⟩, hm, he⟩
    cases c <;> simp at he
    subst he; exact hm
  · intro h; exact ⟨_, h, by simp⟩

theorem place_piece {s : List Blk} (c : Bool) (p : Piece) {evs : List Ev} {r : List (List Blk × Piece)}
    (h : place s evs = some r) : place s (opt c p ++ evs) = some ((if c then [(s, p)] else []) ++ r) := by
  cases c <;> cases s <;> simp [opt, place, h]

theorem place_begin {s : List Blk} (b : Blk) {evs : List Ev} {r : List (List Blk × Piece)}
    (h : place (b :: s) evs = some r) : place s ([.begin b] ++ evs) = some r := by
  cases s <;> exact h

theorem place_end {s : List Blk} (b : Blk) {evs : List Ev} {r : List (List Blk × Piece)}
    (h : place s evs = some r) : place (b :: s) ([.end b] ++ evs) = some r := by
  simpa [place] using h

theorem place_block {s : List Blk} (c : Bool) (b : Blk) (p : Piece) {evs : List Ev} {r : List (List Blk × Piece)}
    (h : place s evs = some r) :
    place s ((if c = true then [.begin b, .piece p, .end b] else []) ++ evs) =
      some ((if c then [(b :: s, p)] else []) ++ r) := by
  cases c <;> cases s <;> simp [place, h]

theorem place_last : place [.rust] [.end .rust] = some [] := by simp [place]

/-- The part of our own. -/
theorem place_own (b : Builtins) : place [.cxxbridge1, .rust] ((ownEvs b ++ [[Ev.end .rust]]).flatten) = some (chosen (rowsOwn b)) :=
  place_piece b.rustStrNewUnchecked .strUninit (place_piece b.rustSliceNew .sliceUninit (place_begin .repr
    (place_piece b.reprFat .fat (place_piece b.ptrLen .ptrLen (place_end .repr (place_begin .detail
    (place_piece b.maybeUninit .operatorNew (place_piece b.trycatch .fail (place_end .detail
    (place_piece b.manuallyDrop .manuallyDrop (place_piece b.maybeUninit .maybeUninit (place_begin .anonymous
    (place_piece (b.rustStrNewUnchecked || b.rustStrRepr) (.implStr b.rustStrNewUnchecked b.rustStrRepr)
    (place_piece (b.rustSliceNew || b.rustSliceRepr) (.implSlice b.rustSliceNew b.rustSliceRepr)
    (place_piece b.rustError .implError (place_piece b.destroy .destroy (place_piece b.deleterIf .deleterIf
    (place_piece b.relocatableOrArray .relocatableOrArray (place_end .anonymous (place_end .cxxbridge1
    (place_block b.trycatch .behavior .trycatch place_last)))))))))))))))))))))

theorem place_copied (b : Builtins) : place [.cxxbridge1, .rust] ((copiedEvs b ++ (ownEvs b ++ [[Ev.end .rust]])).flatten) =
    some (chosen (rowsCopied b ++ rowsOwn b)) :=
  place_piece true .comment (place_piece b.panic (.copied .panic) (place_piece b.rustString .fwdBitcopyT
    (place_block b.friendImpl .anonymous .fwdImpl
    (place_piece (b.rustStr && !b.rustString) .fwdString (place_piece (b.layout && !b.rustOpaque) .fwdOpaque
    (place_piece b.rustSlice .fwdLayout (place_piece b.rustString (.copied .rustString)
    (place_piece b.rustStr (.copied .rustStr) (place_piece b.rustSlice (.copied .rustSlice)
    (place_piece b.rustBox (.copied .rustBox) (place_piece b.unsafeBitcopyT (.copied .bitcopyT)
    (place_piece b.unsafeBitcopy (.copied .bitcopy) (place_piece b.rustVec (.copied .rustVec)
    (place_piece b.rustFn (.copied .rustFn) (place_piece b.rustError (.copied .rustError)
    (place_piece b.rustIsize (.copied .rustIsize) (place_piece b.rustOpaque (.copied .rustOpaque)
    (place_piece b.isComplete (.copied .isComplete) (place_piece b.layout (.copied .layout)
    (place_piece b.relocatable (.copied .relocatable) (place_own b)))))))))))))))))))))

/-- The blocks match up, and these are the pieces. -/
theorem placed_exact {i : Includes} {b : Builtins} (hb : b ≠ {}) :
    place [] (writeBuiltins i b).2 = some (chosen (rows (propagate b i.flag).1 i.hasCxxHeader)) := by
  unfold writeBuiltins rows
  rw [if_neg hb]
  generalize propagate b i.flag = x
  obtain ⟨b, flag⟩ := x
  cases hc : i.hasCxxHeader
  · simp only [Bool.false_eq_true, if_false, List.append_assoc]
    exact place_begin .rust (place_begin .cxxbridge1 (place_copied b))
  · simp only [if_true, List.append_assoc, List.nil_append]
    exact place_begin .rust (place_begin .cxxbridge1 (place_own b))

/-- The order of pieces. -/
def Piece.rank : Piece → Nat
  | .comment => 0 | .copied .panic => 1 | .fwdBitcopyT => 2 | .fwdImpl => 3 | .fwdString => 4 | .fwdOpaque => 5
  | .fwdLayout => 6 | .copied .rustString => 7 | .copied .rustStr => 8 | .copied .rustSlice => 9 | .copied .rustBox => 10
  | .copied .bitcopyT => 11 | .copied .bitcopy => 12 | .copied .rustVec => 13 | .copied .rustFn => 14
  | .copied .rustError => 15 | .copied .rustIsize => 16 | .copied .rustOpaque => 17 | .copied .isComplete => 18
  | .copied .layout => 19 | .copied .relocatable => 20 | .strUninit => 21 | .sliceUninit => 22 | .fat => 23 | .ptrLen => 24
  | .operatorNew => 25 | .fail => 26 | .manuallyDrop => 27 | .maybeUninit => 28 | .implStr _ _ => 29 | .implSlice _ _ => 30
  | .implError => 31 | .destroy => 32 | .deleterIf => 33 | .relocatableOrArray => 34 | .trycatch => 35

theorem rows_sorted (b : Builtins) (cxx : Bool) : (rows b cxx).Pairwise fun x y => x.2.2.rank < y.2.2.rank := by
  have h1 : (rowsCopied b).map (fun x => x.2.2.rank) = List.range 21 := rfl
  have h2 : (rowsOwn b).map (fun x => x.2.2.rank) = (List.range 15).map (· + 21) := rfl
  have h : ((rows b cxx).map fun x => x.2.2.rank).Pairwise (· < ·) := by
    unfold rows
    cases cxx
    · rw [if_neg (by simp), List.map_append, h1, h2]; decide
    · rw [if_pos rfl, List.map_append, h2]; decide
  exact List.pairwise_map.1 h

theorem chosen_sorted {rows : List Row} (h : rows.Pairwise fun x y => x.2.2.rank < y.2.2.rank) :
    (chosen rows).Pairwise fun x y => x.2.rank < y.2.rank := by
  induction rows with
  | nil => exact .nil
  | cons r rows ih =>
    rw [List.pairwise_cons] at h
    have : chosen (r :: rows) = (if r.1 then [r.2] else []) ++ chosen rows := rfl
    rw [this]
    cases hr : r.1
    · exact ih h.2
    · refine List.pairwise_cons.2 ⟨fun e he => ?_, ih h.2⟩
      exact h.1 _ (chosen_mem.1 he)

/-- In a sorted list everything of lower rank stands in front. -/
theorem sorted_before {l pre post : List (List Blk × Piece)} {e x : List Blk × Piece}
    (h : l.Pairwise fun x y => x.2.rank < y.2.rank) (hl : l = pre ++ e :: post) (hx : x ∈ l) (hr : x.2.rank ≤ e.2.rank) :
    x ∈ pre ++ [e] := by
  subst hl
  rw [List.mem_append, List.mem_cons] at hx
  rw [List.mem_append, List.mem_singleton]
  rcases hx with hx | hx | hx
  · exact .inl hx
  · exact .inr hx
  · rw [List.pairwise_append, List.pairwise_cons] at h
    have := h.2.1.1 x hx
    omega

/-! ### Helpers -/

/-- What follows from the requests. -/
structure Complete (b : Builtins) : Prop where
  str : b.rustStr = true → b.friendImpl = true
  vec : b.rustVec = true → b.panic = true ∧ b.rustSlice = true ∧ b.unsafeBitcopyT = true
  slice : b.rustSlice = true → b.friendImpl = true ∧ b.layout = true ∧ b.panic = true
  error : b.rustError = true → b.friendImpl = true
  array : b.relocatableOrArray = true → b.relocatable = true
  layout : b.layout = true → b.isComplete = true
  bitcopy : b.unsafeBitcopy = true → b.unsafeBitcopyT = true
  trycatch : b.trycatch = true → b.ptrLen = true

theorem propagate_complete (b : Builtins) (i : Std → Bool) : Complete (propagate b i).1 := by
  rw [propagate_flags]
  constructor <;> simp <;> grind

theorem propagate_coherent {b : Builtins} (h : Coherent b) (i : Std → Bool) : Coherent (propagate b i).1 := by
  obtain ⟨h1, h2, h3, h4, h5⟩ := h
  rw [propagate_flags]
  constructor <;> simp <;> intros <;> (try simp_all)

/-- The piece declares the helper, as placed. -/
def givesAt (e : List Blk × Piece) (h : Helper) : Prop :=
  ∃ inner, (inner, h) ∈ e.2.gives ∧ e.1.reverse.flatMap Blk.path ++ inner = h.name.1

/-- Each piece finds what it mentions in front of it. -/
theorem source {b : Builtins} (hb : Complete b) (hc : Coherent b) {cxx : Bool} {e : List Blk × Piece}
    (he : (true, e) ∈ rows b cxx) {h : Helper} (hu : h ∈ e.2.uses) :
    cxx = true ∧ h ∈ headerGives ∨ ∃ x, (true, x) ∈ rows b cxx ∧ x.2.rank ≤ e.2.rank ∧ givesAt x h := by
  obtain ⟨ps, pv, pl, pe, pa, py, pb, pt⟩ := hb
  obtain ⟨c1, c2, c3, c4, c5⟩ := hc
  cases cxx
  · have hm := he
    simp only [rows, rowsCopied, rowsOwn, Bool.false_eq_true, if_false, List.cons_append, List.nil_append, List.mem_cons,
      List.not_mem_nil, or_false, Prod.mk.injEq] at hm
    rcases hm with ⟨hf, rfl⟩ | ⟨hf, rfl⟩ | ⟨hf, rfl⟩ | ⟨hf, rfl⟩ | ⟨hf, rfl⟩ | ⟨hf, rfl⟩ | ⟨hf, rfl⟩ | ⟨hf, rfl⟩ | ⟨hf, rfl⟩ | ⟨hf, rfl⟩ | ⟨hf, rfl⟩ | ⟨hf, rfl⟩ | ⟨hf, rfl⟩ | ⟨hf, rfl⟩ | ⟨hf, rfl⟩ | ⟨hf, rfl⟩ | ⟨hf, rfl⟩ | ⟨hf, rfl⟩ | ⟨hf, rfl⟩ | ⟨hf, rfl⟩ | ⟨hf, rfl⟩ | ⟨hf, rfl⟩ | ⟨hf, rfl⟩ | ⟨hf, rfl⟩ | ⟨hf, rfl⟩ | ⟨hf, rfl⟩ | ⟨hf, rfl⟩ | ⟨hf, rfl⟩ | ⟨hf, rfl⟩ | ⟨hf, rfl⟩ | ⟨hf, rfl⟩ | ⟨hf, rfl⟩ | ⟨hf, rfl⟩ | ⟨hf, rfl⟩ | ⟨hf, rfl⟩ | ⟨hf, rfl⟩
    · -- comment
      cases hu
    · -- copied .panic
      simp only [Piece.uses, List.mem_cons, List.not_mem_nil, or_false] at hu
      subst hu
      exact .inr ⟨_, he, Nat.le_refl _, [], by simp [Piece.gives], rfl⟩
    · -- fwdBitcopyT
      simp only [Piece.uses, List.mem_cons, List.not_mem_nil, or_false] at hu
      subst hu
      exact .inr ⟨_, he, Nat.le_refl _, [], by simp [Piece.gives], rfl⟩
    · -- fwdImpl
      simp only [Piece.uses, List.mem_cons, List.not_mem_nil, or_false] at hu
      subst hu
      exact .inr ⟨_, he, Nat.le_refl _, [], by simp [Piece.gives], rfl⟩
    · -- fwdString
      simp only [Piece.uses, List.mem_cons, List.not_mem_nil, or_false] at hu
      subst hu
      exact .inr ⟨_, he, Nat.le_refl _, [], by simp [Piece.gives], rfl⟩
    · -- fwdOpaque
      simp only [Piece.uses, List.mem_cons, List.not_mem_nil, or_false] at hu
      subst hu
      exact .inr ⟨_, he, Nat.le_refl _, [], by simp [Piece.gives], rfl⟩
    · -- fwdLayout
      simp only [Piece.uses, List.mem_cons, List.not_mem_nil, or_false] at hu
      rcases hu with rfl | rfl
      · exact .inr ⟨_, he, Nat.le_refl _, [], by simp [Piece.gives], rfl⟩
      · exact .inr ⟨_, he, Nat.le_refl _, [], by simp [Piece.gives], rfl⟩
    · -- copied .rustString
      simp only [Piece.uses, List.mem_cons, List.not_mem_nil, or_false] at hu
      rcases hu with rfl | rfl
      · exact .inr ⟨(top, .fwdBitcopyT), by simp_all [rows, rowsCopied, rowsOwn], by simp [Piece.rank], [], by simp [Piece.gives], rfl⟩
      · exact .inr ⟨_, he, Nat.le_refl _, [], by simp [Piece.gives], rfl⟩
    · -- copied .rustStr
      simp only [Piece.uses, List.mem_cons, List.not_mem_nil, or_false] at hu
      rcases hu with rfl | rfl | rfl
      · exact .inr ⟨(anon, .fwdImpl), by simp_all [rows, rowsCopied, rowsOwn], by simp [Piece.rank], [], by simp [Piece.gives], rfl⟩
      · by_cases hs : b.rustString = true
        · exact .inr ⟨(top, .copied .rustString), by simp_all [rows, rowsCopied], by decide, [], by simp [Piece.gives], rfl⟩
        · exact .inr ⟨(top, .fwdString), by simp_all [rows, rowsCopied], by decide, [], by simp [Piece.gives], rfl⟩
      · exact .inr ⟨_, he, Nat.le_refl _, [], by simp [Piece.gives], rfl⟩
    · -- copied .rustSlice
      simp only [Piece.uses, List.mem_cons, List.not_mem_nil, or_false] at hu
      rcases hu with rfl | rfl | rfl | rfl | rfl
      · exact .inr ⟨(top, .copied .panic), by simp_all [rows, rowsCopied, rowsOwn], by simp [Piece.rank], [], by simp [Piece.gives], rfl⟩
      · exact .inr ⟨(anon, .fwdImpl), by simp_all [rows, rowsCopied, rowsOwn], by simp [Piece.rank], [], by simp [Piece.gives], rfl⟩
      · exact .inr ⟨(top, .fwdLayout), by simp_all [rows, rowsCopied, rowsOwn], by simp [Piece.rank], [], by simp [Piece.gives], rfl⟩
      · exact .inr ⟨(top, .fwdLayout), by simp_all [rows, rowsCopied, rowsOwn], by simp [Piece.rank], [], by simp [Piece.gives], rfl⟩
      · exact .inr ⟨_, he, Nat.le_refl _, [], by simp [Piece.gives], rfl⟩
    · -- copied .rustBox
      simp only [Piece.uses, List.mem_cons, List.not_mem_nil, or_false] at hu
      subst hu
      exact .inr ⟨_, he, Nat.le_refl _, [], by simp [Piece.gives], rfl⟩
    · -- copied .bitcopyT
      simp only [Piece.uses, List.mem_cons, List.not_mem_nil, or_false] at hu
      subst hu
      exact .inr ⟨_, he, Nat.le_refl _, [], by simp [Piece.gives], rfl⟩
    · -- copied .bitcopy
      simp only [Piece.uses, List.mem_cons, List.not_mem_nil, or_false] at hu
      rcases hu with rfl | rfl
      · exact .inr ⟨(top, .copied .bitcopyT), by simp_all [rows, rowsCopied, rowsOwn], by simp [Piece.rank], [], by simp [Piece.gives], rfl⟩
      · exact .inr ⟨_, he, Nat.le_refl _, [], by simp [Piece.gives], rfl⟩
    · -- copied .rustVec
      simp only [Piece.uses, List.mem_cons, List.not_mem_nil, or_false] at hu
      rcases hu with rfl | rfl | rfl | rfl | rfl
      · exact .inr ⟨(top, .copied .panic), by simp_all [rows, rowsCopied, rowsOwn], by simp [Piece.rank], [], by simp [Piece.gives], rfl⟩
      · exact .inr ⟨(top, .copied .bitcopyT), by simp_all [rows, rowsCopied, rowsOwn], by simp [Piece.rank], [], by simp [Piece.gives], rfl⟩
      · exact .inr ⟨(top, .fwdLayout), by simp_all [rows, rowsCopied, rowsOwn], by simp [Piece.rank], [], by simp [Piece.gives], rfl⟩
      · exact .inr ⟨(top, .copied .rustSlice), by simp_all [rows, rowsCopied, rowsOwn], by simp [Piece.rank], [], by simp [Piece.gives], rfl⟩
      · exact .inr ⟨_, he, Nat.le_refl _, [], by simp [Piece.gives], rfl⟩
    · -- copied .rustFn
      simp only [Piece.uses, List.mem_cons, List.not_mem_nil, or_false] at hu
      subst hu
      exact .inr ⟨_, he, Nat.le_refl _, [], by simp [Piece.gives], rfl⟩
    · -- copied .rustError
      simp only [Piece.uses, List.mem_cons, List.not_mem_nil, or_false] at hu
      rcases hu with rfl | rfl
      · exact .inr ⟨(anon, .fwdImpl), by simp_all [rows, rowsCopied, rowsOwn], by simp [Piece.rank], [], by simp [Piece.gives], rfl⟩
      · exact .inr ⟨_, he, Nat.le_refl _, [], by simp [Piece.gives], rfl⟩
    · -- copied .rustIsize
      simp only [Piece.uses, List.mem_cons, List.not_mem_nil, or_false] at hu
      subst hu
      exact .inr ⟨_, he, Nat.le_refl _, [], by simp [Piece.gives], rfl⟩
    · -- copied .rustOpaque
      simp only [Piece.uses, List.mem_cons, List.not_mem_nil, or_false] at hu
      subst hu
      exact .inr ⟨_, he, Nat.le_refl _, [], by simp [Piece.gives], rfl⟩
    · -- copied .isComplete
      simp only [Piece.uses, List.mem_cons, List.not_mem_nil, or_false] at hu
      subst hu
      exact .inr ⟨_, he, Nat.le_refl _, [w!"detail"], by simp [Piece.gives], rfl⟩
    · -- copied .layout
      simp only [Piece.uses, List.mem_cons, List.not_mem_nil, or_false] at hu
      rcases hu with rfl | rfl | rfl | rfl | rfl
      · by_cases hs : b.rustOpaque = true
        · exact .inr ⟨(top, .copied .rustOpaque), by simp_all [rows, rowsCopied], by decide, [], by simp [Piece.gives], rfl⟩
        · exact .inr ⟨(top, .fwdOpaque), by simp_all [rows, rowsCopied], by decide, [], by simp [Piece.gives], rfl⟩
      · exact .inr ⟨_, he, Nat.le_refl _, [], by simp [Piece.gives], rfl⟩
      · exact .inr ⟨_, he, Nat.le_refl _, [], by simp [Piece.gives], rfl⟩
      · exact .inr ⟨(top, .copied .isComplete), by simp_all [rows, rowsCopied, rowsOwn], by simp [Piece.rank], [w!"detail"], by simp [Piece.gives], rfl⟩
      · exact .inr ⟨_, he, Nat.le_refl _, [], by simp [Piece.gives], rfl⟩
    · -- copied .relocatable
      simp only [Piece.uses, List.mem_cons, List.not_mem_nil, or_false] at hu
      subst hu
      exact .inr ⟨_, he, Nat.le_refl _, [], by simp [Piece.gives], rfl⟩
    · -- strUninit
      simp only [Piece.uses, List.mem_cons, List.not_mem_nil, or_false] at hu
      subst hu
      exact .inr ⟨(top, .copied .rustStr), by simp_all [rows, rowsCopied, rowsOwn], by simp [Piece.rank], [], by simp [Piece.gives], rfl⟩
    · -- sliceUninit
      simp only [Piece.uses, List.mem_cons, List.not_mem_nil, or_false] at hu
      subst hu
      exact .inr ⟨(top, .copied .rustSlice), by simp_all [rows, rowsCopied, rowsOwn], by simp [Piece.rank], [], by simp [Piece.gives], rfl⟩
    · -- fat
      simp only [Piece.uses, List.mem_cons, List.not_mem_nil, or_false] at hu
      subst hu
      exact .inr ⟨_, he, Nat.le_refl _, [], by simp [Piece.gives], rfl⟩
    · -- ptrLen
      simp only [Piece.uses, List.mem_cons, List.not_mem_nil, or_false] at hu
      subst hu
      exact .inr ⟨_, he, Nat.le_refl _, [], by simp [Piece.gives], rfl⟩
    · -- operatorNew
      simp only [Piece.uses, List.mem_cons, List.not_mem_nil, or_false] at hu
      subst hu
      exact .inr ⟨_, he, Nat.le_refl _, [], by simp [Piece.gives], rfl⟩
    · -- fail
      simp only [Piece.uses, List.mem_cons, List.not_mem_nil, or_false] at hu
      rcases hu with rfl | rfl
      · exact .inr ⟨(.repr :: top, .ptrLen), by simp_all [rows, rowsCopied, rowsOwn], by simp [Piece.rank], [], by simp [Piece.gives], rfl⟩
      · exact .inr ⟨_, he, Nat.le_refl _, [], by simp [Piece.gives], rfl⟩
    · -- manuallyDrop
      simp only [Piece.uses, List.mem_cons, List.not_mem_nil, or_false] at hu
      subst hu
      exact .inr ⟨_, he, Nat.le_refl _, [], by simp [Piece.gives], rfl⟩
    · -- maybeUninit
      simp only [Piece.uses, List.mem_cons, List.not_mem_nil, or_false] at hu
      rcases hu with rfl | rfl
      · exact .inr ⟨(.detail :: top, .operatorNew), by simp_all [rows, rowsCopied, rowsOwn], by simp [Piece.rank], [], by simp [Piece.gives], rfl⟩
      · exact .inr ⟨_, he, Nat.le_refl _, [], by simp [Piece.gives], rfl⟩
    · -- implStr
      simp only [Piece.uses, List.mem_cons, List.not_mem_nil, or_false] at hu
      have hs : b.rustStr = true ∧ b.reprFat = true := (Bool.or_eq_true_iff.1 hf.symm).elim c1 c2
      rcases hu with rfl | rfl | rfl
      · exact .inr ⟨(anon, .fwdImpl), by simp [rows, rowsCopied, rowsOwn, hs, ps hs.1], by simp [Piece.rank], [], by simp [Piece.gives], rfl⟩
      · exact .inr ⟨(top, .copied .rustStr), by simp [rows, rowsCopied, rowsOwn, hs, ps hs.1], by simp [Piece.rank], [], by simp [Piece.gives], rfl⟩
      · exact .inr ⟨(.repr :: top, .fat), by simp [rows, rowsCopied, rowsOwn, hs, ps hs.1], by simp [Piece.rank], [], by simp [Piece.gives], rfl⟩
    · -- implSlice
      simp only [Piece.uses, List.mem_cons, List.not_mem_nil, or_false] at hu
      have hs : b.rustSlice = true ∧ b.reprFat = true := (Bool.or_eq_true_iff.1 hf.symm).elim c3 c4
      rcases hu with rfl | rfl | rfl
      · exact .inr ⟨(anon, .fwdImpl), by simp [rows, rowsCopied, rowsOwn, hs, pl hs.1], by simp [Piece.rank], [], by simp [Piece.gives], rfl⟩
      · exact .inr ⟨(top, .copied .rustSlice), by simp [rows, rowsCopied, rowsOwn, hs, pl hs.1], by simp [Piece.rank], [], by simp [Piece.gives], rfl⟩
      · exact .inr ⟨(.repr :: top, .fat), by simp [rows, rowsCopied, rowsOwn, hs, pl hs.1], by simp [Piece.rank], [], by simp [Piece.gives], rfl⟩
    · -- implError
      simp only [Piece.uses, List.mem_cons, List.not_mem_nil, or_false] at hu
      rcases hu with rfl | rfl | rfl
      · exact .inr ⟨(anon, .fwdImpl), by simp_all [rows, rowsCopied, rowsOwn], by simp [Piece.rank], [], by simp [Piece.gives], rfl⟩
      · exact .inr ⟨(top, .copied .rustError), by simp_all [rows, rowsCopied, rowsOwn], by simp [Piece.rank], [], by simp [Piece.gives], rfl⟩
      · exact .inr ⟨(.repr :: top, .ptrLen), by simp_all [rows, rowsCopied, rowsOwn], by simp [Piece.rank], [], by simp [Piece.gives], rfl⟩
    · -- destroy
      simp only [Piece.uses, List.mem_cons, List.not_mem_nil, or_false] at hu
      subst hu
      exact .inr ⟨_, he, Nat.le_refl _, [], by simp [Piece.gives], rfl⟩
    · -- deleterIf
      simp only [Piece.uses, List.mem_cons, List.not_mem_nil, or_false] at hu
      subst hu
      exact .inr ⟨_, he, Nat.le_refl _, [], by simp [Piece.gives], rfl⟩
    · -- relocatableOrArray
      simp only [Piece.uses, List.mem_cons, List.not_mem_nil, or_false] at hu
      rcases hu with rfl | rfl
      · exact .inr ⟨(top, .copied .relocatable), by simp_all [rows, rowsCopied, rowsOwn], by simp [Piece.rank], [], by simp [Piece.gives], rfl⟩
      · exact .inr ⟨_, he, Nat.le_refl _, [], by simp [Piece.gives], rfl⟩
    · -- trycatch
      simp only [Piece.uses, List.mem_cons, List.not_mem_nil, or_false] at hu
      rcases hu with rfl | rfl
      · exact .inr ⟨(.detail :: top, .fail), by simp_all [rows, rowsCopied, rowsOwn], by simp [Piece.rank], [], by simp [Piece.gives], rfl⟩
      · exact .inr ⟨_, he, Nat.le_refl _, [], by simp [Piece.gives], rfl⟩
  · have hm := he
    simp only [rows, rowsOwn, if_true, List.nil_append, List.mem_cons, List.not_mem_nil, or_false, Prod.mk.injEq] at hm
    rcases hm with ⟨hf, rfl⟩ | ⟨hf, rfl⟩ | ⟨hf, rfl⟩ | ⟨hf, rfl⟩ | ⟨hf, rfl⟩ | ⟨hf, rfl⟩ | ⟨hf, rfl⟩ | ⟨hf, rfl⟩ | ⟨hf, rfl⟩ | ⟨hf, rfl⟩ | ⟨hf, rfl⟩ | ⟨hf, rfl⟩ | ⟨hf, rfl⟩ | ⟨hf, rfl⟩ | ⟨hf, rfl⟩
    · -- strUninit
      simp only [Piece.uses, List.mem_cons, List.not_mem_nil, or_false] at hu
      subst hu
      exact .inl ⟨rfl, by decide⟩
    · -- sliceUninit
      simp only [Piece.uses, List.mem_cons, List.not_mem_nil, or_false] at hu
      subst hu
      exact .inl ⟨rfl, by decide⟩
    · -- fat
      simp only [Piece.uses, List.mem_cons, List.not_mem_nil, or_false] at hu
      subst hu
      exact .inr ⟨_, he, Nat.le_refl _, [], by simp [Piece.gives], rfl⟩
    · -- ptrLen
      simp only [Piece.uses, List.mem_cons, List.not_mem_nil, or_false] at hu
      subst hu
      exact .inr ⟨_, he, Nat.le_refl _, [], by simp [Piece.gives], rfl⟩
    · -- operatorNew
      simp only [Piece.uses, List.mem_cons, List.not_mem_nil, or_false] at hu
      subst hu
      exact .inr ⟨_, he, Nat.le_refl _, [], by simp [Piece.gives], rfl⟩
    · -- fail
      simp only [Piece.uses, List.mem_cons, List.not_mem_nil, or_false] at hu
      rcases hu with rfl | rfl
      · exact .inr ⟨(.repr :: top, .ptrLen), by simp_all [rows, rowsCopied, rowsOwn], by simp [Piece.rank], [], by simp [Piece.gives], rfl⟩
      · exact .inr ⟨_, he, Nat.le_refl _, [], by simp [Piece.gives], rfl⟩
    · -- manuallyDrop
      simp only [Piece.uses, List.mem_cons, List.not_mem_nil, or_false] at hu
      subst hu
      exact .inr ⟨_, he, Nat.le_refl _, [], by simp [Piece.gives], rfl⟩
    · -- maybeUninit
      simp only [Piece.uses, List.mem_cons, List.not_mem_nil, or_false] at hu
      rcases hu with rfl | rfl
      · exact .inr ⟨(.detail :: top, .operatorNew), by simp_all [rows, rowsCopied, rowsOwn], by simp [Piece.rank], [], by simp [Piece.gives], rfl⟩
      · exact .inr ⟨_, he, Nat.le_refl _, [], by simp [Piece.gives], rfl⟩
    · -- implStr
      simp only [Piece.uses, List.mem_cons, List.not_mem_nil, or_false] at hu
      have hs : b.rustStr = true ∧ b.reprFat = true := (Bool.or_eq_true_iff.1 hf.symm).elim c1 c2
      rcases hu with rfl | rfl | rfl
      · exact .inl ⟨rfl, by decide⟩
      · exact .inl ⟨rfl, by decide⟩
      · exact .inr ⟨(.repr :: top, .fat), by simp [rows, rowsCopied, rowsOwn, hs, ps hs.1], by simp [Piece.rank], [], by simp [Piece.gives], rfl⟩
    · -- implSlice
      simp only [Piece.uses, List.mem_cons, List.not_mem_nil, or_false] at hu
      have hs : b.rustSlice = true ∧ b.reprFat = true := (Bool.or_eq_true_iff.1 hf.symm).elim c3 c4
      rcases hu with rfl | rfl | rfl
      · exact .inl ⟨rfl, by decide⟩
      · exact .inl ⟨rfl, by decide⟩
      · exact .inr ⟨(.repr :: top, .fat), by simp [rows, rowsCopied, rowsOwn, hs, pl hs.1], by simp [Piece.rank], [], by simp [Piece.gives], rfl⟩
    · -- implError
      simp only [Piece.uses, List.mem_cons, List.not_mem_nil, or_false] at hu
      rcases hu with rfl | rfl | rfl
      · exact .inl ⟨rfl, by decide⟩
      · exact .inl ⟨rfl, by decide⟩
      · exact .inr ⟨(.repr :: top, .ptrLen), by simp_all [rows, rowsCopied, rowsOwn], by simp [Piece.rank], [], by simp [Piece.gives], rfl⟩
    · -- destroy
      simp only [Piece.uses, List.mem_cons, List.not_mem_nil, or_false] at hu
      subst hu
      exact .inr ⟨_, he, Nat.le_refl _, [], by simp [Piece.gives], rfl⟩
    · -- deleterIf
      simp only [Piece.uses, List.mem_cons, List.not_mem_nil, or_false] at hu
      subst hu
      exact .inr ⟨_, he, Nat.le_refl _, [], by simp [Piece.gives], rfl⟩
    · -- relocatableOrArray
      simp only [Piece.uses, List.mem_cons, List.not_mem_nil, or_false] at hu
      rcases hu with rfl | rfl
      · exact .inl ⟨rfl, by decide⟩
      · exact .inr ⟨_, he, Nat.le_refl _, [], by simp [Piece.gives], rfl⟩
    · -- trycatch
      simp only [Piece.uses, List.mem_cons, List.not_mem_nil, or_false] at hu
      rcases hu with rfl | rfl
      · exact .inr ⟨(.detail :: top, .fail), by simp_all [rows, rowsCopied, rowsOwn], by simp [Piece.rank], [], by simp [Piece.gives], rfl⟩
      · exact .inr ⟨_, he, Nat.le_refl _, [], by simp [Piece.gives], rfl⟩

/-! ### Headers -/

/-- The headers asked for, in terms of the helpers written in the end. -/
def wanted (b : Builtins) (h : Std) : Bool :=
    b.rustString && [.array, .cstdint, .string].contains h ||
    b.rustStr && [.array, .cstdint, .string, .stringView].contains h ||
    b.rustVec && [.algorithm, .array, .cassert, .cstddef, .cstdint, .initializerList, .iterator, .new, .stdexcept, .typeTraits,
      .utility].contains h ||
    b.rustSlice && [.array, .cassert, .cstddef, .cstdint, .iterator, .ranges, .stdexcept, .typeTraits].contains h ||
    b.rustBox && [.new, .typeTraits, .utility].contains h ||
    b.rustFn && [.utility].contains h ||
    b.rustError && [.exception].contains h ||
    b.rustIsize && [.basetsd, .sysTypes].contains h ||
    b.relocatableOrArray && [.cstddef].contains h ||
    b.relocatable && [.typeTraits].contains h ||
    b.layout && [.typeTraits, .cstddef].contains h ||
    b.isComplete && [.cstddef, .typeTraits].contains h ||
    b.reprFat && [.array, .cstdint].contains h || b.ptrLen && [.cstddef].contains h ||
    b.maybeUninit && [.cstddef, .new].contains h || b.trycatch && [.string].contains h ||
    b.manuallyDrop && [.utility].contains h || b.trycatch && [.exception, .typeTraits, .utility].contains h

theorem flags_final {i : Includes} {b : Builtins} (hb : b ≠ {}) (h : Std) :
    (writeBuiltins i b).1.flag h = (i.flag h || wanted (propagate b i.flag).1 h) := by
  unfold writeBuiltins
  rw [if_neg hb]
  show ownIncludes (propagate b i.flag).1 (propagate b i.flag).2 h = _
  rw [own_headers, propagate_headers, propagate_flags]
  unfold wanted
  simp only
  rw [Bool.eq_iff_iff]
  cases h <;> simp <;> grind

theorem std_row {b : Builtins} {cxx : Bool} {e : List Blk × Piece} (he : (true, e) ∈ rows b cxx) {t : Tok}
    (ht : t ∈ e.2.stds) (hg : ¬ Gap e.2 t) : ∃ s ∈ providers t, wanted b s = true := by
  have hm : (true, e) ∈ rowsCopied b ∨ (true, e) ∈ rowsOwn b := by
    unfold rows at he
    rcases List.mem_append.1 he with h | h
    · cases cxx
      · exact .inl h
      · cases h
    · exact .inr h
  clear he
  rcases hm with hm | hm
  · simp only [rowsCopied, List.mem_cons, List.not_mem_nil, or_false, Prod.mk.injEq] at hm
    rcases hm with ⟨hf, rfl⟩ | ⟨hf, rfl⟩ | ⟨hf, rfl⟩ | ⟨hf, rfl⟩ | ⟨hf, rfl⟩ | ⟨hf, rfl⟩ | ⟨hf, rfl⟩ | ⟨hf, rfl⟩ | ⟨hf, rfl⟩ | ⟨hf, rfl⟩ | ⟨hf, rfl⟩ | ⟨hf, rfl⟩ | ⟨hf, rfl⟩ | ⟨hf, rfl⟩ | ⟨hf, rfl⟩ | ⟨hf, rfl⟩ | ⟨hf, rfl⟩ | ⟨hf, rfl⟩ | ⟨hf, rfl⟩ | ⟨hf, rfl⟩ | ⟨hf, rfl⟩
    · -- comment
      cases ht
    · -- copied .panic
      cases ht
    · -- fwdBitcopyT
      cases ht
    · -- fwdImpl
      cases ht
    · -- fwdString
      cases ht
    · -- fwdOpaque
      cases ht
    · -- fwdLayout
      simp only [Piece.stds, List.mem_cons, List.not_mem_nil, or_false] at ht
      subst ht
      exact ⟨.cstddef, by decide, by simp [wanted, ← hf]⟩
    · -- copied .rustString
      simp only [Piece.stds, List.mem_cons, List.not_mem_nil, or_false] at ht
      rcases ht with rfl | rfl | rfl | rfl
      · exact ⟨.array, by decide, by simp [wanted, ← hf]⟩
      · exact absurd (by simp [Gap]) hg
      · exact ⟨.string, by decide, by simp [wanted, ← hf]⟩
      · exact ⟨.cstdint, by decide, by simp [wanted, ← hf]⟩
    · -- copied .rustStr
      simp only [Piece.stds, List.mem_cons, List.not_mem_nil, or_false] at ht
      rcases ht with rfl | rfl | rfl | rfl | rfl
      · exact ⟨.array, by decide, by simp [wanted, ← hf]⟩
      · exact absurd (by simp [Gap]) hg
      · exact ⟨.string, by decide, by simp [wanted, ← hf]⟩
      · exact ⟨.stringView, by decide, by simp [wanted, ← hf]⟩
      · exact ⟨.cstdint, by decide, by simp [wanted, ← hf]⟩
    · -- copied .rustSlice
      simp only [Piece.stds, List.mem_cons, List.not_mem_nil, or_false] at ht
      rcases ht with rfl | rfl | rfl | rfl | rfl | rfl | rfl | rfl | rfl | rfl | rfl | rfl | rfl | rfl | rfl | rfl | rfl
      · exact ⟨.typeTraits, by decide, by simp [wanted, ← hf]⟩
      · exact ⟨.typeTraits, by decide, by simp [wanted, ← hf]⟩
      · exact ⟨.array, by decide, by simp [wanted, ← hf]⟩
      · exact ⟨.iterator, by decide, by simp [wanted, ← hf]⟩
      · exact ⟨.iterator, by decide, by simp [wanted, ← hf]⟩
      · exact absurd (by simp [Gap]) hg
      · exact ⟨.iterator, by decide, by simp [wanted, ← hf]⟩
      · exact ⟨.typeTraits, by decide, by simp [wanted, ← hf]⟩
      · exact ⟨.stdexcept, by decide, by simp [wanted, ← hf]⟩
      · exact ⟨.cstddef, by decide, by simp [wanted, ← hf]⟩
      · exact ⟨.iterator, by decide, by simp [wanted, ← hf]⟩
      · exact ⟨.ranges, by decide, by simp [wanted, ← hf]⟩
      · exact ⟨.typeTraits, by decide, by simp [wanted, ← hf]⟩
      · exact ⟨.typeTraits, by decide, by simp [wanted, ← hf]⟩
      · exact ⟨.cstddef, by decide, by simp [wanted, ← hf]⟩
      · exact absurd (by simp [Gap]) hg
      · exact ⟨.cstdint, by decide, by simp [wanted, ← hf]⟩
    · -- copied .rustBox
      simp only [Piece.stds, List.mem_cons, List.not_mem_nil, or_false] at ht
      rcases ht with rfl | rfl | rfl | rfl | rfl
      · exact ⟨.typeTraits, by decide, by simp [wanted, ← hf]⟩
      · exact ⟨.typeTraits, by decide, by simp [wanted, ← hf]⟩
      · exact ⟨.utility, by decide, by simp [wanted, ← hf]⟩
      · exact ⟨.utility, by decide, by simp [wanted, ← hf]⟩
      · exact ⟨.utility, by decide, by simp [wanted, ← hf]⟩
    · -- copied .bitcopyT
      cases ht
    · -- copied .bitcopy
      cases ht
    · -- copied .rustVec
      simp only [Piece.stds, List.mem_cons, List.not_mem_nil, or_false] at ht
      rcases ht with rfl | rfl | rfl | rfl | rfl | rfl | rfl | rfl | rfl | rfl
      · exact ⟨.array, by decide, by simp [wanted, ← hf]⟩
      · exact ⟨.iterator, by decide, by simp [wanted, ← hf]⟩
      · exact ⟨.algorithm, by decide, by simp [wanted, ← hf]⟩
      · exact ⟨.utility, by decide, by simp [wanted, ← hf]⟩
      · exact ⟨.initializerList, by decide, by simp [wanted, ← hf]⟩
      · exact ⟨.utility, by decide, by simp [wanted, ← hf]⟩
      · exact ⟨.stdexcept, by decide, by simp [wanted, ← hf]⟩
      · exact ⟨.cstddef, by decide, by simp [wanted, ← hf]⟩
      · exact ⟨.utility, by decide, by simp [wanted, ← hf]⟩
      · exact ⟨.cstdint, by decide, by simp [wanted, ← hf]⟩
    · -- copied .rustFn
      simp only [Piece.stds, List.mem_cons, List.not_mem_nil, or_false] at ht
      subst ht
      exact ⟨.utility, by decide, by simp [wanted, ← hf]⟩
    · -- copied .rustError
      simp only [Piece.stds, List.mem_cons, List.not_mem_nil, or_false] at ht
      rcases ht with rfl | rfl
      · exact ⟨.exception, by decide, by simp [wanted, ← hf]⟩
      · exact absurd (by simp [Gap]) hg
    · -- copied .rustIsize
      cases ht
    · -- copied .rustOpaque
      cases ht
    · -- copied .isComplete
      simp only [Piece.stds, List.mem_cons, List.not_mem_nil, or_false] at ht
      rcases ht with rfl | rfl | rfl
      · exact ⟨.typeTraits, by decide, by simp [wanted, ← hf]⟩
      · exact ⟨.cstddef, by decide, by simp [wanted, ← hf]⟩
      · exact ⟨.typeTraits, by decide, by simp [wanted, ← hf]⟩
    · -- copied .layout
      simp only [Piece.stds, List.mem_cons, List.not_mem_nil, or_false] at ht
      rcases ht with rfl | rfl | rfl
      · exact ⟨.typeTraits, by decide, by simp [wanted, ← hf]⟩
      · exact ⟨.typeTraits, by decide, by simp [wanted, ← hf]⟩
      · exact ⟨.cstddef, by decide, by simp [wanted, ← hf]⟩
    · -- copied .relocatable
      simp only [Piece.stds, List.mem_cons, List.not_mem_nil, or_false] at ht
      rcases ht with rfl | rfl | rfl | rfl | rfl | rfl | rfl
      · exact ⟨.typeTraits, by decide, by simp [wanted, ← hf]⟩
      · exact ⟨.typeTraits, by decide, by simp [wanted, ← hf]⟩
      · exact ⟨.typeTraits, by decide, by simp [wanted, ← hf]⟩
      · exact ⟨.typeTraits, by decide, by simp [wanted, ← hf]⟩
      · exact ⟨.typeTraits, by decide, by simp [wanted, ← hf]⟩
      · exact ⟨.typeTraits, by decide, by simp [wanted, ← hf]⟩
      · exact ⟨.typeTraits, by decide, by simp [wanted, ← hf]⟩
  · simp only [rowsOwn, List.mem_cons, List.not_mem_nil, or_false, Prod.mk.injEq] at hm
    rcases hm with ⟨hf, rfl⟩ | ⟨hf, rfl⟩ | ⟨hf, rfl⟩ | ⟨hf, rfl⟩ | ⟨hf, rfl⟩ | ⟨hf, rfl⟩ | ⟨hf, rfl⟩ | ⟨hf, rfl⟩ | ⟨hf, rfl⟩ | ⟨hf, rfl⟩ | ⟨hf, rfl⟩ | ⟨hf, rfl⟩ | ⟨hf, rfl⟩ | ⟨hf, rfl⟩ | ⟨hf, rfl⟩
    · -- strUninit
      cases ht
    · -- sliceUninit
      cases ht
    · -- fat
      simp only [Piece.stds, List.mem_cons, List.not_mem_nil, or_false] at ht
      rcases ht with rfl | rfl
      · exact ⟨.array, by decide, by simp [wanted, ← hf]⟩
      · exact ⟨.cstdint, by decide, by simp [wanted, ← hf]⟩
    · -- ptrLen
      simp only [Piece.stds, List.mem_cons, List.not_mem_nil, or_false] at ht
      subst ht
      exact ⟨.cstddef, by decide, by simp [wanted, ← hf]⟩
    · -- operatorNew
      simp only [Piece.stds, List.mem_cons, List.not_mem_nil, or_false] at ht
      subst ht
      exact ⟨.cstddef, by decide, by simp [wanted, ← hf]⟩
    · -- fail
      simp only [Piece.stds, List.mem_cons, List.not_mem_nil, or_false] at ht
      subst ht
      exact ⟨.string, by decide, by simp [wanted, ← hf]⟩
    · -- manuallyDrop
      simp only [Piece.stds, List.mem_cons, List.not_mem_nil, or_false] at ht
      subst ht
      exact ⟨.utility, by decide, by simp [wanted, ← hf]⟩
    · -- maybeUninit
      simp only [Piece.stds, List.mem_cons, List.not_mem_nil, or_false] at ht
      subst ht
      exact ⟨.cstddef, by decide, by simp [wanted, ← hf]⟩
    · -- implStr
      cases ht
    · -- implSlice
      cases ht
    · -- implError
      cases ht
    · -- destroy
      cases ht
    · -- deleterIf
      cases ht
    · -- relocatableOrArray
      simp only [Piece.stds, List.mem_cons, List.not_mem_nil, or_false] at ht
      subst ht
      exact ⟨.cstddef, by decide, by simp [wanted, ← hf]⟩
    · -- trycatch
      simp only [Piece.stds, List.mem_cons, List.not_mem_nil, or_false] at ht
      rcases ht with rfl | rfl | rfl | rfl
      · exact ⟨.utility, by decide, by simp [wanted, ← hf]⟩
      · exact ⟨.typeTraits, by decide, by simp [wanted, ← hf]⟩
      · exact ⟨.exception, by decide, by simp [wanted, ← hf]⟩
      · exact ⟨.typeTraits, by decide, by simp [wanted, ← hf]⟩

/-! ### Properties -/

/-- **C31**, blocks.  The blocks of the output match up. -/
theorem helpers_balance (i : Includes) (b : Builtins) : ∃ placed, place [] (writeBuiltins i b).2 = some placed := by
  by_cases hb : b = {}
  · exact ⟨[], by unfold writeBuiltins; rw [if_pos hb]; simp [place]⟩
  · exact ⟨_, placed_exact hb⟩

theorem not_empty {i : Includes} {b : Builtins} {e : List Blk × Piece} {pre post : List (List Blk × Piece)}
    (h : place [] (writeBuiltins i b).2 = some (pre ++ e :: post)) : b ≠ {} := by
  intro hb
  unfold writeBuiltins at h
  rw [if_pos hb] at h
  simp [place] at h

/-- **C31**, helpers.  Whatever helpers are requested, as long as each is requested with the type it is made for: a
helper that a piece of the output mentions is declared by this piece or one in front of it, or else by rust/cxx.h and the
user includes that. -/
theorem helpers_declared {i : Includes} {b : Builtins} (hc : Coherent b) {pre post : List (List Blk × Piece)}
    {e : List Blk × Piece} (hp : place [] (writeBuiltins i b).2 = some (pre ++ e :: post)) {h : Helper}
    (hm : Mentions e.2.lines h) : Declared (pre ++ [e]) h ∨ UserHasCxx i.custom ∧ InHeader h := by
  have hb := not_empty hp
  rw [placed_exact hb] at hp
  have hp := Option.some.inj hp
  have he : (true, e) ∈ rows (propagate b i.flag).1 i.hasCxxHeader := chosen_mem.1 (by rw [hp]; simp)
  rcases source (propagate_complete b i.flag) (propagate_coherent hc i.flag) he (uses_spec hm) with ⟨hx, hh⟩ | ⟨x, hx, hr, inner, hi, hn⟩
  · exact .inr ⟨(hasCxx_iff i).1 hx, header_gives hh⟩
  · exact .inl ⟨x, sorted_before (chosen_sorted (rows_sorted _ _)) hp (chosen_mem.2 hx) hr, inner, gives_spec hi, hn⟩

theorem asked_propagate {b : Builtins} {h : Helper} (ha : Asked b h) (i : Std → Bool) : Asked (propagate b i).1 h := by
  rw [propagate_flags]
  cases h <;> simp only [Asked] at ha ⊢ <;> simp [ha]

theorem asked_row {b : Builtins} {h : Helper} (ha : Asked b h) (cxx : Bool) :
    cxx = true ∧ h ∈ headerGives ∨ ∃ x, (true, x) ∈ rows b cxx ∧ givesAt x h := by
  by_cases hh : h ∈ headerGives
  · cases cxx
    · right
      cases h with
      | panic => exact ⟨(top, .copied .panic), by simp_all [rows, rowsCopied, Asked], [], by simp [Piece.gives], rfl⟩
      | unsafeBitcopyT => exact ⟨(top, .copied .bitcopyT), by simp_all [rows, rowsCopied, Asked], [], by simp [Piece.gives], rfl⟩
      | unsafeBitcopy => exact ⟨(top, .copied .bitcopy), by simp_all [rows, rowsCopied, Asked], [], by simp [Piece.gives], rfl⟩
      | impl => exact ⟨(anon, .fwdImpl), by simp_all [rows, rowsCopied, Asked], [], by simp [Piece.gives], rfl⟩
      | string => exact ⟨(top, .copied .rustString), by simp_all [rows, rowsCopied, Asked], [], by simp [Piece.gives], rfl⟩
      | «opaque» => exact ⟨(top, .copied .rustOpaque), by simp_all [rows, rowsCopied, Asked], [], by simp [Piece.gives], rfl⟩
      | sizeOf => exact ⟨(top, .copied .layout), by simp_all [rows, rowsCopied, Asked], [], by simp [Piece.gives], rfl⟩
      | alignOf => exact ⟨(top, .copied .layout), by simp_all [rows, rowsCopied, Asked], [], by simp [Piece.gives], rfl⟩
      | str => exact ⟨(top, .copied .rustStr), by simp_all [rows, rowsCopied, Asked], [], by simp [Piece.gives], rfl⟩
      | slice => exact ⟨(top, .copied .rustSlice), by simp_all [rows, rowsCopied, Asked], [], by simp [Piece.gives], rfl⟩
      | box => exact ⟨(top, .copied .rustBox), by simp_all [rows, rowsCopied, Asked], [], by simp [Piece.gives], rfl⟩
      | vec => exact ⟨(top, .copied .rustVec), by simp_all [rows, rowsCopied, Asked], [], by simp [Piece.gives], rfl⟩
      | fn => exact ⟨(top, .copied .rustFn), by simp_all [rows, rowsCopied, Asked], [], by simp [Piece.gives], rfl⟩
      | error => exact ⟨(top, .copied .rustError), by simp_all [rows, rowsCopied, Asked], [], by simp [Piece.gives], rfl⟩
      | isize => exact ⟨(top, .copied .rustIsize), by simp_all [rows, rowsCopied, Asked], [], by simp [Piece.gives], rfl⟩
      | isComplete =>
        exact ⟨(top, .copied .isComplete), by simp_all [rows, rowsCopied, Asked], [w!"detail"], by simp [Piece.gives], rfl⟩
      | layout => exact ⟨(top, .copied .layout), by simp_all [rows, rowsCopied, Asked], [], by simp [Piece.gives], rfl⟩
      | isRelocatable => exact ⟨(top, .copied .relocatable), by simp_all [rows, rowsCopied, Asked], [], by simp [Piece.gives], rfl⟩
      | _ => simp [headerGives] at hh
    · exact .inl ⟨rfl, hh⟩
  · right
    have own : ∀ {x : List Blk × Piece}, (true, x) ∈ rowsOwn b → (true, x) ∈ rows b cxx := fun h => List.mem_append_right _ h
    cases h with
    | fat => exact ⟨(.repr :: top, .fat), own (by simp_all [rowsOwn, Asked]), [], by simp [Piece.gives], rfl⟩
    | ptrLen => exact ⟨(.repr :: top, .ptrLen), own (by simp_all [rowsOwn, Asked]), [], by simp [Piece.gives], rfl⟩
    | operatorNew => exact ⟨(.detail :: top, .operatorNew), own (by simp_all [rowsOwn, Asked]), [], by simp [Piece.gives], rfl⟩
    | fail => exact ⟨(.detail :: top, .fail), own (by simp_all [rowsOwn, Asked]), [], by simp [Piece.gives], rfl⟩
    | manuallyDrop => exact ⟨(top, .manuallyDrop), own (by simp_all [rowsOwn, Asked]), [], by simp [Piece.gives], rfl⟩
    | maybeUninit => exact ⟨(top, .maybeUninit), own (by simp_all [rowsOwn, Asked]), [], by simp [Piece.gives], rfl⟩
    | destroy => exact ⟨(anon, .destroy), own (by simp_all [rowsOwn, Asked]), [], by simp [Piece.gives], rfl⟩
    | deleterIf => exact ⟨(anon, .deleterIf), own (by simp_all [rowsOwn, Asked]), [], by simp [Piece.gives], rfl⟩
    | isRelocatableOrArray =>
      exact ⟨(anon, .relocatableOrArray), own (by simp_all [rowsOwn, Asked]), [], by simp [Piece.gives], rfl⟩
    | trycatch => exact ⟨([.behavior, .rust], .trycatch), own (by simp_all [rowsOwn, Asked]), [], by simp [Piece.gives], rfl⟩
    | newUnchecked =>
      have ha : b.rustStrNewUnchecked = true := ha
      exact ⟨(anon, .implStr b.rustStrNewUnchecked b.rustStrRepr), own (by simp [rowsOwn, ha]), [w!"impl"],
        by simp [Piece.gives, ha], rfl⟩
    | sliceFrom =>
      have ha : b.rustSliceNew = true := ha
      exact ⟨(anon, .implSlice b.rustSliceNew b.rustSliceRepr), own (by simp [rowsOwn, ha]), [w!"impl"],
        by simp [Piece.gives, ha], rfl⟩
    | reprOf =>
      rcases ha with ha | ha
      · exact ⟨(anon, .implStr b.rustStrNewUnchecked b.rustStrRepr), own (by simp [rowsOwn, ha]), [w!"impl"],
          by simp [Piece.gives, ha], rfl⟩
      · exact ⟨(anon, .implSlice b.rustSliceNew b.rustSliceRepr), own (by simp [rowsOwn, ha]), [w!"impl"],
          by simp [Piece.gives, ha], rfl⟩
    | errorFrom => exact ⟨(anon, .implError), own (by simp_all [rowsOwn, Asked]), [w!"impl"], by simp [Piece.gives], rfl⟩
    | _ => simp [headerGives] at hh

/-- **C31**.  A helper that was asked for is declared. -/
theorem asked_declared {i : Includes} {b : Builtins} {placed : List (List Blk × Piece)}
    (hp : place [] (writeBuiltins i b).2 = some placed) {h : Helper} (ha : Asked b h) :
    Declared placed h ∨ UserHasCxx i.custom ∧ InHeader h := by
  have hb : b ≠ {} := by
    rintro rfl
    cases h <;> simp [Asked] at ha
  rw [placed_exact hb] at hp
  have hp := Option.some.inj hp
  subst hp
  rcases asked_row (asked_propagate ha i.flag) i.hasCxxHeader with ⟨hx, hh⟩ | ⟨x, hx, inner, hi, hn⟩
  · exact .inr ⟨(hasCxx_iff i).1 hx, header_gives hh⟩
  · exact .inl ⟨x, chosen_mem.2 hx, inner, gives_spec hi, hn⟩

/-- **C31**, headers.  Whatever helpers are requested: a name of the standard library that a piece of the output uses is
declared in a header which is asked for (by `requested_included` it is then included).  Missing: the names in `Gap`. -/
theorem headers_requested_partial {i : Includes} {b : Builtins} {placed : List (List Blk × Piece)}
    (hp : place [] (writeBuiltins i b).2 = some placed) {e : List Blk × Piece} (he : e ∈ placed) {t : Tok}
    (ht : t ∈ stdNames (tokensOf e.2.lines)) (hg : ¬ Gap e.2 t) :
    ∃ s ∈ providers t, (writeBuiltins i b).1.flag s = true := by
  obtain ⟨pre, post, rfl⟩ := List.append_of_mem he
  have hb := not_empty hp
  rw [placed_exact hb] at hp
  have hp := Option.some.inj hp
  have he : (true, e) ∈ rows (propagate b i.flag).1 i.hasCxxHeader := chosen_mem.1 (by rw [hp]; simp)
  obtain ⟨s, hs, hw⟩ := std_row he (stds_spec ht) hg
  exact ⟨s, hs, by rw [flags_final hb, hw, Bool.or_true]⟩

/-- A bridge with a `String`, a `&str` taken by a C++ function and a function that throws. -/
def sampleRequest : Builtins :=
  { rustString := true, rustStr := true, reprFat := true, rustStrNewUnchecked := true, trycatch := true, ptrLen := true,
    rustVec := true, maybeUninit := true, relocatableOrArray := true }

example : Coherent sampleRequest := by constructor <;> decide

example : ((place [] (writeBuiltins ⟨[], fun _ => false⟩ sampleRequest).2).map List.length) = some 23 := by decide +kernel

/-- Not every set of requests is in order: `rust::Error` alone refers to a missing `repr::PtrLen`. -/
theorem incoherent_request : ∃ (i : Includes) (b : Builtins) (placed : List (List Blk × Piece)),
    place [] (writeBuiltins i b).2 = some placed ∧ (∃ e ∈ placed, Mentions e.2.lines .ptrLen) ∧
      ¬ Declared placed .ptrLen ∧ ¬ UserHasCxx i.custom := by
  refine ⟨⟨[], fun _ => false⟩, { rustError := true }, _, placed_exact (by decide), ⟨(anon, .implError), by decide +kernel, ?_, ?_⟩, ?_, ?_⟩
  · have : (tokensOf Piece.implError.lines).any (Nat.beq w!"PtrLen") = true := by decide +kernel
    rw [List.any_eq_true] at this
    obtain ⟨t, ht, he⟩ := this
    rw [← Nat.eq_of_beq_eq_true he] at ht
    exact ht
  · simp [Helper.Member]
  · rintro ⟨e, he, inner, hi, -⟩
    have hr : e.2 = .comment ∨ e.2 = .fwdImpl ∨ e.2 = .copied .rustError ∨ e.2 = .implError := by
      have : (chosen (rows (propagate { rustError := true } fun _ => false).1 (Includes.hasCxxHeader ⟨[], fun _ => false⟩))).all
        (fun e => decide (e.2 = .comment ∨ e.2 = .fwdImpl ∨ e.2 = .copied .rustError ∨ e.2 = .implError)) = true := by decide +kernel
      rw [List.all_eq_true] at this
      exact of_decide_eq_true (this e he)
    have no : ∀ {ds : List (List Tok × Tok)}, ds.all (fun d => !Nat.beq d.2 w!"PtrLen") = true →
        (inner, Helper.ptrLen.name.2) ∈ ds → False := by
      intro ds h hm
      rw [List.all_eq_true] at h
      have := h _ hm
      exact absurd this (by show ¬ (!Nat.beq w!"PtrLen" w!"PtrLen") = true; decide)
    rcases hr with hr | hr | hr | hr <;> rw [hr] at hi
    · exact no (by decide +kernel) hi
    · exact no (by decide +kernel) hi
    · rw [copied_text] at hi
      exact no (by decide +kernel) hi
    · exact no (by decide +kernel) hi
  · rintro ⟨h, hh, -⟩; cases hh

/-- The names in `Gap` do lack their header: with nothing but `rust::String` in use, its text takes `std::size_t` from a
header that is not included; likewise `std::swap` with `rust::Slice`. -/
theorem headers_missing : ∃ (i : Includes) (b b' : Builtins) (placed placed' : List (List Blk × Piece)),
    place [] (writeBuiltins i b).2 = some placed ∧
    (∃ e ∈ placed, w!"size_t" ∈ stdNames (tokensOf e.2.lines)) ∧
    (∀ s ∈ providers w!"size_t", (writeBuiltins i b).1.flag s = false) ∧
    place [] (writeBuiltins i b').2 = some placed' ∧
    (∃ e ∈ placed', w!"swap" ∈ stdNames (tokensOf e.2.lines)) ∧
    (∀ s ∈ providers w!"swap", (writeBuiltins i b').1.flag s = false) := by
  have has : ∀ {ts : List Tok} {t : Tok}, ts.any (Nat.beq t) = true → t ∈ ts := by
    intro ts t h
    rw [List.any_eq_true] at h
    obtain ⟨x, hx, he⟩ := h
    rwa [Nat.eq_of_beq_eq_true he]
  refine ⟨⟨[], fun _ => false⟩, { rustString := true }, { rustSlice := true }, _, _, placed_exact (by decide),
    ⟨(top, .copied .rustString), by decide +kernel, ?_⟩, by decide +kernel, placed_exact (by decide),
    ⟨(top, .copied .rustSlice), by decide +kernel, ?_⟩, by decide +kernel⟩
  · show _ ∈ stdNames (tokensOf (Piece.copied .rustString).lines)
    rw [copied_text]; exact has (by decide +kernel)
  · show _ ∈ stdNames (tokensOf (Piece.copied .rustSlice).lines)
    rw [copied_text]; exact has (by decide +kernel)

end Verif.Preamble
