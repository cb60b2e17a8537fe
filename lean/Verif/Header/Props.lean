import Verif.Header.Spec
/-!
# Sections of a header
-/
namespace Verif.Header

theorem startsWith_iff (s p : Text) : startsWith s p = true ↔ ∃ r, s = p ++ r := by
  induction p generalizing s with
  | nil => cases s <;> simp [startsWith]
  | cons b p ih =>
    cases s with
    | nil => simp [startsWith]
    | cons a s => simp [startsWith, ih]

theorem find_some {s p : Text} {i : Nat} (h : find s p = some i) :
    startsWith (s.drop i) p = true ∧ i ≤ s.length ∧ ∀ j < i, startsWith (s.drop j) p = false := by
  induction s generalizing i with
  | nil =>
    rw [find] at h
    split at h
    · cases h; simpa using ‹_›
    · cases h
  | cons a s ih =>
    rw [find] at h
    split at h
    · cases h; simpa using ‹_›
    · rename_i hn
      obtain ⟨k, hk, rfl⟩ := Option.map_eq_some_iff.1 h
      obtain ⟨h1, h2, h3⟩ := ih hk
      refine ⟨by simpa using h1, by simp; omega, ?_⟩
      intro j hj
      cases j with
      | zero => simpa using hn
      | succ j => simpa using h3 j (by omega)

theorem find_none {s p : Text} (h : find s p = none) : ∀ j, p ≠ [] → startsWith (s.drop j) p = false := by
  induction s with
  | nil =>
    intro j hp
    cases p with
    | nil => exact absurd rfl hp
    | cons b p => simp [startsWith]
  | cons a s ih =>
    intro j hp
    rw [find] at h
    split at h
    · cases h
    · rename_i hn
      cases j with
      | zero => simpa using hn
      | succ j => simpa using ih (Option.map_eq_none_iff.1 h) j hp

/-- The line is found at `p`: some end of a line follows. -/
def AtLine (h line : Text) (p : Nat) : Prop :=
  ∃ c rest, h.drop p = line ++ c :: rest ∧ (c = 10 ∨ c = 13)

/-- Its first byte occurs nowhere else in it. -/
def Marked (line : Text) : Prop := ∃ l, line = 35 :: l ∧ 35 ∉ l

theorem atLine_lt {h line : Text} {p : Nat} (hp : AtLine h line p) : p < h.length := by
  obtain ⟨c, rest, hd, _⟩ := hp
  have := congrArg List.length hd
  simp at this
  omega

theorem no_overlap {h line r : Text} {i q : Nat} (hm : Marked line) (hi : h.drop i = line ++ r) (hq : AtLine h line q)
    (h1 : i < q) : i + line.length ≤ q := by
  obtain ⟨l, rfl, hl⟩ := hm
  rcases Nat.lt_or_ge q (i + (35 :: l).length) with h2 | h2
  · exfalso
    obtain ⟨c, rest, hd, _⟩ := hq
    have e : h.drop q = (h.drop i).drop (q - i) := by rw [List.drop_drop]; congr 1; omega
    rw [e, hi, List.drop_append_of_le_length (by simp at h2 ⊢; omega)] at hd
    obtain ⟨k, hk⟩ : ∃ k, q - i = k + 1 := ⟨q - i - 1, by omega⟩
    rw [hk, List.drop_succ_cons] at hd
    have hne : l.drop k ≠ [] := by
      intro h0
      rw [List.drop_eq_nil_iff] at h0
      simp at h2; omega
    cases hx : l.drop k with
    | nil => exact hne hx
    | cons x xs =>
      rw [hx] at hd
      simp only [List.cons_append, List.cons.injEq] at hd
      have : x ∈ l := List.mem_of_mem_drop (hx ▸ List.mem_cons_self)
      rw [hd.1] at this
      exact hl this
  · exact h2

theorem findLine_spec (h line : Text) (hm : Marked line) : ∀ (fuel o : Nat), h.length < fuel + o →
    (∀ p, findLine h line fuel o = some p → o ≤ p ∧ AtLine h line p ∧ ∀ q, o ≤ q → q < p → ¬ AtLine h line q) ∧
    (findLine h line fuel o = none → ∀ q, o ≤ q → ¬ AtLine h line q) := by
  have hne : line ≠ [] := by obtain ⟨l, rfl, _⟩ := hm; simp
  intro fuel
  induction fuel with
  | zero =>
    intro o hf
    refine ⟨nofun, ?_⟩
    intro _ q hq ha
    have := atLine_lt ha
    omega
  | succ fuel ih =>
    intro o hf
    rw [findLine]
    cases hfind : find (h.drop o) line with
    | none =>
      refine ⟨nofun, ?_⟩
      intro _ q hq ⟨c, rest, hd, _⟩
      have := find_none hfind (q - o) hne
      rw [List.drop_drop] at this
      rw [show o + (q - o) = q by omega, hd] at this
      exact absurd ((startsWith_iff _ _).2 ⟨_, rfl⟩) (by rw [this]; simp)
    | some i =>
      obtain ⟨h1, h2, h3⟩ := find_some hfind
      rw [List.drop_drop] at h1
      obtain ⟨r, hr⟩ := (startsWith_iff _ _).1 h1
      have hearly : ∀ q, o ≤ q → q < o + i → ¬ AtLine h line q := by
        rintro q hq1 hq2 ⟨c, rest, hd, _⟩
        have := h3 (q - o) (by omega)
        rw [List.drop_drop, show o + (q - o) = q by omega, hd] at this
        exact absurd ((startsWith_iff _ _).2 ⟨_, rfl⟩) (by rw [this]; simp)
      have hdrop : h.drop (o + i + line.length) = r := by
        rw [← List.drop_drop, hr]; simp
      simp only
      by_cases hnl : (startsWith (h.drop (o + i + line.length)) [10] || startsWith (h.drop (o + i + line.length)) [13]) = true
      · rw [if_pos hnl]
        refine ⟨?_, by intro h; cases h⟩
        intro p hp
        cases hp
        refine ⟨by omega, ?_, hearly⟩
        rw [Bool.or_eq_true, startsWith_iff, startsWith_iff] at hnl
        rw [hdrop] at hnl
        rcases hnl with ⟨r', hr'⟩ | ⟨r', hr'⟩
        · exact ⟨10, r', by rw [hr, hr']; rfl, .inl rfl⟩
        · exact ⟨13, r', by rw [hr, hr']; rfl, .inr rfl⟩
      · rw [if_neg hnl]
        have hhere : ¬ AtLine h line (o + i) := by
          rintro ⟨c, rest, hd, hc⟩
          apply hnl
          rw [hdrop, Bool.or_eq_true, startsWith_iff, startsWith_iff]
          rw [hr] at hd
          have := List.append_cancel_left hd
          rcases hc with rfl | rfl
          · exact .inl ⟨rest, this⟩
          · exact .inr ⟨rest, this⟩
        have hlen : 1 ≤ line.length := by
          cases line with
          | nil => exact absurd rfl hne
          | cons => simp
        obtain ⟨i1, i2⟩ := ih (o + i + line.length) (by omega)
        have hgap : ∀ q, o ≤ q → q < o + i + line.length → ¬ AtLine h line q := by
          intro q hq1 hq2 ha
          rcases Nat.lt_trichotomy q (o + i) with hlt | heq | hgt
          · exact hearly q hq1 hlt ha
          · exact hhere (heq ▸ ha)
          · have := no_overlap hm hr ha hgt
            omega
        constructor
        · intro p hp
          obtain ⟨a1, a2, a3⟩ := i1 p hp
          refine ⟨by omega, a2, ?_⟩
          intro q hq1 hq2
          rcases Nat.lt_or_ge q (o + i + line.length) with hlt | hge
          · exact hgap q hq1 hlt
          · exact a3 q hge hq2
        · intro hn q hq
          rcases Nat.lt_or_ge q (o + i + line.length) with hlt | hge
          · exact hgap q hq hlt
          · exact i2 hn q hge

/-- Lines to text. -/
def join (ls : List Text) : Text := ls.flatMap (· ++ [10])

theorem join_nil : join [] = [] := rfl
theorem join_cons (l : Text) (ls : List Text) : join (l :: ls) = l ++ 10 :: join ls := by simp [join]
theorem join_append (a b : List Text) : join (a ++ b) = join a ++ join b := by simp [join]

theorem atLine_cons {l t line : Text} {q : Nat} (hl : OneLine l) (hline : OneLine line)
    (h : AtLine (l ++ 10 :: t) line q) :
    EndsWith l line ∨ ∃ q', q = l.length + 1 + q' ∧ AtLine t line q' := by
  obtain ⟨c, rest, hd, hc⟩ := h
  rcases Nat.lt_or_ge l.length q with h1 | h1
  · right
    refine ⟨q - (l.length + 1), by omega, c, rest, ?_, hc⟩
    have e : (l ++ 10 :: t).drop q = t.drop (q - (l.length + 1)) := by
      rw [List.drop_append, List.drop_of_length_le (l := l) (by omega),
        show q - l.length = (q - (l.length + 1)) + 1 by omega]
      rfl
    rw [← hd, e]
  · left
    rw [List.drop_append_of_le_length h1] at hd
    -- `line` is all of the rest of `l`
    have key : ∀ (x y : Text), 10 ∉ x → 13 ∉ x → 10 ∉ y → x ++ 10 :: t = y ++ c :: rest → x = y := by
      intro x
      induction x with
      | nil =>
        intro y _ _ hy he
        cases y with
        | nil => rfl
        | cons b y => simp at he; simp [← he.1] at hy
      | cons a x ihx =>
        intro y hx hx' hy he
        cases y with
        | nil =>
          simp at he
          rcases hc with rfl | rfl
          · simp [he.1] at hx
          · simp [he.1] at hx'
        | cons b y =>
          simp only [List.cons_append, List.cons.injEq] at he
          rw [he.1, ihx y (fun h => hx (by simp [h])) (fun h => hx' (by simp [h])) (fun h => hy (by simp [h])) he.2]
    have := key (l.drop q) line (fun h => hl.1 (List.mem_of_mem_drop h)) (fun h => hl.2 (List.mem_of_mem_drop h))
      hline.1 hd
    exact ⟨l.take q, by rw [← this, List.take_append_drop]⟩

theorem atLine_none {ls : List Text} {line : Text} (hls : ∀ l ∈ ls, OneLine l) (hline : OneLine line)
    (hno : ∀ l ∈ ls, ¬ EndsWith l line) : ∀ q, ¬ AtLine (join ls) line q := by
  induction ls with
  | nil => rintro q ⟨c, rest, hd, _⟩; simp [join] at hd
  | cons l ls ih =>
    intro q h
    rw [join_cons] at h
    rcases atLine_cons (hls l (by simp)) hline h with h' | ⟨q', _, h'⟩
    · exact hno l (by simp) h'
    · exact ih (fun l hl => hls l (by simp [hl])) (fun l hl => hno l (by simp [hl])) q' h'

theorem atLine_first {pre post : List Text} {line : Text} (hls : ∀ l ∈ pre, OneLine l) (hline : OneLine line)
    (hno : ∀ l ∈ pre, ¬ EndsWith l line) :
    AtLine (join (pre ++ line :: post)) line (join pre).length ∧
    ∀ q, AtLine (join (pre ++ line :: post)) line q → (join pre).length ≤ q := by
  induction pre with
  | nil =>
    refine ⟨⟨10, join post, by rw [List.nil_append, join_cons]; rfl, .inl rfl⟩, ?_⟩
    intro q _; simp [join]
  | cons l pre ih =>
    obtain ⟨⟨c, rest, i1, hc⟩, i2⟩ := ih (fun l hl => hls l (by simp [hl])) (fun l hl => hno l (by simp [hl]))
    have hlen : (join (l :: pre)).length = l.length + 1 + (join pre).length := by
      rw [join_cons]; simp; omega
    rw [List.cons_append, join_cons, hlen]
    refine ⟨⟨c, rest, ?_, hc⟩, ?_⟩
    · rw [← i1, List.drop_append, List.drop_of_length_le (by omega)]
      rw [show l.length + 1 + (join pre).length - l.length = (join pre).length + 1 by omega]
      rfl
    · intro q hq
      rcases atLine_cons (hls l (by simp)) hline hq with h' | ⟨q', rfl, h'⟩
      · exact absurd h' (hno l (by simp))
      · have := i2 q' h'; omega

theorem atLine_shift (a t line : Text) (q : Nat) : AtLine (a ++ t) line (a.length + q) ↔ AtLine t line q := by
  unfold AtLine
  rw [List.drop_append, List.drop_of_length_le (by omega)]
  simp

/-- `findLine` on the rest of the text. -/
theorem findLine_none {a : Text} {ls : List Text} {line : Text} (hm : Marked line) (hls : ∀ l ∈ ls, OneLine l)
    (hline : OneLine line) (hno : ∀ l ∈ ls, ¬ EndsWith l line) :
    findLine (a ++ join ls) line ((a ++ join ls).length + 1) a.length = none := by
  have hs := findLine_spec (a ++ join ls) line hm ((a ++ join ls).length + 1) a.length (by omega)
  cases hf : findLine (a ++ join ls) line ((a ++ join ls).length + 1) a.length with
  | none => rfl
  | some p =>
    obtain ⟨h1, h2, _⟩ := hs.1 p hf
    exfalso
    rw [show p = a.length + (p - a.length) by omega, atLine_shift] at h2
    exact atLine_none hls hline hno _ h2

theorem findLine_first {a : Text} {pre post : List Text} {line : Text} (hm : Marked line) (hls : ∀ l ∈ pre, OneLine l)
    (hline : OneLine line) (hno : ∀ l ∈ pre, ¬ EndsWith l line) :
    findLine (a ++ join (pre ++ line :: post)) line ((a ++ join (pre ++ line :: post)).length + 1) a.length =
      some (a.length + (join pre).length) := by
  have hs := findLine_spec (a ++ join (pre ++ line :: post)) line hm ((a ++ join (pre ++ line :: post)).length + 1)
    a.length (by omega)
  obtain ⟨f1, f2⟩ := atLine_first (post := post) hls hline hno
  cases hf : findLine (a ++ join (pre ++ line :: post)) line ((a ++ join (pre ++ line :: post)).length + 1) a.length with
  | none => exact absurd ((atLine_shift _ _ _ _).2 f1) (hs.2 hf _ (by omega))
  | some p =>
    obtain ⟨h1, h2, h3⟩ := hs.1 p hf
    have h2' := h2
    rw [show p = a.length + (p - a.length) by omega, atLine_shift] at h2'
    have := f2 _ h2'
    rcases Nat.lt_or_ge (a.length + (join pre).length) p with hlt | hge
    · exact absurd ((atLine_shift _ _ _ _).2 f1) (h3 _ (by omega) hlt)
    · congr 1; omega

/-! ### Copying -/

theorem isSpace_iff (b : Nat) : isSpace b = true ↔ Blank b := by
  simp [isSpace, Blank]

theorem splitLines_line {l : Text} (h : 10 ∉ l) (hne : l ≠ []) : splitLines l = [l] := by
  induction l with
  | nil => exact absurd rfl hne
  | cons b l ih =>
    have hb : ¬ b = 10 := fun h' => h (by simp [h'])
    rw [splitLines, if_neg hb]
    cases l with
    | nil => rfl
    | cons c l => rw [ih (fun h' => h (by simp [h'])) (by simp)]

theorem splitLines_cons {l : Text} (h : 10 ∉ l) (t : Text) : splitLines (l ++ 10 :: t) = l :: splitLines t := by
  induction l with
  | nil => simp [splitLines]
  | cons b l ih =>
    have hb : ¬ b = 10 := fun h' => h (by simp [h'])
    rw [List.cons_append, splitLines, if_neg hb, ih (fun h' => h (by simp [h']))]

theorem splitLines_join {init : List Text} {last : Text} (h : ∀ l ∈ init, 10 ∉ l) (hl : 10 ∉ last) (hne : last ≠ []) :
    splitLines (join init ++ last) = init ++ [last] := by
  induction init with
  | nil => simpa [join] using splitLines_line hl hne
  | cons l init ih =>
    rw [join_cons, List.append_assoc, List.cons_append, splitLines_cons (h l (by simp)),
      ih (fun l' h' => h l' (by simp [h']))]
    rfl

theorem join_blank (n : Nat) : join (List.replicate n []) = List.replicate n 10 := by
  induction n with
  | zero => rfl
  | succ n ih => rw [List.replicate_succ, join_cons, ih]; rfl

theorem trimStart_blank (n : Nat) (t : Text) : trimStart (List.replicate n 10 ++ t) = trimStart t := by
  induction n with
  | zero => rfl
  | succ n ih =>
    rw [List.replicate_succ, List.cons_append]
    show List.dropWhile isSpace (10 :: _) = _
    rw [List.dropWhile_cons_of_pos (by decide)]
    exact ih

theorem trim_join {whole body : List Text} (hs : Trimmed whole body) (h1 : ∀ l ∈ whole, OneLine l) :
    lines (trim (10 :: join whole)) = body := by
  obtain ⟨⟨i, j, hw⟩, ⟨b, l, rest, hb, hnb⟩, init, last, c, hl, hnc⟩ := hs
  have h1 : ∀ l ∈ body, OneLine l := fun l h => h1 l (by rw [hw]; simp [h])
  have hb' : isSpace b = false := by rw [← Bool.not_eq_true, isSpace_iff]; exact hnb
  have hc' : isSpace c = false := by rw [← Bool.not_eq_true, isSpace_iff]; exact hnc
  have s0 : join whole = List.replicate i 10 ++ (join body ++ List.replicate j 10) := by
    rw [hw, join_append, join_append, join_blank, join_blank, List.append_assoc]
  have s1 : trimStart (10 :: join whole) = join body ++ List.replicate j 10 := by
    rw [s0]
    show List.dropWhile isSpace (10 :: _) = _
    rw [List.dropWhile_cons_of_pos (by decide)]
    show trimStart _ = _
    rw [trimStart_blank, hb, join_cons]
    show List.dropWhile isSpace (b :: _) = _
    rw [List.dropWhile_cons_of_neg (by simp [hb'])]
    rfl
  have s2 : join body = (join init ++ (last ++ [c])) ++ [10] := by
    rw [hl, join_append, join_cons, join_nil]; simp
  have s3 : trimStart (join body ++ List.replicate j 10).reverse = (join init ++ (last ++ [c])).reverse := by
    rw [List.reverse_append, List.reverse_replicate, trimStart_blank, s2, List.reverse_append]
    show List.dropWhile isSpace (10 :: (join init ++ (last ++ [c])).reverse) = _
    rw [List.dropWhile_cons_of_pos (by decide)]
    rw [← List.append_assoc, List.reverse_append]
    show List.dropWhile isSpace (c :: (join init ++ last).reverse) = _
    rw [List.dropWhile_cons_of_neg (by simp [hc'])]
    rfl
  have s4 : trim (10 :: join whole) = join init ++ (last ++ [c]) := by
    unfold trim
    rw [s1, s3, List.reverse_reverse]
  have hmem : ∀ l' ∈ init, OneLine l' := fun l' h' => h1 l' (by rw [hl]; simp [h'])
  have hlast : OneLine (last ++ [c]) := h1 _ (by rw [hl]; simp)
  unfold lines
  rw [s4, splitLines_join (fun l' h' => (hmem l' h').1) hlast.1 (by simp), ← hl]
  conv => rhs; rw [← List.map_id body]
  apply List.map_congr_left
  intro x hx
  have : x.getLast? ≠ some 13 := fun h => (h1 x hx).2 (List.mem_of_getLast? h)
  simp [this]

theorem comment_iff (l : Text) : startsWith (trimStart l) [47, 47] = true ↔ IsComment l := by
  rw [startsWith_iff]
  constructor
  · rintro ⟨r, hr⟩
    refine ⟨l.takeWhile isSpace, r, ?_, ?_⟩
    · have := List.takeWhile_append_dropWhile (p := isSpace) (l := l)
      rw [show l.dropWhile isSpace = [47, 47] ++ r from hr] at this
      exact this.symm
    · intro b hb
      exact (isSpace_iff b).1 (by
        have := List.all_takeWhile (p := isSpace) (l := l)
        rw [List.all_eq_true] at this
        exact this b hb)
  · rintro ⟨blanks, rest, rfl, hb⟩
    refine ⟨rest, ?_⟩
    unfold trimStart
    induction blanks with
    | nil => rw [List.nil_append, List.dropWhile_cons_of_neg (by decide)]; rfl
    | cons b bs ih =>
      rw [List.cons_append, List.dropWhile_cons_of_pos ((isSpace_iff b).2 (hb b (by simp)))]
      exact ih (fun b' h' => hb b' (by simp [h']))

theorem kept_filter (d : Text) (body : List Text) :
    Kept d body (body.filter fun line => decide (line ≠ d) && !startsWith (trimStart line) [47, 47]) := by
  induction body with
  | nil => exact .nil
  | cons l body ih =>
    by_cases h1 : l = d
    · rw [List.filter_cons_of_neg (by simp [h1])]
      exact .drop (.inl h1) ih
    · by_cases h2 : startsWith (trimStart l) [47, 47] = true
      · rw [List.filter_cons_of_neg (by simp [h2])]
        exact .drop (.inr ((comment_iff l).1 h2)) ih
      · rw [List.filter_cons_of_pos (by simp at h2; simp [h1, h2])]
        exact .keep h1 (fun h => h2 ((comment_iff l).2 h)) ih

/-! ### The layout -/

/-- All lines. -/
def linesOf (layout : List Chunk) : List Text := layout.flatMap Chunk.lines

theorem textOf_join (layout : List Chunk) : textOf layout = join (linesOf layout) := by
  simp [textOf, join, linesOf, List.flatMap_assoc]

theorem linesOf_append (a b : List Chunk) : linesOf (a ++ b) = linesOf a ++ linesOf b := by simp [linesOf]

/-- The first section, or none. -/
theorem layout_cases (g : Text) (layout : List Chunk) :
    (bodies g layout = [] ∧ others g layout = linesOf layout) ∨
    ∃ pre body post, layout = pre ++ .guarded g body :: post ∧ bodies g pre = [] ∧ others g pre = linesOf pre ∧
      bodies g layout = body :: bodies g post ∧ others g layout = linesOf pre ++ body ++ others g post := by
  induction layout with
  | nil => exact .inl ⟨rfl, rfl⟩
  | cons c layout ih =>
    by_cases hc : ∃ body, c = .guarded g body
    · obtain ⟨body, rfl⟩ := hc
      exact .inr ⟨[], body, layout, rfl, rfl, rfl, by simp [bodies], by simp [others, linesOf]⟩
    · have hb : ∀ l, bodies g (c :: l) = bodies g l := by
        intro l
        cases c with
        | text t => rfl
        | guarded g' b =>
          have : g' ≠ g := fun h => hc ⟨b, by rw [h]⟩
          simp [bodies, this]
      have ho : ∀ l, others g (c :: l) = c.lines ++ others g l := by
        intro l
        cases c with
        | text t => rfl
        | guarded g' b =>
          have : g' ≠ g := fun h => hc ⟨b, by rw [h]⟩
          simp [others, this, Chunk.lines]
      have hl : ∀ l, linesOf (c :: l) = c.lines ++ linesOf l := by intro l; simp [linesOf]
      rcases ih with ⟨h1, h2⟩ | ⟨pre, body, post, h1, h2, h3, h4, h5⟩
      · exact .inl ⟨by rw [hb, h1], by rw [ho, hl, h2]⟩
      · refine .inr ⟨c :: pre, body, post, by rw [h1]; rfl, by rw [hb, h2], by rw [ho, hl, h3], by rw [hb, h4], ?_⟩
        rw [ho, h5, hl]; simp

theorem ifndef_marked {g : Text} (h : 35 ∉ g) : Marked (ifndef ++ g) := ⟨_, rfl, by simp [h]⟩
theorem endif_marked {g : Text} (h : 35 ∉ g) : Marked (endif ++ g) := ⟨_, rfl, by simp [h]⟩
theorem ifndef_line {g : Text} (h : OneLine g) : OneLine (ifndef ++ g) := ⟨by simp [ifndef, h.1], by simp [ifndef, h.2]⟩
theorem endif_line {g : Text} (h : OneLine g) : OneLine (endif ++ g) := ⟨by simp [endif, h.1], by simp [endif, h.2]⟩

theorem ifndef_not_endif (g : Text) : ¬ EndsWith (ifndef ++ g) (endif ++ g) := by
  rintro ⟨s, h⟩
  have := congrArg List.length h
  simp [ifndef, endif] at this
  omega

theorem blank_not {line : Text} (h : Marked line) : ¬ EndsWith [] line := by
  rintro ⟨s, h'⟩
  obtain ⟨l, rfl, _⟩ := h
  simp at h'

/-- What the loop writes. -/
theorem loop_spec (g : Text) (hg : OneLine g) (hash : 35 ∉ g) : ∀ (n : Nat) (layout : List Chunk), (bodies g layout).length = n →
    ∀ (a : Text) (first : List Text) (fuel : Nat) (h : Text), h = a ++ join (first ++ linesOf layout) →
    (first = [] ∨ first = [[]]) → h.length < fuel + a.length →
    (∀ c ∈ layout, ∀ l ∈ c.lines, OneLine l) →
    (∀ l ∈ others g layout, ¬ EndsWith l (ifndef ++ g) ∧ ¬ EndsWith l (endif ++ g)) →
    (∀ body ∈ bodies g layout, ∃ core, Trimmed body core) →
    (a = [] ∧ bodies g layout = [] → writeLoop h true g fuel a.length = none) ∧
    (a ≠ [] → ∃ out, Copied g (bodies g layout) out ∧ writeLoop h true g fuel a.length = some (out ++ [.line (endif ++ g)])) ∧
    (a = [] → bodies g layout ≠ [] → ∃ out, Copied g (bodies g layout) (.nextSection :: out) ∧
      writeLoop h true g fuel a.length =
        some (.nextSection :: .line (ifndef ++ g) :: .line (define ++ g) :: out ++ [.line (endif ++ g)])) := by
  intro n
  induction n with
  | zero =>
    intro layout hn a first fuel h hh hfirst hfuel h1 h2 h3
    have hb : bodies g layout = [] := List.eq_nil_of_length_eq_zero hn
    have ho : others g layout = linesOf layout := by
      rcases layout_cases g layout with ⟨_, h⟩ | ⟨_, _, _, _, _, _, h, _⟩
      · exact h
      · rw [hb] at h; cases h
    have hlines : ∀ l ∈ first ++ linesOf layout, OneLine l := by
      intro l hl
      rcases List.mem_append.1 hl with hl | hl
      · rcases hfirst with rfl | rfl
        · cases hl
        · simp at hl; subst hl; exact ⟨by simp, by simp⟩
      · obtain ⟨c, hc, hl⟩ := List.mem_flatMap.1 hl
        exact h1 c hc l hl
    have hno : ∀ l ∈ first ++ linesOf layout, ¬ EndsWith l (ifndef ++ g) := by
      intro l hl
      rcases List.mem_append.1 hl with hl | hl
      · rcases hfirst with rfl | rfl
        · cases hl
        · simp at hl; subst hl; exact blank_not (ifndef_marked hash)
      · exact (h2 l (ho ▸ hl)).1
    have hfl : findLine h (ifndefOf g) (h.length + 1) a.length = none := by
      rw [hh]; exact findLine_none (ifndef_marked hash) hlines (ifndef_line hg) hno
    have hrun : writeLoop h true g fuel a.length = if a.length = 0 then none else some [.line (endif ++ g)] := by
      obtain ⟨f, rfl⟩ : ∃ f, fuel = f + 1 := ⟨fuel - 1, by
        have : a.length ≤ h.length := by rw [hh]; simp
        omega⟩
      rw [writeLoop, hfl]
      rfl
    rw [hrun, hb]
    refine ⟨?_, ?_, ?_⟩
    · rintro ⟨rfl, _⟩; simp
    · intro ha
      exact ⟨[], .nil, by rw [if_neg (by simpa using ha)]; rfl⟩
    · intro _ h; exact absurd rfl h
  | succ n ih =>
    intro layout hn a first fuel h hh hfirst hfuel h1 h2 h3
    rcases layout_cases g layout with ⟨hb, _⟩ | ⟨pre, body, post, hlay, hbpre, hopre, hb, ho⟩
    · rw [hb] at hn; cases hn
    have hpost : (bodies g post).length = n := by rw [hb] at hn; simpa using hn
    have hfl : ∀ l ∈ first, OneLine l ∧ ¬ EndsWith l (ifndef ++ g) ∧ ¬ EndsWith l (endif ++ g) := by
      intro l hl
      rcases hfirst with rfl | rfl
      · cases hl
      · simp at hl; subst hl
        exact ⟨⟨by simp, by simp⟩, blank_not (ifndef_marked hash), blank_not (endif_marked hash)⟩
    have hpre : ∀ l ∈ linesOf pre, OneLine l ∧ ¬ EndsWith l (ifndef ++ g) ∧ ¬ EndsWith l (endif ++ g) := by
      intro l hl
      refine ⟨?_, h2 l (by rw [ho]; simp [hl])⟩
      obtain ⟨c, hc, hl⟩ := List.mem_flatMap.1 hl
      exact h1 c (by rw [hlay]; simp [hc]) l hl
    have hbody : ∀ l ∈ body, OneLine l ∧ ¬ EndsWith l (ifndef ++ g) ∧ ¬ EndsWith l (endif ++ g) := by
      intro l hl
      refine ⟨?_, h2 l (by rw [ho]; simp [hl])⟩
      exact h1 (.guarded g body) (by rw [hlay]; simp) l (by simp [Chunk.lines, hl])
    have hlines : first ++ linesOf layout =
        (first ++ linesOf pre) ++ (ifndef ++ g) :: (body ++ (endif ++ g) :: linesOf post) := by
      rw [hlay, linesOf_append]
      simp [linesOf, Chunk.lines]
    have hlines' : first ++ linesOf layout =
        (first ++ linesOf pre ++ (ifndef ++ g) :: body) ++ (endif ++ g) :: linesOf post := by
      rw [hlines]; simp
    have hbegin : findLine h (ifndefOf g) (h.length + 1) a.length = some (a.length + (join (first ++ linesOf pre)).length) := by
      rw [hh, hlines]
      refine findLine_first (ifndef_marked hash) ?_ (ifndef_line hg) ?_
      · intro l hl
        rcases List.mem_append.1 hl with hl | hl
        · exact (hfl l hl).1
        · exact (hpre l hl).1
      · intro l hl
        rcases List.mem_append.1 hl with hl | hl
        · exact (hfl l hl).2.1
        · exact (hpre l hl).2.1
    have hend : findLine h (endifOf g) (h.length + 1) a.length =
        some (a.length + (join (first ++ linesOf pre ++ (ifndef ++ g) :: body)).length) := by
      rw [hh, hlines']
      refine findLine_first (endif_marked hash) ?_ (endif_line hg) ?_
      · intro l hl
        rcases List.mem_append.1 hl with hl | hl
        · rcases List.mem_append.1 hl with hl | hl
          · exact (hfl l hl).1
          · exact (hpre l hl).1
        · rcases List.mem_cons.1 hl with rfl | hl
          · exact ifndef_line hg
          · exact (hbody l hl).1
      · intro l hl
        rcases List.mem_append.1 hl with hl | hl
        · rcases List.mem_append.1 hl with hl | hl
          · exact (hfl l hl).2.2
          · exact (hpre l hl).2.2
        · rcases List.mem_cons.1 hl with rfl | hl
          · exact ifndef_not_endif g
          · exact (hbody l hl).2.2
    -- the text in between
    have hj : (join (first ++ linesOf pre ++ (ifndef ++ g) :: body)) =
        join (first ++ linesOf pre) ++ ((ifndef ++ g) ++ 10 :: join body) := by
      rw [join_append, join_cons]
    have htext : h = (a ++ join (first ++ linesOf pre) ++ (ifndef ++ g)) ++ ((10 :: join body) ++ ((endif ++ g) ++ 10 :: join (linesOf post))) := by
      rw [hh, hlines', join_append, hj, join_cons]
      simp
    have hlenA : (a ++ join (first ++ linesOf pre) ++ (ifndef ++ g)).length =
        a.length + (join (first ++ linesOf pre)).length + (ifndefOf g).length := by
      simp [ifndefOf, ifndef, Nat.add_assoc]
    have hlenB : a.length + (join (first ++ linesOf pre ++ (ifndef ++ g) :: body)).length =
        (a ++ join (first ++ linesOf pre) ++ (ifndef ++ g) ++ (10 :: join body)).length := by
      rw [hj]; simp
    have hslice : (h.take (a.length + (join (first ++ linesOf pre ++ (ifndef ++ g) :: body)).length)).drop
        (a.length + (join (first ++ linesOf pre)).length + (ifndefOf g).length) = 10 :: join body := by
      rw [hlenB, ← hlenA, htext, ← List.append_assoc _ (10 :: join body), List.take_left' rfl, List.drop_left' rfl]
    have hnlt : ¬ (a.length + (join (first ++ linesOf pre ++ (ifndef ++ g) :: body)).length <
        a.length + (join (first ++ linesOf pre)).length + (ifndefOf g).length) := by
      rw [hlenB, ← hlenA, List.length_append]; omega
    -- the rest of the text
    let a' := a ++ join (first ++ linesOf pre) ++ (ifndef ++ g) ++ (10 :: join body) ++ (endif ++ g)
    have ha' : a'.length = a.length + (join (first ++ linesOf pre ++ (ifndef ++ g) :: body)).length + (endifOf g).length := by
      rw [hlenB, List.length_append]; rfl
    have hh' : h = a' ++ join ([[]] ++ linesOf post) := by
      show _ = _ ++ join ([] :: linesOf post)
      rw [join_cons, htext]
      simp [a']
    have hane : a' ≠ [] := by simp [a']
    obtain ⟨f, rfl⟩ : ∃ f, fuel = f + 1 := ⟨fuel - 1, by
      have : a.length ≤ h.length := by rw [hh]; simp
      omega⟩
    have hfuel' : h.length < f + a'.length := by
      have : a.length + 1 ≤ a'.length := by
        simp only [a', List.length_append, List.length_cons]; omega
      omega
    obtain ⟨_, hrest, _⟩ := ih post hpost a' [[]] f h hh' (.inr rfl) hfuel'
      (fun c hc => h1 c (by rw [hlay]; simp [hc]))
      (fun l hl => h2 l (by rw [ho]; simp [hl]))
      (fun b hb' => h3 b (by rw [hb]; simp [hb']))
    obtain ⟨out, hcop, hrun⟩ := hrest hane
    obtain ⟨core, hcore⟩ := h3 body (by rw [hb]; simp)
    have hcopy : copy (defineOf g) (10 :: join body) =
        (core.filter fun line => decide (line ≠ define ++ g) && !startsWith (trimStart line) [47, 47]).map .line := by
      unfold copy
      rw [trim_join hcore (fun l hl => (hbody l hl).1)]
      rfl
    have hstep : writeLoop h true g (f + 1) a.length =
        some ([.nextSection] ++ (if a.length = 0 then [.line (ifndef ++ g), .line (define ++ g)] else []) ++
          (core.filter fun line => decide (line ≠ define ++ g) && !startsWith (trimStart line) [47, 47]).map .line ++
          (out ++ [.line (endif ++ g)])) := by
      rw [writeLoop, hbegin, hend]
      simp only [Bool.not_true, Bool.false_eq_true, if_false, if_neg hnlt]
      rw [hslice, hcopy, ← ha', hrun]
      rfl
    rw [hstep, hb]
    refine ⟨fun h => absurd h.2 (by simp), ?_, ?_⟩
    · intro ha
      refine ⟨_, .cons hcore (kept_filter _ core) hcop, ?_⟩
      rw [if_neg (by simpa using ha)]
      simp
    · intro ha _
      refine ⟨_, .cons hcore (kept_filter _ core) hcop, ?_⟩
      rw [if_pos (by simp [ha])]
      simp

/-- **C50**.  Sections are copied whole: all of the lines between the guards, but for comments and the `#define`, in
order, and nothing else. -/
theorem write_exact {guard : Text} {layout : List Chunk} (hp : Proper guard layout) (hb : bodies guard layout ≠ []) :
    ∃ out, Copied guard (bodies guard layout) (.nextSection :: out) ∧
      write (textOf layout) true guard =
        some (.nextSection :: .line (ifndef ++ guard) :: .line (define ++ guard) :: out ++ [.line (endif ++ guard)]) := by
  have := (loop_spec guard hp.guardLine hp.guardHash _ layout rfl [] [] ((textOf layout).length + 1) (textOf layout)
    (by rw [textOf_join]; rfl) (.inl rfl) (by simp) hp.oneLine hp.noOther hp.solid).2.2 rfl hb
  exact this

/-- Without such a section in the header the generator panics. -/
theorem write_missing {guard : Text} {layout : List Chunk} (hp : Proper guard layout) (hb : bodies guard layout = []) :
    write (textOf layout) true guard = none :=
  (loop_spec guard hp.guardLine hp.guardHash _ layout rfl [] [] ((textOf layout).length + 1) (textOf layout)
    (by rw [textOf_join]; rfl) (.inl rfl) (by simp) hp.oneLine hp.noOther hp.solid).1 ⟨rfl, hb⟩

/-- A section that is not wanted is not copied. -/
theorem write_unneeded {header guard : Text} {out : List Emit} (h : write header false guard = some out) : out = [] := by
  unfold write at h
  rw [writeLoop] at h
  split at h
  · simp at h; exact h
  · simp at h

/-- The copies of one and the same section agree. -/
theorem kept_unique {d : Text} {body k k' : List Text} (h : Kept d body k) (h' : Kept d body k') : k = k' := by
  induction h generalizing k' with
  | nil => cases h'; rfl
  | drop h hk ih =>
    cases h' with
    | drop _ hk' => exact ih hk'
    | keep h1 h2 _ => exact (h.elim h1 h2).elim
  | keep h1 h2 hk ih =>
    cases h' with
    | drop h _ => exact (h.elim h1 h2).elim
    | keep _ _ hk' => rw [ih hk']

end Verif.Header
