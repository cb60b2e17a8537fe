import Verif.Doc.Model
import Verif.Doc.Spec
/-!
# Documentation and the code around it (C70)
-/
namespace Verif.Doc

/-- Where we are after a text. -/
def after (r : Reading) : Mode → List Char → Mode
  | m, [] => m
  | m, c :: rest => after r (step r m c).1 rest

/-- What remains of it. -/
def out (r : Reading) : Mode → List Char → List Char
  | _, [] => []
  | m, c :: rest => (step r m c).2 ++ out r (step r m c).1 rest

theorem after_append (r : Reading) : ∀ (m : Mode) (a b : List Char), after r m (a ++ b) = after r (after r m a) b
  | _, [], _ => rfl
  | m, c :: a, b => after_append r (step r m c).1 a b

theorem out_append (r : Reading) : ∀ (m : Mode) (a b : List Char), out r m (a ++ b) = out r m a ++ out r (after r m a) b
  | _, [], _ => rfl
  | m, c :: a, b => by simp [out, after, out_append r (step r m c).1 a b]

theorem code_append (r : Reading) : ∀ (m : Mode) (a b : List Char), code r m (a ++ b) = out r m a ++ code r (after r m a) b
  | _, [], _ => rfl
  | m, c :: a, b => by simp [code, out, after, code_append r (step r m c).1 a b]

/-- In a `//` comment. -/
def Mode.InLine (m : Mode) : Prop := m = .line ∨ m = .line1 ∨ m = .line2 ∨ m = .lineJoin

theorem joins_snoc (r : Reading) (l : List Char) (c : Char) : JoinsNext r (l ++ [c]) ↔
    c = '\\' ∨ (r.trigraphs = true ∧ c = '/' ∧ ∃ a, l = a ++ ['?', '?']) ∨ (r.blanks = true ∧ isBlank c = true ∧ JoinsNext r l) := by
  constructor
  · rintro ⟨before, blanks, h, hb, he⟩
    rcases List.eq_nil_or_concat blanks with rfl | ⟨bs, b, rfl⟩
    · rcases h with h | ⟨ht, h⟩
      · have := List.append_inj' h rfl
        simp at this
        exact .inl this.2
      · have h' : l ++ [c] = (before ++ ['?', '?']) ++ ['/'] := by simpa using h
        have := List.append_inj' h' rfl
        simp at this
        exact .inr (.inl ⟨ht, this.2, before, this.1⟩)
    · have hbl : r.blanks = true := by simpa using he
      refine .inr (.inr ⟨hbl, ?_⟩)
      rcases h with h | ⟨ht, h⟩
      · have h' : l ++ [c] = (before ++ '\\' :: bs) ++ [b] := by simpa using h
        have := List.append_inj' h' rfl
        simp at this
        obtain ⟨rfl, rfl⟩ := this
        exact ⟨hb _ (by simp), before, bs, .inl rfl, fun c hc => hb c (by simp [hc]), .inl hbl⟩
      · have h' : l ++ [c] = (before ++ '?' :: '?' :: '/' :: bs) ++ [b] := by simpa using h
        have := List.append_inj' h' rfl
        simp at this
        obtain ⟨rfl, rfl⟩ := this
        exact ⟨hb _ (by simp), before, bs, .inr ⟨ht, rfl⟩, fun c hc => hb c (by simp [hc]), .inl hbl⟩
  · rintro (rfl | ⟨ht, rfl, a, rfl⟩ | ⟨hb, hc, before, blanks, h, h2, h3⟩)
    · exact ⟨l, [], .inl rfl, by simp, .inr rfl⟩
    · exact ⟨a, [], .inr ⟨ht, by simp⟩, by simp, .inr rfl⟩
    · refine ⟨before, blanks ++ [c], ?_, ?_, .inl hb⟩
      · rcases h with rfl | ⟨ht, rfl⟩
        · exact .inl (by simp)
        · exact .inr ⟨ht, by simp⟩
      · intro d hd
        rcases List.mem_append.1 hd with hd | hd
        · exact h2 d hd
        · simp at hd; subst hd; exact hc

theorem joins_nil (r : Reading) : ¬ JoinsNext r [] := by
  rintro ⟨before, blanks, h | ⟨_, h⟩, _⟩ <;> simp at h

theorem ends1_snoc (l : List Char) (c d : Char) : (∃ a, l ++ [c] = a ++ [d]) ↔ c = d := by
  constructor
  · rintro ⟨a, h⟩
    have := List.append_inj' h rfl
    simpa using this.2
  · rintro rfl; exact ⟨l, rfl⟩

theorem ends2_snoc (l : List Char) (c : Char) : (∃ a, l ++ [c] = a ++ ['?', '?']) ↔ c = '?' ∧ ∃ a, l = a ++ ['?'] := by
  constructor
  · rintro ⟨a, h⟩
    have h' : l ++ [c] = (a ++ ['?']) ++ ['?'] := by simpa using h
    have := List.append_inj' h' rfl
    simp at this
    exact ⟨this.2, a, this.1⟩
  · rintro ⟨rfl, a, rfl⟩; exact ⟨a, by simp⟩

/-- A line within a comment. -/
structure Inside (r : Reading) (l : List Char) : Prop where
  none : out r .line l = []
  mode : (after r .line l).InLine
  one : (after r .line l = .line1 ∨ after r .line l = .line2) ↔ ∃ a, l = a ++ ['?']
  two : after r .line l = .line2 ↔ ∃ a, l = a ++ ['?', '?']
  join : after r .line l = .lineJoin ↔ JoinsNext r l

theorem inLine_out {r : Reading} {c : Char} (hc : r.isEnd c = false) : (inLine r c).2 = [] := by
  simp only [inLine, hc]
  split <;> first | contradiction | skip
  split
  · rfl
  · split <;> rfl

theorem inside_snoc {r : Reading} {l : List Char} {c : Char} (h : Inside r l) (hc : r.isEnd c = false) : Inside r (l ++ [c]) := by
  obtain ⟨h0, hm, h1, h2, h3⟩ := h
  have ho : (step r (after r .line l) c).2 = [] := by
    rcases hm with hm | hm | hm | hm <;> rw [hm] <;> simp only [step]
    · exact inLine_out hc
    · split
      · rfl
      · exact inLine_out hc
    · split
      · rfl
      · split
        · rfl
        · exact inLine_out hc
    · rw [hc]
      simp only [Bool.false_eq_true, if_false]
      split
      · rfl
      · exact inLine_out hc
  have hs : after r .line (l ++ [c]) = (step r (after r .line l) c).1 := by rw [after_append]; rfl
  refine ⟨by rw [out_append, h0]; simp [out, ho], ?_, ?_, ?_, ?_⟩
  · rw [hs]
    rcases hm with hm | hm | hm | hm <;> rw [hm] <;> simp only [step, inLine, hc, Mode.InLine] <;> grind
  · rw [hs, ends1_snoc]
    rcases hm with hm | hm | hm | hm <;> rw [hm] <;> simp only [step, inLine, hc] <;> grind [isBlank]
  · rw [hs, ends2_snoc, ← h1]
    rcases hm with hm | hm | hm | hm <;> rw [hm] <;> simp only [step, inLine, hc] <;> grind [isBlank]
  · rw [hs, joins_snoc, ← h2, ← h3]
    rcases hm with hm | hm | hm | hm <;> rw [hm] <;> simp only [step, inLine, hc] <;> grind [isBlank]

theorem inside (r : Reading) {l : List Char} (h : ∀ c ∈ l, r.isEnd c = false) : Inside r l := by
  obtain ⟨k, rfl⟩ : ∃ k, l = k.reverse := ⟨l.reverse, by simp⟩
  induction k with
  | nil =>
    refine ⟨rfl, .inl rfl, ?_, ?_, ?_⟩
    · simp [after]
    · simp [after]
    · simp [after, joins_nil]
  | cons c k ih =>
    rw [List.reverse_cons] at h ⊢
    exact inside_snoc (ih fun c' hc => h c' (by simp [hc])) (h c (by simp))

/-- The end of a line within a comment. -/
theorem line_end (r : Reading) {l : List Char} (h : ∀ c ∈ l, r.isEnd c = false) :
    (JoinsNext r l → after r .line (l ++ ['\n']) = .line ∧ out r .line (l ++ ['\n']) = []) ∧
    (¬ JoinsNext r l → after r .line (l ++ ['\n']) = .code ∧ out r .line (l ++ ['\n']) = ['\n']) := by
  obtain ⟨h0, hm, h1, h2, h3⟩ := inside r h
  have he : r.isEnd '\n' = true := by simp [Reading.isEnd]
  rw [after_append, out_append, h0, ← h3]
  constructor
  · intro hj
    rw [hj]
    simp [after, out, step, he]
  · intro hj
    rcases hm with hm | hm | hm | hm
    · rw [hm]; simp [after, out, step, inLine, he]
    · rw [hm]; simp [after, out, step, inLine, he]
    · rw [hm]; simp [after, out, step, inLine, he]
    · exact absurd hm hj

/-- Blanks. -/
def Blanks (l : List Char) : Prop := ∀ c ∈ l, isBlank c = true

theorem code_blanks (r : Reading) : ∀ {l : List Char}, Blanks l → after r .code l = .code ∧ out r .code l = l
  | [], _ => ⟨rfl, rfl⟩
  | c :: l, h => by
    have hc : step r .code c = (.code, [c]) := by
      have := h c (by simp)
      simp only [step, inCode]
      grind [isBlank]
    have ih := code_blanks r (l := l) fun c hc => h c (by simp [hc])
    simp [after, out, hc, ih]

theorem line_blanks (r : Reading) : ∀ {l : List Char}, (∀ c ∈ l, isBlank c = true ∨ c = '/') → after r .line l = .line ∧ out r .line l = []
  | [], _ => ⟨rfl, rfl⟩
  | c :: l, h => by
    have hc : step r .line c = (.line, []) := by
      have := h c (by simp)
      simp only [step, inLine, Reading.isEnd]
      grind [isBlank]
    have ih := line_blanks r (l := l) fun c hc => h c (by simp [hc])
    simp [after, out, hc, ih]

/-- What is written in front of a line. -/
def mark (doxygen : Bool) (indent : List Char) : List Char := indent ++ (if doxygen then ['/', '/', '/'] else ['/', '/'])

theorem mark_in_code (r : Reading) (doxygen : Bool) {indent : List Char} (h : Blanks indent) :
    after r .code (mark doxygen indent) = .line ∧ out r .code (mark doxygen indent) = indent ++ [' '] := by
  obtain ⟨h1, h2⟩ := code_blanks r h
  unfold mark
  rw [after_append, out_append, h1, h2]
  cases doxygen <;> simp [after, out, step, inCode, inLine, Reading.isEnd]

theorem mark_in_line (r : Reading) (doxygen : Bool) {indent : List Char} (h : Blanks indent) :
    after r .line (mark doxygen indent) = .line ∧ out r .line (mark doxygen indent) = [] := by
  refine line_blanks r ?_
  intro c hc
  unfold mark at hc
  rcases List.mem_append.1 hc with hc | hc
  · exact .inl (h c hc)
  · right
    cases doxygen <;> simpa using hc

/-- White space only. -/
def Space (l : List Char) : Prop := ∀ c ∈ l, isSpace c = true

theorem Space.append {a b : List Char} (ha : Space a) (hb : Space b) : Space (a ++ b) := by
  intro c hc
  rcases List.mem_append.1 hc with hc | hc
  · exact ha c hc
  · exact hb c hc

theorem Blanks.space {l : List Char} (h : Blanks l) : Space l := by
  intro c hc
  have := h c hc
  simp only [isSpace, isBlank] at *
  grind

theorem after_mark (r : Reading) (doxygen : Bool) {indent : List Char} (h : Blanks indent) {m : Mode} (hm : m = .code ∨ m = .line) :
    after r m (mark doxygen indent) = .line ∧ Space (out r m (mark doxygen indent)) := by
  rcases hm with rfl | rfl
  · obtain ⟨h1, h2⟩ := mark_in_code r doxygen h
    refine ⟨h1, ?_⟩
    rw [h2]
    exact h.space.append (by intro c hc; simp at hc; subst hc; rfl)
  · obtain ⟨h1, h2⟩ := mark_in_line r doxygen h
    exact ⟨h1, by rw [h2]; intro c hc; cases hc⟩

/-- One line with what is written around it. -/
theorem one_line (r : Reading) (doxygen : Bool) {indent : List Char} (h : Blanks indent) {m : Mode} (hm : m = .code ∨ m = .line)
    {l : List Char} (hl : ∀ c ∈ l, r.isEnd c = false) :
    (JoinsNext r l → after r m (mark doxygen indent ++ (l ++ ['\n'])) = .line) ∧
    (¬ JoinsNext r l → after r m (mark doxygen indent ++ (l ++ ['\n'])) = .code) ∧
    Space (out r m (mark doxygen indent ++ (l ++ ['\n']))) := by
  obtain ⟨h1, h2⟩ := after_mark r doxygen h hm
  obtain ⟨h3, h4⟩ := line_end r hl
  rw [after_append, out_append, h1]
  refine ⟨fun hj => (h3 hj).1, fun hj => (h4 hj).1, h2.append ?_⟩
  by_cases hj : JoinsNext r l
  · rw [(h3 hj).2]; intro c hc; cases hc
  · rw [(h4 hj).2]; intro c hc; simp at hc; subst hc; rfl

theorem writeLines_cons (doxygen : Bool) (indent l : List Char) (rest : List (List Char)) :
    writeLines doxygen indent (l :: rest) = (mark doxygen indent ++ (l ++ ['\n'])) ++ writeLines doxygen indent rest := by
  simp [writeLines, mark]

/-- All lines but the last are without effect. -/
theorem several (r : Reading) (doxygen : Bool) {indent : List Char} (h : Blanks indent) : ∀ (ls : List (List Char)) {m : Mode},
    m = .code ∨ m = .line → (∀ l ∈ ls, ∀ c ∈ l, r.isEnd c = false) →
    (after r m (writeLines doxygen indent ls) = .code ∨ after r m (writeLines doxygen indent ls) = .line) ∧
    Space (out r m (writeLines doxygen indent ls))
  | [], m, hm, _ => ⟨hm, by intro c hc; cases hc⟩
  | l :: ls, m, hm, hl => by
    obtain ⟨h1, h2, h3⟩ := one_line r doxygen h hm (hl l (by simp))
    rw [writeLines_cons, after_append, out_append]
    have hm' : after r m (mark doxygen indent ++ (l ++ ['\n'])) = .code ∨ after r m (mark doxygen indent ++ (l ++ ['\n'])) = .line := by
      by_cases hj : JoinsNext r l
      · exact .inr (h1 hj)
      · exact .inl (h2 hj)
    obtain ⟨h4, h5⟩ := several r doxygen h ls hm' fun l hl' => hl l (by simp [hl'])
    exact ⟨h4, h3.append h5⟩

theorem writeLines_append (doxygen : Bool) (indent : List Char) : ∀ (a b : List (List Char)),
    writeLines doxygen indent (a ++ b) = writeLines doxygen indent a ++ writeLines doxygen indent b
  | [], _ => rfl
  | l :: a, b => by simp [writeLines, writeLines_append doxygen indent a b]

/-! ### The lines of a text -/

theorem lines_shape : ∀ (t l : List Char), '\n' ∉ t → lines l (t ++ ['\n']) = [endLine (t.reverse ++ l)]
  | [], l, _ => by simp [lines]
  | c :: t, l, h => by
    have hc : c ≠ '\n' := by rintro rfl; simp at h
    rw [List.cons_append, lines.eq_3 _ _ _ (by simpa using hc), lines_shape t (c :: l) (by simp at h; exact h.2)]
    simp

theorem lines_append : ∀ (t l u : List Char), lines l (t ++ '\n' :: u) = lines l (t ++ ['\n']) ++ lines [] u
  | [], l, u => by simp [lines]
  | c :: t, l, u => by
    by_cases hc : c = '\n'
    · subst hc
      simp [lines, lines_append t [] u]
    · rw [List.cons_append, List.cons_append, lines.eq_3 _ _ _ (by simpa using hc), lines.eq_3 _ _ _ (by simpa using hc),
        lines_append t (c :: l) u]

theorem endLine_snoc (l : List Char) : endLine ((l ++ ['\r']).reverse) = l := by simp [endLine]

theorem endLine_other {l : List Char} (h : ∀ b, l ≠ b ++ ['\r']) : endLine l.reverse = l := by
  unfold endLine
  split
  · next k hk =>
    have := congrArg List.reverse hk
    simp at this
    exact absurd this (h _)
  · simp

theorem text_append (a b : List (List Char)) : text (a ++ b) = text a ++ text b := by
  induction a with
  | nil => rfl
  | cons f a ih => simp [text, ih]

theorem text_end {doc : List (List Char)} : text doc = [] ∨ ∃ t, text doc = t ++ ['\n'] := by
  rcases List.eq_nil_or_concat doc with rfl | ⟨d, f, rfl⟩
  · exact .inl rfl
  · exact .inr ⟨text d ++ f, by simp [text_append, text]⟩

/-- The last of the lines that are written is the last line of the documentation. -/
theorem last_line {doc : List (List Char)} {l : List Char} (h : LastLine doc l) :
    ∃ ls, lines [] (text doc) = ls ++ [l] := by
  obtain ⟨hn, earlier, f, before, rfl, hb, hf⟩ := h
  have key : ∀ f', '\n' ∉ f' → endLine f'.reverse = l → f = before ++ f' → ∃ ls, lines [] (text (earlier ++ [f])) = ls ++ [l] := by
    intro f' h1 h2 h3
    have ht : text (earlier ++ [f]) = text earlier ++ before ++ f' ++ ['\n'] := by simp [text_append, text, h3]
    have hl : lines [] (f' ++ ['\n']) = [l] := by rw [lines_shape _ _ h1]; simp [h2]
    have hs : ∃ p, text earlier ++ before = [] ∨ text earlier ++ before = p ++ ['\n'] := by
      rcases hb with rfl | ⟨b, rfl⟩
      · rcases text_end (doc := earlier) with h | ⟨t, h⟩
        · exact ⟨[], .inl (by simp [h])⟩
        · exact ⟨t, .inr (by simp [h])⟩
      · exact ⟨text earlier ++ b, .inr (by simp)⟩
    obtain ⟨p, hp | hp⟩ := hs
    · rw [ht, hp]; exact ⟨[], by simpa using hl⟩
    · rw [ht, hp]
      have := lines_append p [] (f' ++ ['\n'])
      refine ⟨lines [] (p ++ ['\n']), ?_⟩
      rw [← hl, ← this]
      simp
  rcases hf with hf | ⟨hf, hr⟩
  · exact key (l ++ ['\r']) (by simp [hn]) (endLine_snoc l) (by simp [hf])
  · exact key l hn (endLine_other hr) hf

theorem last_line_exists {doc : List (List Char)} (h : doc ≠ []) : ∃ l, LastLine doc l := by
  rcases List.eq_nil_or_concat doc with rfl | ⟨d, f, rfl⟩
  · exact absurd rfl h
  · have hs : ∀ f : List Char, ∃ before f', f = before ++ f' ∧ '\n' ∉ f' ∧ (before = [] ∨ ∃ b, before = b ++ ['\n']) := by
      intro f
      induction f with
      | nil => exact ⟨[], [], rfl, by simp, .inl rfl⟩
      | cons c f ih =>
        obtain ⟨before, f', rfl, h1, h2⟩ := ih
        rcases h2 with rfl | ⟨b, rfl⟩
        · by_cases hc : c = '\n'
          · subst hc; exact ⟨['\n'], f', rfl, h1, .inr ⟨[], rfl⟩⟩
          · exact ⟨[], c :: f', rfl, by simp [h1, Ne.symm hc], .inl rfl⟩
        · exact ⟨c :: (b ++ ['\n']), f', rfl, h1, .inr ⟨c :: b, rfl⟩⟩
    obtain ⟨before, f', rfl, h1, h2⟩ := hs f
    rcases List.eq_nil_or_concat f' with rfl | ⟨g, c, rfl⟩
    · exact ⟨[], by simp, d, before ++ [], before, by simp, h2, .inr ⟨by simp, by simp⟩⟩
    · by_cases hc : c = '\r'
      · subst hc
        exact ⟨g, by simp at h1; exact h1, d, before ++ (g ++ ['\r']), before, by simp, h2, .inl (by simp)⟩
      · refine ⟨g ++ [c], by simpa using h1, d, before ++ (g ++ [c]), before, by simp, h2, .inr ⟨by simp, ?_⟩⟩
        intro b hb
        have := List.append_inj' hb rfl
        simp at this
        exact hc this.2

theorem lines_mem : ∀ (t l : List Char) {x : List Char}, x ∈ lines l t → ∀ c ∈ x, (c ∈ t ∨ c ∈ l) ∧ ('\n' ∉ l → c ≠ '\n')
  | [], l, x, h, c, hc => by
    unfold lines at h
    split at h
    · cases h
    · simp at h; subst h
      simp at hc
      exact ⟨.inr hc, fun hn => by rintro rfl; exact hn hc⟩
  | d :: t, l, x, h, c, hc => by
    by_cases hd : d = '\n'
    · subst hd
      rw [lines] at h
      rcases List.mem_cons.1 h with rfl | h
      · have : c ∈ l := by
          unfold endLine at hc
          split at hc
          · simp at hc; simp [hc]
          · simpa using hc
        exact ⟨.inr this, fun hn => by rintro rfl; exact hn this⟩
      · obtain ⟨h1, h2⟩ := lines_mem t [] h c hc
        simp at h1 h2
        exact ⟨.inl (by simp [h1]), fun _ => h2⟩
    · rw [lines.eq_3 _ _ _ (by simpa using hd)] at h
      obtain ⟨h1, h2⟩ := lines_mem t (d :: l) h c hc
      refine ⟨?_, fun hn => h2 (by simp [hn, Ne.symm hd])⟩
      rcases h1 with h1 | h1
      · exact .inl (by simp [h1])
      · rcases List.mem_cons.1 h1 with rfl | h1
        · exact .inl (by simp)
        · exact .inr h1

theorem mem_text {doc : List (List Char)} {c : Char} (h : c ∈ text doc) : c = '\n' ∨ ∃ f ∈ doc, c ∈ f := by
  induction doc with
  | nil => cases h
  | cons f d ih =>
    simp only [text, List.mem_append, List.mem_cons] at h
    rcases h with h | h | h
    · exact .inr ⟨f, by simp, h⟩
    · exact .inl h
    · rcases ih h with h | ⟨g, h1, h2⟩
      · exact .inl h
      · exact .inr ⟨g, by simp [h1], h2⟩

theorem text_nil {doc : List (List Char)} : text doc = [] ↔ doc = [] := by
  cases doc <;> simp [text]

theorem lines_ne_nil (t l u : List Char) : lines l (t ++ '\n' :: u) ≠ [] := by
  induction t generalizing l with
  | nil => simp [lines]
  | cons c t ih =>
    by_cases hc : c = '\n'
    · subst hc; simp [lines]
    · rw [List.cons_append, lines.eq_3 _ _ _ (by simpa using hc)]; exact ih _

theorem single_line {doc : List (List Char)} : (lines [] (text doc)).length = 1 ↔ OneLine doc := by
  constructor
  · intro h
    match doc, h with
    | [], h => simp [text, lines] at h
    | [f], h =>
      refine ⟨f, rfl, fun hn => ?_⟩
      obtain ⟨a, b, rfl⟩ := List.append_of_mem hn
      have ht : text [a ++ '\n' :: b] = a ++ '\n' :: (b ++ ['\n']) := by simp [text]
      rw [ht, lines_append] at h
      have h1 := List.length_pos_iff.2 (lines_ne_nil a [] [])
      have h2 := List.length_pos_iff.2 (lines_ne_nil b [] [])
      simp only [List.length_append] at h
      omega
    | f :: g :: d, h =>
      have ht : text (f :: g :: d) = f ++ '\n' :: (g ++ '\n' :: text d) := by simp [text]
      rw [ht, lines_append] at h
      have h1 := List.length_pos_iff.2 (lines_ne_nil f [] [])
      have h2 := List.length_pos_iff.2 (lines_ne_nil g [] (text d))
      simp only [List.length_append] at h
      omega
  · rintro ⟨f, rfl, hn⟩
    simp only [text]
    rw [lines_shape _ _ hn]
    rfl

/-! ### The theorems -/

theorem means_nothing_of {r : Reading} {t : List Char} (h1 : after r .code t = .code) (h2 : Space (out r .code t)) :
    MeansNothing r t := ⟨out r .code t, h2, fun rest => by rw [code_append, h1]⟩

theorem not_nothing {r : Reading} {t : List Char} (h1 : after r .code t = .line) (h2 : Space (out r .code t)) :
    ¬ MeansNothing r t := by
  rintro ⟨blank, hb, h⟩
  have := h ['x']
  rw [code_append, h1] at this
  have hx : 'x' ∈ out r .code t ++ code r .line ['x'] := by rw [this]; simp [code, step, inCode]
  rcases List.mem_append.1 hx with hx | hx
  · have := h2 _ hx
    exact absurd this (by decide)
  · simp [code, step, inLine, Reading.isEnd] at hx

/-- C70.  Documentation is without effect on the generated C++ exactly if its last line does not end in a backslash that joins
the line after it, or an empty comment is added behind its only line.  This is for compilers that do not take `\r` for the end
of a line, and for documentation without `\r`.  Missing: the case of a backslash, where the property is false, and that of
`\r` for the other compilers. -/
theorem doc_means_nothing_partial (r : Reading) (doxygen : Bool) {indent : List Char} (hi : ∀ c ∈ indent, c = ' ')
    {doc : List (List Char)} (hcr : r.cr = true → ∀ f ∈ doc, '\r' ∉ f) :
    MeansNothing r (writeDoc doxygen indent doc) ↔
      ∀ l, LastLine doc l → JoinsNext r l → doxygen = true ∧ OneLine doc := by
  have hb : Blanks indent := fun c hc => by rw [hi c hc]; rfl
  by_cases hd : doc = []
  · subst hd
    refine ⟨fun _ l hl => ?_, fun _ => ⟨[], by simp, by simp [writeDoc, text, lines, writeLines]⟩⟩
    obtain ⟨_, e, f, _, h, _⟩ := hl
    simp at h
  obtain ⟨l, hl⟩ := last_line_exists hd
  obtain ⟨ls, hls⟩ := last_line hl
  have huniq : ∀ l', LastLine doc l' → l' = l := by
    intro l' h'
    obtain ⟨ls', h2⟩ := last_line h'
    rw [hls] at h2
    have := List.append_inj' h2 rfl
    simpa using this.2.symm
  have hend : ∀ x ∈ lines [] (text doc), ∀ c ∈ x, r.isEnd c = false := by
    intro x hx c hc
    obtain ⟨h1, h2⟩ := lines_mem _ _ hx c hc
    have h3 : c ≠ '\n' := h2 (by simp)
    simp at h1
    rcases mem_text h1 with h | ⟨f, hf, hcf⟩
    · exact absurd h h3
    · simp only [Reading.isEnd]
      cases hr : r.cr with
      | false => simp [h3]
      | true =>
        have : c ≠ '\r' := by rintro rfl; exact hcr hr f hf hcf
        simp [h3, this]
  have hw : writeLines doxygen indent (lines [] (text doc)) =
      writeLines doxygen indent ls ++ (mark doxygen indent ++ (l ++ ['\n'])) := by
    rw [hls, writeLines_append]
    simp [writeLines, mark]
  obtain ⟨h1, h2⟩ := several r doxygen hb ls (.inl rfl) fun x hx => hend x (by rw [hls]; simp [hx])
  obtain ⟨h3, h4, h5⟩ := one_line r doxygen hb h1 (hend l (by rw [hls]; simp))
  have hm : after r .code (writeLines doxygen indent (lines [] (text doc))) =
      after r (after r .code (writeLines doxygen indent ls)) (mark doxygen indent ++ (l ++ ['\n'])) := by rw [hw, after_append]
  have ho : Space (out r .code (writeLines doxygen indent (lines [] (text doc)))) := by
    rw [hw, out_append]; exact h2.append h5
  by_cases hone : doxygen = true ∧ OneLine doc
  · have he : writeDoc doxygen indent doc = writeLines doxygen indent (lines [] (text doc)) ++ (mark true indent ++ ([] ++ ['\n'])) := by
      simp [writeDoc, single_line.2 hone.2, hone.1, mark]
    refine ⟨fun _ _ _ _ => hone, fun _ => ?_⟩
    have hm' : after r .code (writeLines doxygen indent (lines [] (text doc))) = .code ∨
        after r .code (writeLines doxygen indent (lines [] (text doc))) = .line := by
      rw [hm]
      by_cases hj : JoinsNext r l
      · exact .inr (h3 hj)
      · exact .inl (h4 hj)
    obtain ⟨-, h7, h8⟩ := one_line r true hb hm' (l := []) (by simp)
    rw [he]
    exact means_nothing_of (by rw [after_append]; exact h7 (joins_nil r)) (by rw [out_append]; exact ho.append h8)
  · have he : writeDoc doxygen indent doc = writeLines doxygen indent (lines [] (text doc)) := by
      unfold writeDoc
      have : (doxygen && (lines [] (text doc)).length == 1) = false := by
        cases hx : doxygen with
        | false => rfl
        | true =>
          have : ¬ (lines [] (text doc)).length = 1 := fun h => hone ⟨hx, single_line.1 h⟩
          simpa using this
      rw [this]
      simp
    rw [he]
    constructor
    · intro h l' hl' hj
      rw [huniq l' hl'] at hj
      exact absurd h (not_nothing (by rw [hm]; exact h3 hj) ho)
    · intro h
      have hj : ¬ JoinsNext r l := fun hj => hone (h l hl hj)
      exact means_nothing_of (by rw [hm]; exact h4 hj) ho

/-- The usual compilers. -/
def gcc : Reading := ⟨false, true, false⟩
def clang : Reading := ⟨true, true, false⟩

/-- C70.  A line of documentation that ends in a backslash hides the line of code behind it. -/
theorem backslash_hides_code : ∃ doc, ¬ MeansNothing gcc (writeDoc false [] doc) ∧
    code gcc .code (writeDoc false [] doc ++ "struct S final {\n".toList) = " \n".toList ∧
    code gcc .code ("struct S final {\n".toList) = "struct S final {\n".toList := by
  refine ⟨[" in C:\\".toList], ?_, by decide +kernel, by decide +kernel⟩
  rw [doc_means_nothing_partial gcc false (by simp) (by simp [gcc])]
  intro h
  have := h " in C:\\".toList ⟨by decide, [], " in C:\\".toList, [], rfl, .inl rfl, .inr ⟨rfl, ?_⟩⟩
    ⟨" in C:".toList, [], .inl rfl, by simp, .inr rfl⟩
  · exact absurd this.1 (by decide)
  · intro b hb
    have := congrArg List.getLast? hb
    simp at this

/-- C70.  With a compiler that takes `\r` for the end of a line, documentation can contain code. -/
theorem carriage_return_is_code : ∃ doc, '\n' ∉ doc ∧
    code clang .code (writeDoc false [] [doc]) = " \rint x;\n".toList :=
  ⟨" text\rint x;".toList, by decide, by decide +kernel⟩

/-- Documentation of two lines, the first of which ends in a backslash, is without effect. -/
example : MeansNothing gcc (writeDoc false [' ', ' '] [" a\\".toList, " b".toList]) := by
  rw [doc_means_nothing_partial gcc false (by simp) (by simp [gcc])]
  intro l hl hj
  obtain ⟨ls, h1⟩ := last_line hl
  have h2 : lines [] (text [" a\\".toList, " b".toList]) = [" a\\".toList] ++ [" b".toList] := by decide +kernel
  rw [h2] at h1
  have h3 := (List.append_inj' h1 rfl).2
  simp at h3
  subst h3
  have := (joins_snoc gcc [' '] 'b').1 hj
  simp [gcc, isBlank] at this

end Verif.Doc
