import Verif.Report.Spec
/-!
# Errors are reported where they are
-/
namespace Verif.Report
open Spec

theorem size_bytes (cs : List Char) : size cs = bytes cs := by
  induction cs with
  | nil => rfl
  | cons c cs ih => simp only [size, ih, bytes, List.map_cons, List.sum_cons]

theorem size_append (a b : List Char) : size (a ++ b) = size a + size b := by
  induction a with
  | nil => simp [size]
  | cons c cs ih => simp only [List.cons_append, size, ih]; omega

theorem slice_at (a b : List Char) : sliceFrom (a ++ b) (size a) = some b := by
  induction a with
  | nil => cases b <;> simp [size, sliceFrom]
  | cons c cs ih =>
    have hc := Char.utf8Size_pos c
    obtain ⟨n, hn⟩ : ∃ n, c.utf8Size + size cs = n + 1 := ⟨c.utf8Size + size cs - 1, by omega⟩
    simp only [List.cons_append, size, hn, sliceFrom]
    rw [if_pos (by omega), show n + 1 - c.utf8Size = size cs by omega, ih]

theorem find_at (l : List Char) (m : List Char) (h : '\n' ∉ l) :
    findNewline (l ++ '\n' :: m) = some (size l) := by
  induction l with
  | nil => simp [findNewline, size]
  | cons c cs ih =>
    simp only [List.mem_cons, not_or] at h
    simp only [List.cons_append, findNewline, if_neg (Ne.symm h.1), ih h.2, Option.map_some, size]

/-- The characters after the last newline. -/
def column (m : List Char) : Nat := (m.reverse.takeWhile (· ≠ '\n')).length

theorem takeWhile_all (l : List Char) (h : '\n' ∉ l) : l.takeWhile (· ≠ '\n') = l := by
  induction l with
  | nil => rfl
  | cons c cs ih =>
    simp only [List.mem_cons, not_or] at h
    rw [List.takeWhile_cons_of_pos (by simpa using Ne.symm h.1), ih h.2]

theorem takeWhile_stop (l m : List Char) (h : '\n' ∈ l) :
    (l ++ m).takeWhile (· ≠ '\n') = l.takeWhile (· ≠ '\n') := by
  induction l with
  | nil => cases h
  | cons c cs ih =>
    by_cases hc : c = '\n'
    · subst hc; simp
    · have : '\n' ∈ cs := by
        rcases List.mem_cons.1 h with h | h
        · exact absurd h.symm hc
        · exact h
      rw [List.cons_append, List.takeWhile_cons_of_pos (by simpa using hc),
        List.takeWhile_cons_of_pos (by simpa using hc), ih this]

theorem takeWhile_on (l m : List Char) (h : '\n' ∉ l) :
    (l ++ m).takeWhile (· ≠ '\n') = l ++ m.takeWhile (· ≠ '\n') := by
  induction l with
  | nil => rfl
  | cons c cs ih =>
    simp only [List.mem_cons, not_or] at h
    rw [List.cons_append, List.takeWhile_cons_of_pos (by simpa using Ne.symm h.1), ih h.2]
    rfl

theorem column_plain (m : List Char) (h : '\n' ∉ m) : column m = m.length := by
  rw [column, takeWhile_all _ (by simpa using h), List.length_reverse]

theorem column_late (a b : List Char) (h : '\n' ∈ b) : column (a ++ b) = column b := by
  rw [column, List.reverse_append, takeWhile_stop _ _ (by simpa using h)]; rfl

theorem column_same (a b : List Char) (h : '\n' ∉ b) : column (a ++ b) = column a + b.length := by
  rw [column, List.reverse_append, takeWhile_on _ _ (by simpa using h), List.length_append,
    List.length_reverse, column]
  omega

/-- A text with a newline, cut at the first one. -/
theorem cut_first (m : List Char) (h : '\n' ∈ m) :
    ∃ l r, m = l ++ '\n' :: r ∧ '\n' ∉ l := by
  induction m with
  | nil => cases h
  | cons c cs ih =>
    by_cases hc : c = '\n'
    · exact ⟨[], cs, by rw [hc]; rfl, by simp⟩
    · have : '\n' ∈ cs := by
        rcases List.mem_cons.1 h with h | h
        · exact absurd h.symm hc
        · exact h
      obtain ⟨l, r, he, hl⟩ := ih this
      exact ⟨c :: l, r, by rw [he]; rfl, by simp [hl, Ne.symm hc]⟩

theorem advance_to : ∀ (n : Nat) (pre m post : List Char), m.count '\n' = n →
    ∃ m1 m2, m = m1 ++ m2 ∧ '\n' ∉ m2 ∧ column m = m2.length ∧
      advance (pre ++ (m ++ post)) n (size pre) = some (size (pre ++ m1)) ∧
      (n = 0 → m1 = []) := by
  intro n
  induction n with
  | zero =>
    intro pre m post h
    have hm : '\n' ∉ m := List.count_eq_zero.1 h
    exact ⟨[], m, rfl, hm, column_plain m hm, by simp [advance], fun _ => rfl⟩
  | succ n ih =>
    intro pre m post h
    have hmem : '\n' ∈ m := by
      apply Classical.byContradiction
      intro hn
      rw [List.count_eq_zero.2 hn] at h
      cases h
    obtain ⟨l, r, he, hl⟩ := cut_first m hmem
    have hr : r.count '\n' = n := by
      rw [he, List.count_append, List.count_cons_self, List.count_eq_zero.2 hl] at h
      omega
    obtain ⟨m1, m2, he', hm2, hcol, hadv, -⟩ := ih (pre ++ (l ++ ['\n'])) r post hr
    refine ⟨l ++ '\n' :: m1, m2, by rw [he, he']; simp, hm2, ?_, ?_, fun h => by cases h⟩
    · by_cases hnr : '\n' ∈ r
      · rw [he, show l ++ '\n' :: r = (l ++ ['\n']) ++ r by simp, column_late _ _ hnr, hcol]
      · rw [he, show l ++ '\n' :: r = (l ++ ['\n']) ++ r by simp, column_same _ _ hnr,
          column_late _ _ (by simp), ← hcol, column_plain r hnr]
        simp [column]
    · have hnl : Char.utf8Size '\n' = 1 := by decide
      simp only [advance, slice_at, Option.bind_eq_bind, Option.bind_some]
      rw [he, show (l ++ '\n' :: r) ++ post = l ++ '\n' :: (r ++ post) by simp, find_at _ _ hl]
      simp only [Option.bind_some]
      have e1 : size pre + (size l + 1) = size (pre ++ (l ++ ['\n'])) := by
        simp only [size_append, size, hnl]
      have e2 : pre ++ (l ++ '\n' :: (r ++ post)) = pre ++ (l ++ ['\n']) ++ (r ++ post) := by simp
      rw [e1, e2, hadv]
      simp

theorem take_length_append (a b : List Char) : (a ++ b).take a.length = a := by simp

/-- The range computed for a span is the range of bytes of the piece that it spans. -/
theorem range_exact (before inside after : List Char) :
    range (before ++ inside ++ after) (posAfter before) (posAfter (before ++ inside)) =
      some (bytes before, bytes (before ++ inside)) := by
  obtain ⟨m1, m2, he, hm2, hcol, hadv, -⟩ :=
    advance_to (before.count '\n') [] before (inside ++ after) rfl
  have hsrc : before ++ inside ++ after = [] ++ (before ++ (inside ++ after)) := by simp
  have hl1 : (posAfter before).line - 1 = before.count '\n' := by simp [posAfter]
  have hc1 : (posAfter before).column = m2.length := hcol
  have hs1 : sliceFrom (before ++ inside ++ after) (size m1) = some (m2 ++ (inside ++ after)) := by
    rw [hsrc, he]
    simpa using slice_at m1 (m2 ++ (inside ++ after))
  have hsz : size m1 + size m2 = size before := by rw [he, size_append]
  have hadv0 : advance (before ++ inside ++ after) (before.count '\n') 0 = some (size m1) := by
    rw [hsrc]; simpa [size] using hadv
  simp only [range, hl1, hadv0, Option.bind_eq_bind, Option.bind_some, hs1, hc1,
    take_length_append, hsz]
  by_cases hin : '\n' ∈ inside
  · have hcnt : 0 < inside.count '\n' := List.count_pos_iff.2 hin
    obtain ⟨k1, k2, ke, hk2, kcol, kadv, -⟩ :=
      advance_to (inside.count '\n') before inside after rfl
    have hne : ¬ (posAfter before).line = (posAfter (before ++ inside)).line := by
      simp only [posAfter, List.count_append]; omega
    have hnl : ¬ (posAfter (before ++ inside)).line < (posAfter before).line := by
      simp only [posAfter, List.count_append]; omega
    have hd : (posAfter (before ++ inside)).line - (posAfter before).line = inside.count '\n' := by
      simp only [posAfter, List.count_append]; omega
    have hc2 : (posAfter (before ++ inside)).column = k2.length := by
      rw [← kcol, ← column_late before inside hin]; rfl
    rw [if_neg hne, if_neg hnl, hd, List.append_assoc, kadv]
    simp only [Option.bind_some]
    have hs2 : sliceFrom (before ++ (inside ++ after)) (size (before ++ k1)) =
        some (k2 ++ after) := by
      rw [ke, show before ++ (k1 ++ k2 ++ after) = (before ++ k1) ++ (k2 ++ after) by simp]
      exact slice_at _ _
    rw [hs2]
    simp only [Option.bind_some, hc2, take_length_append]
    rw [← size_bytes, ← size_bytes, ← size_append, List.append_assoc, ← ke]
  · have hcnt : inside.count '\n' = 0 := List.count_eq_zero.2 hin
    have hline : (posAfter before).line = (posAfter (before ++ inside)).line := by
      simp only [posAfter, List.count_append, hcnt]; omega
    have hc2 : (posAfter (before ++ inside)).column = (m2 ++ inside).length := by
      rw [show (posAfter (before ++ inside)).column = column (before ++ inside) from rfl,
        column_same _ _ hin, hcol, List.length_append]
    rw [if_pos hline]
    have : size before - size m2 = size m1 := by omega
    simp only [Option.bind_some, this, hs1, hc2]
    rw [show m2 ++ (inside ++ after) = (m2 ++ inside) ++ after by simp, take_length_append,
      ← size_bytes, ← size_bytes, size_append, size_append]
    congr 2
    omega

/-- Two places in one text at the same line and column are the same place. -/
theorem place_unique (a b a' b' : List Char) (h : a ++ b = a' ++ b')
    (hp : posAfter a = posAfter a') : a = a' := by
  have key : ∀ (a x : List Char), posAfter a = posAfter (a ++ x) → x = [] := by
    intro a x hx
    have hl := congrArg Pos.line hx
    have hc := congrArg Pos.column hx
    simp only [posAfter, List.count_append] at hl
    have hn : '\n' ∉ x := List.count_eq_zero.1 (by omega)
    change column a = column (a ++ x) at hc
    rw [column_same _ _ hn] at hc
    exact List.length_eq_zero_iff.1 (by omega)
  rcases List.append_eq_append_iff.1 h with ⟨x, hx, -⟩ | ⟨x, hx, -⟩
  · rw [hx] at hp
    rw [hx, key a x hp, List.append_nil]
  · rw [hx] at hp
    rw [hx, key a' x hp.symm, List.append_nil]

theorem displays (text : List Char) (e : Err) (h : SpanIn text e) :
    ∃ d, displaySynError text e = some d ∧ ShowsAt text e d := by
  obtain ⟨before, inside, after, ht, h1, h2⟩ := h
  refine ⟨diagnose (bytes before, bytes (before ++ inside)) e.message, ?_, ?_⟩
  · simp only [displaySynError, h1, h2, ht, range_exact, Option.bind_eq_bind, Option.bind_some]
  · refine ⟨?_, before, inside, after, ht, ⟨h1, h2⟩, ?_, ?_⟩ <;>
      (unfold diagnose; split <;> rfl)

theorem displays_all (text : List Char) (errors : List Err)
    (h : ∀ e ∈ errors, SpanIn text e) :
    ∃ ds, displayAll text errors = some ds ∧ Each (ShowsAt text) errors ds := by
  induction errors with
  | nil => exact ⟨[], rfl, trivial⟩
  | cons e l ih =>
    obtain ⟨d, hd, hs⟩ := displays text e (h e (by simp))
    obtain ⟨ds, hds, hss⟩ := ih (fun x hx => h x (by simp [hx]))
    exact ⟨d :: ds, by simp only [displayAll, hd, hds, Option.bind_eq_bind, Option.bind_some],
      hs, hss⟩

theorem keyLe_iff (a b : Err) : keyLe a b = true ↔ NotAfter a b := by
  simp [keyLe, NotAfter]

theorem notAfter_total {a b : Err} (h : ¬ NotAfter a b) : NotAfter b a := by
  unfold NotAfter at *; omega

theorem notAfter_trans {a b c : Err} (h : NotAfter a b) (h' : NotAfter b c) : NotAfter a c := by
  unfold NotAfter at *; omega

theorem insert_perm (a : Err) (l : List Err) : (insertErr a l).Perm (a :: l) := by
  induction l with
  | nil => exact List.Perm.refl _
  | cons b l ih =>
    unfold insertErr
    split
    · exact List.Perm.refl _
    · exact (List.Perm.cons b ih).trans (List.Perm.swap a b l)

theorem sort_perm (l : List Err) : (sortSynErrors l).Perm l := by
  induction l with
  | nil => exact List.Perm.refl _
  | cons e l ih => exact (insert_perm e _).trans (List.Perm.cons e ih)

theorem insert_sorted (a : Err) (l : List Err) (h : l.Pairwise NotAfter) :
    (insertErr a l).Pairwise NotAfter := by
  induction l with
  | nil => simp [insertErr]
  | cons b l ih =>
    rw [List.pairwise_cons] at h
    unfold insertErr
    split
    · rename_i hk
      rw [keyLe_iff] at hk
      refine List.pairwise_cons.2 ⟨fun x hx => ?_, List.pairwise_cons.2 h⟩
      rcases List.mem_cons.1 hx with rfl | hx
      · exact hk
      · exact notAfter_trans hk (h.1 x hx)
    · rename_i hk
      rw [keyLe_iff] at hk
      refine List.pairwise_cons.2 ⟨fun x hx => ?_, ih h.2⟩
      rcases List.mem_cons.1 ((insert_perm a l).mem_iff.1 hx) with rfl | hx
      · exact notAfter_total hk
      · exact h.1 x hx

theorem sort_sorted (l : List Err) : (sortSynErrors l).Pairwise NotAfter := by
  induction l with
  | nil => exact List.Pairwise.nil
  | cons e l ih => exact insert_sorted e _ ih

theorem insert_stable (a : Err) (l : List Err) (p : Pos) :
    (insertErr a l).filter (·.start = p) = (a :: l).filter (·.start = p) := by
  induction l with
  | nil => rfl
  | cons b l ih =>
    unfold insertErr
    split
    · rfl
    · rename_i hk
      have hne : a.start ≠ b.start := by
        intro he
        apply hk
        simp [keyLe, he]
      by_cases hb : b.start = p
      · have ha : ¬ a.start = p := fun h => hne (h.trans hb.symm)
        simp only [List.filter_cons, hb, decide_true, if_true, ih, ha, decide_false,
          Bool.false_eq_true, if_false]
      · simp only [List.filter_cons, hb, decide_false, Bool.false_eq_true, if_false] at ih ⊢
        exact ih

theorem sort_stable (l : List Err) (p : Pos) :
    (sortSynErrors l).filter (·.start = p) = l.filter (·.start = p) := by
  induction l with
  | nil => rfl
  | cons e l ih =>
    simp only [sortSynErrors, insert_stable]
    simp only [List.filter_cons, ih]

theorem takeWhile_plain (l : List Char) : '\n' ∉ l.takeWhile (· ≠ '\n') := by
  induction l with
  | nil => simp
  | cons c cs ih =>
    by_cases hc : c = '\n'
    · subst hc; simp
    · rw [List.takeWhile_cons_of_pos (by simpa using hc)]
      simp only [List.mem_cons, not_or]
      exact ⟨Ne.symm hc, ih⟩

theorem dropWhile_head (l : List Char) :
    l.dropWhile (· ≠ '\n') = [] ∨ ∃ r, l.dropWhile (· ≠ '\n') = '\n' :: r := by
  induction l with
  | nil => exact .inl rfl
  | cons c cs ih =>
    by_cases hc : c = '\n'
    · subst hc; exact .inr ⟨cs, by simp⟩
    · rw [List.dropWhile_cons_of_pos (by simpa using hc)]
      exact ih

/-- The text that is parsed is the end of the file, what is left out is one line
without its newline, and what follows starts with that newline, if there is one. -/
theorem shebang_parts (source : List Char) :
    ∃ s, source = s ++ stripShebang source ∧ '\n' ∉ s ∧
      (s = [] ∨ stripShebang source = [] ∨ ∃ r, stripShebang source = '\n' :: r) := by
  unfold stripShebang
  split
  · exact ⟨[], rfl, by simp, .inl rfl⟩
  · rename_i cs _
    exact ⟨('#' :: '!' :: cs).takeWhile (· ≠ '\n'), (List.takeWhile_append_dropWhile).symm,
      takeWhile_plain _, .inr (dropWhile_head _)⟩
  · exact ⟨[], rfl, by simp, .inl rfl⟩

theorem posAfter_late (s m : List Char) (hs : '\n' ∉ s) (hm : '\n' ∈ m) :
    posAfter (s ++ m) = posAfter m := by
  have := column_late s m hm
  simp only [posAfter, List.count_append, List.count_eq_zero.2 hs, Nat.zero_add, Pos.mk.injEq,
    true_and]
  exact this

/-- A span in the text that is parsed is a span in the file.  If it starts after
the first line it is the same piece of text. -/
theorem span_survives (source : List Char) (before inside after : List Char)
    (h : stripShebang source = before ++ inside ++ after) :
    ∃ before' inside' after', source = before' ++ inside' ++ after' ∧
      posAfter before' = posAfter before ∧
      posAfter (before' ++ inside') = posAfter (before ++ inside) ∧
      ('\n' ∈ before → inside' = inside ∧ after' = after) := by
  obtain ⟨s, hsrc, hs, hcase⟩ := shebang_parts source
  by_cases hnil : s = []
  · subst hnil
    exact ⟨before, inside, after, by simpa [h] using hsrc, rfl, rfl, fun _ => ⟨rfl, rfl⟩⟩
  have hcase := hcase.resolve_left hnil
  by_cases hb : '\n' ∈ before
  · refine ⟨s ++ before, inside, after, by rw [hsrc, h]; simp, posAfter_late s before hs hb, ?_,
      fun _ => ⟨rfl, rfl⟩⟩
    rw [List.append_assoc]
    exact posAfter_late s _ hs (by simp [hb])
  · -- nothing of the first line but its newline is parsed
    have hbe : before = [] := by
      rcases hcase with he | ⟨r, he⟩
      · rw [he] at h
        simp at h
        exact h.1
      · cases before with
        | nil => rfl
        | cons c cs =>
          rw [he] at h
          simp only [List.cons_append, List.cons.injEq] at h
          exact absurd (List.mem_cons.2 (.inl h.1)) hb
    subst hbe
    by_cases hi : '\n' ∈ inside
    · exact ⟨[], s ++ inside, after, by rw [hsrc, h]; simp, rfl, posAfter_late s inside hs hi,
        fun hh => by cases hh⟩
    · have hie : inside = [] := by
        rcases hcase with he | ⟨r, he⟩
        · rw [he] at h
          simp at h
          exact h.1
        · cases inside with
          | nil => rfl
          | cons c cs =>
            rw [he] at h
            simp only [List.nil_append, List.cons_append, List.cons.injEq] at h
            exact absurd (List.mem_cons.2 (.inl h.1)) hi
      subst hie
      exact ⟨[], [], source, by simp, rfl, rfl, fun hh => by cases hh⟩

theorem span_in_file (source : List Char) (e : Err) (h : SpanIn (stripShebang source) e) :
    SpanIn source e := by
  obtain ⟨before, inside, after, ht, h1, h2⟩ := h
  obtain ⟨b, i, a, hs, hp, hq, -⟩ := span_survives source before inside after ht
  exact ⟨b, i, a, hs, h1.trans hp.symm, h2.trans hq.symm⟩

/-- **Errors are shown where they are** (C81).  If the errors found in a file lie
within the text that was parsed, then the command shows every one of them once,
in the order of the file, each with its message and marked at exactly the bytes
of its piece of the file.  It does not panic while doing so. -/
theorem errors_shown {Code : Type} (path : String) (source : List Char) (errors : List Err)
    (generate : List Char → Except Error Code)
    (hg : generate (stripShebang source) = .error (.syn errors))
    (hin : ∀ e ∈ errors, SpanIn (stripShebang source) e) :
    ∃ ds, generateFromPath path (.ok source) generate = .refused (.diagnostics ds) ∧
      ShowsAll source errors ds := by
  obtain ⟨ds, hds, heach⟩ := displays_all source (sortSynErrors errors)
    (fun e he => span_in_file source e (hin e ((sort_perm errors).mem_iff.1 he)))
  refine ⟨ds, ?_, sortSynErrors errors, sort_perm errors, sort_sorted errors,
    sort_stable errors, heach⟩
  simp only [generateFromPath, hg, formatErr, hds, Option.map_some]

/-- The bytes that a diagnostic marks are settled by the span: there is one piece
of the file at those two positions. -/
theorem marks_unique (text : List Char) (e : Err) (d d' : Diagnostic)
    (h : ShowsAt text e d) (h' : ShowsAt text e d') : d.from_ = d'.from_ ∧ d.to_ = d'.to_ := by
  obtain ⟨-, b, i, a, ht, ⟨h1, h2⟩, h3, h4⟩ := h
  obtain ⟨-, b', i', a', ht', ⟨h1', h2'⟩, h3', h4'⟩ := h'
  have hb : b = b' := place_unique b (i ++ a) b' (i' ++ a')
    (by rw [← List.append_assoc, ← List.append_assoc, ← ht, ← ht']) (h1.symm.trans h1')
  have hbi : b ++ i = b' ++ i' := place_unique (b ++ i) a (b' ++ i') a' (ht.symm.trans ht')
    (h2.symm.trans h2')
  exact ⟨by rw [h3, h3', hb], by rw [h4, h4', hbi]⟩

/-- An error past the first line is marked at the very text that was parsed, however
long the `#!` line before it. -/
theorem marks_parsed_text (source before inside after : List Char) (e : Err) (d : Diagnostic)
    (h : stripShebang source = before ++ inside ++ after) (hline : '\n' ∈ before)
    (he : Spans e before inside) (hd : ShowsAt source e d) :
    ∃ front, source = front ++ inside ++ after ∧
      d.from_ = bytes front ∧ d.to_ = bytes front + bytes inside := by
  obtain ⟨b, i, a, hs, hp, hq, hsame⟩ := span_survives source before inside after h
  obtain ⟨rfl, rfl⟩ := hsame hline
  obtain ⟨-, b', i', a', ht', ⟨h1', h2'⟩, h3', h4'⟩ := hd
  have hb : b = b' := place_unique b (i ++ a) b' (i' ++ a')
    (by rw [← List.append_assoc, ← List.append_assoc, ← hs, ← ht'])
    (hp.trans (he.1.symm.trans h1'))
  have hbi : b ++ i = b' ++ i' := place_unique (b ++ i) a (b' ++ i') a' (hs.symm.trans ht')
    (hq.trans (he.2.symm.trans h2'))
  refine ⟨b, hs, by rw [h3', hb], ?_⟩
  rw [h4', ← hbi]
  simp [bytes]

/-- Whatever goes wrong, the command says so: it never panics while reporting, as
long as the spans it is given lie in the text it parsed. -/
theorem always_reported {Code : Type} (path : String)
    (read : Except (String × List String) (List Char))
    (generate : List Char → Except Error Code)
    (hin : ∀ source errors, read = .ok source →
      generate (stripShebang source) = .error (.syn errors) →
      ∀ e ∈ errors, SpanIn (stripShebang source) e) :
    generateFromPath path read generate ≠ .panicked := by
  cases read with
  | error m => obtain ⟨m, cs⟩ := m; simp [generateFromPath, formatErr]
  | ok source =>
    cases hg : generate (stripShebang source) with
    | ok c => simp [generateFromPath, hg]
    | error e =>
      cases e with
      | noBridgeMod => simp [generateFromPath, hg, formatErr]
      | chain m cs => simp [generateFromPath, hg, formatErr]
      | syn errors =>
        obtain ⟨ds, h, -⟩ := errors_shown path source errors generate hg (hin source errors rfl hg)
        rw [h]
        simp

/-- A note or a label of its own is shown only with a message it was written for. -/
theorem hint_apt (r : Nat × Nat) (message : String) :
    (∀ n ∈ (diagnose r message).notes, ∃ k ∈ known, k.note = some n ∧
      k.msg.toList <:+: message.toList) ∧
    ((diagnose r message).label ≠ message → ∃ k ∈ known,
      k.label = some (diagnose r message).label ∧ k.msg.toList <:+: message.toList) := by
  unfold diagnose
  split
  · rename_i info hf
    have hk := List.mem_of_find?_eq_some hf
    have hc : info.msg.toList <:+: message.toList := by
      have := List.find?_some hf
      simpa [contains] using this
    refine ⟨fun n hn => ⟨info, hk, by simpa using hn, hc⟩, fun hne => ⟨info, hk, ?_, hc⟩⟩
    cases hl : info.label with
    | none => simp [hl] at hne
    | some l => rfl
  · exact ⟨fun n hn => (by cases hn), fun hne => absurd rfl hne⟩

/-- A message with one of the known texts, and no other of them, gets the label
and the note of that text. -/
theorem hint_given (r : Nat × Nat) (message : String) (k : Known) (hk : k ∈ known)
    (hm : k.msg.toList <:+: message.toList)
    (hother : ∀ k' ∈ known, k'.msg.toList <:+: message.toList → k' = k) :
    (diagnose r message).notes = k.note.toList ∧
    (diagnose r message).label = k.label.getD message := by
  have hf : known.find? (fun e => contains message e.msg) = some k := by
    cases h : known.find? (fun e => contains message e.msg) with
    | none =>
      have := List.find?_eq_none.1 h k hk
      simp [contains, hm] at this
    | some k' =>
      have := List.find?_some h
      rw [hother k' (List.mem_of_find?_eq_some h) (by simpa [contains] using this)]
  unfold diagnose
  rw [hf]
  exact ⟨rfl, rfl⟩

/-- None of the known texts contains another, so the texts themselves are told apart. -/
theorem known_apart : ∀ k ∈ known, ∀ k' ∈ known,
    k'.msg.toList <:+: k.msg.toList → k' = k := by decide +kernel

/-- A failure to read a file is reported with the whole chain of its causes. -/
theorem causes_reported (message : String) (causes : List String) :
    (report message causes).toList =
      message.toList ++ causes.flatMap (fun c => "\n\nCaused by:\n    ".toList ++ c.toList) := by
  unfold report
  induction causes generalizing message with
  | nil => simp
  | cons c cs ih =>
    rw [List.foldl_cons, ih]
    simp

/-- A file with a `#!` line, a character of several bytes, and two errors found
out of order. -/
private def file : List Char := "#!run é\nmod é {\n  use ü;\n}\n".toList
private def second : Err :=
  { start := ⟨3, 2⟩, stop := ⟨3, 8⟩, message := "`use` items are not allowed within cxx bridge" }
private def first : Err := { start := ⟨2, 4⟩, stop := ⟨3, 3⟩, message := "odd name" }

example : SpanIn (stripShebang file) second ∧ SpanIn (stripShebang file) first ∧
    range file first.start first.stop = some (13, 21) ∧ range file second.start second.stop = some (20, 27) ∧
    sortSynErrors [second, first] = [first, second] := by
  refine ⟨⟨"\nmod é {\n  ".toList, "use ü;".toList, "\n}\n".toList, by decide +kernel,
    by decide +kernel, by decide +kernel⟩,
    ⟨"\nmod ".toList, "é {\n  u".toList, "se ü;\n}\n".toList,
      by decide +kernel, by decide +kernel, by decide +kernel⟩, by decide +kernel, by decide +kernel, rfl⟩

example : (diagnose (20, 27) second.message).label = "not allowed" ∧
    (diagnose (20, 27) second.message).notes.length = 1 := by decide +kernel

end Verif.Report
