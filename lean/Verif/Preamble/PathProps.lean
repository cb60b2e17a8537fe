import Verif.Preamble.PathSpec
/-!
# The header named in include!() is the header that is included
-/
namespace Verif.Preamble

theorem pre_quoted : (b!"#include \"" : Text) = "#include \"".toList.map Char.toNat := by decide +kernel
theorem pre_bracketed : (b!"#include <" : Text) = "#include <".toList.map Char.toNat := by decide +kernel
theorem post_quoted : (b!"\"" : Text) = [34] := by decide +kernel
theorem post_bracketed : (b!">" : Text) = [62] := by decide +kernel

theorem render_quoted (p : Text) : render (.quoted p) = "#include \"".toList.map Char.toNat ++ p ++ [34] := by
  simp only [render, pre_quoted, post_quoted]

theorem render_bracketed (p : Text) : render (.bracketed p) = "#include <".toList.map Char.toNat ++ p ++ [62] := by
  simp only [render, pre_bracketed, post_bracketed]

theorem hex_lines : ∀ (f n : Nat), ∀ c ∈ hex f n, 48 ≤ c ∧ c ≠ 92
  | 0, _, _, h => by simp [hex] at h
  | f + 1, n, c, h => by
    simp only [hex, List.mem_append, List.mem_singleton] at h
    rcases h with h | rfl
    · split at h
      · simp at h
      · exact hex_lines f _ c h
    · have : n % 16 < 16 := Nat.mod_lt _ (by decide)
      split <;> omega

theorem escapeChar_line (c : Nat) : OneLine (escapeChar c) := by
  intro x hx
  unfold escapeChar at hx
  split at hx
  · simp at hx; omega
  · split at hx
    · simp at hx; omega
    · split at hx
      · simp at hx; omega
      · split at hx
        · simp at hx; omega
        · split at hx
          · simp at hx; omega
          · simp only [List.mem_append, List.mem_cons, List.not_mem_nil, or_false] at hx
            rcases hx with ((rfl | rfl | rfl) | h) | rfl
            · omega
            · omega
            · omega
            · have := hex_lines 6 c x h; omega
            · omega

theorem escapeChar_plain {c : Nat} (h : Plain c) : escapeChar c = [c] := by
  obtain ⟨h1, h2, h3, h4, h5⟩ := h
  unfold escapeChar
  rw [if_neg (by omega), if_neg (by omega), if_neg (by omega), if_neg (by omega), if_pos ⟨h1, h2⟩]

theorem escapeChar_long {c : Nat} (h : ¬ Plain c) : 2 ≤ (escapeChar c).length := by
  unfold escapeChar
  split
  · simp
  · split
    · simp
    · split
      · simp
      · split
        · simp
        · split
          · next h1 h2 h3 h4 h5 => exact absurd ⟨h5.1, h5.2, by omega, by omega, by omega⟩ h
          · simp

theorem escapeChar_ne (c : Nat) : 1 ≤ (escapeChar c).length := by
  by_cases h : Plain c
  · rw [escapeChar_plain h]; simp
  · have := escapeChar_long h; omega

theorem escape_plain : ∀ {p : Text}, (∀ c ∈ p, Plain c) → escape p = p
  | [], _ => rfl
  | c :: p, h => by
    have ih := escape_plain (p := p) fun x hx => h x (List.mem_cons_of_mem _ hx)
    unfold escape at ih ⊢
    rw [List.flatMap_cons, escapeChar_plain (h c List.mem_cons_self), ih]; rfl

theorem escape_length : ∀ (p : Text), p.length ≤ (escape p).length
  | [] => by simp [escape]
  | c :: p => by
    have ih := escape_length p
    have := escapeChar_ne c
    unfold escape at ih ⊢
    rw [List.flatMap_cons, List.length_append, List.length_cons]; omega

theorem escape_fixed : ∀ {p : Text}, escape p = p → ∀ c ∈ p, Plain c
  | [], _ => by simp
  | c :: p, h => by
    have hl := congrArg List.length h
    unfold escape at hl
    rw [List.flatMap_cons, List.length_append, List.length_cons] at hl
    have hp := escape_length p
    unfold escape at hp
    have hc : Plain c := by
      apply Decidable.byContradiction
      intro hc
      have := escapeChar_long hc
      omega
    have ht : escape p = p := by
      unfold escape at h ⊢
      rw [List.flatMap_cons, escapeChar_plain hc] at h
      injection h
    intro x hx
    rcases List.mem_cons.mp hx with rfl | hx
    · exact hc
    · exact escape_fixed ht x hx

/-- A line names one header at most. -/
theorem names_unique {t : Text} {k k' : Kind} {h h' : Text} (a : Names t k h) (b : Names t k' h') : k = k' ∧ h = h' := by
  cases a with
  | quoted _ h1 h2 =>
    generalize ht : "#include \"".toList.map Char.toNat ++ h ++ [34] = t at b
    cases b with
    | quoted _ h3 h4 =>
      rw [List.append_assoc, List.append_assoc] at ht
      have := List.append_cancel_left ht
      exact ⟨rfl, (List.append_inj' this rfl).1⟩
    | bracketed _ h3 h4 =>
      have := (List.append_inj' ht rfl).2
      simp at this
  | bracketed _ h1 h2 =>
    generalize ht : "#include <".toList.map Char.toNat ++ h ++ [62] = t at b
    cases b with
    | quoted _ h3 h4 =>
      have := (List.append_inj' ht rfl).2
      simp at this
    | bracketed _ h3 h4 =>
      rw [List.append_assoc, List.append_assoc] at ht
      have := List.append_cancel_left ht
      exact ⟨rfl, (List.append_inj' this rfl).1⟩

/-- C93.  A path in quotes is one line of the output whatever is in it, and the preprocessor reads the path as it was written
exactly if all of it is plain: visible ASCII characters and blanks without quotes, apostrophes and backslashes.
The full statement, that every path is read as it was written, fails for all other paths. -/
theorem quoted_path_partial (path : Text) :
    parseInclude [.str path] = some ⟨path, .quoted⟩ ∧
    OneLine (render (customLine ⟨path, .quoted⟩)) ∧
    (Names (render (customLine ⟨path, .quoted⟩)) .quoted path ↔ ∀ c ∈ path, Plain c) := by
  refine ⟨rfl, ?_, ?_⟩
  · simp only [customLine, render_quoted]
    intro c hc
    rw [List.mem_append, List.mem_append] at hc
    rcases hc with (hc | hc) | hc
    · have : ∀ c ∈ "#include \"".toList.map Char.toNat, c ≠ 10 ∧ c ≠ 13 := by decide +kernel
      exact this c hc
    · obtain ⟨x, _, hx⟩ := List.mem_flatMap.mp hc
      exact escapeChar_line x c hx
    · rw [List.mem_singleton] at hc; omega
  · simp only [customLine, render_quoted]
    constructor
    · intro h
      generalize ht : "#include \"".toList.map Char.toNat ++ escape path ++ [34] = t at h
      cases h with
      | quoted _ h1 h2 =>
        rw [List.append_assoc, List.append_assoc] at ht
        exact escape_fixed (List.append_inj' (List.append_cancel_left ht) rfl).1
    · intro h
      rw [escape_plain h]
      refine .quoted path (fun c hc => ?_) (fun hc => ?_)
      · have := h c hc; unfold Plain at this; omega
      · exact (h 34 hc).2.2.1 rfl

/-- What goes wrong with other paths: characters outside of ASCII are spelled out, an apostrophe gets a backslash, and a quote
ends the name. -/
theorem quoted_path_changed :
    render (customLine ⟨"é.h".toList.map Char.toNat, .quoted⟩) = "#include \"\\u{e9}.h\"".toList.map Char.toNat ∧
    render (customLine ⟨"it's.h".toList.map Char.toNat, .quoted⟩) = "#include \"it\\'s.h\"".toList.map Char.toNat ∧
    ¬ Names (render (customLine ⟨"é.h".toList.map Char.toNat, .quoted⟩)) .quoted ("é.h".toList.map Char.toNat) := by
  refine ⟨by decide +kernel, by decide +kernel, fun h => ?_⟩
  have := (quoted_path_partial _).2.2.mp h 233 (by decide +kernel)
  exact absurd this (by decide +kernel)

theorem startsWithDigit_iff (t : Text) : startsWithDigit t = true ↔ StartsWithDigit t := by
  cases t with
  | nil => simp [startsWithDigit, StartsWithDigit]
  | cons c t =>
    simp only [startsWithDigit, StartsWithDigit, decide_eq_true_eq, List.cons.injEq]
    constructor
    · intro h
      have key : ∀ c, c < 58 → 48 ≤ c → ∃ d ∈ "0123456789".toList, c = d.toNat := by decide +kernel
      obtain ⟨d, hd, e⟩ := key c (by omega) h.1
      exact ⟨d, hd, t, e, rfl⟩
    · rintro ⟨d, hd, _, rfl, _⟩
      have key : ∀ d ∈ "0123456789".toList, 48 ≤ d.toNat ∧ d.toNat ≤ 57 := by decide +kernel
      exact key d hd

theorem bracketedPath_exact : ∀ (ts : List RTok), (∀ t ∈ ts, t.OfPath) → ∀ (path : Text) (rest : List RTok),
    bracketedPath path (ts ++ .punct 62 :: rest) = some (path ++ ts.flatMap RTok.source, rest)
  | [], _, path, rest => by simp [bracketedPath]
  | t :: ts, h, path, rest => by
    have ih := bracketedPath_exact ts fun x hx => h x (List.mem_cons_of_mem _ hx)
    have ht := h t List.mem_cons_self
    cases t with
    | ident s => simp only [List.cons_append, bracketedPath, ih]; simp [RTok.source]
    | literal s =>
      simp only [List.cons_append, bracketedPath, (startsWithDigit_iff s).mpr ht.1, if_true, ih]; simp [RTok.source]
    | punct c =>
      have hc : c ≠ 62 := ht.2.2
      simp only [List.cons_append, bracketedPath, hc, if_false, ih]; simp [RTok.source]
    | str => exact ht.elim
    | group => exact ht.elim

/-- Only such tokens are accepted. -/
theorem bracketedPath_only : ∀ (ts : List RTok) (path out : Text) (rest : List RTok),
    bracketedPath path ts = some (out, rest) →
    ∃ us, ts = us ++ .punct 62 :: rest ∧ out = path ++ us.flatMap RTok.source ∧
      ∀ t ∈ us, match t with
        | .ident _ => True
        | .literal s => StartsWithDigit s
        | .punct c => c ≠ 62
        | _ => False
  | [], _, _, _, h => by simp [bracketedPath] at h
  | .punct c :: ts, path, out, rest, h => by
    rw [bracketedPath] at h
    split at h
    · next hc => subst hc; simp at h; obtain ⟨rfl, rfl⟩ := h; exact ⟨[], by simp⟩
    · next hc =>
      obtain ⟨us, rfl, rfl, h3⟩ := bracketedPath_only ts _ _ _ h
      refine ⟨.punct c :: us, rfl, by simp [RTok.source], ?_⟩
      intro t ht; rcases List.mem_cons.mp ht with rfl | ht
      · exact hc
      · exact h3 t ht
  | .ident s :: ts, path, out, rest, h => by
    rw [bracketedPath] at h
    obtain ⟨us, rfl, rfl, h3⟩ := bracketedPath_only ts _ _ _ h
    refine ⟨.ident s :: us, rfl, by simp [RTok.source], ?_⟩
    intro t ht; rcases List.mem_cons.mp ht with rfl | ht
    · trivial
    · exact h3 t ht
  | .literal s :: ts, path, out, rest, h => by
    rw [bracketedPath] at h
    split at h
    · next hc =>
      obtain ⟨us, rfl, rfl, h3⟩ := bracketedPath_only ts _ _ _ h
      refine ⟨.literal s :: us, rfl, by simp [RTok.source], ?_⟩
      intro t ht; rcases List.mem_cons.mp ht with rfl | ht
      · exact (startsWithDigit_iff s).mp hc
      · exact h3 t ht
    · simp at h
  | .str _ :: _, _, _, _, h => by simp [bracketedPath] at h
  | .group :: _, _, _, _, h => by simp [bracketedPath] at h

theorem source_lines {ts : List RTok} (h : ∀ t ∈ ts, t.OfPath) :
    OneLine (ts.flatMap RTok.source) ∧ 62 ∉ ts.flatMap RTok.source := by
  have key : ∀ t ∈ ts, ∀ c ∈ t.source, c ≠ 10 ∧ c ≠ 13 ∧ c ≠ 62 := by
    intro t ht c hc
    have := h t ht
    cases t with
    | ident s => exact ⟨(this.2.1 c hc).1, (this.2.1 c hc).2, fun e => this.2.2 (e ▸ hc)⟩
    | literal s => exact ⟨(this.2.1 c hc).1, (this.2.1 c hc).2, fun e => this.2.2 (e ▸ hc)⟩
    | punct x => simp [RTok.source] at hc; subst hc; exact this
    | str => exact this.elim
    | group => exact this.elim
  constructor
  · intro c hc
    obtain ⟨t, ht, hc⟩ := List.mem_flatMap.mp hc
    exact ⟨(key t ht c hc).1, (key t ht c hc).2.1⟩
  · intro hc
    obtain ⟨t, ht, hc⟩ := List.mem_flatMap.mp hc
    exact (key t ht _ hc).2.2 rfl

theorem text_split : ∀ (w : Written),
    w.text.length = (w.map (·.1)).flatten.length + (w.flatMap fun x => x.2.source).length
  | [] => rfl
  | x :: w => by
    have := text_split w
    simp only [Written.text, List.flatMap_cons, List.length_append, List.map_cons, List.flatten_cons] at this ⊢
    omega

/-- C93.  A path in angle brackets that consists of words, numbers and signs is accepted; the preprocessor reads these put
together, and that is the path as it was written exactly if there are no blanks and comments in it.
The full statement fails for paths with blanks. -/
theorem bracketed_path_partial (w : Written) (h : ∀ x ∈ w, x.2.OfPath) :
    ∃ inc, parseInclude (.punct 60 :: w.map (·.2) ++ [.punct 62]) = some inc ∧ inc.kind = .bracketed ∧
      Names (render (customLine inc)) .bracketed (w.flatMap fun x => x.2.source) ∧
      (Names (render (customLine inc)) .bracketed w.text ↔ ∀ x ∈ w, x.1 = []) := by
  have h' : ∀ t ∈ w.map (·.2), t.OfPath := by
    intro t ht; obtain ⟨x, hx, rfl⟩ := List.mem_map.mp ht; exact h x hx
  have hs : (w.map (·.2)).flatMap RTok.source = w.flatMap fun x => x.2.source := by rw [List.flatMap_map]
  have hp : parseInclude (.punct 60 :: w.map (·.2) ++ [.punct 62]) =
      some ⟨w.flatMap fun x => x.2.source, .bracketed⟩ := by
    have hb := bracketedPath_exact _ h' [] []
    rw [hs, List.nil_append] at hb
    show parseInclude (.punct 60 :: (w.map (·.2) ++ [.punct 62])) = _
    simp only [parseInclude, hb]
  have hn : Names (render (customLine ⟨w.flatMap fun x => x.2.source, .bracketed⟩)) .bracketed (w.flatMap fun x => x.2.source) := by
    simp only [customLine, render_bracketed]
    have := source_lines h'
    rw [hs] at this
    exact .bracketed _ this.1 this.2
  refine ⟨_, hp, rfl, hn, ?_⟩
  constructor
  · intro h2
    have he := (names_unique hn h2).2
    have hl := text_split w
    rw [← he] at hl
    have h0 : (w.map (·.1)).flatten = [] := List.eq_nil_of_length_eq_zero (by omega)
    intro x hx
    rw [List.flatten_eq_nil_iff] at h0
    exact h0 _ (List.mem_map_of_mem hx)
  · intro h2
    have : w.text = w.flatMap fun x => x.2.source := by
      unfold Written.text
      have key : ∀ (v : Written), (∀ x ∈ v, x.1 = []) → (v.flatMap fun x => x.1 ++ x.2.source) = v.flatMap fun x => x.2.source := by
        intro v
        induction v with
        | nil => intro _; rfl
        | cons y v ih =>
          intro hv
          rw [List.flatMap_cons, List.flatMap_cons, hv y List.mem_cons_self, List.nil_append,
            ih fun x hx => hv x (List.mem_cons_of_mem _ hx)]
      exact key w h2
    rw [this]; exact hn

/-- C93.  What `include!` accepts: a string, or words, numbers and signs in angle brackets, and nothing after them. -/
theorem include_accepts (ts : List RTok) (inc : Include) :
    parseInclude ts = some inc →
    (ts = [.str inc.path] ∧ inc.kind = .quoted) ∨
    (inc.kind = .bracketed ∧ ∃ us, ts = .punct 60 :: us ++ [.punct 62] ∧ inc.path = us.flatMap RTok.source ∧
      ∀ t ∈ us, match t with
        | .ident _ => True
        | .literal s => StartsWithDigit s
        | .punct c => c ≠ 62
        | _ => False) := by
  intro h
  unfold parseInclude at h
  split at h
  · simp at h; subst h; exact Or.inl ⟨rfl, rfl⟩
  · split at h
    · next heq =>
      simp at h; subst h
      obtain ⟨us, rfl, h2, h3⟩ := bracketedPath_only _ _ _ _ heq
      exact Or.inr ⟨rfl, us, rfl, by simpa using h2, h3⟩
    · simp at h
  · simp at h

/-- C93.  The `--include` option of the command: in angle brackets or else quoted, and read back as given for plain paths. -/
theorem option_path (path : Text) (h : ∀ c ∈ path, Plain c) :
    (62 ∉ path → Names (render (customLine (fromArg (60 :: path ++ [62])))) .bracketed path) ∧
    ((path.head? = some 60 → path.getLast? ≠ some 62) → Names (render (customLine (fromArg path))) .quoted path) := by
  constructor
  · intro h2
    have : fromArg (60 :: path ++ [62]) = ⟨path, .bracketed⟩ := by
      unfold fromArg
      rw [if_pos ⟨by simp, by rw [List.getLast?_append]; rfl⟩]
      simp
    rw [this]
    simp only [customLine, render_bracketed]
    refine .bracketed _ (fun c hc => ?_) h2
    have := h c hc; unfold Plain at this; omega
  · intro h2
    have : fromArg path = ⟨path, .quoted⟩ := by
      unfold fromArg
      rw [if_neg (fun hn => h2 hn.1 hn.2)]
    rw [this]
    exact (quoted_path_partial path).2.2.mpr h

/-! ## Cases -/

/-- `include!("dir/my header.h")` -/
example : ∀ c ∈ "dir/my header.h".toList.map Char.toNat, Plain c := by decide +kernel

/-- `include!(<sys/x86_64/2fast.h>)` and `include!(<my header.h>)`. -/
def fast : List RTok :=
  [.ident ("sys".toList.map Char.toNat), .punct 47, .ident ("x86_64".toList.map Char.toNat), .punct 47,
   .literal ("2fast".toList.map Char.toNat), .punct 46, .ident ("h".toList.map Char.toNat)]

example : ∀ t ∈ fast, t.OfPath := by
  have hd : StartsWithDigit ("2fast".toList.map Char.toNat) := ⟨'2', by decide, "fast".toList.map Char.toNat, by decide +kernel⟩
  intro t ht
  simp only [fast, List.mem_cons, List.not_mem_nil, or_false] at ht
  rcases ht with rfl | rfl | rfl | rfl | rfl | rfl | rfl
  · exact ⟨by decide, by unfold OneLine; decide +kernel, by decide +kernel⟩
  · exact ⟨by decide, by decide, by decide⟩
  · exact ⟨by decide, by unfold OneLine; decide +kernel, by decide +kernel⟩
  · exact ⟨by decide, by decide, by decide⟩
  · exact ⟨hd, by unfold OneLine; decide +kernel, by decide +kernel⟩
  · exact ⟨by decide, by decide, by decide⟩
  · exact ⟨by decide, by unfold OneLine; decide +kernel, by decide +kernel⟩

def spaced : Written :=
  [([], .ident ("my".toList.map Char.toNat)), ([32], .ident ("header".toList.map Char.toNat)), ([], .punct 46),
   ([], .ident ("h".toList.map Char.toNat))]

example : parseInclude (.punct 60 :: fast ++ [.punct 62]) = some ⟨"sys/x86_64/2fast.h".toList.map Char.toNat, .bracketed⟩ := by
  decide +kernel

/-- C93, where the full statement fails: the blank in `<my header.h>` is lost. -/
theorem blank_lost :
    parseInclude (.punct 60 :: spaced.map (·.2) ++ [.punct 62]) = some ⟨"myheader.h".toList.map Char.toNat, .bracketed⟩ ∧
    spaced.text = "my header.h".toList.map Char.toNat := by decide +kernel

/-- `include!(<a->b.h>)` is rejected, as is a path with a string or parentheses in it. -/
example : parseInclude [.punct 60, .ident [97], .punct 45, .punct 62, .ident [98], .punct 46, .ident [104], .punct 62] = none ∧
    parseInclude [.punct 60, .str [97], .punct 62] = none ∧ parseInclude [.punct 60, .group, .punct 62] = none := by
  decide +kernel

end Verif.Preamble
