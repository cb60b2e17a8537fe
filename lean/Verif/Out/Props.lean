import Verif.Out.Spec
/-!
# Blocks balance
-/
namespace Verif.Out
open Verif.Syntax

theorem reads_append {S M E : List Block} {a b : List Piece} {P Q : List Placed} (h1 : Reads S a P M)
    (h2 : Reads M b Q E) : Reads S (a ++ b) (P ++ Q) E := by
  induction h1 with
  | done => exact h2
  | text s _ ih => exact .text s (ih h2)
  | newline _ ih => exact .newline (ih h2)
  | «open» b _ ih => exact .open b (ih h2)
  | close b _ ih => exact .close b (ih h2)

theorem reads_snoc_newline {S E : List Block} {a : List Piece} {P : List Placed} (h : Reads S a P E) :
    Reads S (a ++ [.newline]) P E := by
  simpa using reads_append h (.newline (.done E))

/-- Whether a text has been written since the last opening; `none` if a block was closed before. -/
def fresh : Bool → List Piece → Option Bool
  | f, [] => some f
  | _, .text _ :: r => fresh true r
  | f, .newline :: r => fresh f r
  | _, .open _ :: r => fresh false r
  | f, .close _ :: r => if f then fresh f r else none

theorem fresh_append (f : Bool) (a b : List Piece) : fresh f (a ++ b) = (fresh f a).bind (fresh · b) := by
  induction a generalizing f with
  | nil => rfl
  | cons p a ih =>
    cases p with
    | close b' =>
      simp only [List.cons_append, fresh]
      cases f <;> simp [ih]
    | _ => simp only [List.cons_append, fresh, ih]

theorem fresh_text {f : Bool} {q : List Piece} (h : fresh f q = some true) (hf : f = false) : ∃ s, .text s ∈ q := by
  induction q generalizing f with
  | nil => cases h; cases hf
  | cons p q ih =>
    cases p with
    | text s => exact ⟨s, by simp⟩
    | newline => obtain ⟨s, hs⟩ := ih h hf; exact ⟨s, by simp [hs]⟩
    | «open» b => obtain ⟨s, hs⟩ := ih h rfl; exact ⟨s, by simp [hs]⟩
    | close b => subst hf; simp [fresh] at h

theorem noEmpty_of_fresh {out : List Piece} {f : Bool} (h : fresh true out = some f) : NoEmptyBlock out := by
  rintro p q r b b' rfl
  simp only [List.append_assoc, List.cons_append, fresh_append] at h
  obtain ⟨f1, h1, h⟩ := Option.bind_eq_some_iff.1 h
  simp only [fresh, fresh_append] at h
  obtain ⟨f2, h2, h⟩ := Option.bind_eq_some_iff.1 h
  cases f2 with
  | false => simp [fresh] at h
  | true => exact fresh_text h2 rfl

/-- What holds between calls.  `keep` are the blocks open in the output that stay open, `ends` those that are
to be closed (innermost first), `begins` those to be opened. -/
structure Inv (c : Content) (S : List Block) (ns : Namespace) (P : List Placed) : Prop where
  shape : ∃ keep ends begins : List Block, S = keep ++ begins ∧
    c.blocks = (keep ++ ends.reverse).map .begin ++ ends.map .end ++ begins.map .begin ∧
    c.blocksPending = ends.length + begins.length ∧ Reads [] c.bytes P (keep ++ ends.reverse)
  fresh : fresh true c.bytes = some true
  ns : c.nspace = ns

theorem inv_new : Inv Content.new [] [] [] :=
  ⟨⟨[], [], [], rfl, rfl, rfl, .done _⟩, rfl, rfl⟩

theorem nil_or_snoc {α : Type} (l : List α) : l = [] ∨ ∃ l' a, l = l' ++ [a] := by
  rcases List.eq_nil_or_concat l with h | ⟨l', a, h⟩
  · exact .inl h
  · exact .inr ⟨l', a, by simpa using h⟩

theorem push_cancel {c : Content} {x last : Boundary} (hp : c.blocksPending > 0) (hl : c.blocks.getLast? = some last)
    (hx : x = last.rev) : c.pushBlockBoundary x =
      some { c with blocks := c.blocks.dropLast, blocksPending := c.blocksPending - 1 } := by
  unfold Content.pushBlockBoundary
  rw [if_pos hp, hl]
  simp only [if_pos hx]

theorem push_push {c : Content} {x : Boundary}
    (h : c.blocksPending = 0 ∨ ∃ last, c.blocks.getLast? = some last ∧ x ≠ last.rev) : c.pushBlockBoundary x =
      some { c with blocks := c.blocks ++ [x], blocksPending := c.blocksPending + 1 } := by
  unfold Content.pushBlockBoundary
  by_cases hp : c.blocksPending > 0
  · rcases h with h | ⟨last, hl, hx⟩
    · omega
    · rw [if_pos hp, hl]
      simp only [if_neg hx]
  · rw [if_neg hp]

theorem begin_inv {c : Content} {S : List Block} {ns : Namespace} {P : List Placed} (h : Inv c S ns P) (b : Block) :
    ∃ c', c.beginBlock b = some c' ∧ Inv c' (S ++ [b]) ns P := by
  obtain ⟨⟨keep, ends, begins, rfl, hb, hp, hr⟩, hf, hn⟩ := h
  have hpush : (c.blocksPending = 0 ∨ ∃ last, c.blocks.getLast? = some last ∧ Boundary.begin b ≠ last.rev) →
      ∃ c', c.beginBlock b = some c' ∧ Inv c' (keep ++ begins ++ [b]) ns P := by
    intro h
    refine ⟨_, push_push h, ⟨keep, ends, begins ++ [b], by simp, ?_, ?_, hr⟩, hf, hn⟩
    · simp [hb]
    · simp [hp]; omega
  rcases nil_or_snoc begins with hbe | ⟨begins', b', hbe⟩
  · rcases nil_or_snoc ends with he | ⟨ends', e, he⟩
    · exact hpush (.inl (by simp [hp, he, hbe]))
    · have hl : c.blocks.getLast? = some (.end e) := by
        rw [hb, hbe, he, List.map_nil, List.append_nil, List.map_append (l₁ := ends'), ← List.append_assoc]
        simp only [List.map_cons, List.map_nil, List.getLast?_concat]
      by_cases hbb : b = e
      · subst hbb
        subst he hbe
        refine ⟨_, push_cancel (by simp [hp]) hl rfl, ⟨keep ++ [b], ends', [], by simp, ?_, ?_, ?_⟩, hf, hn⟩
        · rw [hb, List.map_nil, List.append_nil, List.map_append (l₁ := ends'), ← List.append_assoc]
          simp only [List.map_cons, List.map_nil, List.dropLast_concat]
          simp
        · simp [hp]
        · simpa using hr
      · exact hpush (.inr ⟨_, hl, by simpa [Boundary.rev] using hbb⟩)
  · have hl : c.blocks.getLast? = some (.begin b') := by
      rw [hb, hbe, List.map_append (l₁ := begins'), ← List.append_assoc]
      simp only [List.map_cons, List.map_nil, List.getLast?_concat]
    exact hpush (.inr ⟨_, hl, by simp [Boundary.rev]⟩)

theorem end_inv {c : Content} {S : List Block} {ns : Namespace} {P : List Placed} {b : Block}
    (h : Inv c (S ++ [b]) ns P) : ∃ c', c.endBlock b = some c' ∧ Inv c' S ns P := by
  obtain ⟨⟨keep, ends, begins, hS, hb, hp, hr⟩, hf, hn⟩ := h
  rcases nil_or_snoc begins with rfl | ⟨begins', b', rfl⟩
  · simp only [List.append_nil] at hS
    subst hS
    have hpush : (c.blocksPending = 0 ∨ ∃ last, c.blocks.getLast? = some last ∧ Boundary.end b ≠ last.rev) →
        ∃ c', c.endBlock b = some c' ∧ Inv c' S ns P := by
      intro h
      refine ⟨_, push_push h, ⟨S, ends ++ [b], [], by simp, ?_, ?_, by simpa using hr⟩, hf, hn⟩
      · simp [hb]
      · simp [hp]
    rcases nil_or_snoc ends with he | ⟨ends', e, he⟩
    · exact hpush (.inl (by simp [hp, he]))
    · have hl : c.blocks.getLast? = some (.end e) := by
        rw [hb, he, List.map_nil, List.append_nil, List.map_append (l₁ := ends'), ← List.append_assoc]
        simp only [List.map_cons, List.map_nil, List.getLast?_concat]
      exact hpush (.inr ⟨_, hl, by simp [Boundary.rev]⟩)
  · rw [← List.append_assoc] at hS
    obtain ⟨rfl, hbb⟩ := List.append_inj' hS rfl
    injection hbb with hbb; subst hbb
    have hl : c.blocks.getLast? = some (.begin b) := by
      rw [hb, List.map_append (l₁ := begins'), ← List.append_assoc]
      simp only [List.map_cons, List.map_nil, List.getLast?_concat]
    refine ⟨_, push_cancel (by simp [hp]; omega) hl rfl, ⟨keep, ends, begins', rfl, ?_, ?_, hr⟩, hf, hn⟩
    · rw [hb, List.map_append (l₁ := begins'), ← List.append_assoc]
      simp only [List.map_cons, List.map_nil, List.dropLast_concat]
    · simp [hp]

theorem endAll_inv {P : List Placed} {ns : Namespace} (l : List Ident) : ∀ {c : Content} {S : List Block},
    Inv c (S ++ nsBlocks l.reverse) ns P → ∃ c', c.endAll l = some c' ∧ Inv c' S ns P := by
  induction l with
  | nil => intro c S h; exact ⟨c, rfl, by simpa [nsBlocks] using h⟩
  | cons n l ih =>
    intro c S h
    have h' : Inv c (S ++ nsBlocks l.reverse ++ [.userDefinedNamespace n]) ns P := by
      simpa [nsBlocks, List.append_assoc] using h
    obtain ⟨c1, hc1, h1⟩ := end_inv h'
    obtain ⟨c2, hc2, h2⟩ := ih h1
    exact ⟨c2, by simp only [Content.endAll, hc1]; exact hc2, h2⟩

theorem beginAll_inv {P : List Placed} {ns : Namespace} (l : List Ident) : ∀ {c : Content} {S : List Block},
    Inv c S ns P → ∃ c', c.beginAll l = some c' ∧ Inv c' (S ++ nsBlocks l) ns P := by
  induction l with
  | nil => intro c S h; exact ⟨c, rfl, by simpa [nsBlocks] using h⟩
  | cons n l ih =>
    intro c S h
    obtain ⟨c1, hc1, h1⟩ := begin_inv h (.userDefinedNamespace n)
    obtain ⟨c2, hc2, h2⟩ := ih h1
    exact ⟨c2, by simp only [Content.beginAll, hc1]; exact hc2, by simpa [nsBlocks] using h2⟩

theorem setNamespace_inv {c : Content} {S : List Block} {ns : Namespace} {P : List Placed}
    (h : Inv c (S ++ nsBlocks ns) ns P) (new : Namespace) :
    ∃ c', c.setNamespace new = some c' ∧ Inv c' (S ++ nsBlocks new) new P := by
  have h0 : Inv c (S ++ nsBlocks ns.reverse.reverse) ns P := by simpa using h
  obtain ⟨c1, hc1, h1⟩ := endAll_inv ns.reverse h0
  obtain ⟨c2, hc2, h2⟩ := beginAll_inv new h1
  refine ⟨{ c2 with nspace := new }, ?_, h2.shape, h2.fresh, rfl⟩
  unfold Content.setNamespace
  rw [h.ns, hc1]
  simp only [hc2]

/-! ### Flushing -/

/-- The closings, with the stack `keep ++ ends.reverse` in front of the gap. -/
theorem flush_ends (ends : List Block) : ∀ (keep : List Block) (gap rest : List Boundary) (pending : Bool)
    (bytes : List Piece) (P : List Placed), Reads [] bytes P (keep ++ ends.reverse) → fresh true bytes = some true →
    ∃ (gap' : List Boundary) (pending' : Bool) (bytes' : List Piece),
      flushLoop (ends.length + rest.length) ((keep ++ ends.reverse).length + gap.length) (keep ++ ends.reverse).length
        ((keep ++ ends.reverse).map .begin ++ gap ++ (ends.map .end ++ rest)) pending bytes =
      flushLoop rest.length (keep.length + gap'.length) keep.length (keep.map .begin ++ gap' ++ rest) pending' bytes' ∧
      Reads [] bytes' P keep ∧ fresh true bytes' = some true ∧ (ends = [] → bytes' = bytes) ∧
      (bytes ≠ [] → bytes' ≠ []) := by
  induction ends with
  | nil =>
    intro keep gap rest pending bytes P hr hf
    exact ⟨gap, pending, bytes, by simp, by simpa using hr, hf, fun _ => rfl, id⟩
  | cons e ends ih =>
    intro keep gap rest pending bytes P hr hf
    have hr' : Reads [] bytes P ((keep ++ ends.reverse) ++ [e]) := by simpa using hr
    have hread : Reads [] (bytes ++ [.close e]) P (keep ++ ends.reverse) := by
      simpa using reads_append hr' (.close e (.done _))
    have hfr : fresh true (bytes ++ [.close e]) = some true := by rw [fresh_append, hf]; rfl
    obtain ⟨gap', pending', bytes', heq, h1, h2, h3, h4⟩ := ih keep (.begin e :: gap ++ [.end e]) rest true _ P hread hfr
    refine ⟨gap', pending', bytes', ?_, h1, h2, nofun, fun _ => h4 (by simp)⟩
    rw [← heq]
    have hlen : (keep ++ (e :: ends).reverse).length = (keep ++ ends.reverse).length + 1 := by simp; omega
    rw [hlen]
    have hcons : (e :: ends).length + rest.length = (ends.length + rest.length) + 1 := by simp; omega
    rw [hcons]
    have hblocks : (keep ++ (e :: ends).reverse).map Boundary.begin ++ gap ++ ((e :: ends).map .end ++ rest) =
        (keep ++ ends.reverse).map .begin ++ (.begin e :: gap ++ [.end e]) ++ (ends.map .end ++ rest) := by simp
    rw [hblocks]
    generalize hK : (keep ++ ends.reverse) = K
    have hget : (K.map Boundary.begin ++ (.begin e :: gap ++ [.end e]) ++ (ends.map .end ++ rest))[K.length + 1 + gap.length]? =
        some (.end e) := by
      have : K.map Boundary.begin ++ (.begin e :: gap ++ [.end e]) ++ (ends.map .end ++ rest) =
          (K.map Boundary.begin ++ .begin e :: gap) ++ .end e :: (ends.map .end ++ rest) := by simp
      rw [this, List.getElem?_append_right (by simp; omega)]
      simp [show K.length + 1 + gap.length - (K.length + (gap.length + 1)) = 0 by omega]
    have hget' : (K.map Boundary.begin ++ (.begin e :: gap ++ [.end e]) ++ (ends.map .end ++ rest))[K.length]? =
        some (.begin e) := by
      rw [List.append_assoc, List.getElem?_append_right (by simp)]
      simp
    rw [flushLoop, hget]
    simp only
    rw [if_pos hget']
    congr 1
    simp; omega

/-- The openings. -/
theorem flush_begins (begins : List Block) : ∀ (keep : List Block) (gap : List Boundary) (pending : Bool)
    (bytes : List Piece) (P : List Placed), Reads [] bytes P keep → fresh true bytes ≠ none →
    ∃ (gap' : List Boundary) (pending' : Bool) (bytes' : List Piece),
      flushLoop begins.length (keep.length + gap.length) keep.length
        (keep.map .begin ++ gap ++ begins.map .begin) pending bytes =
      some ((keep ++ begins).length, (keep ++ begins).map .begin ++ gap', pending', bytes') ∧
      Reads [] bytes' P (keep ++ begins) ∧ fresh true bytes' ≠ none ∧
      (begins = [] → bytes' = bytes) := by
  induction begins with
  | nil =>
    intro keep gap pending bytes P hr hf
    exact ⟨gap, pending, bytes, by simp [flushLoop], by simpa using hr, hf, fun _ => rfl⟩
  | cons b begins ih =>
    intro keep gap pending bytes P hr hf
    have hget : (keep.map Boundary.begin ++ gap ++ (b :: begins).map .begin)[keep.length + gap.length]? =
        some (.begin b) := by
      rw [List.getElem?_append_right (by simp)]
      simp
    have hset : ∃ gap1 : List Boundary, gap1.length = gap.length ∧
        (keep.map Boundary.begin ++ gap ++ (b :: begins).map Boundary.begin).set keep.length (.begin b) =
        (keep ++ [b]).map Boundary.begin ++ gap1 ++ begins.map Boundary.begin := by
      cases gap with
      | nil => exact ⟨[], rfl, by simp⟩
      | cons g gap => exact ⟨gap ++ [.begin b], by simp, by simp⟩
    obtain ⟨gap1, hg1, hset⟩ := hset
    have hbytes : ∃ bytes1, (if pending then bytes ++ [.newline] else bytes) ++ [.open b] = bytes1 ∧
        Reads [] bytes1 P (keep ++ [b]) ∧ fresh true bytes1 ≠ none := by
      refine ⟨_, rfl, ?_, ?_⟩
      · have : Reads [] (if pending then bytes ++ [.newline] else bytes) P keep := by
          split
          · exact reads_snoc_newline hr
          · exact hr
        simpa using reads_append this (.open b (.done _))
      · cases hfv : fresh true bytes with
        | none => exact absurd hfv hf
        | some f => split <;> simp [fresh_append, hfv, fresh]
    obtain ⟨bytes1, hb1, hr1, hf1⟩ := hbytes
    obtain ⟨gap', pending', bytes', heq, h1, h2, _⟩ := ih (keep ++ [b]) gap1 false bytes1 P hr1 hf1
    refine ⟨gap', pending', bytes', ?_, by simpa using h1, h2, nofun⟩
    rw [List.length_cons, flushLoop, hget]
    simp only [hb1, hset]
    have he : keep.length + gap.length + 1 = (keep ++ [b]).length + gap1.length := by simp; omega
    rw [he, show keep.length + 1 = (keep ++ [b]).length by simp, heq]
    simp

theorem flushBlocks_spec {c : Content} {keep ends begins : List Block} {P : List Placed}
    (hb : c.blocks = (keep ++ ends.reverse).map .begin ++ ends.map .end ++ begins.map .begin)
    (hp : c.blocksPending = ends.length + begins.length) (hr : Reads [] c.bytes P (keep ++ ends.reverse))
    (hf : fresh true c.bytes = some true) :
    ∃ c', c.flushBlocks = some c' ∧ c'.blocks = (keep ++ begins).map .begin ∧ c'.nspace = c.nspace ∧
      Reads [] c'.bytes P (keep ++ begins) ∧ fresh true c'.bytes ≠ none ∧
      (begins = [] → fresh true c'.bytes = some true) := by
  have hlen : c.blocks.length = (keep ++ ends.reverse).length + (ends.length + begins.length) := by
    rw [hb]; simp; omega
  have hread : c.blocks.length - c.blocksPending = (keep ++ ends.reverse).length := by omega
  have htodo : c.blocks.length - (c.blocks.length - c.blocksPending) = ends.length + begins.length := by omega
  obtain ⟨gap1, p1, b1, e1, hr1, hf1, _, _⟩ := flush_ends ends keep [] (begins.map .begin) (!c.bytes.isEmpty) c.bytes P hr hf
  obtain ⟨gap2, p2, b2, e2, hr2, hf2, hnil⟩ := flush_begins begins keep gap1 p1 b1 P hr1 (by rw [hf1]; simp)
  have heq : flushLoop (c.blocks.length - (c.blocks.length - c.blocksPending)) (c.blocks.length - c.blocksPending)
      (c.blocks.length - c.blocksPending) c.blocks (!c.bytes.isEmpty) c.bytes =
      some ((keep ++ begins).length, (keep ++ begins).map .begin ++ gap2, p2, b2) := by
    rw [htodo, hread, hb, ← e2]
    rw [show List.length begins = (begins.map Boundary.begin).length by simp] 
    rw [← e1]
    simp
  refine ⟨{ c with bytes := b2, blocks := ((keep ++ begins).map Boundary.begin ++ gap2).take (keep ++ begins).length, sectionPending := p2 }, ?_, ?_, rfl, hr2, hf2, ?_⟩
  · unfold Content.flushBlocks
    simp only [heq]
  · exact List.take_left' (by simp)
  · intro hn; rw [hnil hn]; exact hf1

theorem write_inv {c : Content} {S : List Block} {ns : Namespace} {P : List Placed} (h : Inv c S ns P) {s : String}
    (hs : s ≠ "") : ∃ c', c.write s = some c' ∧ Inv c' S ns (P ++ [(s, S)]) := by
  obtain ⟨⟨keep, ends, begins, rfl, hb, hp, hr⟩, hf, hn⟩ := h
  have hfl : ∃ c1, (if c.blocksPending > 0 then c.flushBlocks else some c) = some c1 ∧
      c1.blocks = (keep ++ begins).map .begin ∧ c1.nspace = ns ∧ Reads [] c1.bytes P (keep ++ begins) ∧
      fresh true c1.bytes ≠ none := by
    by_cases hpend : c.blocksPending > 0
    · rw [if_pos hpend]
      obtain ⟨c1, h1, h2, h3, h4, h5, _⟩ := flushBlocks_spec hb hp hr hf
      exact ⟨c1, h1, h2, h3.trans hn, h4, h5⟩
    · rw [if_neg hpend]
      obtain ⟨rfl, rfl⟩ : ends = [] ∧ begins = [] :=
        ⟨List.length_eq_zero_iff.1 (by omega), List.length_eq_zero_iff.1 (by omega)⟩
      exact ⟨c, rfl, by simpa using hb, hn, by simpa using hr, by rw [hf]; simp⟩
  obtain ⟨c1, h1, h2, h3, h4, h5⟩ := hfl
  unfold Content.write
  rw [if_neg hs, h1]
  refine ⟨_, rfl, ⟨keep ++ begins, [], [], by simp, by simpa using h2, rfl, ?_⟩, ?_, h3⟩
  · have : Reads [] (if c1.sectionPending && !c1.bytes.isEmpty then c1.bytes ++ [.newline] else c1.bytes) P
        (keep ++ begins) := by
      split
      · exact reads_snoc_newline h4
      · exact h4
    simpa using reads_append this (.text s (.done _))
  · cases hfv : fresh true c1.bytes with
    | none => exact absurd hfv h5
    | some f =>
      simp only
      split <;> simp [fresh_append, hfv, fresh]

theorem calls_inv {S S' : List Block} {ns ns' : Namespace} {cs : List Call} {P : List Placed}
    (h : Nested S ns cs P S' ns') : ∀ {c : Content} {Q : List Placed}, Inv c S ns Q →
    ∃ c', c.calls cs = some c' ∧ Inv c' S' ns' (Q ++ P) := by
  induction h with
  | done S ns => intro c Q hi; exact ⟨c, rfl, by simpa using hi⟩
  | write s hs _ ih =>
    intro c Q hi
    obtain ⟨c1, h1, hi1⟩ := write_inv hi hs
    obtain ⟨c2, h2, hi2⟩ := ih hi1
    exact ⟨c2, by simp only [Content.calls, Content.call, h1]; exact h2, by simpa using hi2⟩
  | nothing _ ih =>
    intro c Q hi
    obtain ⟨c2, h2, hi2⟩ := ih hi
    exact ⟨c2, by simp only [Content.calls, Content.call, Content.write, if_true]; exact h2, hi2⟩
  | «section» _ ih =>
    intro c Q hi
    have hi1 : Inv c.nextSection _ _ Q := ⟨hi.shape, hi.fresh, hi.ns⟩
    obtain ⟨c2, h2, hi2⟩ := ih hi1
    exact ⟨c2, by simp only [Content.calls, Content.call]; exact h2, hi2⟩
  | begin b _ ih =>
    intro c Q hi
    obtain ⟨c1, h1, hi1⟩ := begin_inv hi b
    obtain ⟨c2, h2, hi2⟩ := ih hi1
    exact ⟨c2, by simp only [Content.calls, Content.call, h1]; exact h2, hi2⟩
  | «end» b _ ih =>
    intro c Q hi
    obtain ⟨c1, h1, hi1⟩ := end_inv hi
    obtain ⟨c2, h2, hi2⟩ := ih hi1
    exact ⟨c2, by simp only [Content.calls, Content.call, h1]; exact h2, hi2⟩
  | setNamespace new _ ih =>
    intro c Q hi
    obtain ⟨c1, h1, hi1⟩ := setNamespace_inv hi new
    obtain ⟨c2, h2, hi2⟩ := ih hi1
    exact ⟨c2, by simp only [Content.calls, Content.call, h1]; exact h2, hi2⟩

/-- **C28**.  Properly nested calls that leave at most a namespace open do not panic.  In the output every
closing closes the innermost open block and nothing is left open; the texts are the non-empty ones written, in
order, each inside exactly the blocks that were open when it was written; and no block is empty. -/
theorem blocks_balance {cs : List Call} {P : List Placed} {ns : Namespace}
    (h : Nested [] [] cs P (nsBlocks ns) ns) :
    ∃ out, output cs = some out ∧ Reads [] out P [] ∧ NoEmptyBlock out := by
  obtain ⟨c, hc, hi⟩ := calls_inv h inv_new
  obtain ⟨c1, hc1, hi1⟩ := setNamespace_inv (S := []) (by simpa using hi) []
  obtain ⟨⟨keep, ends, begins, hS, hb, hp, hr⟩, hf, hn⟩ := hi1
  obtain ⟨rfl, rfl⟩ : keep = [] ∧ begins = [] := by simpa [nsBlocks, eq_comm] using hS
  have hfin : ∃ c2, (if c1.blocksPending > 0 then c1.flushBlocks else some c1) = some c2 ∧ Reads [] c2.bytes P [] ∧
      fresh true c2.bytes = some true := by
    by_cases hpend : c1.blocksPending > 0
    · rw [if_pos hpend]
      obtain ⟨c2, h1, _, _, h4, _, h6⟩ := flushBlocks_spec hb hp hr hf
      exact ⟨c2, h1, h4, h6 rfl⟩
    · rw [if_neg hpend]
      obtain rfl : ends = [] := List.length_eq_zero_iff.1 (by omega)
      exact ⟨c1, rfl, by simpa using hr, hf⟩
  obtain ⟨c2, h2, hr2, hf2⟩ := hfin
  refine ⟨c2.bytes, ?_, hr2, noEmpty_of_fresh hf2⟩
  unfold output
  rw [hc]
  simp only [Content.flush, hc1, h2, Option.map_some]

/-! ### Braces in the rendered text -/

theorem occurrences_append (c : Char) (a b : String) : occurrences c (a ++ b) = occurrences c a + occurrences c b := by
  simp [occurrences, String.toList_append]

/-- The name of a block has no braces. -/
def Plain (b : Block) : Prop := occurrences '{' b.common = 0 ∧ occurrences '}' b.common = 0

/-- An opening prints one `{` and a closing one `}`, and the comment after it names the block. -/
theorem braces (b : Block) (h : Plain b) : occurrences '{' b.writeBegin = 1 ∧ occurrences '}' b.writeBegin = 0 ∧
    occurrences '{' b.writeEnd = 0 ∧ occurrences '}' b.writeEnd = 1 ∧
    b.writeEnd = "} // " ++ b.common ++ "\n" := by
  have e1 : occurrences '{' " {\n" = 1 ∧ occurrences '}' " {\n" = 0 := by decide +kernel
  have e2 : occurrences '{' "} // " = 0 ∧ occurrences '}' "} // " = 1 := by decide +kernel
  have e3 : occurrences '{' "\n" = 0 ∧ occurrences '}' "\n" = 0 := by decide +kernel
  have e4 : occurrences '{' b.inlineWord = 0 ∧ occurrences '}' b.inlineWord = 0 := by
    have : b.inlineWord = "inline " ∨ b.inlineWord = "" := by cases b <;> simp [Block.inlineWord]
    rcases this with h | h <;> rw [h] <;> decide +kernel
  refine ⟨?_, ?_, ?_, ?_, rfl⟩
  · rw [Block.writeBegin, occurrences_append, occurrences_append, e4.1, h.1, e1.1]
  · rw [Block.writeBegin, occurrences_append, occurrences_append, e4.2, h.2, e1.2]
  · rw [Block.writeEnd, occurrences_append, occurrences_append, e2.1, h.1, e3.1]
  · rw [Block.writeEnd, occurrences_append, occurrences_append, e2.2, h.2, e3.2]

/-- How C++ writes the opening of a block: the kinds of `namespace-definition` and the `linkage-specification`. -/
def cxxOpening : Block → String
  | .anonymousNamespace => "namespace {\n"
  | .builtinNamespace name | .userDefinedNamespace name => "namespace " ++ name ++ " {\n"
  | .inlineNamespace name => "inline namespace " ++ name ++ " {\n"
  | .externC => "extern \"C\" {\n"

/-- What is printed for an opening is the opening of that block in C++. -/
theorem openings_text (b : Block) : (Piece.open b).render = cxxOpening b := by
  have e : ("" : String) ++ "namespace " = "namespace " := by decide +kernel
  have e' : "inline " ++ "namespace " = "inline namespace " := by decide +kernel
  cases b with
  | anonymousNamespace => show ("" : String) ++ "namespace" ++ " {\n" = "namespace {\n"; decide +kernel
  | externC => show ("" : String) ++ "extern \"C\"" ++ " {\n" = "extern \"C\" {\n"; decide +kernel
  | builtinNamespace name =>
    show ("" : String) ++ ("namespace " ++ name) ++ " {\n" = "namespace " ++ name ++ " {\n"
    rw [← String.append_assoc, e]
  | userDefinedNamespace name =>
    show ("" : String) ++ ("namespace " ++ name) ++ " {\n" = "namespace " ++ name ++ " {\n"
    rw [← String.append_assoc, e]
  | inlineNamespace name =>
    show "inline " ++ ("namespace " ++ name) ++ " {\n" = "inline namespace " ++ name ++ " {\n"
    rw [← String.append_assoc, e']

example : (Piece.open (.inlineNamespace "cxxbridge1")).render = "inline namespace cxxbridge1 {\n" := by decide +kernel

section Witness

/-- Two functions in `a::b` and one in `a`, with an `extern "C"` block that stays empty. -/
def demo : List Call :=
  [.setNamespace ["a", "b"], .beginBlock .externC, .write "x", .endBlock .externC, .setNamespace [],
   .nextSection, .setNamespace ["a", "b"], .beginBlock .externC, .write "y", .endBlock .externC,
   .beginBlock .anonymousNamespace, .endBlock .anonymousNamespace, .setNamespace ["a"], .write "z"]

example : Nested [] [] demo
    [("x", [.userDefinedNamespace "a", .userDefinedNamespace "b", .externC]),
     ("y", [.userDefinedNamespace "a", .userDefinedNamespace "b", .externC]),
     ("z", [.userDefinedNamespace "a"])] (nsBlocks ["a"]) ["a"] := by
  refine .setNamespace (S := []) (ns := []) _ (.begin _ (.write _ (by decide) ?_))
  refine .end (S := nsBlocks ["a", "b"]) _ (.setNamespace (S := []) (ns := ["a", "b"]) _ (.section ?_))
  refine .setNamespace (S := []) (ns := []) _ (.begin _ (.write _ (by decide) ?_))
  refine .end (S := nsBlocks ["a", "b"]) _ (.begin _ (.end (S := nsBlocks ["a", "b"]) _ ?_))
  exact .setNamespace (S := []) (ns := ["a", "b"]) _ (.write _ (by decide) (.done _ _))

/-- The blocks around `x` and `y` are not closed in between. -/
example : output demo = some [.open (.userDefinedNamespace "a"), .open (.userDefinedNamespace "b"), .open .externC,
    .text "x", .newline, .text "y", .close .externC, .close (.userDefinedNamespace "b"), .newline, .text "z",
    .close (.userDefinedNamespace "a")] := by decide +kernel

end Witness

end Verif.Out
