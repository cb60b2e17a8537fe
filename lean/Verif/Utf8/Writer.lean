import Verif.Utf8.WriterModel
import Verif.Utf8.Props
/-!
# Formatting a C++ string to a writer that may fail (C04, C05)
-/
namespace Verif.Utf8
open Spec

/-! ### Specification -/

/-- A call of the writer. -/
inductive Call
  | str (bytes : List Nat)
  | char (c : Nat)

/-- What the call is to write, as UTF-8. -/
def Call.text : Call → List Nat
  | .str bytes => bytes
  | .char c => encode8 c

/-- A `&str` has to be well-formed UTF-8 and a `char` a scalar value: anything else is undefined behavior. -/
def Call.Valid : Call → Prop
  | .str bytes => WellFormed8 bytes
  | .char c => IsScalar c

/-- The writer is called with these, in order, until a call fails; then its error is returned.  There is no case for panics. -/
inductive Runs {σ : Type} (w : Writer σ) : σ → List Call → σ → Outcome → Prop
  | done (s) : Runs w s [] s .ok
  | str {s s' bytes calls s'' r} : w.str s bytes = (s', true) → Runs w s' calls s'' r → Runs w s (.str bytes :: calls) s'' r
  | char {s s' c calls s'' r} : w.char s c = (s', true) → Runs w s' calls s'' r → Runs w s (.char c :: calls) s'' r
  | strFails {s s' bytes calls} : w.str s bytes = (s', false) → Runs w s (.str bytes :: calls) s' .err
  | charFails {s s' c calls} : w.char s c = (s', false) → Runs w s (.char c :: calls) s' .err

/-! ### Proofs -/

/-- The code makes these calls. -/
def Does {σ : Type} (w : Writer σ) (f : Write σ) (calls : List Call) : Prop := ∀ s, Runs w s calls (f s).1 (f s).2

variable {σ : Type} {w : Writer σ}

theorem does_str (bytes : List Nat) : Does w (w.writeStr bytes) [.str bytes] := by
  intro s
  unfold Writer.writeStr
  split
  · exact .str ‹_› (.done _)
  · exact .strFails ‹_›

theorem does_char (c : Nat) : Does w (w.writeChar c) [.char c] := by
  intro s
  unfold Writer.writeChar
  split
  · exact .char ‹_› (.done _)
  · exact .charFails ‹_›

theorem does_ok : Does w (fun s => (s, .ok)) [] := fun s => .done s

theorem runs_append {s s' s'' : σ} {a b : List Call} {r r' : Outcome} (h : Runs w s a s' r) :
    (r = .ok → Runs w s' b s'' r' → Runs w s (a ++ b) s'' r') ∧ (r ≠ .ok → Runs w s (a ++ b) s' r) := by
  induction h with
  | done => exact ⟨fun _ h => h, fun h => absurd rfl h⟩
  | str h _ ih => exact ⟨fun hr h' => .str h (ih.1 hr h'), fun hr => .str h (ih.2 hr)⟩
  | char h _ ih => exact ⟨fun hr h' => .char h (ih.1 hr h'), fun hr => .char h (ih.2 hr)⟩
  | strFails h => exact ⟨fun h => by simp at h, fun _ => .strFails h⟩
  | charFails h => exact ⟨fun h => by simp at h, fun _ => .charFails h⟩

theorem does_then {f g : Write σ} {a b : List Call} (hf : Does w f a) (hg : Does w g b) : Does w (f.then g) (a ++ b) := by
  intro s
  have h := hf s
  unfold Write.then
  split
  · rename_i s' he
    rw [he] at h
    exact (runs_append h).1 rfl (hg s')
  · rename_i hne
    refine (runs_append (s'' := (f s).1) (r' := .ok) h).2 fun hr => hne (f s).1 ?_
    rw [← hr]

theorem does_each {α : Type} {body : α → Write σ} {calls : α → List Call} (h : ∀ x, Does w (body x) (calls x)) :
    ∀ xs : List α, Does w (Write.each body xs) (xs.flatMap calls)
  | [] => does_ok
  | x :: xs => does_then (h x) (does_each h xs)

theorem byteSlice_some {a b c : List Nat} : byteSlice (a ++ b ++ c) a.length (a.length + b.length) = some b := by
  unfold byteSlice
  rw [if_pos (by simp)]
  simp

theorem cont_encode {c : Nat} : ∃ b tl, encode8 c = b :: tl ∧ isCont b = false := by
  unfold encode8 isCont
  split
  · exact ⟨_, _, rfl, by simp; omega⟩
  split
  · exact ⟨_, _, rfl, by simp; omega⟩
  split
  · exact ⟨_, _, rfl, by simp; omega⟩
  · exact ⟨_, _, rfl, by simp; omega⟩

theorem boundary_at (a cs : List Nat) : charBoundary (a ++ cs.flatMap encode8) a.length = true := by
  unfold charBoundary
  cases cs with
  | nil => simp
  | cons c cs =>
    obtain ⟨b, tl, he, hb⟩ := cont_encode (c := c)
    simp [he, hb]

theorem strSlice_some (a m cs : List Nat) :
    strSlice (a.flatMap encode8 ++ m.flatMap encode8 ++ cs.flatMap encode8) (a.flatMap encode8).length
      ((a.flatMap encode8).length + (m.flatMap encode8).length) = some (m.flatMap encode8) := by
  unfold strSlice
  have h1 := boundary_at (a.flatMap encode8) (m ++ cs)
  have h2 := boundary_at ((a ++ m).flatMap encode8) cs
  simp only [List.flatMap_append, List.length_append, List.append_assoc] at h1 h2
  rw [List.append_assoc, if_pos ⟨by omega, by simp only [List.length_append]; omega, h1, h2⟩]
  simp [-List.length_flatMap]

theorem escape_scalar (t : Tables) {c : Nat} (hc : IsScalar c) {d : Nat} (h : d ∈ escapeDebug t c) : IsScalar d := by
  have small : ∀ {d : Nat}, d < 0x80 → IsScalar d := fun h => .inl (by omega)
  have hu : d ∈ [92, 117, 123] ++ hex c ++ [125] → IsScalar d := by
    intro hd
    simp only [List.mem_append, List.mem_cons, List.not_mem_nil, or_false] at hd
    rcases hd with ((rfl | rfl | rfl) | hd) | rfl
    · exact small (by omega)
    · exact small (by omega)
    · exact small (by omega)
    · exact small ((hex_spec c).2.2.2 d hd)
    · exact small (by omega)
  unfold escapeDebug at h
  split at h
  · simp at h; rcases h with rfl | rfl <;> exact small (by omega)
  split at h
  · simp at h; rcases h with rfl | rfl <;> exact small (by omega)
  split at h
  · simp at h; rcases h with rfl | rfl <;> exact small (by omega)
  split at h
  · simp at h; rcases h with rfl | rfl <;> exact small (by omega)
  split at h
  · simp at h
    rcases h with rfl | rfl
    · exact small (by omega)
    · exact hc
  split at h
  · exact hu h
  split at h
  · simp at h; exact h ▸ hc
  · exact hu h

theorem escape_text (t : Tables) {c : Nat} (hc : IsScalar c) :
    ((escapeDebug t c).flatMap fun c => [Call.char c]).flatMap Call.text = (escapeDebug t c).flatMap push := by
  have : ∀ d ∈ escapeDebug t c, push d = encode8 d := fun d hd => push_encode (escape_scalar t hc hd)
  generalize escapeDebug t c = l at this
  induction l with
  | nil => rfl
  | cons d l ih =>
    simp only [List.flatMap_cons, List.flatMap_append, ih fun x hx => this x (List.mem_cons_of_mem _ hx), this d (by simp)]
    simp [Call.text]

/-- What `debug` calls for the characters `cs`, with `m` not yet written. -/
theorem debugCharsTo_spec (t : Tables) (cs : List Nat) (hcs : ∀ c ∈ cs, IsScalar c) :
    ∀ (a m : List Nat), (∀ c ∈ m, IsScalar c) → ∃ calls : List Call, (∀ c ∈ calls, c.Valid) ∧
      calls.flatMap Call.text = m.flatMap encode8 ++ cs.flatMap (shown t) ∧
      ∀ {σ : Type} (w : Writer σ), Does w
        (debugCharsTo t w (a.flatMap encode8 ++ m.flatMap encode8 ++ cs.flatMap encode8)
          (charIndices ((a ++ m).flatMap encode8).length (cs.flatMap encode8)) (a.flatMap encode8).length) calls := by
  induction cs with
  | nil =>
    intro a m hm
    refine ⟨[.str (m.flatMap encode8)], by simpa [Call.Valid] using ⟨m, hm, rfl⟩, by simp [Call.text], fun w => ?_⟩
    have h := strSlice_some a m []
    simp only [List.flatMap_nil, List.append_nil] at h
    simp only [List.flatMap_nil, charIndices, debugCharsTo, List.append_nil, List.length_append, h]
    exact does_str _
  | cons c cs ih =>
    intro a m hm
    have hc := hcs c (by simp)
    have ih := ih (fun x hx => hcs x (by simp [hx]))
    obtain ⟨x, tl, he, hn⟩ := nextCodePoint_encode hc (cs.flatMap encode8)
    have hidx : charIndices ((a ++ m).flatMap encode8).length ((c :: cs).flatMap encode8) =
        (((a ++ m).flatMap encode8).length, c) ::
          charIndices (((a ++ m).flatMap encode8) ++ encode8 c).length (cs.flatMap encode8) := by
      rw [List.flatMap_cons, he, List.cons_append, charIndices, hn]
      simp only [List.length_append, List.length_cons, Nat.add_assoc, Nat.add_comm 1]
      simp
    by_cases hcond : (escapeDebug t c).length ≠ 1 ∧ c ≠ 39
    · obtain ⟨calls, h1, h2, h3⟩ := ih (a ++ m ++ [c]) [] (by simp)
      refine ⟨.str (m.flatMap encode8) :: ((escapeDebug t c).flatMap (fun c => [Call.char c]) ++ calls), ?_, ?_, fun w => ?_⟩
      · intro d hd
        rcases List.mem_cons.1 hd with rfl | hd
        · exact ⟨m, hm, rfl⟩
        rcases List.mem_append.1 hd with hd | hd
        · obtain ⟨e, hm, hd⟩ := List.mem_flatMap.1 hd
          rw [List.mem_singleton] at hd
          subst hd
          exact escape_scalar t hc hm
        · exact h1 d hd
      · simp only [List.flatMap_cons, List.flatMap_append, escape_text t hc, h2]
        simp [Call.text, shown, hcond]
      · rw [hidx, debugCharsTo, if_pos hcond]
        have hs := strSlice_some a m (c :: cs)
        simp only [List.flatMap_append, List.length_append, hs, Write.index]
        refine does_then (a := [_]) (does_str _) (does_then (does_each (fun c => does_char c) _) ?_)
        have := h3 w
        simpa [-List.length_flatMap, lenUtf8_encode, List.append_assoc, Nat.add_assoc] using this
    · obtain ⟨calls, h1, h2, h3⟩ := ih a (m ++ [c]) (by
        intro d hd
        rcases List.mem_append.1 hd with hd | hd
        · exact hm d hd
        · simp at hd; exact hd ▸ hc)
      refine ⟨calls, h1, ?_, fun w => ?_⟩
      · rw [h2]
        simp [shown, if_neg hcond]
      · rw [hidx, debugCharsTo, if_neg hcond]
        have := h3 w
        simpa [-List.length_flatMap, List.append_assoc, Nat.add_assoc] using this

theorem bad_front {cs : List Nat} {b0 : Nat} {rest : List Nat} {k : Nat} (hk : 1 ≤ k ∧ k ≤ rest.length + 1) :
    byteSlice (cs.flatMap encode8 ++ b0 :: rest) ((cs.flatMap encode8).length + k) (cs.flatMap encode8 ++ b0 :: rest).length =
      some (rest.drop (k - 1)) := by
  unfold byteSlice
  rw [if_pos ⟨by simp only [List.length_append, List.length_cons]; omega, Nat.le_refl _⟩]
  obtain ⟨k, rfl⟩ : ∃ j, k = j + 1 := ⟨k - 1, by omega⟩
  have : (cs.flatMap encode8 ++ b0 :: rest).drop ((cs.flatMap encode8).length + (k + 1)) = rest.drop k := by
    rw [List.drop_append]
    simp [-List.length_flatMap]
  rw [this, List.take_of_length_le]
  · simp
  · simp only [List.length_drop, List.length_append, List.length_cons]; omega

theorem valid_front (cs rest : List Nat) :
    byteSlice (cs.flatMap encode8 ++ rest) 0 (cs.flatMap encode8).length = some (cs.flatMap encode8) := by
  have := byteSlice_some (a := []) (b := cs.flatMap encode8) (c := rest)
  simpa [-List.length_flatMap] using this

theorem displayLoop_spec (n : Nat) : ∀ bs : List Nat, bs.length < n → ∃ calls : List Call, (∀ c ∈ calls, c.Valid) ∧
    calls.flatMap Call.text = fromUtf8Lossy bs ∧ ∀ {σ : Type} (w : Writer σ), Does w (displayLoop w n bs) calls := by
  induction n with
  | zero => intro bs h; omega
  | succ n ih =>
    intro bs hn
    cases h : fromUtf8 bs with
    | none =>
      have hw := (from_utf8_iff bs).1 h
      refine ⟨[.str bs], by simpa [Call.Valid] using hw, ?_, fun w => ?_⟩
      · have := display_lossy bs
        simp only [Call.text, List.flatMap_cons, List.flatMap_nil, List.append_nil]
        rw [← this.2.1, this.2.2.2 hw]
      · rw [displayLoop, h]
        exact does_str _
    | some e =>
      obtain ⟨cs, b0, rest, hcs, rfl, hv, hs⟩ := fromUtf8_err h
      have hrep : encode8 0xFFFD = replacement := by decide
      have hsc : IsScalar 0xFFFD := .inr (by omega)
      cases hl : e.errorLen with
      | none =>
        refine ⟨[.str (cs.flatMap encode8), .char 0xFFFD], ?_, ?_, fun w => ?_⟩
        · intro c hc
          simp at hc
          rcases hc with rfl | rfl
          · exact ⟨cs, hcs, rfl⟩
          · exact hsc
        · rw [fromUtf8Lossy_flatMap hcs, fromUtf8Lossy, hs, hl]
          simp [Call.text, hrep]
        · rw [displayLoop, h]
          simp only [hv, hl, valid_front, Write.index]
          exact does_then (a := [_]) (does_str _) (does_then (a := [_]) (does_char _) does_ok)
      | some k =>
        rw [hl] at hs
        have hk := step_bad_pos hs
        obtain ⟨calls, h1, h2, h3⟩ := ih (rest.drop (k - 1)) (by
          simp only [List.length_append, List.length_cons] at hn
          simp only [List.length_drop]; omega)
        refine ⟨.str (cs.flatMap encode8) :: .char 0xFFFD :: calls, ?_, ?_, fun w => ?_⟩
        · intro c hc
          simp at hc
          rcases hc with rfl | rfl | hc
          · exact ⟨cs, hcs, rfl⟩
          · exact hsc
          · exact h1 c hc
        · rw [fromUtf8Lossy_flatMap hcs, fromUtf8Lossy, hs]
          simp [Call.text, hrep, h2]
        · rw [displayLoop, h]
          simp only [hv, hl, valid_front, Write.index, bad_front hk]
          exact does_then (a := [_]) (does_str _) (does_then (a := [_]) (does_char _) (h3 w))

/-- **C04**, with any writer.  The calls it gets do not depend on it.  Each is for well-formed text, together they are for what
`from_utf8_lossy` gives, and they are made in order until one of them fails.  There are no panics. -/
theorem display_to (bs : List Nat) : ∃ calls : List Call, (∀ c ∈ calls, c.Valid) ∧ calls.flatMap Call.text = fromUtf8Lossy bs ∧
    ∀ {σ : Type} (w : Writer σ) (s : σ), Runs w s calls (displayTo w bs s).1 (displayTo w bs s).2 := by
  obtain ⟨calls, h1, h2, h3⟩ := displayLoop_spec (bs.length + 1) bs (by omega)
  exact ⟨calls, h1, h2, fun w => h3 w⟩

theorem hex2_ascii (b : Nat) (hb : b < 256) : WellFormed8 ([92, 120] ++ hex2 b) := by
  have h : ∀ d ∈ [92, 120] ++ hex2 b, d < 0x80 := by
    intro d hd
    simp only [List.mem_append, List.mem_cons, List.not_mem_nil, or_false] at hd
    rcases hd with (rfl | rfl) | hd
    · omega
    · omega
    · unfold hex2 at hd
      split at hd
      · rcases List.mem_cons.1 hd with rfl | hd
        · omega
        · exact (hex_spec b).2.2.2 d hd
      · exact (hex_spec b).2.2.2 d hd
  refine ⟨_, fun c hc => .inl (by have := h c hc; omega), ?_⟩
  generalize [92, 120] ++ hex2 b = l at h
  induction l with
  | nil => rfl
  | cons d l ih =>
    rw [List.flatMap_cons, ← ih fun x hx => h x (List.mem_cons_of_mem _ hx)]
    have := h d (by simp)
    simp [encode8, this]

theorem broken_calls (l : List Nat) (hl : ∀ b ∈ l, b < 256) :
    (∀ c ∈ l.flatMap fun b => [Call.str ([92, 120] ++ hex2 b)], c.Valid) ∧
    (l.flatMap fun b => [Call.str ([92, 120] ++ hex2 b)]).flatMap Call.text = l.flatMap (fun b => [92, 120] ++ hex2 b) := by
  constructor
  · intro c hc
    obtain ⟨b, hb, hc⟩ := List.mem_flatMap.1 hc
    rw [List.mem_singleton] at hc
    subst hc
    exact hex2_ascii b (hl b hb)
  · induction l with
    | nil => rfl
    | cons b l ih =>
      simp only [List.flatMap_cons, List.flatMap_append, ih fun x hx => hl x (List.mem_cons_of_mem _ hx)]
      simp [Call.text]

theorem debugLoopTo_spec (t : Tables) (n : Nat) : ∀ bs : List Nat, bs.length < n → (∀ b ∈ bs, b < 256) →
    ∃ calls : List Call, (∀ c ∈ calls, c.Valid) ∧ calls.flatMap Call.text = debugLoop t bs ∧
      ∀ {σ : Type} (w : Writer σ), Does w (debugLoopTo t w n bs) calls := by
  induction n with
  | zero => intro bs h; omega
  | succ n ih =>
    intro bs hn hb
    by_cases hnil : bs = []
    · subst hnil
      refine ⟨[], by simp, by rw [debugLoop]; simp, fun w => ?_⟩
      rw [debugLoopTo, if_pos rfl]
      exact does_ok
    rw [debugLoop, dif_neg hnil]
    cases h : fromUtf8 bs with
    | none =>
      obtain ⟨cs, hcs, rfl⟩ := (from_utf8_iff bs).1 h
      obtain ⟨calls, h1, h2, h3⟩ := debugCharsTo_spec t cs hcs [] [] (by simp)
      have hd := debugChars_spec t cs hcs [] 0 (by simp)
      simp only [List.nil_append, List.length_nil, List.drop_nil] at hd
      refine ⟨calls, h1, by simp only [hd]; simpa using h2, fun w => ?_⟩
      rw [debugLoopTo, if_neg hnil, h]
      simpa using h3 w
    | some e =>
      obtain ⟨cs, b0, rest, hcs, rfl, hv, hs⟩ := fromUtf8_err h
      obtain ⟨calls, h1, h2, h3⟩ := debugCharsTo_spec t cs hcs [] [] (by simp)
      have h3 := fun {σ : Type} (w : Writer σ) => h3 w
      simp only [List.nil_append, List.flatMap_nil, List.length_nil] at h2 h3
      have hd := debugChars_spec t cs hcs [] 0 (by simp)
      simp only [List.nil_append, List.length_nil, List.drop_nil] at hd
      simp only [hv, List.take_left, List.drop_left, hd]
      have hb' : ∀ b ∈ b0 :: rest, b < 256 := fun b hm => hb b (List.mem_append_right _ hm)
      cases hl : e.errorLen with
      | none =>
        obtain ⟨g1, g2⟩ := broken_calls (b0 :: rest) hb'
        refine ⟨calls ++ (((b0 :: rest).flatMap fun b => [Call.str ([92, 120] ++ hex2 b)]) ++ []), ?_, ?_, fun w => ?_⟩
        · intro c hc
          simp only [List.append_nil] at hc
          rcases List.mem_append.1 hc with hc | hc
          · exact h1 c hc
          · exact g1 c hc
        · rw [if_neg (by simp only [endOfBroken, List.length_append, List.length_cons]; omega)]
          simp only [List.flatMap_append, List.append_nil, h2, g2, endOfBroken]
          have e1 : (cs.flatMap encode8 ++ b0 :: rest).drop (cs.flatMap encode8 ++ b0 :: rest).length = [] := by simp
          rw [e1, debugLoop, dif_pos rfl, List.append_nil]
          congr 2
          rw [List.take_of_length_le (by simp only [List.length_append]; omega)]
        · rw [debugLoopTo, if_neg hnil, h]
          have e2 : byteSlice (cs.flatMap encode8 ++ b0 :: rest) (cs.flatMap encode8).length (cs.flatMap encode8 ++ b0 :: rest).length =
              some (b0 :: rest) := by
            have := byteSlice_some (a := cs.flatMap encode8) (b := b0 :: rest) (c := [])
            simpa [-List.length_flatMap] using this
          have e3 : byteSlice (cs.flatMap encode8 ++ b0 :: rest) (cs.flatMap encode8 ++ b0 :: rest).length
              (cs.flatMap encode8 ++ b0 :: rest).length = some [] := by
            unfold byteSlice
            rw [if_pos ⟨Nat.le_refl _, Nat.le_refl _⟩]
            simp
          simp only [hv, hl, valid_front, Write.index, endOfBroken, e2, e3]
          refine does_then (h3 w) (does_then (does_each (fun b => does_str _) _) ?_)
          cases n with
          | zero => simp at hn
          | succ n =>
            rw [debugLoopTo, if_pos rfl]
            exact does_ok
      | some k =>
        rw [hl] at hs
        have hk := step_bad_pos hs
        have htk : ∀ b ∈ (b0 :: rest).take k, b < 256 := fun b hm => hb' b (List.mem_of_mem_take hm)
        obtain ⟨g1, g2⟩ := broken_calls _ htk
        obtain ⟨more, m1, m2, m3⟩ := ih (rest.drop (k - 1)) (by
            simp only [List.length_append, List.length_cons] at hn
            simp only [List.length_drop]; omega)
          (fun b hm => hb' b (List.mem_cons_of_mem _ (List.mem_of_mem_drop hm)))
        have e1 : (cs.flatMap encode8 ++ b0 :: rest).drop ((cs.flatMap encode8).length + k) = rest.drop (k - 1) := by
          rw [List.drop_append]
          obtain ⟨k, rfl⟩ : ∃ j, k = j + 1 := ⟨k - 1, by omega⟩
          simp [-List.length_flatMap]
        refine ⟨calls ++ ((((b0 :: rest).take k).flatMap fun b => [Call.str ([92, 120] ++ hex2 b)]) ++ more), ?_, ?_, fun w => ?_⟩
        · intro c hc
          rcases List.mem_append.1 hc with hc | hc
          · exact h1 c hc
          rcases List.mem_append.1 hc with hc | hc
          · exact g1 c hc
          · exact m1 c hc
        · rw [if_neg (by simp only [endOfBroken]; omega)]
          simp only [List.flatMap_append, h2, g2, m2, endOfBroken]
          rw [e1, List.append_assoc]
          congr 2
          rw [Nat.add_sub_cancel_left]
        · rw [debugLoopTo, if_neg hnil, h]
          have e2 : byteSlice (cs.flatMap encode8 ++ b0 :: rest) (cs.flatMap encode8).length ((cs.flatMap encode8).length + k) =
              some ((b0 :: rest).take k) := by
            have := byteSlice_some (a := cs.flatMap encode8) (b := (b0 :: rest).take k) (c := (b0 :: rest).drop k)
            have hlen : ((b0 :: rest).take k).length = k := by simp; omega
            rw [List.append_assoc, List.take_append_drop, hlen] at this
            exact this
          simp only [hv, hl, valid_front, Write.index, endOfBroken, e2, bad_front hk]
          exact does_then (h3 w) (does_then (does_each (fun b => does_str _) _) (m3 w))

/-- **C05**, with any writer: as `display_to`.  That slices of a `&str` do not cut characters is part of it. -/
theorem debug_to (t : Tables) (bs : List Nat) (hb : ∀ b ∈ bs, b < 256) :
    ∃ calls : List Call, (∀ c ∈ calls, c.Valid) ∧ calls.flatMap Call.text = debug t bs ∧
      ∀ {σ : Type} (w : Writer σ) (s : σ), Runs w s calls (debugTo t w bs s).1 (debugTo t w bs s).2 := by
  obtain ⟨calls, h1, h2, h3⟩ := debugLoopTo_spec t (bs.length + 1) bs (by omega) hb
  have hq : IsScalar 34 := .inl (by omega)
  refine ⟨[.char 34] ++ (calls ++ [.char 34]), ?_, ?_, fun w => ?_⟩
  · intro c hc
    simp only [List.mem_append, List.mem_singleton] at hc
    rcases hc with rfl | hc | rfl
    · exact hq
    · exact h1 c hc
    · exact hq
  · simp only [List.flatMap_append, h2, debug]
    simp [Call.text, encode8]
  · exact does_then (does_char _) (does_then (h3 w) (does_char _))

/-- A writer with room for some bytes. -/
def room (n : Nat) : Writer (List Nat) where
  str s b := if s.length + b.length ≤ n then (s ++ b, true) else (s, false)
  char s c := if s.length + (push c).length ≤ n then (s ++ push c, true) else (s, false)

example : displayTo (room 5) [0x61, 0xFF, 0x62] [] = ([0x61] ++ replacement ++ [0x62], .ok) := by decide +kernel
example : displayTo (room 3) [0x61, 0xFF, 0x62] [] = ([0x61], .err) := by decide +kernel
example : debugTo ⟨fun _ => false, fun _ => true⟩ (room 20) [0x61, 0x0A, 0xE2, 0x82, 0xAC, 0xFF] [] =
    ([34, 0x61, 92, 110, 0xE2, 0x82, 0xAC, 92, 120, 102, 102, 34], .ok) := by decide +kernel
-- a slice that cuts a character panics
example : strSlice [0xE2, 0x82, 0xAC] 0 1 = none := by decide +kernel

end Verif.Utf8
