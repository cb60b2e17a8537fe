import Verif.Header.Props
import Verif.Header.Text
/-!
# The sections of rust/cxx.h
-/
namespace Verif.Header

theorem nat_beq (a b : Nat) : Nat.beq a b = decide (a = b) := by
  cases h : Nat.beq a b with
  | true => simp [Nat.eq_of_beq_eq_true h]
  | false => simp [Nat.ne_of_beq_eq_false h]

/-- `List.all` for lists of bytes, quicker to evaluate. -/
noncomputable def allB (p : Nat → Bool) (t : Text) : Bool := List.rec true (fun b _ more => p b && more) t

theorem allB_eq (p : Nat → Bool) (t : Text) : allB p t = t.all p := by
  induction t with
  | nil => rfl
  | cons b t ih => rw [List.all_cons, ← ih]; rfl

noncomputable def oneLineB (t : Text) : Bool := allB (fun b => !Nat.beq b 10 && !Nat.beq b 13) t

theorem oneLineB_iff (t : Text) : oneLineB t = true ↔ OneLine t := by
  simp only [oneLineB, allB_eq, OneLine, List.all_eq_true, Bool.and_eq_true, Bool.not_eq_true', nat_beq, decide_eq_false_iff_not]
  constructor
  · intro h; exact ⟨fun h' => (h 10 h').1 rfl, fun h' => (h 13 h').2 rfl⟩
  · intro h b hb; exact ⟨fun e => h.1 (e ▸ hb), fun e => h.2 (e ▸ hb)⟩

def prefixB : Text → Text → Bool
  | [], _ => true
  | _ :: _, [] => false
  | b :: p, c :: s => Nat.beq b c && prefixB p s

theorem prefixB_iff : ∀ p s : Text, prefixB p s = true ↔ ∃ r, s = p ++ r
  | [], s => by simp [prefixB]
  | _ :: _, [] => by simp [prefixB]
  | b :: p, c :: s => by
    simp only [prefixB, nat_beq, Bool.and_eq_true, decide_eq_true_eq, prefixB_iff p s, List.cons_append, List.cons.injEq]
    constructor
    · rintro ⟨rfl, r, rfl⟩; exact ⟨r, rfl, rfl⟩
    · rintro ⟨r, rfl, rfl⟩; exact ⟨rfl, r, rfl⟩

def endsWithB (l t : Text) : Bool := prefixB t.reverse l.reverse

theorem endsWithB_iff (l t : Text) : endsWithB l t = true ↔ EndsWith l t := by
  rw [endsWithB, prefixB_iff, EndsWith]
  constructor
  · rintro ⟨r, h⟩; exact ⟨r.reverse, by rw [← List.reverse_reverse l, h]; simp⟩
  · rintro ⟨s, rfl⟩; exact ⟨s.reverse, by simp⟩

/-- The line marks nothing for any of the guards. -/
noncomputable def quiet (guards : List Text) (l : Text) : Bool :=
  allB (fun b => !Nat.beq b 35) l || guards.all fun g => !endsWithB l (ifndef ++ g) && !endsWithB l (endif ++ g)

theorem quiet_spec {guards : List Text} {l : Text} (h : quiet guards l = true) {g : Text} (hg : g ∈ guards) :
    ¬ EndsWith l (ifndef ++ g) ∧ ¬ EndsWith l (endif ++ g) := by
  rw [quiet, Bool.or_eq_true] at h
  rcases h with h | h
  · have h35 : 35 ∉ l := fun hm => by
      simp only [allB_eq, nat_beq, Bool.not_eq_true', List.all_eq_true, decide_eq_false_iff_not] at h
      exact h 35 hm rfl
    constructor
    · rintro ⟨s, rfl⟩; exact h35 (by simp [ifndef])
    · rintro ⟨s, rfl⟩; exact h35 (by simp [endif])
  · rw [List.all_eq_true] at h
    have := h g hg
    simp only [Bool.and_eq_true, Bool.not_eq_true'] at this
    rw [← endsWithB_iff, ← endsWithB_iff, this.1, this.2]
    simp

def blankB (b : Nat) : Bool := decide (b = 32) || (decide (9 ≤ b) && decide (b ≤ 13))

theorem blankB_iff (b : Nat) : blankB b = true ↔ Blank b := by simp [blankB, Blank]

/-- Drops the empty lines at the front. -/
def dropEmpty : List Text → List Text
  | [] :: ls => dropEmpty ls
  | [] => []
  | (b :: l) :: ls => (b :: l) :: ls

theorem dropEmpty_spec : ∀ ls : List Text, ∃ n, ls = List.replicate n [] ++ dropEmpty ls
  | [] => ⟨0, rfl⟩
  | [] :: ls => by
    obtain ⟨n, h⟩ := dropEmpty_spec ls
    exact ⟨n + 1, by rw [dropEmpty, List.replicate_succ, List.cons_append, ← h]⟩
  | (b :: l) :: ls => ⟨0, rfl⟩

def core (body : List Text) : List Text := (dropEmpty (dropEmpty body).reverse).reverse

def startsB : List Text → Bool
  | (b :: _) :: _ => !blankB b
  | _ => false

theorem startsB_spec : ∀ {ls : List Text}, startsB ls = true → ∃ b l rest, ls = (b :: l) :: rest ∧ ¬ Blank b
  | (b :: l) :: rest, h => ⟨b, l, rest, rfl, by rw [← blankB_iff]; simpa [startsB] using h⟩

def endsB (body : List Text) : Bool :=
  match body.getLast? with
  | some l => match l.getLast? with
    | some b => !blankB b
    | none => false
  | none => false

def solidB (body : List Text) : Bool := startsB (core body) && endsB (core body)

theorem solidB_spec {body : List Text} (h : solidB body = true) : ∃ core, Trimmed body core := by
  rw [solidB, Bool.and_eq_true] at h
  obtain ⟨h1, h2⟩ := h
  refine ⟨core body, ?_, startsB_spec h1, ?_⟩
  · obtain ⟨i, hi⟩ := dropEmpty_spec body
    obtain ⟨j, hj⟩ := dropEmpty_spec (dropEmpty body).reverse
    refine ⟨i, j, ?_⟩
    have := congrArg List.reverse hj
    rw [List.reverse_reverse, List.reverse_append, List.reverse_replicate] at this
    rw [List.append_assoc, core, ← this, ← hi]
  · rw [endsB] at h2
    split at h2
    · rename_i l hl
      split at h2
      · rename_i b hb
        obtain ⟨init, hi⟩ := List.getLast?_eq_some_iff.1 hl
        obtain ⟨l', rfl⟩ := List.getLast?_eq_some_iff.1 hb
        exact ⟨init, l', b, hi, by rw [← blankB_iff]; simpa using h2⟩
      · cases h2
    · cases h2

/-- One chunk is in order for all of the guards. -/
noncomputable def chunkOk (guards : List Text) : Chunk → Bool
  | .text l => oneLineB l && quiet guards l
  | .guarded g body => oneLineB g && solidB body && body.all (fun l => oneLineB l && quiet guards l) &&
      guards.all fun g' => decide (g = g') || (!endsWithB (ifndef ++ g) (ifndef ++ g') && !endsWithB (ifndef ++ g) (endif ++ g') &&
        !endsWithB (endif ++ g) (ifndef ++ g') && !endsWithB (endif ++ g) (endif ++ g'))

theorem proper_of {guards : List Text} {layout : List Chunk}
    (hg : guards.all (fun g => oneLineB g && !g.contains 35) = true) (hl : layout.all (chunkOk guards) = true)
    {g : Text} (h : g ∈ guards) : Proper g layout := by
  rw [List.all_eq_true] at hg hl
  have hgg := hg g h
  rw [Bool.and_eq_true, oneLineB_iff] at hgg
  refine ⟨hgg.1, by simpa using hgg.2, ?_, ?_, ?_⟩
  · intro c hc l hlc
    have := hl c hc
    cases c with
    | text t =>
      simp only [Chunk.lines, List.mem_singleton] at hlc
      subst hlc
      rw [chunkOk, Bool.and_eq_true, oneLineB_iff] at this
      exact this.1
    | guarded g' body =>
      simp only [chunkOk, Bool.and_eq_true, oneLineB_iff, List.all_eq_true] at this
      simp only [Chunk.lines, List.cons_append, List.mem_cons, List.mem_append, List.not_mem_nil, or_false] at hlc
      rcases hlc with rfl | hlc | rfl
      · exact ifndef_line this.1.1.1
      · exact (this.1.2 l hlc).1
      · exact endif_line this.1.1.1
  · intro l hlo
    obtain ⟨c, hc, hlc⟩ := List.mem_flatMap.1 hlo
    have hck := hl c hc
    cases c with
    | text t =>
      simp only [List.mem_singleton] at hlc
      subst hlc
      rw [chunkOk, Bool.and_eq_true] at hck
      exact quiet_spec hck.2 h
    | guarded g' body =>
      simp only [chunkOk, Bool.and_eq_true, List.all_eq_true] at hck
      simp only at hlc
      by_cases hgg' : g' = g
      · rw [if_pos hgg'] at hlc
        exact quiet_spec (hck.1.2 l hlc).2 h
      · rw [if_neg hgg'] at hlc
        simp only [List.cons_append, List.mem_cons, List.mem_append, List.not_mem_nil, or_false] at hlc
        have hx := hck.2 g h
        simp only [hgg', decide_false, Bool.false_or, Bool.and_eq_true, Bool.not_eq_true'] at hx
        rcases hlc with rfl | hlc | rfl
        · rw [← endsWithB_iff, ← endsWithB_iff, hx.1.1.1, hx.1.1.2]; simp
        · exact quiet_spec (hck.1.2 l hlc).2 h
        · rw [← endsWithB_iff, ← endsWithB_iff, hx.1.2, hx.2]; simp
  · intro body hbody
    simp only [bodies, List.mem_filterMap] at hbody
    obtain ⟨c, hc, hcb⟩ := hbody
    have hck := hl c hc
    cases c with
    | text t => cases hcb
    | guarded g' b =>
      simp only at hcb
      split at hcb
      · cases hcb
        simp only [chunkOk, Bool.and_eq_true] at hck
        exact solidB_spec hck.1.1.2
      · cases hcb

/-- gen/src/builtin.rs:155, 184-197: the guards passed to `ifndef::write`. -/
noncomputable def guards : List Text :=
  [b!"CXXBRIDGE1_PANIC", b!"CXXBRIDGE1_RUST_STRING", b!"CXXBRIDGE1_RUST_STR", b!"CXXBRIDGE1_RUST_SLICE",
   b!"CXXBRIDGE1_RUST_BOX", b!"CXXBRIDGE1_RUST_BITCOPY_T", b!"CXXBRIDGE1_RUST_BITCOPY", b!"CXXBRIDGE1_RUST_VEC",
   b!"CXXBRIDGE1_RUST_FN", b!"CXXBRIDGE1_RUST_ERROR", b!"CXXBRIDGE1_RUST_ISIZE", b!"CXXBRIDGE1_RUST_OPAQUE",
   b!"CXXBRIDGE1_IS_COMPLETE", b!"CXXBRIDGE1_LAYOUT", b!"CXXBRIDGE1_RELOCATABLE"]

/-- rust/cxx.h is laid out properly for all of them. -/
theorem cxx_proper {g : Text} (h : g ∈ guards) : Proper g Cxx.layout :=
  proper_of (guards := guards) (by decide +kernel) (by decide +kernel) h

/-- Every section that can be asked for is there. -/
theorem cxx_has {g : Text} (h : g ∈ guards) : bodies g Cxx.layout ≠ [] := by
  have : guards.all (fun g => !(bodies g Cxx.layout).isEmpty) = true := by decide +kernel
  rw [List.all_eq_true] at this
  have := this g h
  intro h'
  rw [h'] at this
  cases this

/-- **C50** for rust/cxx.h: every section the generator asks for is found in it and copied whole. -/
theorem cxx_sections {g : Text} (h : g ∈ guards) :
    ∃ out, Copied g (bodies g Cxx.layout) (.nextSection :: out) ∧
      write (textOf Cxx.layout) true g =
        some (.nextSection :: .line (ifndef ++ g) :: .line (define ++ g) :: out ++ [.line (endif ++ g)]) :=
  write_exact (cxx_proper h) (cxx_has h)

example : (bodies b!"CXXBRIDGE1_RUST_FN" Cxx.layout).map List.length = [14, 10] := by decide +kernel

end Verif.Header
