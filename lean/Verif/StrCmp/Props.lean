import Verif.StrCmp.Model
/-!
# C06
-/
namespace Verif.StrCmp

/-! ## Specification: lexicographic order over an order on bytes -/

/-- `l` sorts strictly before `r`: they agree up to a point where either `l` ends or `l`'s byte is
smaller. -/
def Before (lt : Nat → Nat → Prop) (l r : List Nat) : Prop :=
  ∃ p, (∃ b bs, l = p ∧ r = p ++ b :: bs) ∨
    ∃ a as b bs, l = p ++ a :: as ∧ r = p ++ b :: bs ∧ lt a b

/-- The order of single bytes that `char` gives. -/
def ByteLt (signed : Bool) (a b : Nat) : Prop :=
  match signed with
  | false => a < b
  | true => (a % 256 + 128) % 256 < (b % 256 + 128) % 256

/-- All bytes. -/
def Bytes (l : List Nat) : Prop := ∀ b ∈ l, b < 256

theorem toChar_lt {s : Bool} {a b : Nat} (ha : a < 256) (hb : b < 256) :
    toChar s a < toChar s b ↔ ByteLt s a b := by
  unfold toChar ByteLt
  cases s
  · simp
  · simp only [true_and]
    split <;> split <;> omega

theorem toChar_eq {s : Bool} {a b : Nat} (ha : a < 256) (hb : b < 256) :
    toChar s a = toChar s b ↔ a = b := by
  unfold toChar
  cases s
  · simp; omega
  · simp only [true_and]
    split <;> split <;> omega

theorem bytes_cons {a : Nat} {l : List Nat} (h : Bytes (a :: l)) : a < 256 ∧ Bytes l :=
  ⟨h a (by simp), fun b hb => h b (by simp [hb])⟩

theorem byteLt_irrefl (s : Bool) (a : Nat) : ¬ ByteLt s a a := by
  unfold ByteLt; cases s <;> simp

theorem before_cons {s : Bool} {a b : Nat} {l r : List Nat} :
    Before (ByteLt s) (a :: l) (b :: r) ↔ ByteLt s a b ∨ (a = b ∧ Before (ByteLt s) l r) := by
  constructor
  · rintro ⟨p, h⟩
    cases p with
    | nil =>
      rcases h with ⟨_, _, h1, _⟩ | ⟨x, xs, y, ys, h1, h2, h3⟩
      · cases h1
      · simp at h1 h2; rw [← h1.1, ← h2.1] at h3; exact Or.inl h3
    | cons c p =>
      rcases h with ⟨x, xs, h1, h2⟩ | ⟨x, xs, y, ys, h1, h2, h3⟩
      · simp at h1 h2
        exact Or.inr ⟨h1.1.trans h2.1.symm, p, Or.inl ⟨x, xs, h1.2, h2.2⟩⟩
      · simp at h1 h2
        exact Or.inr ⟨h1.1.trans h2.1.symm, p, Or.inr ⟨x, xs, y, ys, h1.2, h2.2, h3⟩⟩
  · rintro (h | ⟨rfl, p, h⟩)
    · exact ⟨[], Or.inr ⟨a, l, b, r, rfl, rfl, h⟩⟩
    · rcases h with ⟨x, xs, h1, h2⟩ | ⟨x, xs, y, ys, h1, h2, h3⟩
      · exact ⟨a :: p, Or.inl ⟨x, xs, by simp [h1], by simp [h2]⟩⟩
      · exact ⟨a :: p, Or.inr ⟨x, xs, y, ys, by simp [h1], by simp [h2], h3⟩⟩

theorem lt_iff {s : Bool} : ∀ {l r : List Nat}, Bytes l → Bytes r → (lt s l r = true ↔ Before (ByteLt s) l r) := by
  unfold lt
  intro l
  induction l with
  | nil =>
    intro r _ _
    cases r with
    | nil =>
      simp only [lexCompare, Bool.false_eq_true, false_iff]
      rintro ⟨p, ⟨b, bs, _, h⟩ | ⟨a, as, b, bs, h, _⟩⟩ <;> simp at h
    | cons b r => simp only [lexCompare, true_iff]; exact ⟨[], Or.inl ⟨b, r, rfl, rfl⟩⟩
  | cons a l ih =>
    intro r hl hr
    cases r with
    | nil =>
      simp only [lexCompare, Bool.false_eq_true, false_iff]
      rintro ⟨p, ⟨b, bs, _, h⟩ | ⟨a, as, b, bs, _, h, _⟩⟩ <;> simp at h
    | cons b r =>
      obtain ⟨ha, hl'⟩ := bytes_cons hl
      obtain ⟨hb, hr'⟩ := bytes_cons hr
      rw [before_cons, lexCompare]
      by_cases h1 : toChar s a < toChar s b
      · simp [h1, (toChar_lt ha hb).1 h1]
      · by_cases h2 : toChar s b < toChar s a
        · have h3 : ¬ ByteLt s a b := fun h => h1 ((toChar_lt ha hb).2 h)
          have h4 : a ≠ b := by rintro rfl; omega
          simp [h1, h2, h3, h4]
        · have h3 : ¬ ByteLt s a b := fun h => h1 ((toChar_lt ha hb).2 h)
          have h4 : a = b := (toChar_eq (s := s) ha hb).1 (by omega)
          subst h4
          simp [byteLt_irrefl, ih hl' hr']

theorem stdEqual_iff {s : Bool} : ∀ {l r : List Nat}, Bytes l → Bytes r → l.length = r.length →
    stdEqual s l r = some (decide (l = r)) := by
  intro l
  induction l with
  | nil => intro r _ _ h; cases r with
    | nil => simp [stdEqual]
    | cons b r => simp at h
  | cons a l ih =>
    intro r hl hr h
    cases r with
    | nil => simp at h
    | cons b r =>
      obtain ⟨ha, hl'⟩ := bytes_cons hl
      obtain ⟨hb, hr'⟩ := bytes_cons hr
      simp only [stdEqual, toChar_eq ha hb]
      by_cases hab : a = b
      · simp [hab, ih hl' hr' (by simpa using h)]
      · simp [hab]

theorem le_iff {s : Bool} : ∀ {l r : List Nat}, Bytes l → Bytes r →
    (le s l r = true ↔ l = r ∨ Before (ByteLt s) l r) := by
  intro l
  induction l with
  | nil =>
    intro r _ _
    simp only [le, true_iff]
    cases r with
    | nil => exact Or.inl rfl
    | cons b r => exact Or.inr ⟨[], Or.inl ⟨b, r, rfl, rfl⟩⟩
  | cons a l ih =>
    intro r hl hr
    cases r with
    | nil =>
      simp only [le, Bool.false_eq_true, false_iff]
      rintro (h | ⟨p, ⟨b, bs, _, h⟩ | ⟨a, as, b, bs, _, h, _⟩⟩) <;> simp at h
    | cons b r =>
      obtain ⟨ha, hl'⟩ := bytes_cons hl
      obtain ⟨hb, hr'⟩ := bytes_cons hr
      rw [before_cons, le]
      simp only [toChar_eq ha hb]
      by_cases hab : a = b
      · subst hab
        simp [ih hl' hr', byteLt_irrefl]
      · have : toChar s a ≠ toChar s b := fun e => hab ((toChar_eq ha hb).1 e)
        simp only [hab, if_false, decide_eq_true_eq, List.cons.injEq, false_and, false_or, or_false]
        rw [← toChar_lt ha hb]; omega

theorem before_trichotomy {s : Bool} : ∀ {l r : List Nat}, Bytes l → Bytes r →
    l = r ∨ Before (ByteLt s) l r ∨ Before (ByteLt s) r l := by
  intro l
  induction l with
  | nil => intro r _ _; cases r with
    | nil => exact Or.inl rfl
    | cons b r => exact Or.inr (Or.inl ⟨[], Or.inl ⟨b, r, rfl, rfl⟩⟩)
  | cons a l ih =>
    intro r hl hr
    cases r with
    | nil => exact Or.inr (Or.inr ⟨[], Or.inl ⟨a, l, rfl, rfl⟩⟩)
    | cons b r =>
      obtain ⟨ha, hl'⟩ := bytes_cons hl
      obtain ⟨hb, hr'⟩ := bytes_cons hr
      rw [before_cons, before_cons, ← toChar_lt ha hb, ← toChar_lt hb ha]
      rcases Int.lt_trichotomy (toChar s a) (toChar s b) with h | h | h
      · exact Or.inr (Or.inl (Or.inl h))
      · have := (toChar_eq ha hb).1 h
        subst this
        rcases ih hl' hr' with h | h | h
        · exact Or.inl (by rw [h])
        · exact Or.inr (Or.inl (Or.inr ⟨rfl, h⟩))
        · exact Or.inr (Or.inr (Or.inr ⟨rfl, h⟩))
      · exact Or.inr (Or.inr (Or.inl h))

theorem before_irrefl {s : Bool} (l : List Nat) : ¬ Before (ByteLt s) l l := by
  induction l with
  | nil => rintro ⟨p, ⟨b, bs, _, h⟩ | ⟨a, as, b, bs, h, _⟩⟩ <;> simp at h
  | cons a l ih =>
    rw [before_cons]
    rintro (h | ⟨_, h⟩)
    · exact byteLt_irrefl s a h
    · exact ih h

theorem byteLt_trans {s : Bool} {a b c : Nat} (h : ByteLt s a b) (h' : ByteLt s b c) : ByteLt s a c := by
  unfold ByteLt at *; cases s <;> simp only at * <;> omega

theorem before_trans {s : Bool} : ∀ {l m r : List Nat}, Before (ByteLt s) l m → Before (ByteLt s) m r →
    Before (ByteLt s) l r := by
  intro l
  induction l with
  | nil =>
    intro m r _ h2
    cases r with
    | nil =>
      obtain ⟨p, ⟨b, bs, _, h⟩ | ⟨a, as, b, bs, _, h, _⟩⟩ := h2 <;> simp at h
    | cons c r => exact ⟨[], Or.inl ⟨c, r, rfl, rfl⟩⟩
  | cons a l ih =>
    intro m r h1 h2
    cases m with
    | nil => obtain ⟨p, ⟨b, bs, _, h⟩ | ⟨a, as, b, bs, _, h, _⟩⟩ := h1 <;> simp at h
    | cons b m =>
      cases r with
      | nil => obtain ⟨p, ⟨b, bs, _, h⟩ | ⟨a, as, b, bs, _, h, _⟩⟩ := h2 <;> simp at h
      | cons c r =>
        rw [before_cons] at h1 h2 ⊢
        rcases h1 with h1 | ⟨rfl, h1⟩ <;> rcases h2 with h2 | ⟨rfl, h2⟩
        · exact Or.inl (byteLt_trans h1 h2)
        · exact Or.inl h1
        · exact Or.inl h2
        · exact Or.inr ⟨rfl, ih h1 h2⟩

/-- **C06**. On both signednesses of `char`, the six operators agree with equality of bytes and one
lexicographic order; none reads outside its operands. -/
theorem str_operators_agree (s : Bool) (l r : List Nat) (hl : Bytes l) (hr : Bytes r) :
    eq s l r = some (decide (l = r)) ∧ ne s l r = some (decide (l ≠ r)) ∧
    (lt s l r = true ↔ Before (ByteLt s) l r) ∧
    (le s l r = true ↔ l = r ∨ Before (ByteLt s) l r) ∧
    (gt s l r = true ↔ Before (ByteLt s) r l) ∧
    (ge s l r = true ↔ r = l ∨ Before (ByteLt s) r l) := by
  have he : eq s l r = some (decide (l = r)) := by
    unfold eq
    by_cases h : l.length = r.length
    · rw [if_pos h, stdEqual_iff hl hr h]
    · rw [if_neg h]
      have : l ≠ r := fun e => h (by rw [e])
      simp [this]
  refine ⟨he, ?_, lt_iff hl hr, le_iff hl hr, lt_iff hr hl, le_iff hr hl⟩
  rw [ne, he]; simp

/-- **C06**. That order is a strict total order, a proper prefix comes first, and for unsigned `char`
it is Rust's order on `str` (unsigned bytes, lexicographic). -/
theorem str_order_total (s : Bool) :
    (∀ l, ¬ Before (ByteLt s) l l) ∧
    (∀ l m r, Before (ByteLt s) l m → Before (ByteLt s) m r → Before (ByteLt s) l r) ∧
    (∀ l r, Bytes l → Bytes r → l = r ∨ Before (ByteLt s) l r ∨ Before (ByteLt s) r l) ∧
    (∀ l b bs, Before (ByteLt s) l (l ++ b :: bs)) ∧
    (∀ l r, Before (ByteLt false) l r ↔ Before (· < ·) l r) :=
  ⟨before_irrefl, fun _ _ _ => before_trans, fun _ _ => before_trichotomy,
    fun l b bs => ⟨l, Or.inl ⟨b, bs, rfl, rfl⟩⟩, fun _ _ => Iff.rfl⟩

/-- Where `char` is signed, `rust::Str`'s order differs from Rust's: "é" sorts before "z" in C++ and
after it in Rust. -/
theorem str_order_signed_differs :
    lt true [0xC3, 0xA9] [0x7A] = true ∧ lt false [0xC3, 0xA9] [0x7A] = false ∧
    ¬ Before (· < ·) [0xC3, 0xA9] [0x7A] := by
  refine ⟨by decide, by decide, ?_⟩
  have := (lt_iff (s := false) (l := [0xC3, 0xA9]) (r := [0x7A]) (by intro b hb; simp at hb; omega)
    (by intro b hb; simp at hb; omega)).2
  intro h
  exact absurd (this h) (by decide)

example : lt false [0x61, 0x62] [0x61, 0x62, 0x63] = true ∧ le true [0x61, 0x63] [0x61, 0x62, 0x63] = false := by decide

/-! ### Strings in memory -/

/-- The memory holds the bytes `bs` from the address `p` on. -/
def Holds (m : Mem) (p : Nat) (bs : List Nat) : Prop := ∀ i, ∀ h : i < bs.length, m (p + i) = bs[i]

/-- What an operator says about two byte strings, with the order of `char`. -/
def Says (s : Bool) : Cmp → List Nat → List Nat → Prop
  | .eq, l, r => l = r
  | .ne, l, r => l ≠ r
  | .lt, l, r => Before (ByteLt s) l r
  | .le, l, r => l = r ∨ Before (ByteLt s) l r
  | .gt, l, r => Before (ByteLt s) r l
  | .ge, l, r => r = l ∨ Before (ByteLt s) r l

theorem walk_holds {m : Mem} {p : Nat} {bs : List Nat} (h : Holds m p bs) : walk m p (p + bs.length) = bs := by
  apply List.ext_getElem
  · simp [walk]
  · intro i hi hi'
    simp [walk, h i hi']

theorem print_holds {m : Mem} {p : Nat} {bs : List Nat} (h : Holds m p bs) :
    (List.range bs.length).map (fun i => m (p + i)) = bs := by
  apply List.ext_getElem
  · simp
  · intro i hi hi'
    simp [h i hi']

/-- **C06** (objects).  Wherever two `rust::Str`s or two `rust::String`s lie, whatever lies behind them and whatever their
capacities, the six operators answer, and say of them what they say of their bytes. -/
theorem string_operators_agree (s : Bool) (m : Mem) (o : Cmp) {l r : List Nat} (hl : Bytes l) (hr : Bytes r) {p q : Nat}
    (hp : Holds m p l) (hq : Holds m q r) :
    (∃ b, StrObj.cmp s m o ⟨p, l.length⟩ ⟨q, r.length⟩ = some b ∧ (b = true ↔ Says s o l r)) ∧
    ∀ c c', ∃ b, StringObj.cmp s m o ⟨p, l.length, c⟩ ⟨q, r.length, c'⟩ = some b ∧ (b = true ↔ Says s o l r) := by
  have key : ∃ b, StrObj.cmp s m o ⟨p, l.length⟩ ⟨q, r.length⟩ = some b ∧ (b = true ↔ Says s o l r) := by
    obtain ⟨he, hn, h1, h2, h3, h4⟩ := str_operators_agree s l r hl hr
    cases o <;> simp only [StrObj.cmp, StrObj.first, StrObj.last, walk_holds hp, walk_holds hq, he, hn, Option.some.injEq,
      exists_eq_left', Says, decide_eq_true_eq, h1, h2, h3, h4]
  refine ⟨key, fun c c' => ?_⟩
  have : StringObj.cmp s m o ⟨p, l.length, c⟩ ⟨q, r.length, c'⟩ = StrObj.cmp s m o ⟨p, l.length⟩ ⟨q, r.length⟩ := by
    cases o <;> rfl
  rw [this]; exact key

/-- **C06** (iteration and output).  Iterating over a string and printing it both go through exactly its bytes, NUL bytes
among them. -/
theorem string_bytes_iterated (m : Mem) {l : List Nat} {p : Nat} (hp : Holds m p l) (c : Nat) :
    walk m (StringObj.first ⟨p, l.length, c⟩) (StringObj.last ⟨p, l.length, c⟩) = l ∧
    walk m (StrObj.first ⟨p, l.length⟩) (StrObj.last ⟨p, l.length⟩) = l ∧
    StringObj.print m ⟨p, l.length, c⟩ = l ∧ StrObj.print m ⟨p, l.length⟩ = l :=
  ⟨walk_holds hp, walk_holds hp, print_holds hp, print_holds hp⟩

/-- "a" at 10 and "a\0b" at 20. -/
example : let m : Mem := fun i => if i = 10 ∨ i = 20 then 97 else if i = 21 then 0 else 98
    Holds m 10 [97] ∧ Holds m 20 [97, 0, 98] ∧ Says true .lt [97] [97, 0, 98] ∧
    StringObj.cmp true m .lt ⟨10, 1, 64⟩ ⟨20, 3, 3⟩ = some true := by
  refine ⟨?_, ?_, ⟨[97], .inl ⟨0, [98], rfl, rfl⟩⟩, by decide⟩
  · intro i hi; simp at hi; subst hi; rfl
  · intro i hi
    match i, hi with
    | 0, _ | 1, _ | 2, _ => rfl

end Verif.StrCmp
