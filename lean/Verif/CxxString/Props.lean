import Verif.CxxString.Spec
import Verif.Utf8.Props
/-!
# C13, C14
-/
namespace Verif.CxxString
open Verif Spec

/-- The memory holds the bytes followed by NUL. -/
def Holds (s : Std) (x : List Nat) : Prop := s.len = x.length ∧ ∃ rest, s.mem = x ++ 0 :: rest

def Rel (s : State) : Vars → Prop
  | none => s.ended = true
  | some a => s.ended = false ∧ ∀ p, (s.strs p = none ∧ a p = none) ∨ ∃ d x, s.strs p = some d ∧ a p = some x ∧ Holds d x

theorem holds_make (bs j : List Nat) : Holds (Std.make bs j) bs := ⟨rfl, j, rfl⟩

theorem holds_clear {s : Std} {x : List Nat} (h : Holds s x) : Holds s.clear [] := by
  obtain ⟨_, rest, h2⟩ := h
  unfold Std.clear
  rw [h2]
  cases x with
  | nil => exact ⟨rfl, rest, rfl⟩
  | cons b bs => exact ⟨rfl, bs ++ 0 :: rest, rfl⟩

theorem holds_append {c : Config} {s : Std} {x : List Nat} (h : Holds s x) (bs j : List Nat)
    (hm : x.length + bs.length ≤ c.maxSize) : ∃ d, s.append c bs j = some d ∧ Holds d (x ++ bs) := by
  obtain ⟨h1, rest, h2⟩ := h
  unfold Std.append
  rw [if_neg (by omega)]
  have ht : s.mem.take s.len = x := by rw [h2, h1]; simp
  split
  · exact ⟨_, rfl, by simp [h1], _, by rw [ht]⟩
  · exact ⟨_, rfl, by simp [h1], j, by rw [ht]⟩

theorem append_none {c : Config} {s : Std} {x : List Nat} (h : Holds s x) (bs j : List Nat)
    (hm : x.length + bs.length > c.maxSize) : s.append c bs j = none := by
  unfold Std.append; rw [if_pos (by rw [h.1]; exact hm)]

theorem holds_reserve {c : Config} {s : Std} {x : List Nat} (h : Holds s x) (n : Nat) (j : List Nat)
    (hm : n ≤ c.maxSize) : ∃ d, s.reserve c n j = some d ∧ Holds d x := by
  unfold Std.reserve
  rw [if_neg (by omega)]
  split
  · exact ⟨s, rfl, h⟩
  · obtain ⟨h1, rest, h2⟩ := h
    refine ⟨_, rfl, h1, j, ?_⟩
    simp only [h2, h1]
    simp [List.take_append, List.take_of_length_le]

theorem asBytes_holds {s : Std} {x : List Nat} (h : Holds s x) : asBytes s = .ok x := by
  obtain ⟨h1, rest, h2⟩ := h
  unfold asBytes
  rw [if_pos (by rw [h1, h2]; simp), h1, h2]; simp

theorem cstrFrom_cut (x rest : List Nat) : cstrFrom (x ++ 0 :: rest) = .ok (cut x) := by
  induction x with
  | nil => simp [cstrFrom, cut]
  | cons b bs ih =>
    simp only [List.cons_append, cstrFrom, cut, List.takeWhile]
    by_cases hb : b = 0
    · simp [hb]
    · simp only [cut] at ih; simp [hb, ih]

theorem sliceCmp_isOrd : ∀ (x y : List Nat), IsOrd x y (sliceCmp x y)
  | [], [] => rfl
  | [], b :: bs => ⟨[], Or.inl ⟨b, bs, rfl, rfl⟩⟩
  | a :: as, [] => ⟨[], Or.inl ⟨a, as, rfl, rfl⟩⟩
  | a :: as, b :: bs => by
    unfold sliceCmp
    split
    · next h => exact ⟨[], Or.inr ⟨a, as, b, bs, rfl, rfl, h⟩⟩
    · split
      · next h => exact ⟨[], Or.inr ⟨b, bs, a, as, rfl, rfl, h⟩⟩
      · have hab : a = b := by omega
        subst hab
        have ih := sliceCmp_isOrd as bs
        cases hr : sliceCmp as bs <;> rw [hr] at ih
        · obtain ⟨p, hp⟩ := ih
          refine ⟨a :: p, ?_⟩
          rcases hp with ⟨b, bs', h1, h2⟩ | ⟨u, us, v, vs, h1, h2, h3⟩
          · exact Or.inl ⟨b, bs', by rw [h1], by rw [h2]; rfl⟩
          · exact Or.inr ⟨u, us, v, vs, by rw [h1]; rfl, by rw [h2]; rfl, h3⟩
        · exact congrArg (a :: ·) ih
        · obtain ⟨p, hp⟩ := ih
          refine ⟨a :: p, ?_⟩
          rcases hp with ⟨b, bs', h1, h2⟩ | ⟨u, us, v, vs, h1, h2, h3⟩
          · exact Or.inl ⟨b, bs', by rw [h1], by rw [h2]; rfl⟩
          · exact Or.inr ⟨u, us, v, vs, by rw [h1]; rfl, by rw [h2]; rfl, h3⟩

theorem rel_put {s : State} {a : Nat → Option (List Nat)} (h : Rel s (some a)) (o : Nat) {d : Std} {x : List Nat}
    (hd : Holds d x) : Rel (put s o d) (some (store a o (some x))) := by
  refine ⟨h.1, fun p => ?_⟩
  by_cases hp : p = o
  · subst hp; exact Or.inr ⟨d, x, by simp [put], by simp [store], hd⟩
  · rcases h.2 p with ⟨h1, h2⟩ | ⟨d', x', h1, h2, h3⟩
    · exact Or.inl ⟨by simp [put, upd_ne _ _ hp, h1], by simp [store, hp, h2]⟩
    · exact Or.inr ⟨d', x', by simp [put, upd_ne _ _ hp, h1], by simp [store, hp, h2], h3⟩

theorem store_self {a : Nat → Option (List Nat)} {o : Nat} {x : List Nat} (h : a o = some x) : store a o (some x) = a := by
  funext p; simp only [store]; split
  · next e => rw [e, h]
  · rfl

/-- What is at an address. -/
theorem at_cases {s : State} {a : Nat → Option (List Nat)} (h : Rel s (some a)) (o : Nat) :
    (this s o = .error .illegal ∧ bytesAt s o = .error .illegal ∧ s.strs o = none ∧ a o = none) ∨
    ∃ d x, this s o = .ok d ∧ bytesAt s o = .ok x ∧ a o = some x ∧ Holds d x ∧ s.strs o = some d := by
  rcases h.2 o with ⟨h1, h2⟩ | ⟨d, x, h1, h2, h3⟩
  · exact Or.inl ⟨by simp [this, h1], by simp [bytesAt, this, h1], h1, h2⟩
  · exact Or.inr ⟨d, x, by simp [this, h1], by simp [bytesAt, this, h1, asBytes_holds h3], h2, h3, h1⟩

theorem step_ok (c : Config) (s : State) (v : Vars) (op : Op) (h : Rel s v) :
    StepOk Rel (step c) (Step c) (Legal c) s v op := by
  cases v with
  | none => exact Or.inl ⟨by cases op <;> simp [Legal], by simp [step, show s.ended = true from h]⟩
  | some a =>
    have he : s.ended = false := h.1
    cases op with
    | make o bs j =>
      rcases at_cases h o with ⟨_, _, h3, h4⟩ | ⟨d, x, _, _, h3, _, h5⟩
      · exact Or.inr ⟨h4, _, _, _, by simp [step, he, h3], .make h4, rel_put h o (holds_make bs j)⟩
      · exact Or.inl ⟨by simp [Legal, h3], by simp [step, he, h5]⟩
    | destroy o =>
      rcases at_cases h o with ⟨h1, _, h3, h4⟩ | ⟨d, x, h1, h2, h3, _, h5⟩
      · exact Or.inl ⟨by simp [Legal, h4], by simp [step, he, h1]⟩
      · refine Or.inr ⟨⟨x, h3⟩, { s with strs := upd s.strs o none }, _, _, by simp [step, he, h1], .destroy h3, h.1, fun p => ?_⟩
        by_cases hp : p = o
        · subst hp; exact Or.inl ⟨by simp, by simp [store]⟩
        · rcases h.2 p with ⟨k1, k2⟩ | ⟨d', x', k1, k2, k3⟩
          · exact Or.inl ⟨by simp [upd_ne _ _ hp, k1], by simp [store, hp, k2]⟩
          · exact Or.inr ⟨d', x', by simp [upd_ne _ _ hp, k1], by simp [store, hp, k2], k3⟩
    | push o bs j =>
      rcases at_cases h o with ⟨h1, _, h3, h4⟩ | ⟨d, x, h1, h2, h3, hd, h5⟩
      · exact Or.inl ⟨by simp [Legal, h4], by simp [step, he, h1]⟩
      · by_cases hm : x.length + bs.length ≤ c.maxSize
        · obtain ⟨d', e, hd'⟩ := holds_append (c := c) hd bs j hm
          exact Or.inr ⟨⟨x, h3⟩, _, _, _, by simp [step, he, h1, e, orTerminate], .push h3 hm, rel_put h o hd'⟩
        · refine Or.inr ⟨⟨x, h3⟩, { s with ended := true }, _, .terminated, ?_, .pushTooLong h3 (by omega), rfl⟩
          simp [step, he, h1, append_none (c := c) hd bs j (by omega), orTerminate]
    | clear o =>
      rcases at_cases h o with ⟨h1, _, h3, h4⟩ | ⟨d, x, h1, h2, h3, hd, h5⟩
      · exact Or.inl ⟨by simp [Legal, h4], by simp [step, he, h1]⟩
      · exact Or.inr ⟨⟨x, h3⟩, _, _, _, by simp [step, he, h1], .clear h3, rel_put h o (holds_clear hd)⟩
    | reserve o n j =>
      by_cases hn : n < c.usize
      · rcases at_cases h o with ⟨h1, _, h3, h4⟩ | ⟨d, x, h1, h2, h3, hd, h5⟩
        · exact Or.inl ⟨by simp [Legal, h4], by simp [step, he, h1]⟩
        · by_cases hp : x.length + n < c.usize
          · by_cases hm : x.length + n ≤ c.maxSize
            · obtain ⟨d', e, hd'⟩ := holds_reserve (c := c) hd (x.length + n) j hm
              refine Or.inr ⟨⟨hn, x, h3⟩, put s o d', _, .done, ?_, .reserve h3 hp hm, ?_⟩
              · simp [step, he, h1, hd.1, e, orTerminate, Nat.not_le.2 hp, Nat.not_le.2 hn]
              · have := rel_put h o hd'; rwa [store_self h3] at this
            · refine Or.inr ⟨⟨hn, x, h3⟩, { s with ended := true }, _, .terminated, ?_, .reserveTooLong h3 hp (by omega), rfl⟩
              simp [step, he, h1, hd.1, orTerminate, Nat.not_le.2 hp, Nat.not_le.2 hn, Std.reserve, Nat.not_le.1 hm]
          · refine Or.inr ⟨⟨hn, x, h3⟩, s, _, .panicked, ?_, .reservePanic h3 (by omega), h⟩
            simp [step, he, h1, hd.1, Nat.not_lt.1 hp, Nat.not_le.2 hn]
      · exact Or.inl ⟨by simp [Legal, hn], by simp [step, he, Nat.not_lt.1 hn]⟩
    | asBytes o =>
      rcases at_cases h o with ⟨h1, h2, h3, h4⟩ | ⟨d, x, h1, h2, h3, hd, h5⟩
      · exact Or.inl ⟨by simp [Legal, h4], by simp [step, he, h2]⟩
      · exact Or.inr ⟨⟨x, h3⟩, s, _, _, by simp [step, he, h2], .asBytes h3, h⟩
    | len o =>
      rcases at_cases h o with ⟨h1, h2, h3, h4⟩ | ⟨d, x, h1, h2, h3, hd, h5⟩
      · exact Or.inl ⟨by simp [Legal, h4], by simp [step, he, h1]⟩
      · exact Or.inr ⟨⟨x, h3⟩, s, _, _, by simp [step, he, h1, hd.1], .len h3, h⟩
    | isEmpty o =>
      rcases at_cases h o with ⟨h1, h2, h3, h4⟩ | ⟨d, x, h1, h2, h3, hd, h5⟩
      · exact Or.inl ⟨by simp [Legal, h4], by simp [step, he, h1]⟩
      · refine Or.inr ⟨⟨x, h3⟩, s, _, _, by simp [step, he, h1, hd.1]; rfl, .isEmpty h3 ?_, h⟩
        cases x <;> simp
    | asCStr o =>
      rcases at_cases h o with ⟨h1, h2, h3, h4⟩ | ⟨d, x, h1, h2, h3, hd, h5⟩
      · exact Or.inl ⟨by simp [Legal, h4], by simp [step, he, h1]⟩
      · obtain ⟨_, rest, hr⟩ := hd
        exact Or.inr ⟨⟨x, h3⟩, s, _, _, by simp [step, he, h1, hr, cstrFrom_cut], .asCStr h3, h⟩
    | toStr o =>
      rcases at_cases h o with ⟨h1, h2, h3, h4⟩ | ⟨d, x, h1, h2, h3, hd, h5⟩
      · exact Or.inl ⟨by simp [Legal, h4], by simp [step, he, h2]⟩
      · cases hu : Utf8.fromUtf8 x with
        | none => exact Or.inr ⟨⟨x, h3⟩, s, _, _, by simp [step, he, h2, hu], .toStr h3 ((Utf8.from_utf8_iff x).1 hu), h⟩
        | some n =>
          refine Or.inr ⟨⟨x, h3⟩, s, _, _, by simp [step, he, h2, hu], .toStrErr h3 (fun hw => ?_), h⟩
          rw [(Utf8.from_utf8_iff x).2 hw] at hu; cases hu
    | lossy o =>
      rcases at_cases h o with ⟨h1, h2, h3, h4⟩ | ⟨d, x, h1, h2, h3, hd, h5⟩
      · exact Or.inl ⟨by simp [Legal, h4], by simp [step, he, h2]⟩
      · obtain ⟨ps, hp, e⟩ := Utf8.lossy_pieces x
        exact Or.inr ⟨⟨x, h3⟩, s, _, _, by simp [step, he, h2, e], .lossy h3 hp, h⟩
    | hash o =>
      rcases at_cases h o with ⟨h1, h2, h3, h4⟩ | ⟨d, x, h1, h2, h3, hd, h5⟩
      · exact Or.inl ⟨by simp [Legal, h4], by simp [step, he, h2]⟩
      · exact Or.inr ⟨⟨x, h3⟩, s, _, _, by simp [step, he, h2], .hash h3, h⟩
    | eq o p =>
      rcases at_cases h o with ⟨h1, h2, h3, h4⟩ | ⟨d, x, h1, h2, h3, hd, h5⟩
      · refine Or.inl ⟨by simp [Legal, h4], ?_⟩
        rcases at_cases h p with ⟨_, k2, _⟩ | ⟨_, _, _, k2, _⟩ <;> simp [step, he, h2, k2]
      · rcases at_cases h p with ⟨_, k2, _, k4⟩ | ⟨_, y, _, k2, k3, _⟩
        · exact Or.inl ⟨by simp [Legal, k4], by simp [step, he, h2, k2]⟩
        · exact Or.inr ⟨⟨⟨x, h3⟩, ⟨y, k3⟩⟩, s, _, _, by simp [step, he, h2, k2]; rfl, .eq h3 k3 (by simp), h⟩
    | cmp o p =>
      rcases at_cases h o with ⟨h1, h2, h3, h4⟩ | ⟨d, x, h1, h2, h3, hd, h5⟩
      · refine Or.inl ⟨by simp [Legal, h4], ?_⟩
        rcases at_cases h p with ⟨_, k2, _⟩ | ⟨_, _, _, k2, _⟩ <;> simp [step, he, h2, k2]
      · rcases at_cases h p with ⟨_, k2, _, k4⟩ | ⟨_, y, _, k2, k3, _⟩
        · exact Or.inl ⟨by simp [Legal, k4], by simp [step, he, h2, k2]⟩
        · exact Or.inr ⟨⟨⟨x, h3⟩, ⟨y, k3⟩⟩, s, _, _, by simp [step, he, h2, k2], .cmp h3 k3 (sliceCmp_isOrd x y), h⟩
    | partialCmp o p =>
      rcases at_cases h o with ⟨h1, h2, h3, h4⟩ | ⟨d, x, h1, h2, h3, hd, h5⟩
      · refine Or.inl ⟨by simp [Legal, h4], ?_⟩
        rcases at_cases h p with ⟨_, k2, _⟩ | ⟨_, _, _, k2, _⟩ <;> simp [step, he, h2, k2]
      · rcases at_cases h p with ⟨_, k2, _, k4⟩ | ⟨_, y, _, k2, k3, _⟩
        · exact Or.inl ⟨by simp [Legal, k4], by simp [step, he, h2, k2]⟩
        · exact Or.inr ⟨⟨⟨x, h3⟩, ⟨y, k3⟩⟩, s, _, _, by simp [step, he, h2, k2], .partialCmp h3 k3 (sliceCmp_isOrd x y), h⟩

theorem rel_init : Rel init (some fun _ => none) := ⟨rfl, fun _ => Or.inl ⟨rfl, rfl⟩⟩

/-- **C13**. Any history of operations on any number of C++ strings either breaks a rule of the
language or runs without undefined behaviour (in particular never reads past the NUL at the end) and
shows exactly what byte sequences would show: contents, length, comparison as bytes, C string up to the
first NUL, UTF-8 exactly when well-formed. -/
theorem cxx_string_histories (c : Config) (ops : List Op) :
    (∃ s a obs, runOps (step c) init ops = .ok (s, obs) ∧ Runs (Step c) (some fun _ => none) ops a obs) ∨
    (runOps (step c) init ops = .error .illegal ∧ BreaksRule (Step c) (Legal c) (some fun _ => none) ops) := by
  rcases runs_ok (step_ok c) ops init _ rel_init with ⟨s, a, obs, h1, h2, _⟩ | h
  · exact Or.inl ⟨s, a, obs, h1, h2⟩
  · exact Or.inr h

theorem isOrd_unique {x y : List Nat} {r r' : Ordering} (h : IsOrd x y r) (h' : IsOrd x y r') : r = r' := by
  have irr : ∀ l, ¬ Less l l := StrCmp.before_irrefl (s := false)
  have tr : ∀ l m n, Less l m → Less m n → Less l n := fun _ _ _ => StrCmp.before_trans (s := false)
  cases r <;> cases r' <;> simp only [IsOrd] at h h' <;> first | rfl | skip
  · subst h'; exact absurd h (irr _)
  · exact absurd (tr _ _ _ h h') (irr _)
  · subst h; exact absurd h' (irr _)
  · subst h; exact absurd h' (irr _)
  · exact absurd (tr _ _ _ h h') (irr _)
  · subst h'; exact absurd h (irr _)

/-- The specification leaves no choice: the theorem above determines every observation. -/
theorem cxx_string_spec_deterministic {c : Config} {a b b' : Vars} {op : Op} {x x' : Obs} (h : Step c a op b x)
    (h' : Step c a op b' x') : b = b' ∧ x = x' := by
  cases h <;> cases h' <;> simp_all <;> first | omega | skip
  · next h1 h2 _ => exact Bool.eq_iff_iff.2 (h1.trans h2.symm)
  · next h1 h2 _ => rw [Utf8.pieces_unique h1 h2]
  · next h1 h2 _ _ => exact Bool.eq_iff_iff.2 (h1.trans h2.symm)
  · next h1 h2 _ _ => exact isOrd_unique h1 h2
  · next h1 h2 _ _ => exact isOrd_unique h1 h2

example : (runOps (step ⟨2 ^ 64, 2 ^ 63 - 1⟩) init
    [.make 0 [104, 105] [], .push 0 [0, 33] [7, 7], .make 1 [104, 0xFF] [9], .asBytes 0, .asCStr 0, .len 0, .cmp 0 1,
      .toStr 1, .reserve 0 (2 ^ 64 - 1) [], .clear 0, .isEmpty 0, .reserve 1 (2 ^ 63) []]).map (·.2) =
    .ok ([.done, .done, .done, .bytes [104, 105, 0, 33], .bytes [104, 105], .nat 4, .ord .lt, .str none, .panicked,
      .done, .bool true, .terminated]) := by
  decide +kernel

/-! ## let_cxx_string! -/

/-- **C14**, part. When every initialiser evaluates to a value, then however the block is left, the
block sees exactly the given bytes and every string is destroyed exactly once: each space goes from
uninitialised to string to destroyed (anything else is undefined behaviour in the model).  Missing:
initialisers which panic or leave the block, see `let_cxx_string_uninit`. -/
theorem let_cxx_string_partial (change : List Nat → List Nat) (body : List (List Nat) → Finish Nat)
    (vals : List (List Nat)) :
    letMany change body (vals.map .value) [] = .ok (List.replicate vals.length .destroyed, body vals) := by
  suffices h : ∀ seen, letMany change body (vals.map .value) seen =
      .ok (List.replicate vals.length .destroyed, body (seen ++ vals)) from h []
  induction vals with
  | nil => intro seen; simp [letMany]
  | cons v vs ih =>
    intro seen
    simp [letMany, letCxxString, Space.init, Space.drop, ih, List.replicate_succ]

/-- The full claim fails: if an initialiser panics or leaves the block, whatever was declared before, a
destructor runs on memory in which no string was ever made. -/
theorem let_cxx_string_uninit (change : List Nat → List Nat) (body : List (List Nat) → Finish Nat)
    (vals : List (List Nat)) (v : Finish (List Nat)) (hv : v = .panic ∨ v = .early) (more : List (Finish (List Nat))) :
    letMany change body (vals.map .value ++ v :: more) [] = .error .ub := by
  suffices h : ∀ seen, letMany change body (vals.map .value ++ v :: more) seen = .error .ub from h []
  induction vals with
  | nil => intro seen; rcases hv with rfl | rfl <;> simp [letMany, letCxxString, Space.drop]
  | cons w ws ih => intro seen; simp [letMany, letCxxString, Space.init, ih]

example : letMany (· ++ [33]) (fun seen => if seen = [[104], []] then .panic else .early) [.value [104], .value []] [] =
    .ok ([.destroyed, .destroyed], .panic) := by decide

end Verif.CxxString
