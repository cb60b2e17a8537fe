import Verif.Throw.Spec
import Verif.Utf8.Props
/-!
# C89
-/
namespace Verif.Throw
open Verif Verif.Unwind

variable {c : Config} {b : Behavior}

mutual
/-- Stacks on which Rust code is running. -/
inductive Rusty : List Frame → Prop
  | main : Rusty [.rust]
  | call : Rusty rest → Rusty (.rust :: rest)
  | catching : Rusty rest → Rusty (.rust :: .catchUnwind :: rest)
  | shim : w.noexcept = !w.fallible → Cxxy rest → Rusty (.rust :: .guard :: .wrapper w :: rest)
/-- Stacks on which C++ code is running. -/
inductive Cxxy : List Frame → Prop
  | main : Cxxy [.cxx]
  | call : Cxxy rest → Cxxy (.cxx :: rest)
  | trying : Cxxy rest → Cxxy (.cxx :: .tryBlock k :: rest)
  | entry : e.noexcept = true → Rusty rest → Cxxy (.cxx :: .entry e :: rest)
end

def Wf : State → Prop
  | .running st => st = [] ∨ Rusty st ∨ Cxxy st
  | .aborted => True

theorem rusty_top {st : List Frame} (h : Rusty st) : ∃ rest, st = .rust :: rest := by
  cases h <;> exact ⟨_, rfl⟩

theorem cxxy_top {st : List Frame} (h : Cxxy st) : ∃ rest, st = .cxx :: rest := by
  cases h <;> exact ⟨_, rfl⟩

theorem unwindRust_wf : ∀ {st : List Frame}, Rusty st → ∃ s o, unwindRust st = .ok (s, o) ∧ Wf s
  | _, .main => ⟨_, _, rfl, trivial⟩
  | _, .call h => by
    obtain ⟨s, o, h1, h2⟩ := unwindRust_wf h
    exact ⟨s, o, by simpa only [unwindRust] using h1, h2⟩
  | _, .catching h => ⟨_, _, rfl, .inr (.inl h)⟩
  | _, .shim _ _ => ⟨_, _, rfl, trivial⟩

theorem lossy_is (t : List Nat) : IsLossy t (Utf8.fromUtf8Lossy t) := Utf8.lossy_pieces t

/-- Frames that let it through can be put in front. -/
theorem Lands.push {st : List Frame} {e : Exn} {s : State} {o : Obs} {f : Frame} (h : Lands b st e s o) (hf : Passes e f) :
    Lands b (f :: st) e s o := by
  have all {pre : List Frame} (hp : ∀ g ∈ pre, Passes e g) : ∀ g ∈ f :: pre, Passes e g := by
    intro g hg
    rcases List.mem_cons.1 hg with rfl | hg
    · exact hf
    · exact hp g hg
  cases h with
  | caught hp hc => exact .caught (pre := f :: _) (all hp) hc
  | reported hp hf hb ht => exact .reported (pre := f :: _) (all hp) hf hb ht
  | terminated hp hf => exact .terminated (pre := f :: _) (all hp) hf
  | main hp => exact .main (all hp)

theorem unwindCxx_wf (hb : Reports b) (e : Exn) : ∀ {st : List Frame}, Cxxy st →
    ∃ s o, unwindCxx b st e = .ok (s, o) ∧ Wf s ∧ Lands b st e s o
  | _, .main => ⟨_, _, rfl, trivial, .main (by simpa using .cxx)⟩
  | _, .call h => by
    obtain ⟨s, o, h1, h2, h3⟩ := unwindCxx_wf hb e h
    exact ⟨s, o, h1, h2, h3.push .cxx⟩
  | _, .trying (k := k) (rest := rest) h => by
    by_cases hk : k.catches e = true
    · refine ⟨.running rest, .caught e, by simp [unwindCxx, hk], .inr (.inr h), ?_⟩
      exact .caught (pre := [.cxx]) (by simpa using .cxx) hk
    · obtain ⟨s, o, h1, h2, h3⟩ := unwindCxx_wf hb e h
      refine ⟨s, o, by simpa [unwindCxx, hk] using h1, h2, (h3.push (.tryBlock (by simpa using hk))).push .cxx⟩
  | _, .entry (e := en) (rest := rest) hn h => by
    have hp : ∀ f ∈ [Frame.cxx], Passes e f := by simpa using .cxx
    by_cases hf : en.fallible = true
    · cases hbe : b e with
      | fail t =>
        refine ⟨.running rest, _, by simp [unwindCxx, hf, hbe]; rfl, .inr (.inl h), ?_⟩
        exact .reported (pre := [.cxx]) hp hf hbe (lossy_is t)
      | escapes e' =>
        refine ⟨.aborted, .aborted, by simp [unwindCxx, hf, hbe, hn], trivial, ?_⟩
        exact .terminated (pre := [.cxx]) hp (.inr ⟨e', hbe⟩)
      | silent => exact absurd hbe (hb e)
    · refine ⟨.aborted, .aborted, by simp [unwindCxx, hf, hn], trivial, ?_⟩
      exact .terminated (pre := [.cxx]) hp (.inl (by simpa using hf))

/-- An operation in a state that can be reached is either one that the program cannot do, or it leads to a state that can be
reached. -/
theorem step_wf (hb : Reports b) {s : State} {op : Op} (h : Wf s) (hd : op.Declared) (ho : NoOverflow c op) :
    step c b s op = .error .illegal ∨ ∃ s' o, step c b s op = .ok (s', o) ∧ Wf s' := by
  cases s with
  | aborted => left; cases op <;> rfl
  | running st =>
    rcases h with rfl | h | h
    · left; cases op <;> rfl
    · obtain ⟨r, rfl⟩ := rusty_top h
      cases op with
      | callCxx e => exact .inr ⟨_, _, rfl, .inr (.inr (.entry hd h))⟩
      | callLocal => exact .inr ⟨_, _, rfl, .inr (.inl (.call h))⟩
      | catchUnwind => exact .inr ⟨_, _, rfl, .inr (.inl (.catching h))⟩
      | panic =>
        right
        simp only [step]
        split
        · exact ⟨_, _, rfl, trivial⟩
        · exact unwindRust_wf h
      | ret v =>
        right
        cases h with
        | main => exact ⟨_, _, rfl, .inl rfl⟩
        | call h => obtain ⟨r, rfl⟩ := rusty_top h; exact ⟨_, _, rfl, .inr (.inl h)⟩
        | catching h => exact ⟨_, _, rfl, .inr (.inl h)⟩
        | shim _ h => exact ⟨_, _, rfl, .inr (.inr h)⟩
      | retErr m =>
        cases h with
        | main => exact .inl rfl
        | call h => obtain ⟨r, rfl⟩ := rusty_top h; exact .inl rfl
        | catching h => exact .inl rfl
        | @shim w rest hw h =>
          simp only [step]
          split
          · next hf =>
            right
            obtain ⟨s, o, h1, h2, _⟩ := unwindCxx_wf hb (.error m) h
            exact ⟨s, o, by simpa [unwindCxx, hw, hf] using h1, h2⟩
          · exact .inl rfl
      | callRust _ | callBare _ _ | tryBlock _ | throw _ => left; simp [step]
    · obtain ⟨r, rfl⟩ := cxxy_top h
      cases op with
      | callRust w => exact .inr ⟨_, _, rfl, .inr (.inl (.shim hd h))⟩
      | callBare sh v =>
        simp only [step]
        split
        · exact .inl rfl
        · right
          split
          · next hs =>
            rw [if_pos]
            · exact ⟨_, _, rfl, trivial⟩
            · rcases ho with ho | ho | ho
              · simp [ho]
              · simp [ho]
              · simp only [Bool.and_eq_true] at hs
                rw [ho sh (by rw [hs.2])] at hs
                simp at hs
          · exact ⟨_, _, rfl, .inr (.inr h)⟩
      | callLocal => exact .inr ⟨_, _, rfl, .inr (.inr (.call h))⟩
      | tryBlock k => exact .inr ⟨_, _, rfl, .inr (.inr (.trying h))⟩
      | throw e =>
        obtain ⟨s, o, h1, h2, _⟩ := unwindCxx_wf hb e h
        exact .inr ⟨s, o, h1, h2⟩
      | ret v =>
        right
        cases h with
        | main => exact ⟨_, _, rfl, .inl rfl⟩
        | call h => obtain ⟨r, rfl⟩ := cxxy_top h; exact ⟨_, _, rfl, .inr (.inr h)⟩
        | trying h => exact ⟨_, _, rfl, .inr (.inr h)⟩
        | entry _ h => exact ⟨_, _, rfl, .inr (.inl h)⟩
      | callCxx _ | catchUnwind | panic | retErr _ => left; simp [step]

/-- A process starts in `main` of either language. -/
def Start (s : State) : Prop := s = .running [.rust] ∨ s = .running [.cxx]

theorem start_wf {s : State} (h : Start s) : Wf s := by
  rcases h with rfl | rfl
  · exact .inr (.inl .main)
  · exact .inr (.inr .main)

theorem run_wf (hb : Reports b) : ∀ (ops : List Op) {s : State}, Wf s → (∀ op ∈ ops, op.Declared) →
    (∀ op ∈ ops, NoOverflow c op) → runOps (step c b) s ops = .error .illegal ∨
      ∃ s' obs, runOps (step c b) s ops = .ok (s', obs) ∧ Wf s'
  | [], s, h, _, _ => .inr ⟨s, [], rfl, h⟩
  | op :: ops, s, h, hd, ho => by
    rcases step_wf hb h (hd op (by simp)) (ho op (by simp)) with hs | ⟨s1, o1, hs, h1⟩
    · left; simp [runOps, hs]
    · rcases run_wf hb ops h1 (fun op hop => hd op (by simp [hop])) (fun op hop => ho op (by simp [hop])) with h2 | ⟨s2, o2, h2, h3⟩
      · left; simp [runOps, hs, h2]
      · exact .inr ⟨s2, o1 :: o2, by simp [runOps, hs, h2], h3⟩

/-- **C89**.  In every history, no C++ exception reaches a frame of Rust and no panic reaches a frame of C++: nothing undefined
happens. -/
theorem never_across (hb : Reports b) {s : State} (h : Start s) (ops : List Op) (hd : ∀ op ∈ ops, op.Declared)
    (ho : ∀ op ∈ ops, NoOverflow c op) : runOps (step c b) s ops ≠ .error .ub := by
  rcases run_wf (c := c) hb ops (start_wf h) hd ho with h1 | ⟨_, _, h1, _⟩ <;> (rw [h1]; simp)

/-- **C89**.  An exception that C++ code throws after any history ends at the first `try` block above the boundary that catches
it, or else, if the function that Rust has called returns a `Result` and `trycatch` reports it, in Rust as an error with that
text; otherwise the process ends. -/
theorem throw_lands (hb : Reports b) {s : State} (h : Start s) (ops : List Op) (hd : ∀ op ∈ ops, op.Declared)
    (ho : ∀ op ∈ ops, NoOverflow c op) {rest : List Frame} {obs : List Obs}
    (hr : runOps (step c b) s ops = .ok (.running (.cxx :: rest), obs)) (e : Exn) :
    ∃ s' o, step c b (.running (.cxx :: rest)) (.throw e) = .ok (s', o) ∧ Lands b (.cxx :: rest) e s' o := by
  rcases run_wf (c := c) hb ops (start_wf h) hd ho with h1 | ⟨s1, o1, h1, hw⟩
  · rw [h1] at hr; cases hr
  · rw [h1] at hr
    simp only [Except.ok.injEq, Prod.mk.injEq] at hr
    rw [hr.1] at hw
    have hw : Cxxy (.cxx :: rest) := by
      rcases hw with hw | hw | hw
      · cases hw
      · cases hw
      · exact hw
    obtain ⟨s2, o2, h2, _, h3⟩ := unwindCxx_wf hb e hw
    exact ⟨s2, o2, h2, h3⟩

/-- **C89**.  A Rust function of the bridge that returns `Err` after any history throws `rust::Error` with its text in the C++
function that has called it, and never ends the process by itself. -/
theorem err_lands (hb : Reports b) {s : State} (h : Start s) (ops : List Op) (hd : ∀ op ∈ ops, op.Declared)
    (ho : ∀ op ∈ ops, NoOverflow c op) {w : Wrapper} {rest : List Frame} {obs : List Obs} (hf : w.fallible = true)
    (hr : runOps (step c b) s ops = .ok (.running (.rust :: .guard :: .wrapper w :: rest), obs)) (msg : List Nat) :
    step c b (.running (.rust :: .guard :: .wrapper w :: rest)) (.retErr msg) = step c b (.running rest) (.throw (.error msg)) ∧
    ∃ s' o, step c b (.running rest) (.throw (.error msg)) = .ok (s', o) ∧ Lands b rest (.error msg) s' o := by
  rcases run_wf (c := c) hb ops (start_wf h) hd ho with h1 | ⟨s1, o1, h1, hw⟩
  · rw [h1] at hr; cases hr
  · rw [h1] at hr
    simp only [Except.ok.injEq, Prod.mk.injEq] at hr
    rw [hr.1] at hw
    have hw : w.noexcept = false ∧ Cxxy rest := by
      rcases hw with hw | hw | hw
      · cases hw
      · cases hw with
        | call h => obtain ⟨_, h⟩ := rusty_top h; cases h
        | shim hw h => exact ⟨by rw [hw, hf]; rfl, h⟩
      · cases hw
    obtain ⟨r, rfl⟩ := cxxy_top hw.2
    obtain ⟨s2, o2, h2, _, h3⟩ := unwindCxx_wf hb (.error msg) hw.2
    refine ⟨?_, s2, o2, h2, h3⟩
    simp only [step, hf, if_true]
    conv => lhs; unfold unwindCxx
    rw [hw.1]
    rfl

theorem Passes.tryBlock_not {e : Exn} {k : Clause} (h : Passes e (.tryBlock k)) : k.catches e = false := by
  cases h; assumption

/-- `rust::Error` is derived from `std::exception` (include/cxx.h:424): the error is caught by a `try` block around the call whose
handler is for either of them, or for everything. -/
theorem err_caught {t : Clause} (ht : t = .any ∨ t = .std ∨ t = .error) (rest : List Frame) (msg : List Nat) :
    step c b (.running (.cxx :: .tryBlock t :: rest)) (.throw (.error msg)) = .ok (.running rest, .caught (.error msg)) := by
  rcases ht with rfl | rfl | rfl <;> rfl

/-- Frames that let it through can be taken away. -/
theorem Lands.pop {st : List Frame} {e : Exn} {s : State} {o : Obs} {f : Frame} (h : Lands b (f :: st) e s o)
    (hf : Passes e f) : Lands b st e s o := by
  generalize hl : f :: st = l at h
  have tl {pre : List Frame} {g : Frame} (hp : ∀ f ∈ g :: pre, Passes e f) : ∀ f ∈ pre, Passes e f :=
    fun f hf => hp f (List.mem_cons_of_mem _ hf)
  cases h with
  | @caught pre rest k _ hp hc =>
    cases pre with
    | nil => cases hl; rw [hf.tryBlock_not] at hc; cases hc
    | cons g pre => cases hl; exact .caught (tl hp) hc
  | @reported pre rest k _ t t' hp hk hb ht =>
    cases pre with
    | nil => cases hl; cases hf
    | cons g pre => cases hl; exact .reported (tl hp) hk hb ht
  | @terminated pre rest k _ hp hk =>
    cases pre with
    | nil => cases hl; cases hf
    | cons g pre => cases hl; exact .terminated (tl hp) hk
  | main hp => cases hl; exact .main (tl hp)

/-- **C89**.  There is only one place where an exception ends. -/
theorem lands_once {e : Exn} {s s' : State} {o o' : Obs} : ∀ {st : List Frame}, Lands b st e s o → Lands b st e s' o' →
    s = s' ∧ o = o' := by
  intro st
  induction st with
  | nil =>
    intro h h'
    generalize hl : ([] : List Frame) = l at h
    generalize hl' : ([] : List Frame) = l' at h'
    cases h <;> cases h' <;> simp_all
  | cons f st ih =>
    intro h h'
    by_cases hf : Passes e f
    · exact ih (h.pop hf) (h'.pop hf)
    · generalize hl : f :: st = l at h
      generalize hl' : f :: st = l' at h'
      have no {pre rest : List Frame} {g : Frame} (hp : ∀ f ∈ pre, Passes e f) (h : f :: st = pre ++ g :: rest) :
          f = g ∧ st = rest := by
        cases pre with
        | nil => cases h; exact ⟨rfl, rfl⟩
        | cons x pre => cases h; exact absurd (hp f (by simp)) hf
      cases h with
      | caught hp hc =>
        obtain ⟨rfl, rfl⟩ := no hp hl
        cases h' with
        | caught hp hc => obtain ⟨_, rfl⟩ := no hp hl'; exact ⟨rfl, rfl⟩
        | reported hp hk hb ht => obtain ⟨h, rfl⟩ := no hp hl'; cases h
        | terminated hp hk => obtain ⟨h, rfl⟩ := no hp hl'; cases h
        | main hp => exact absurd (hp _ (by rw [← hl']; simp)) hf
      | reported hp hk hb ht =>
        obtain ⟨rfl, rfl⟩ := no hp hl
        cases h' with
        | caught hp hc => obtain ⟨h, rfl⟩ := no hp hl'; cases h
        | reported hp hk hb' ht' =>
          obtain ⟨_, rfl⟩ := no hp hl'
          rw [hb] at hb'
          cases hb'
          obtain ⟨ps, h1, rfl⟩ := ht
          obtain ⟨qs, h2, rfl⟩ := ht'
          rw [Utf8.pieces_unique h1 h2]
          exact ⟨rfl, rfl⟩
        | terminated hp hk' =>
          obtain ⟨h, _⟩ := no hp hl'
          cases h
          rcases hk' with hk' | ⟨_, hk'⟩
          · rw [hk] at hk'; cases hk'
          · rw [hb] at hk'; cases hk'
        | main hp => exact absurd (hp _ (by rw [← hl']; simp)) hf
      | terminated hp hk =>
        obtain ⟨rfl, rfl⟩ := no hp hl
        cases h' with
        | caught hp hc => obtain ⟨h, rfl⟩ := no hp hl'; cases h
        | reported hp hk' hb' ht' =>
          obtain ⟨h, _⟩ := no hp hl'
          cases h
          rcases hk with hk | ⟨_, hk⟩
          · rw [hk'] at hk; cases hk
          · rw [hb'] at hk; cases hk
        | terminated hp hk' => exact ⟨rfl, rfl⟩
        | main hp => exact ⟨rfl, rfl⟩
      | main hp => exact absurd (hp _ (by rw [← hl]; simp)) hf

/-- **C89**.  The `trycatch` that users get without defining one reports exactly what is derived from `std::exception`, with
the text of `what()` up to its end; everything else goes on. -/
theorem default_reports : Reports defaultBehavior ∧ ∀ e, (∀ t, defaultBehavior e = .fail t ↔
    ∃ w, (e = .std w ∨ e = .error w) ∧ 0 ∉ t ∧ (w = t ∨ ∃ r, w = t ++ 0 :: r)) ∧
    (defaultBehavior e = .escapes e ↔ ∃ n, e = .other n) := by
  have cut (w t : List Nat) : w.takeWhile (· ≠ 0) = t ↔ 0 ∉ t ∧ (w = t ∨ ∃ r, w = t ++ 0 :: r) := by
    induction w generalizing t with
    | nil => constructor
             · intro h; subst h; simp
             · rintro ⟨_, h | ⟨r, h⟩⟩
               · simp [← h]
               · simp at h
    | cons x w ih =>
      by_cases hx : x = 0
      · subst hx
        simp only [List.takeWhile_cons, ne_eq, not_true_eq_false, decide_false]
        constructor
        · intro h; subst h; exact ⟨by simp, .inr ⟨w, rfl⟩⟩
        · rintro ⟨h, h' | ⟨r, h'⟩⟩
          · rw [← h'] at h; simp at h
          · cases t with
            | nil => rfl
            | cons y t => cases h'; simp at h
      · cases t with
        | nil => simp [hx, List.takeWhile_cons]
        | cons y t =>
          rw [List.takeWhile_cons_of_pos (by simpa using hx)]
          rw [List.cons.injEq, ih t]
          constructor
          · rintro ⟨rfl, h1, h2 | ⟨r, h2⟩⟩
            · exact ⟨by simp [h1, Ne.symm hx], .inl (by rw [h2])⟩
            · exact ⟨by simp [h1, Ne.symm hx], .inr ⟨r, by rw [h2]; rfl⟩⟩
          · rintro ⟨h1, h2 | ⟨r, h2⟩⟩
            · cases h2; exact ⟨rfl, fun h => h1 (by simp [h]), .inl rfl⟩
            · cases h2; exact ⟨rfl, fun h => h1 (by simp [h]), .inr ⟨r, rfl⟩⟩
  refine ⟨fun e => by cases e <;> simp [defaultBehavior], fun e => ⟨fun t => ?_, ?_⟩⟩
  · cases e with
    | error w => simp only [defaultBehavior, Handled.fail.injEq]; rw [cut]; simp
    | std w => simp only [defaultBehavior, Handled.fail.injEq]; rw [cut]; simp
    | other n => simp [defaultBehavior]
  · cases e <;> simp [defaultBehavior]

end Verif.Throw
