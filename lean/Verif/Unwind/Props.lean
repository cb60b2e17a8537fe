import Verif.Unwind.Model
/-!
# C12
-/
namespace Verif.Unwind
open Verif

mutual
/-- Stacks on which Rust code is running. -/
inductive Rusty : List Frame → Prop
  | main : Rusty [.rust]
  | call : Rusty rest → Rusty (.rust :: rest)
  | catching : Rusty rest → Rusty (.rust :: .catchUnwind :: rest)
  | shim : Cxxy rest → Rusty (.rust :: .guard :: rest)
/-- Stacks on which C++ code is running. -/
inductive Cxxy : List Frame → Prop
  | main : Cxxy [.cxx]
  | call : Rusty rest → Cxxy (.cxx :: rest)
end

def Wf : State → Prop
  | .running st => st = [] ∨ Rusty st ∨ Cxxy st
  | .aborted => True

theorem rusty_top {st : List Frame} (h : Rusty st) : ∃ rest, st = .rust :: rest := by
  cases h <;> exact ⟨_, rfl⟩

theorem cxxy_top {st : List Frame} (h : Cxxy st) : ∃ rest, st = .cxx :: rest := by
  cases h <;> exact ⟨_, rfl⟩

/-- The Rust frames on top of the stack, down to the nearest frame of a shim or of C++. -/
def above (st : List Frame) : List Frame := st.takeWhile fun f => f == .rust || f == .catchUnwind

/-- What unwinding does to a stack of a running Rust function: it stops at the nearest `catch_unwind`
among the Rust frames on top, or else the process aborts. -/
theorem unwind_rusty (c : Config) : ∀ (st : List Frame), Rusty st →
    (Frame.catchUnwind ∉ above st ∧ unwind c st = .ok .aborted) ∨
    ∃ pre post, st = pre ++ .catchUnwind :: post ∧ (∀ f ∈ pre, f = .rust) ∧ unwind c st = .ok (.running post) ∧ Rusty post
  | _, .main => Or.inl ⟨by decide, rfl⟩
  | _, .call (rest := rest) h => by
    rcases unwind_rusty c rest h with ⟨h1, h2⟩ | ⟨pre, post, h1, h2, h3, h4⟩
    · left
      refine ⟨?_, by rw [unwind]; exact h2⟩
      simp only [above, List.takeWhile_cons] at h1 ⊢
      simp only [beq_self_eq_true, Bool.true_or, if_true, List.mem_cons, not_or]
      exact ⟨by decide, h1⟩
    · right
      refine ⟨.rust :: pre, post, by rw [h1]; rfl, ?_, by rw [unwind]; exact h3, h4⟩
      intro f hf
      rcases List.mem_cons.1 hf with rfl | hf
      · rfl
      · exact h2 f hf
  | _, .catching (rest := rest) h =>
    Or.inr ⟨[.rust], rest, rfl, by simp, rfl, h⟩
  | _, .shim (rest := rest) h => Or.inl ⟨by simp [above], rfl⟩

/-- A panic in an unguarded shim is survived. -/
def BareOk (c : Config) (ops : List Op) : Prop :=
  c.externAborts = true ∨ c.panicAbort = true ∨ ∀ sh, Op.callBare sh true ∈ ops → sh.overflows = false

theorem step_wf {c : Config} {s : State} {op : Op} {s' : State} {b : Obs} (h : Wf s) (hs : step c s op = .ok (s', b)) :
    Wf s' := by
  cases s with
  | aborted => simp [step] at hs
  | running st =>
    rcases h with rfl | h | h
    · simp [step] at hs
    · cases op with
      | callRust sh => obtain ⟨r, rfl⟩ := rusty_top h; simp [step] at hs
      | callBare sh o => obtain ⟨r, rfl⟩ := rusty_top h; simp [step] at hs
      | callCxx =>
        obtain ⟨r, rfl⟩ := rusty_top h
        simp only [step, Except.ok.injEq, Prod.mk.injEq] at hs
        rw [← hs.1]; exact Or.inr (Or.inr (.call h))
      | callLocal =>
        obtain ⟨r, rfl⟩ := rusty_top h
        simp only [step, Except.ok.injEq, Prod.mk.injEq] at hs
        rw [← hs.1]; exact Or.inr (Or.inl (.call h))
      | catchUnwind =>
        obtain ⟨r, rfl⟩ := rusty_top h
        simp only [step, Except.ok.injEq, Prod.mk.injEq] at hs
        rw [← hs.1]; exact Or.inr (Or.inl (.catching h))
      | panic =>
        obtain ⟨r, rfl⟩ := rusty_top h
        simp only [step, doPanic] at hs
        split at hs
        · simp only [after, Except.ok.injEq, Prod.mk.injEq] at hs; rw [← hs.1]; trivial
        · rcases unwind_rusty c _ h with ⟨_, h2⟩ | ⟨pre, post, _, _, h3, h4⟩
          · rw [h2] at hs; simp only [after, Except.ok.injEq, Prod.mk.injEq] at hs; rw [← hs.1]; trivial
          · rw [h3] at hs; simp only [after, Except.ok.injEq, Prod.mk.injEq] at hs; rw [← hs.1]; exact Or.inr (Or.inl h4)
      | ret v =>
        cases h with
        | main => simp only [step, Except.ok.injEq, Prod.mk.injEq] at hs; rw [← hs.1]; exact Or.inl rfl
        | call h =>
          obtain ⟨r, rfl⟩ := rusty_top h
          simp only [step, Except.ok.injEq, Prod.mk.injEq] at hs; rw [← hs.1]; exact Or.inr (Or.inl h)
        | catching h => simp only [step, Except.ok.injEq, Prod.mk.injEq] at hs; rw [← hs.1]; exact Or.inr (Or.inl h)
        | shim h => simp only [step, Except.ok.injEq, Prod.mk.injEq] at hs; rw [← hs.1]; exact Or.inr (Or.inr h)
    · cases op with
      | callRust sh =>
        obtain ⟨r, rfl⟩ := cxxy_top h
        simp only [step] at hs
        split at hs
        · simp only [Except.ok.injEq, Prod.mk.injEq] at hs; rw [← hs.1]; exact Or.inr (Or.inl (.shim h))
        · cases hs
      | callBare sh o =>
        obtain ⟨r, rfl⟩ := cxxy_top h
        simp only [step, doPanic, unwind] at hs
        split at hs
        · cases hs
        · split at hs
          · split at hs
            · simp only [after, Except.ok.injEq, Prod.mk.injEq] at hs; rw [← hs.1]; trivial
            · split at hs
              · simp only [after, Except.ok.injEq, Prod.mk.injEq] at hs; rw [← hs.1]; trivial
              · simp [after] at hs
          · simp only [Except.ok.injEq, Prod.mk.injEq] at hs; rw [← hs.1]; exact Or.inr (Or.inr h)
      | ret v =>
        cases h with
        | main => simp only [step, Except.ok.injEq, Prod.mk.injEq] at hs; rw [← hs.1]; exact Or.inl rfl
        | call h =>
          obtain ⟨r, rfl⟩ := rusty_top h
          simp only [step, Except.ok.injEq, Prod.mk.injEq] at hs; rw [← hs.1]; exact Or.inr (Or.inl h)
      | callCxx => obtain ⟨r, rfl⟩ := cxxy_top h; simp [step] at hs
      | callLocal => obtain ⟨r, rfl⟩ := cxxy_top h; simp [step] at hs
      | catchUnwind => obtain ⟨r, rfl⟩ := cxxy_top h; simp [step] at hs
      | panic => obtain ⟨r, rfl⟩ := cxxy_top h; simp [step] at hs

theorem step_no_ub {c : Config} {s : State} {op : Op} (h : Wf s)
    (hb : c.externAborts = true ∨ c.panicAbort = true ∨ ∀ sh, op = .callBare sh true → sh.overflows = false) :
    step c s op ≠ .error .ub := by
  intro hs
  cases s with
  | aborted => simp [step] at hs
  | running st =>
    rcases h with rfl | h | h
    · simp [step] at hs
    · cases op with
      | callRust sh => obtain ⟨r, rfl⟩ := rusty_top h; simp [step] at hs
      | callBare sh o => obtain ⟨r, rfl⟩ := rusty_top h; simp [step] at hs
      | callCxx => obtain ⟨r, rfl⟩ := rusty_top h; simp [step] at hs
      | callLocal => obtain ⟨r, rfl⟩ := rusty_top h; simp [step] at hs
      | catchUnwind => obtain ⟨r, rfl⟩ := rusty_top h; simp [step] at hs
      | panic =>
        obtain ⟨r, rfl⟩ := rusty_top h
        simp only [step, doPanic] at hs
        split at hs
        · simp [after] at hs
        · rcases unwind_rusty c _ h with ⟨_, h2⟩ | ⟨pre, post, _, _, h3, h4⟩
          · rw [h2] at hs; simp [after] at hs
          · rw [h3] at hs; simp [after] at hs
      | ret v =>
        cases h with
        | main => simp [step] at hs
        | call h => obtain ⟨r, rfl⟩ := rusty_top h; simp [step] at hs
        | catching h => simp [step] at hs
        | shim h => simp [step] at hs
    · cases op with
      | callRust sh => obtain ⟨r, rfl⟩ := cxxy_top h; simp only [step] at hs; split at hs <;> cases hs
      | callBare sh o =>
        obtain ⟨r, rfl⟩ := cxxy_top h
        simp only [step, doPanic, unwind] at hs
        split at hs
        · cases hs
        · split at hs
          · next hso =>
            rcases hb with hb | hb | hb
            · rw [hb] at hs; split at hs <;> simp [after] at hs
            · rw [hb] at hs; simp [after] at hs
            · simp only [Bool.and_eq_true] at hso
              have := hb sh (by rw [hso.2])
              rw [this] at hso; simp at hso
          · cases hs
      | ret v =>
        cases h with
        | main => simp [step] at hs
        | call h => obtain ⟨r, rfl⟩ := rusty_top h; simp [step] at hs
      | callCxx => obtain ⟨r, rfl⟩ := cxxy_top h; simp [step] at hs
      | callLocal => obtain ⟨r, rfl⟩ := cxxy_top h; simp [step] at hs
      | catchUnwind => obtain ⟨r, rfl⟩ := cxxy_top h; simp [step] at hs
      | panic => obtain ⟨r, rfl⟩ := cxxy_top h; simp [step] at hs

theorem run_no_ub (c : Config) : ∀ (ops : List Op) (s : State), Wf s → BareOk c ops →
    runOps (step c) s ops ≠ .error .ub ∧ ∀ s' obs, runOps (step c) s ops = .ok (s', obs) → Wf s'
  | [], s, h, _ => ⟨by simp [runOps], by intro s' obs hr; simp [runOps] at hr; rw [← hr.1]; exact h⟩
  | op :: ops, s, h, hb => by
    have hb1 : c.externAborts = true ∨ c.panicAbort = true ∨ ∀ sh, op = .callBare sh true → sh.overflows = false := by
      rcases hb with hb | hb | hb
      · exact Or.inl hb
      · exact Or.inr (Or.inl hb)
      · exact Or.inr (Or.inr fun sh e => hb sh (by simp [e]))
    have hb2 : BareOk c ops := by
      rcases hb with hb | hb | hb
      · exact Or.inl hb
      · exact Or.inr (Or.inl hb)
      · exact Or.inr (Or.inr fun sh e => hb sh (by simp [e]))
    have h1 := step_no_ub h hb1
    cases hs : step c s op with
    | error e =>
      cases e with
      | ub => exact absurd hs h1
      | illegal => simp [runOps, hs]
    | ok p =>
      obtain ⟨s1, b⟩ := p
      have ih := run_no_ub c ops s1 (step_wf h hs) hb2
      simp only [runOps, hs]
      cases hr : runOps (step c) s1 ops with
      | error e =>
        refine ⟨?_, by simp⟩
        intro he
        cases he
        exact ih.1 hr
      | ok q =>
        obtain ⟨s2, bs⟩ := q
        refine ⟨by simp, ?_⟩
        intro s' obs he
        simp only [Except.ok.injEq, Prod.mk.injEq] at he
        rw [← he.1]; exact ih.2 s2 bs hr

/-- **C12**. However Rust and C++ calls are nested, wherever panics happen and whichever panic strategy
is used, no panic unwinds through C++ code: a history never commits undefined behaviour.  A panic in a
running Rust function stops at the nearest `catch_unwind` among the Rust frames entered since C++ last
called into Rust; then the C++ frames are all still there.  If there is none, the process aborts, and
nothing runs after that.  A Rust function that does not panic returns its value to C++ unchanged.
Missing: on Rust before 1.81 with `panic = "unwind"`, C++ asking a `rust::Vec` or `rust::String` to
reserve more than `isize::MAX` bytes (`reserve_overflow_unwinds`). -/
theorem panic_never_reaches_cxx_partial (c : Config) (start : Frame) (hstart : start = .rust ∨ start = .cxx)
    (ops : List Op) (hb : BareOk c ops) :
    runOps (step c) (.running [start]) ops ≠ .error .ub ∧
    ∀ s obs, runOps (step c) (.running [start]) ops = .ok (s, obs) →
      -- after an abort nothing runs
      (s = .aborted → ∀ op, step c s op = .error .illegal) ∧
      ∀ rest, s = .running (.rust :: rest) →
        -- a panic
        ((c.panicAbort = true ∨ Frame.catchUnwind ∉ above (.rust :: rest)) ∧ step c s .panic = .ok (.aborted, .aborted) ∨
          c.panicAbort = false ∧ ∃ pre post, Frame.rust :: rest = pre ++ .catchUnwind :: post ∧ (∀ f ∈ pre, f = .rust) ∧
            step c s .panic = .ok (.running post, .caught) ∧
            post.filter (· = .cxx) = (Frame.rust :: rest).filter (· = .cxx)) ∧
        -- a value returned to C++
        ∀ v below, rest = .guard :: below → step c s (.ret v) = .ok (.running below, .toCxx v) := by
  have hwf : Wf (.running [start]) := by
    rcases hstart with rfl | rfl
    · exact Or.inr (Or.inl .main)
    · exact Or.inr (Or.inr .main)
  have h := run_no_ub c ops _ hwf hb
  refine ⟨h.1, ?_⟩
  intro s obs hr
  have hs := h.2 s obs hr
  refine ⟨by rintro rfl op; simp [step], ?_⟩
  rintro rest rfl
  have hrusty : Rusty (.rust :: rest) := by
    rcases hs with hs | hs | hs
    · cases hs
    · exact hs
    · cases hs
  refine ⟨?_, by rintro v below rfl; simp [step, leaveGuard]⟩
  cases hp : c.panicAbort with
  | true => exact Or.inl ⟨Or.inl rfl, by simp [step, doPanic, hp, after]⟩
  | false =>
    rcases unwind_rusty c _ hrusty with ⟨h1, h2⟩ | ⟨pre, post, h1, h2, h3, _⟩
    · exact Or.inl ⟨Or.inr h1, by simp only [step, doPanic, hp, h2]; rfl⟩
    · refine Or.inr ⟨rfl, pre, post, h1, h2, by simp only [step, doPanic, hp, h3]; rfl, ?_⟩
      have : pre.filter (· = .cxx) = [] := List.filter_eq_nil_iff.2 (by intro f hf; rw [h2 f hf]; decide)
      rw [h1, List.filter_append, this]
      rfl

/-- **C12**, where the claim fails: the shims behind `rust::Vec::reserve` and `rust::String::reserve`
are not guarded although `Vec::reserve` panics on capacity overflow, so on the older supported compilers
the panic unwinds out of an `extern "C"` function. -/
theorem reserve_overflow_unwinds (sh : Shim) (h : sh = .vecReserveTotal ∨ sh = .stringReserve) :
    runOps (step ⟨false, false⟩) (.running [.cxx]) [.callBare sh true] = .error .ub ∧
    runOps (step ⟨true, false⟩) (.running [.cxx]) [.callBare sh true] = .ok (.aborted, [.aborted]) := by
  rcases h with rfl | rfl <;> exact ⟨rfl, rfl⟩

/-- Every exported function whose body runs code of the user's (functions, operators, destructors)
is guarded. -/
theorem user_code_guarded : ∀ sh ∈ [Shim.function, .operator, .boxDrop, .vecDrop, .vecTruncate], sh.guarded = true := by
  decide

-- non-vacuity
example : runOps (step ⟨false, false⟩) (.running [.cxx]) [.callRust .function, .callCxx, .callRust .operator, .catchUnwind,
      .callLocal, .panic, .ret 7, .ret 8, .callLocal, .panic] =
    .ok (.aborted, [.done, .done, .done, .done, .done, .caught, .toCxx 7, .toRust 8, .done, .aborted]) := by decide +kernel
example : BareOk ⟨false, false⟩ [.callRust .function, .callCxx, .callBare .vecLen true, .panic] := by
  refine Or.inr (Or.inr ?_)
  intro sh h
  simp at h
  rw [h]; rfl

end Verif.Unwind
