import Verif.Throw.Support
import Verif.CxxText.Cases
/-!
# C89 for accepted bridges

The functions at the boundary are those that the generator writes for a bridge, and those of the runtime library; how they are
declared is read from their text.
-/
namespace Verif.Throw
open Verif Verif.Unwind Verif.Syntax Verif.Types Verif.Abi Verif.Check Verif.CxxText

/-- A C++ function that Rust calls in a program with this bridge. -/
inductive IsEntry (apis : List Api) : Entry → Prop
  /-- The function that is written for a C++ function of the bridge. -/
  | function {cx : Ctx} {f : ExternFn} {s : List Char} {d : FnDecl} (hcx : cx.types = collect apis)
      (hf : Api.cxxFunction f ∈ apis) (hn : LegalFn f) (hs : cxxLine cx f = some s) (hd : declOf s = some d) :
      IsEntry apis ⟨d.isNoexcept, f.sig.throws⟩
  /-- A function that is written for an instance, or one of the runtime library. -/
  | support {h : Head} (hh : h ∈ heads) (inst inner : List Char) : IsEntry apis ⟨isNoexcept (h.text inst inner), false⟩

/-- A C++ function that calls Rust in a program with this bridge. -/
inductive IsWrapper (apis : List Api) : Wrapper → Prop
  /-- The function that is written for a Rust function of the bridge. -/
  | function {f : ExternFn} {inClass : Bool} {s : List Char} {d : FnDecl} (hf : Api.rustFunction f ∈ apis) (hn : LegalFn f)
      (hs : shimLine (collect apis) inClass f = some s) (hd : declOf s = some d) : IsWrapper apis ⟨d.isNoexcept, f.sig.throws⟩
  /-- The call of a function pointer: include/cxx.h:412, `operator()` of `rust::Fn` is `noexcept`. -/
  | pointer {u : Bool} {args : List Ty} {ret : Option Ty} {throws : Bool} (ho : Occurs apis (.fn u args ret throws)) :
      IsWrapper apis ⟨true, throws⟩

/-- A program with this bridge crosses the boundary in no other way. -/
def Op.Through (apis : List Api) : Op → Prop
  | .callCxx e => IsEntry apis e
  | .callRust w => IsWrapper apis w
  | _ => True

variable {g : Generator} {apis : List Api}

/-- **C89**.  Every function that Rust calls is declared `noexcept`. -/
theorem entries_noexcept (h : Accepted g apis) (hl : LegalNames apis) {e : Entry} (he : IsEntry apis e) :
    e.noexcept = true := by
  cases he with
  | function hcx hf hn hs hd =>
    obtain ⟨_, r, _, hr, hp⟩ := cxx_prototype_reads h hl hcx (.inl hf) hn hs
    rw [hd] at hr
    cases hr
    exact hp.noexcept
  | support hh inst inner =>
    obtain ⟨pre, hp⟩ := support_noexcept hh inst inner
    simp only [isNoexcept, hp, List.isSuffixOf_iff_suffix]
    exact List.suffix_append _ _

/-- **C89**.  Every function that calls Rust is declared `noexcept` exactly if the Rust function does not return a `Result`. -/
theorem wrappers_noexcept (h : Accepted g apis) (hl : LegalNames apis) {w : Wrapper} (hw : IsWrapper apis w) :
    w.noexcept = true ↔ w.fallible = false := by
  cases hw with
  | function hf hn hs hd =>
    obtain ⟨r, hr, hp, _⟩ := functions_read h hl (.inr hf) hn hs
    rw [hd] at hr
    cases hr
    exact hp.noexcept
  | pointer ho =>
    have := accepted_type h ho
    simp only [checkType, checkTypeFn, List.append_eq_nil_iff] at this
    refine ⟨fun _ => ?_, fun _ => rfl⟩
    simpa using this.1

theorem declared (h : Accepted g apis) (hl : LegalNames apis) {op : Op} (ho : op.Through apis) : op.Declared := by
  cases op with
  | callCxx e => exact entries_noexcept h hl ho
  | callRust w =>
    have := wrappers_noexcept h hl ho
    show w.noexcept = !w.fallible
    cases hn : w.noexcept <;> cases hf : w.fallible <;> simp_all
  | _ => trivial

/-- **C89**.  In every history of a program with an accepted bridge nothing undefined happens: no C++ exception and no panic
reaches a frame of the other language. -/
theorem bridge_never_across (h : Accepted g apis) (hl : LegalNames apis) {c : Config} {b : Behavior} (hb : Reports b) {s : State}
    (hs : Start s) (ops : List Op) (ht : ∀ op ∈ ops, op.Through apis) (ho : ∀ op ∈ ops, NoOverflow c op) :
    runOps (step c b) s ops ≠ .error .ub :=
  never_across hb hs ops (fun op hop => declared h hl (ht op hop)) ho

/-- **C89**.  In every such history, what C++ code throws ends where `Lands` says, and nowhere else. -/
theorem bridge_throw_lands (h : Accepted g apis) (hl : LegalNames apis) {c : Config} {b : Behavior} (hb : Reports b) {s : State}
    (hs : Start s) (ops : List Op) (ht : ∀ op ∈ ops, op.Through apis) (ho : ∀ op ∈ ops, NoOverflow c op)
    {rest : List Frame} {obs : List Obs} (hr : runOps (step c b) s ops = .ok (.running (.cxx :: rest), obs)) (e : Exn)
    (s' : State) (o : Obs) :
    step c b (.running (.cxx :: rest)) (.throw e) = .ok (s', o) ↔ Lands b (.cxx :: rest) e s' o := by
  obtain ⟨s1, o1, h1, h2⟩ := throw_lands hb hs ops (fun op hop => declared h hl (ht op hop)) ho hr e
  rw [h1]
  constructor
  · intro h; cases h; exact h2
  · intro h3
    obtain ⟨rfl, rfl⟩ := lands_once h2 h3
    rfl

/-- **C89**.  In every such history, a Rust function that returns `Err` throws `rust::Error` with its text in its C++ caller. -/
theorem bridge_err_lands (h : Accepted g apis) (hl : LegalNames apis) {c : Config} {b : Behavior} (hb : Reports b) {s : State}
    (hs : Start s) (ops : List Op) (ht : ∀ op ∈ ops, op.Through apis) (ho : ∀ op ∈ ops, NoOverflow c op)
    {w : Wrapper} {rest : List Frame} {obs : List Obs} (hf : w.fallible = true)
    (hr : runOps (step c b) s ops = .ok (.running (.rust :: .guard :: .wrapper w :: rest), obs)) (msg : List Nat)
    (s' : State) (o : Obs) :
    step c b (.running (.rust :: .guard :: .wrapper w :: rest)) (.retErr msg) = .ok (s', o) ↔ Lands b rest (.error msg) s' o := by
  obtain ⟨h0, s1, o1, h1, h2⟩ := err_lands hb hs ops (fun op hop => declared h hl (ht op hop)) ho hf hr msg
  rw [h0, h1]
  constructor
  · intro h; cases h; exact h2
  · intro h3
    obtain ⟨rfl, rfl⟩ := lands_once h2 h3
    rfl

/-! ### The hypotheses are met -/

/-- `fn f(x: u8) -> Result<u8>` in C++, and the same in Rust as `g`. -/
def fFn : ExternFn := ⟨.cxx, nm "f", ⟨false, [], none, [⟨nm "x", .named "u8"⟩], some (.named "u8"), true⟩, true⟩
def gFn : ExternFn := ⟨.rust, nm "g", ⟨false, [], none, [⟨nm "x", .named "u8"⟩], some (.named "u8"), true⟩, true⟩
def both : List Api := [.cxxFunction fFn, .rustFunction gFn]

theorem both_accepted : Accepted .build both := by decide +kernel
theorem both_legal : LegalNames both := legal_of (by decide +kernel)

theorem legalFn_of {f : ExternFn} (h : ((pathOf f.name).all isName && isWord f.name.rust.toList &&
    f.sig.args.all fun a => isName a.name.cxx.toList) = true) : LegalFn f := by
  simp only [Bool.and_eq_true] at h
  exact ⟨h.1.1, h.1.2, List.all_eq_true.1 h.2⟩

theorem both_entry : IsEntry both ⟨true, true⟩ := by
  have hs : (cxxLine (context both 3) fFn).isSome = true := by decide +kernel
  obtain ⟨s, hs⟩ := Option.isSome_iff_exists.1 hs
  have hn : LegalFn fFn := legalFn_of (by decide +kernel)
  obtain ⟨_, r, _, hr, hp⟩ := cxx_prototype_reads both_accepted both_legal (cx := context both 3) rfl (.inl (.head _)) hn hs
  have := IsEntry.function (apis := both) (cx := context both 3) rfl (.head _) hn hs hr
  rw [hp.noexcept] at this
  exact this

theorem both_wrapper : IsWrapper both ⟨false, true⟩ := by
  have hs : (shimLine (collect both) false gFn).isSome = true := by decide +kernel
  obtain ⟨s, hs⟩ := Option.isSome_iff_exists.1 hs
  have hn : LegalFn gFn := legalFn_of (by decide +kernel)
  obtain ⟨r, hr, hp, _⟩ := functions_read both_accepted both_legal (.inr (.tail _ (.head _))) hn hs
  have := IsWrapper.function (apis := both) (.tail _ (.head _)) hn hs hr
  have h : r.isNoexcept = false := by
    cases h : r.isNoexcept with
    | false => rfl
    | true => exact absurd (hp.noexcept.1 h) (by decide)
  rw [h] at this
  exact this

/-- Rust calls `f`, which calls `g` in a `try` block for other exceptions, which calls into Rust again. -/
def calls : List Op := [.callCxx ⟨true, true⟩, .tryBlock (.other 3), .callRust ⟨false, true⟩]

/-- The hypotheses of the theorems are met: what `g` returns as `Err` then arrives in the Rust function that has called `f`; if C++
threw something that is no `std::exception` there, the process would end, and in a `try` block for it it would not. -/
example : Accepted .build both ∧ LegalNames both ∧ Reports defaultBehavior ∧ (∀ op ∈ calls, op.Through both) ∧
    (∀ c, ∀ op ∈ calls, NoOverflow c op) ∧ ∀ c,
    runOps (step c defaultBehavior) (.running [.rust]) (calls ++ [.retErr [110, 111, 0xff, 0, 7]]) =
      .ok (.running [.rust], [.done, .done, .done, .toRust (.error [110, 111, 0xef, 0xbf, 0xbd])]) ∧
    runOps (step c defaultBehavior) (.running [.rust]) [.callCxx ⟨true, true⟩, .callLocal, .throw (.other 3)] =
      .ok (.aborted, [.done, .done, .aborted]) ∧
    runOps (step c defaultBehavior) (.running [.rust]) [.callCxx ⟨true, true⟩, .tryBlock (.other 3), .throw (.other 3)] =
      .ok (.running [.cxx, .entry ⟨true, true⟩, .rust], [.done, .done, .caught (.other 3)]) := by
  refine ⟨both_accepted, both_legal, default_reports.1, ?_, ?_, ?_⟩
  · intro op h
    simp only [calls, List.mem_cons, List.not_mem_nil, or_false] at h
    rcases h with rfl | rfl | rfl
    · exact both_entry
    · trivial
    · exact both_wrapper
  · intro c op h
    simp only [calls, List.mem_cons, List.not_mem_nil, or_false] at h
    rcases h with rfl | rfl | rfl <;> exact .inr (.inr (by intro sh h; cases h))
  · intro c
    refine ⟨?_, rfl, rfl⟩
    have : Utf8.fromUtf8Lossy [110, 111, 255] = [110, 111, 0xef, 0xbf, 0xbd] := by decide +kernel
    rw [← this]
    rfl

/-- A `trycatch` that swallows an exception: Rust reads a result that has not been written. -/
theorem swallowed : ∃ b : Behavior, ¬ Reports b ∧ ∀ c, runOps (step c b) (.running [.rust])
    [.callCxx ⟨true, true⟩, .throw (.std [])] = .error .ub :=
  ⟨fun _ => .silent, fun h => h (.std []) rfl, fun _ => rfl⟩

end Verif.Throw
