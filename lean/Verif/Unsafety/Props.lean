import Verif.Unsafety.Spec
import Verif.Check.Props
/-!
# `unsafe` in the expansion (C116)
-/
namespace Verif.Unsafety
open Verif.Syntax Verif.Types Verif.Abi

/-! ### Expressions -/

/-- As `Fun.Callable`, for an expression. -/
def CallableE (e : Expr) : Prop := ∀ f args, Within (.call f args) e → ∀ h, .fn h ∈ args → ¬h.Unsafe

/-- As `Fun.Used`, for an expression. -/
def UsedE (e : Expr) : Prop := ∀ b, Within (.unsafeBlock b) e → Needs b

theorem needs_iff (e : Expr) : Needs e ↔ e.Operation ∨ ((∀ b, e ≠ .unsafeBlock b) ∧ ∃ p ∈ e.parts, Needs p) := by
  constructor
  · intro h
    cases h with
    | here h => exact .inl h
    | part hb hp h => exact .inr ⟨hb, _, hp, h⟩
  · rintro (h | ⟨hb, p, hp, h⟩)
    · exact .here h
    · exact .part hb hp h

theorem within_iff (a e : Expr) : Within a e ↔ a = e ∨ ∃ p ∈ e.parts, Within a p := by
  constructor
  · intro h
    cases h with
    | here => exact .inl rfl
    | part hp h => exact .inr ⟨_, hp, h⟩
  · rintro (rfl | ⟨p, hp, h⟩)
    · exact .here
    · exact .part hp h

theorem needs_var (x : Ident) : Needs (.var x) ↔ False := by rw [needs_iff]; simp [Expr.Operation, Expr.parts]
theorem needs_fn (f : Callee) : Needs (.fn f) ↔ False := by rw [needs_iff]; simp [Expr.Operation, Expr.parts]
theorem needs_call (f : Callee) (args : List Expr) : Needs (.call f args) ↔ f.Unsafe ∨ ∃ a ∈ args, Needs a := by
  rw [needs_iff]; simp [Expr.Operation, Expr.parts]
theorem needs_ref (e : Expr) : Needs (.ref e) ↔ Needs e := by rw [needs_iff]; simp [Expr.Operation, Expr.parts]
theorem needs_deref (r : Bool) (e : Expr) : Needs (.deref r e) ↔ r = true ∨ Needs e := by
  rw [needs_iff]; simp [Expr.Operation, Expr.parts]
theorem needs_cast (e : Expr) : Needs (.cast e) ↔ Needs e := by rw [needs_iff]; simp [Expr.Operation, Expr.parts]
theorem needs_two (a b : Expr) : Needs (.two a b) ↔ Needs a ∨ Needs b := by rw [needs_iff]; simp [Expr.Operation, Expr.parts]
theorem needs_try (e : Expr) : Needs (.try e) ↔ Needs e := by rw [needs_iff]; simp [Expr.Operation, Expr.parts]
theorem needs_block (e : Expr) : Needs (.unsafeBlock e) ↔ False := by rw [needs_iff]; simp [Expr.Operation]
theorem needs_closure (e : Expr) : Needs (.closure e) ↔ Needs e := by rw [needs_iff]; simp [Expr.Operation, Expr.parts]
theorem needs_bind (x : Ident) (e : Expr) : Needs (.bind x e) ↔ Needs e := by rw [needs_iff]; simp [Expr.Operation, Expr.parts]
theorem needs_seq (a b : Expr) : Needs (.seq a b) ↔ Needs a ∨ Needs b := by rw [needs_iff]; simp [Expr.Operation, Expr.parts]

theorem callable_parts {e : Expr} (h : ∀ f args, e ≠ .call f args) : CallableE e ↔ ∀ p ∈ e.parts, CallableE p := by
  constructor
  · intro hc p hp f args hw
    exact hc f args (.part hp hw)
  · intro hc f args hw
    rcases (within_iff _ _).1 hw with he | ⟨p, hp, hw⟩
    · exact absurd he.symm (h f args)
    · exact hc p hp f args hw

theorem callable_call (f : Callee) (args : List Expr) :
    CallableE (.call f args) ↔ (∀ h, .fn h ∈ args → ¬h.Unsafe) ∧ ∀ a ∈ args, CallableE a := by
  constructor
  · intro hc
    exact ⟨hc f args .here, fun a ha g as hw => hc g as (.part ha hw)⟩
  · rintro ⟨h1, h2⟩ g as hw
    rcases (within_iff _ _).1 hw with he | ⟨p, hp, hw⟩
    · cases he
      exact h1
    · exact h2 p hp g as hw

theorem callable_var (x : Ident) : CallableE (.var x) ↔ True := by rw [callable_parts (by simp)]; simp [Expr.parts]
theorem callable_fn (f : Callee) : CallableE (.fn f) ↔ True := by rw [callable_parts (by simp)]; simp [Expr.parts]
theorem callable_ref (e : Expr) : CallableE (.ref e) ↔ CallableE e := by rw [callable_parts (by simp)]; simp [Expr.parts]
theorem callable_deref (r : Bool) (e : Expr) : CallableE (.deref r e) ↔ CallableE e := by
  rw [callable_parts (by simp)]; simp [Expr.parts]
theorem callable_cast (e : Expr) : CallableE (.cast e) ↔ CallableE e := by rw [callable_parts (by simp)]; simp [Expr.parts]
theorem callable_two (a b : Expr) : CallableE (.two a b) ↔ CallableE a ∧ CallableE b := by
  rw [callable_parts (by simp)]; simp [Expr.parts]
theorem callable_try (e : Expr) : CallableE (.try e) ↔ CallableE e := by rw [callable_parts (by simp)]; simp [Expr.parts]
theorem callable_block (e : Expr) : CallableE (.unsafeBlock e) ↔ CallableE e := by
  rw [callable_parts (by simp)]; simp [Expr.parts]
theorem callable_closure (e : Expr) : CallableE (.closure e) ↔ CallableE e := by
  rw [callable_parts (by simp)]; simp [Expr.parts]
theorem callable_bind (x : Ident) (e : Expr) : CallableE (.bind x e) ↔ CallableE e := by
  rw [callable_parts (by simp)]; simp [Expr.parts]
theorem callable_seq (a b : Expr) : CallableE (.seq a b) ↔ CallableE a ∧ CallableE b := by
  rw [callable_parts (by simp)]; simp [Expr.parts]

theorem used_parts {e : Expr} (h : ∀ b, e ≠ .unsafeBlock b) : UsedE e ↔ ∀ p ∈ e.parts, UsedE p := by
  constructor
  · intro hc p hp b hw
    exact hc b (.part hp hw)
  · intro hc b hw
    rcases (within_iff _ _).1 hw with he | ⟨p, hp, hw⟩
    · exact absurd he.symm (h b)
    · exact hc p hp b hw

theorem used_block (e : Expr) : UsedE (.unsafeBlock e) ↔ Needs e ∧ UsedE e := by
  constructor
  · intro hc
    exact ⟨hc e .here, fun b hw => hc b (.part (by simp [Expr.parts]) hw)⟩
  · rintro ⟨h1, h2⟩ b hw
    rcases (within_iff _ _).1 hw with he | ⟨p, hp, hw'⟩
    · cases he
      exact h1
    · simp only [Expr.parts, List.mem_singleton] at hp
      exact h2 b (hp ▸ hw')

theorem used_var (x : Ident) : UsedE (.var x) ↔ True := by rw [used_parts (by simp)]; simp [Expr.parts]
theorem used_fn (f : Callee) : UsedE (.fn f) ↔ True := by rw [used_parts (by simp)]; simp [Expr.parts]
theorem used_call (f : Callee) (args : List Expr) : UsedE (.call f args) ↔ ∀ a ∈ args, UsedE a := by
  rw [used_parts (by simp)]; simp [Expr.parts]
theorem used_ref (e : Expr) : UsedE (.ref e) ↔ UsedE e := by rw [used_parts (by simp)]; simp [Expr.parts]
theorem used_deref (r : Bool) (e : Expr) : UsedE (.deref r e) ↔ UsedE e := by rw [used_parts (by simp)]; simp [Expr.parts]
theorem used_cast (e : Expr) : UsedE (.cast e) ↔ UsedE e := by rw [used_parts (by simp)]; simp [Expr.parts]
theorem used_two (a b : Expr) : UsedE (.two a b) ↔ UsedE a ∧ UsedE b := by rw [used_parts (by simp)]; simp [Expr.parts]
theorem used_try (e : Expr) : UsedE (.try e) ↔ UsedE e := by rw [used_parts (by simp)]; simp [Expr.parts]
theorem used_closure (e : Expr) : UsedE (.closure e) ↔ UsedE e := by rw [used_parts (by simp)]; simp [Expr.parts]
theorem used_bind (x : Ident) (e : Expr) : UsedE (.bind x e) ↔ UsedE e := by rw [used_parts (by simp)]; simp [Expr.parts]
theorem used_seq (a b : Expr) : UsedE (.seq a b) ↔ UsedE a ∧ UsedE b := by rw [used_parts (by simp)]; simp [Expr.parts]

attribute [local simp] needs_var needs_fn needs_call needs_ref needs_deref needs_cast needs_two needs_try needs_block needs_closure
  needs_bind needs_seq callable_call callable_var callable_fn callable_ref callable_deref callable_cast callable_two callable_try
  callable_block callable_closure callable_bind callable_seq used_block used_var used_fn used_call used_ref used_deref used_cast
  used_two used_try used_closure used_bind used_seq Callee.Unsafe Lib.Unsafe lib

@[local simp] theorem needs_stmts (ss : List Expr) (e : Expr) : Needs (block ss e) ↔ (∃ s ∈ ss, Needs s) ∨ Needs e := by
  induction ss with
  | nil => simp [block]
  | cons s ss ih => simp [block, ih, or_assoc]

@[local simp] theorem callable_stmts (ss : List Expr) (e : Expr) :
    CallableE (block ss e) ↔ (∀ s ∈ ss, CallableE s) ∧ CallableE e := by
  induction ss with
  | nil => simp [block]
  | cons s ss ih => simp [block, ih, and_assoc]

@[local simp] theorem used_stmts (ss : List Expr) (e : Expr) : UsedE (block ss e) ↔ (∀ s ∈ ss, UsedE s) ∧ UsedE e := by
  induction ss with
  | nil => simp [block]
  | cons s ss ih => simp [block, ih, and_assoc]

/-! ### Functions of C++ -/

/-- No function stands for itself. -/
def NotFn (e : Expr) : Prop := ∀ h, e ≠ .fn h

theorem cxxArg_ok (cx : Ctx) (x : Ident) (ty : Ty) :
    CallableE (cxxArg cx x ty) ∧ UsedE (cxxArg cx x ty) ∧ NotFn (cxxArg cx x ty) := by
  unfold cxxArg NotFn
  cases ty with
  | ref p l m t => cases t <;> simp <;> (repeat' split) <;> simp
  | _ => simp <;> (repeat' split) <;> simp

theorem cxxResult_ok (cx : Ctx) {call : Expr} (h1 : CallableE call) (h2 : UsedE call) (h3 : Needs call) (h4 : NotFn call)
    (ty : Ty) : CallableE (cxxResult cx call ty) ∧ UsedE (cxxResult cx call ty) ∧ Needs (cxxResult cx call ty) ∧
      NotFn (cxxResult cx call ty) := by
  have h5 : ∀ h, Expr.fn h ≠ call := fun h e => h4 h e.symm
  unfold NotFn at h4 ⊢
  unfold cxxResult
  cases ty with
  | ref p l m t => cases t <;> simp <;> (repeat' split) <;> simp [*]
  | _ => simp <;> (repeat' split) <;> simp [*]

theorem cxxFats_ok (args : List Var) {e : Expr} (he : e ∈ cxxFats args) : ¬Needs e ∧ CallableE e ∧ UsedE e := by
  unfold cxxFats at he
  obtain ⟨a, _, ha⟩ := List.mem_filterMap.1 he
  split at ha
  · cases (Option.some.inj ha)
    simp
  · simp at ha

theorem cxxVars_ok (cx : Ctx) (f : ExternFn) {a : Expr} (ha : a ∈ cxxVars cx f) : CallableE a ∧ UsedE a ∧ NotFn a := by
  rcases List.mem_append.1 ha with ha | ha
  · obtain ⟨_, _, rfl⟩ := List.mem_map.1 ha
    simp [NotFn]
  · obtain ⟨v, _, rfl⟩ := List.mem_map.1 ha
    exact cxxArg_ok cx _ _

theorem cxxVars_fn (cx : Ctx) (f : ExternFn) (h : Callee) : Expr.fn h ∉ cxxVars cx f := fun hm => (cxxVars_ok cx f hm).2.2 h rfl

theorem cxxSetup_ok (cx : Ctx) (args : List Var) {e : Expr} (he : e ∈ cxxSetup cx args) : CallableE e ∧ UsedE e := by
  obtain ⟨a, _, rfl⟩ := List.mem_map.1 he
  simp

theorem cxxOut_ok (cx : Ctx) (f : ExternFn) {e : Expr} (he : e ∈ cxxOut cx f) : CallableE e ∧ UsedE e := by
  have hv : ∀ a ∈ cxxVars cx f, CallableE a ∧ UsedE a := fun a ha => ⟨(cxxVars_ok cx f ha).1, (cxxVars_ok cx f ha).2.1⟩
  unfold cxxOut at he
  split at he
  · simp only [List.mem_cons, List.not_mem_nil, or_false] at he
    rcases he with rfl | rfl
    · simp
    · split
      · simp [cxxVars_fn, or_imp, forall_and]
        exact ⟨fun a ha => (hv a ha).1, fun a ha => (hv a ha).2⟩
      · simp [cxxVars_fn, or_imp, forall_and]
        exact ⟨fun a ha => (hv a ha).1, fun a ha => (hv a ha).2⟩
  · simp at he

theorem cxxCall_ok (cx : Ctx) (f : ExternFn) :
    CallableE (cxxCall cx f) ∧ UsedE (cxxCall cx f) ∧ Needs (cxxCall cx f) ∧ NotFn (cxxCall cx f) := by
  have hv : ∀ a ∈ cxxVars cx f, CallableE a ∧ UsedE a := fun a ha => ⟨(cxxVars_ok cx f ha).1, (cxxVars_ok cx f ha).2.1⟩
  unfold cxxCall
  repeat' split
  · simp [NotFn]
  all_goals
    simp [NotFn, cxxVars_fn, cxxImported]
    exact ⟨fun a ha => (hv a ha).1, fun a ha => (hv a ha).2⟩

theorem cxxExpr_ok (cx : Ctx) (f : ExternFn) :
    CallableE (cxxExpr cx f) ∧ UsedE (cxxExpr cx f) ∧ Needs (cxxExpr cx f) := by
  obtain ⟨h1, h2, h3, h4⟩ := cxxCall_ok cx f
  unfold cxxExpr
  split
  · exact ⟨h1, h2, h3⟩
  · rename_i ret _
    obtain ⟨g1, g2, g3, g4⟩ := cxxResult_ok cx h1 h2 h3 h4 ret
    have g5 : ∀ h, Expr.fn h ≠ cxxResult cx (cxxCall cx f) ret := fun h e => g4 h e.symm
    split
    · simp [g1, g2, g3, g5]
    · exact ⟨g1, g2, g3⟩

/-- The body of a function that calls C++ is fine. -/
theorem cxxFn_fine (cx : Ctx) (f : ExternFn) : Fun.Fine ⟨f.sig.unsafety, false, cxxBody cx f⟩ := by
  obtain ⟨e1, e2, e3⟩ := cxxExpr_ok cx f
  have hn : ¬Needs (cxxBody cx f) := by
    simp only [cxxBody, needs_stmts, needs_block, or_false]
    rintro ⟨s, hs, h⟩
    exact (cxxFats_ok _ hs).1 h
  refine ⟨fun h => absurd h hn, hn, ?_, .inr ?_⟩
  · show CallableE (cxxBody cx f)
    simp only [cxxBody, callable_stmts, callable_block]
    refine ⟨fun s hs => (cxxFats_ok _ hs).2.1, fun s hs => ?_, e1⟩
    rcases List.mem_append.1 hs with hs | hs
    · exact (cxxSetup_ok cx _ hs).1
    · exact (cxxOut_ok cx f hs).1
  · show UsedE (cxxBody cx f)
    simp only [cxxBody, used_stmts, used_block, needs_stmts]
    refine ⟨fun s hs => (cxxFats_ok _ hs).2.2, .inr e3, fun s hs => ?_, e2⟩
    rcases List.mem_append.1 hs with hs | hs
    · exact (cxxSetup_ok cx _ hs).2
    · exact (cxxOut_ok cx f hs).2

/-! ### Functions of Rust -/

theorem rustArg_ok (cx : Ctx) (x : Ident) (ty : Ty) :
    (Needs (rustArg cx x ty).1 ↔ (rustArg cx x ty).2 = true) ∧ ((rustArg cx x ty).2 = false ↔ Harmless cx ty) ∧
      CallableE (rustArg cx x ty).1 ∧ UsedE (rustArg cx x ty).1 ∧ NotFn (rustArg cx x ty).1 := by
  unfold rustArg NotFn Harmless
  cases ty with
  | ref p l m t => cases t <;> simp <;> (repeat' split) <;> simp
  | ident t => by_cases h1 : t.rust = "String" <;> by_cases h2 : cx.needsIndirect (.ident t) = true <;> simp [h1, h2]
  | rustVec v => cases h : ofStrings v <;> simp
  | sliceRef l m t => cases m <;> simp
  | rustBox _ => simp
  | uniquePtr _ => simp
  | str p l m t => simp
  | ptr m t => simp [Ctx.needsIndirect]
  | sharedPtr t => by_cases h2 : cx.needsIndirect (.sharedPtr t) = true <;> simp [h2]
  | weakPtr t => by_cases h2 : cx.needsIndirect (.weakPtr t) = true <;> simp [h2]
  | cxxVector t => by_cases h2 : cx.needsIndirect (.cxxVector t) = true <;> simp [h2]
  | fn u as r t => by_cases h2 : cx.needsIndirect (.fn u as r t) = true <;> simp [h2]
  | void => by_cases h2 : cx.needsIndirect .void = true <;> simp [h2]
  | array t n => by_cases h2 : cx.needsIndirect (.array t n) = true <;> simp [h2]

theorem conversion_ok {ty : Ty} {c : Lib} (h : rustConversion ty = some c) : ¬c.Unsafe := by
  unfold rustConversion at h
  repeat' split at h
  all_goals first | (cases h; simp; done) | (simp at h; done)

theorem unchanged_iff (cx : Ctx) (ty : Ty) : (rustConversion ty = none ∧ cx.needsIndirect ty = false) ↔ Unchanged cx ty := by
  cases ty with
  | ref p l m t => cases t <;> simp [rustConversion, Unchanged, Ctx.needsIndirect]
  | ident t => simp [rustConversion, Unchanged]
  | _ => simp [rustConversion, Unchanged, Ctx.needsIndirect]

theorem rustVars_ok (cx : Ctx) (receiver : Bool) (args : List (Ident × Ty)) {a : Expr} (ha : a ∈ rustVars cx receiver args) :
    CallableE a ∧ UsedE a ∧ NotFn a := by
  rcases List.mem_append.1 ha with ha | ha
  · split at ha <;> simp at ha
    subst ha
    simp [NotFn]
  · obtain ⟨a, _, rfl⟩ := List.mem_map.1 ha
    exact (rustArg_ok cx _ _).2.2

theorem rustVars_fn (cx : Ctx) (receiver : Bool) (args : List (Ident × Ty)) (h : Callee) : Expr.fn h ∉ rustVars cx receiver args :=
  fun hm => (rustVars_ok cx receiver args hm).2.2 h rfl

theorem rustVars_needs (cx : Ctx) (receiver : Bool) (args : List (Ident × Ty)) :
    (∃ a ∈ rustVars cx receiver args, Needs a) ↔ (args.any fun a => (rustArg cx a.1 a.2).2) = true := by
  constructor
  · rintro ⟨a, ha, hn⟩
    rcases List.mem_append.1 ha with ha | ha
    · split at ha <;> simp at ha
      subst ha
      simp at hn
    · obtain ⟨a, hm, rfl⟩ := List.mem_map.1 ha
      exact List.any_eq_true.2 ⟨_, hm, (rustArg_ok cx _ _).1.1 hn⟩
  · intro h
    obtain ⟨a, hm, h2⟩ := List.any_eq_true.1 h
    exact ⟨_, List.mem_append_right _ (List.mem_map.2 ⟨_, hm, rfl⟩), (rustArg_ok cx _ _).1.2 h2⟩

theorem rustCall_ok (cx : Ctx) (invoke : Option Ident) (unsafety receiver : Bool) (args : List (Ident × Ty)) :
    let call := rustCall invoke unsafety (rustVars cx receiver args)
    CallableE call ∧ UsedE call ∧ NotFn call ∧
      (Needs call ↔ unsafety = true ∨ invoke = none ∨ (args.any fun a => (rustArg cx a.1 a.2).2) = true) := by
  have hv : ∀ a ∈ rustVars cx receiver args, CallableE a ∧ UsedE a :=
    fun a ha => ⟨(rustVars_ok cx receiver args ha).1, (rustVars_ok cx receiver args ha).2.1⟩
  have hn := rustVars_needs cx receiver args
  cases invoke with
  | some n =>
    simp only [rustCall, callable_call, used_call, needs_call, hn, rustVars_fn, NotFn]
    simp
    exact ⟨fun a ha => (hv a ha).1, fun a ha => (hv a ha).2⟩
  | none =>
    simp [rustCall, rustVars_fn, NotFn]
    exact ⟨fun a ha => (hv a ha).1, fun a ha => (hv a ha).2⟩

theorem converted_ok {call : Expr} {conversion : Option Lib} (throws : Bool) (hc : ∀ c, conversion = some c → ¬c.Unsafe)
    (h1 : CallableE call) (h2 : UsedE call) (h3 : NotFn call) :
    CallableE (rustConverted call conversion throws) ∧ UsedE (rustConverted call conversion throws) ∧
      (Needs (rustConverted call conversion throws) ↔ Needs call) ∧ NotFn (rustConverted call conversion throws) := by
  have h4 : ∀ h, Expr.fn h ≠ call := fun h e => h3 h e.symm
  unfold rustConverted
  split
  · exact ⟨h1, h2, .rfl, h3⟩
  · rename_i c
    have hc := hc c rfl
    have hm : ¬Lib.Unsafe .resultMap := id
    split <;> simp [h1, h2, h4, hc, hm, NotFn, -Lib.Unsafe]

theorem stored_ok {expr : Expr} (ret : Option Ty) (throws indirect : Bool) (h1 : CallableE expr) (h2 : UsedE expr)
    (h3 : NotFn expr) :
    CallableE (rustStored expr ret throws indirect) ∧ UsedE (rustStored expr ret throws indirect) ∧
      (Needs (rustStored expr ret throws indirect) ↔ throws = true ∨ indirect = true ∨ Needs expr) := by
  have h4 : ∀ h, Expr.fn h ≠ expr := fun h e => h3 h e.symm
  unfold rustStored
  cases throws
  · cases indirect <;> simp [h1, h2, h4]
  · cases ret <;> simp [h1, h2, h4]

/-- The exported functions are permitted to do what they do.  The rest depends on whether the function that they call is an
unsafe one, and how much of `requires_unsafe` and `requires_closure` is set. -/
theorem rustShim_ok (cx : Ctx) (invoke : Option Ident) (unsafety receiver : Bool) (args : List (Ident × Ty)) (ret : Option Ty)
    (throws : Bool) :
    (rustShim cx invoke unsafety receiver args ret throws).Permitted ∧ (rustShim cx invoke unsafety receiver args ret throws).Used ∧
    (Needs (rustShim cx invoke unsafety receiver args ret throws).body ↔ unsafety = true ∧
      rustRequiresUnsafe cx invoke args throws (indirectReturnR cx ret throws) = false ∧
      rustRequiresClosure invoke (rustVars cx receiver args) (ret.bind rustConversion) throws (indirectReturnR cx ret throws) = true) ∧
    ((rustShim cx invoke unsafety receiver args ret throws).Callable ↔ (unsafety = true →
      rustRequiresClosure invoke (rustVars cx receiver args) (ret.bind rustConversion) throws (indirectReturnR cx ret throws) = true)) := by
  obtain ⟨c1, c2, c3, c4⟩ := rustCall_ok cx invoke unsafety receiver args
  have hc : ∀ c, ret.bind rustConversion = some c → ¬c.Unsafe := by
    intro c hc
    cases ret with
    | none => simp at hc
    | some t => exact conversion_ok hc
  obtain ⟨d1, d2, d3, d4⟩ := converted_ok throws hc c1 c2 c3
  obtain ⟨e1, e2, e3⟩ := stored_ok ret throws (indirectReturnR cx ret throws) d1 d2 d4
  rw [d3, c4] at e3
  refine ⟨fun _ => rfl, .inr ?_, ?_, ?_⟩
  · show UsedE _
    unfold rustShim
    simp only [used_seq, used_bind, used_var, used_call, true_and, List.mem_cons, List.not_mem_nil, or_false, forall_eq_or_imp,
      forall_eq]
    split
    · rw [used_closure]
      split
      · rename_i hu
        rw [used_block, e3]
        refine ⟨?_, e2⟩
        simp only [rustRequiresUnsafe, Bool.or_eq_true, Option.isNone_iff_eq_none] at hu
        grind
      · exact e2
    · simp
  · unfold rustShim
    simp only [needs_seq, needs_bind, needs_var, needs_call, false_or, List.mem_cons, List.not_mem_nil, or_false,
      exists_eq_or_imp, exists_eq_left, Callee.Unsafe, Lib.Unsafe]
    split
    · rename_i hcl
      rw [needs_closure]
      split
      · rename_i hu
        simp [hu]
      · rename_i hu
        have hu' := hu
        simp only [rustRequiresUnsafe, Bool.or_eq_true, Option.isNone_iff_eq_none, not_or] at hu'
        obtain ⟨⟨⟨g1, g2⟩, g3⟩, g4⟩ := hu'
        rw [e3]
        simp only [Bool.not_eq_true] at hu
        constructor
        · rintro (h | h | h | h | h)
          · exact absurd h g3
          · exact absurd h g4
          · exact ⟨h, hu, hcl⟩
          · exact absurd h g2
          · exact absurd h g1
        · exact fun h => .inr (.inr (.inl h.1))
    · rename_i hcl
      simp [hcl]
  · show CallableE _ ↔ _
    unfold rustShim
    simp only [callable_seq, callable_bind, callable_var, callable_call, true_and, List.mem_cons, List.not_mem_nil, or_false,
      forall_eq_or_imp, forall_eq]
    split
    · rename_i hcl
      simp only [callable_closure, hcl, implies_true, iff_true]
      split <;> simp [e1]
    · rename_i hcl
      simp [hcl]

theorem flag_iff (cx : Ctx) (args : List (Ident × Ty)) :
    (args.any fun a => (rustArg cx a.1 a.2).2) = false ↔ ∀ a ∈ args, Harmless cx a.2 := by
  rw [List.any_eq_false]
  constructor
  · exact fun h a ha => (rustArg_ok cx a.1 a.2).2.1.1 (by simpa using h a ha)
  · exact fun h a ha => by simpa using (rustArg_ok cx a.1 a.2).2.1.2 (h a ha)

theorem exported_flags (cx : Ctx) (f : ExternFn) :
    (rustRequiresUnsafe cx (some (rustLocal f)) (f.sig.args.map fun a => (a.name.rust, a.ty)) f.sig.throws
        (indirectReturnR cx f.sig.ret f.sig.throws) = false ↔
      f.sig.throws = false ∧ (∀ t, f.sig.ret = some t → cx.needsIndirect t = false) ∧ ∀ a ∈ f.sig.args, Harmless cx a.ty) ∧
    (rustRequiresClosure (some (rustLocal f)) (rustVars cx f.sig.receiver.isSome (f.sig.args.map fun a => (a.name.rust, a.ty)))
        (f.sig.ret.bind rustConversion) f.sig.throws (indirectReturnR cx f.sig.ret f.sig.throws) = false ↔
      f.sig.receiver = none ∧ f.sig.args = [] ∧ f.sig.throws = false ∧ ∀ t, f.sig.ret = some t → Unchanged cx t) := by
  constructor
  · simp only [rustRequiresUnsafe, Bool.or_eq_false_iff, flag_iff]
    cases f.sig.ret <;> cases f.sig.throws <;> simp [indirectReturnR, and_comm]
  · have hv : (rustVars cx f.sig.receiver.isSome (f.sig.args.map fun a => (a.name.rust, a.ty))).isEmpty = true ↔
        f.sig.receiver = none ∧ f.sig.args = [] := by
      cases f.sig.receiver <;> simp [rustVars]
    simp only [rustRequiresClosure, Bool.or_eq_false_iff, Bool.not_eq_false', hv]
    cases hr : f.sig.ret with
    | none => cases f.sig.throws <;> simp [indirectReturnR]
    | some t =>
      have := unchanged_iff cx t
      cases f.sig.throws <;> simp [indirectReturnR, ← this, and_assoc]

/-- **C116**, functions of Rust.  When the exported function has an unsafe operation outside of `unsafe` blocks, and when it
does not compile.  Both happen only for functions that the user declares `unsafe`. -/
theorem exported_partial (cx : Ctx) (f : ExternFn) :
    (rustExported cx f).Permitted ∧ (rustExported cx f).Used ∧
    (¬(rustExported cx f).Explicit ↔ f.sig.unsafety = true ∧ f.sig.throws = false ∧
      (∀ t, f.sig.ret = some t → cx.needsIndirect t = false) ∧ (∀ a ∈ f.sig.args, Harmless cx a.ty) ∧
      ¬(f.sig.receiver = none ∧ f.sig.args = [] ∧ ∀ t, f.sig.ret = some t → Unchanged cx t)) ∧
    (¬(rustExported cx f).Callable ↔ f.sig.unsafety = true ∧ f.sig.receiver = none ∧ f.sig.args = [] ∧ f.sig.throws = false ∧
      ∀ t, f.sig.ret = some t → Unchanged cx t) := by
  obtain ⟨h1, h2, h3, h4⟩ := rustShim_ok cx (some (rustLocal f)) f.sig.unsafety f.sig.receiver.isSome
    (f.sig.args.map fun a => (a.name.rust, a.ty)) f.sig.ret f.sig.throws
  obtain ⟨g1, g2⟩ := exported_flags cx f
  have g3 := not_congr g2
  rw [Bool.not_eq_false] at g3
  refine ⟨h1, h2, ?_, ?_⟩
  · unfold Fun.Explicit rustExported
    rw [Classical.not_not, h3, g1, g3]
    grind
  · unfold rustExported
    rw [h4, g3]
    grind

theorem inside_ok {actual : Bool} {f : ExternFn} (h : actual = true → f.sig.unsafety = true) :
    (rustInside actual f).Fine := by
  unfold Fun.Fine Fun.Permitted Fun.Explicit Fun.Used
  show _ ∧ _ ∧ CallableE _ ∧ _
  unfold rustInside
  have hn : ∀ h : Callee, Expr.fn h ∉ f.sig.receiver.toList.map (fun _ => Expr.var "__self") ++
      f.sig.args.map fun a => Expr.var a.name.rust := by
    simp
  cases hu : f.sig.unsafety
  · have : actual = false := by simpa [hu] using h
    subst this
    have hb : ¬∃ a ∈ f.sig.receiver.toList.map (fun _ => Expr.var "__self") ++
        f.sig.args.map (fun a => Expr.var a.name.rust), Needs a := by
      rintro ⟨a, ha, hn⟩
      rcases List.mem_append.1 ha with ha | ha <;> obtain ⟨_, _, rfl⟩ := List.mem_map.1 ha <;> simp at hn
    have hp : ∀ a ∈ f.sig.receiver.toList.map (fun _ => Expr.var "__self") ++
        f.sig.args.map (fun a => Expr.var a.name.rust), CallableE a ∧ UsedE a := by
      intro a ha
      rcases List.mem_append.1 ha with ha | ha <;> obtain ⟨_, _, rfl⟩ := List.mem_map.1 ha <;> simp
    have hnb : ¬Needs (.call (.item f.name.rust false) (f.sig.receiver.toList.map (fun _ => Expr.var "__self") ++
        f.sig.args.map fun a => Expr.var a.name.rust)) := by
      rw [needs_call]
      rintro (h | h)
      · simp at h
      · exact hb h
    refine ⟨fun h => absurd h hnb, hnb, ?_, .inr ?_⟩
    · simp only [Bool.false_eq_true, ↓reduceIte, callable_call]
      exact ⟨fun h hm => absurd hm (hn h), fun a ha => (hp a ha).1⟩
    · show UsedE _
      simp only [Bool.false_eq_true, ↓reduceIte, used_call]
      exact fun a ha => (hp a ha).2
  · refine ⟨fun _ => rfl, by simp, ?_, .inl rfl⟩
    simp only [↓reduceIte, callable_block, callable_call]
    refine ⟨fun h hm => absurd hm (hn h), fun a ha => ?_⟩
    rcases List.mem_append.1 ha with ha | ha <;> obtain ⟨_, _, rfl⟩ := List.mem_map.1 ha <;> simp

/-- **C116**, the safe side.  If the function of the user is an `unsafe fn` and the bridge does not say so, the expansion is
rejected (E0133); so C++ does not get a function that is declared to be safe and is not. -/
theorem undeclared_rejected (actual : Bool) (f : ExternFn) :
    (rustInside actual f).Permitted ↔ (actual = true → f.sig.unsafety = true) := by
  refine ⟨fun h ha => ?_, fun h => (inside_ok h).1⟩
  cases hu : f.sig.unsafety with
  | true => rfl
  | false =>
    have : Needs (rustInside actual f).body := by
      simp only [rustInside, hu, Bool.false_eq_true, ↓reduceIte]
      exact .here ha
    have := h this
    simp [rustInside, hu] at this

theorem trampolines_ok (cx : Ctx) (args : List Var) {g : Fun} (hg : g ∈ trampolines cx args) : g.Fine := by
  unfold trampolines at hg
  obtain ⟨a, _, ha⟩ := List.mem_filterMap.1 hg
  split at ha
  · cases (Option.some.inj ha)
    rename_i u as r t _
    obtain ⟨h1, h2, h3, h4⟩ := rustShim_ok cx none u false (as.map fun t => ("arg", t)) r t
    refine ⟨h1, ?_, ?_, h2⟩
    · intro h
      have := (h3.1 h).2.1
      simp [rustRequiresUnsafe] at this
    · exact h4.2 fun _ => by simp [rustRequiresClosure]
  · simp at ha

theorem fine_iff (g : Fun) : g.Fine ↔ ¬Needs g.body ∧ CallableE g.body ∧ (g.allowUnused = true ∨ UsedE g.body) := by
  unfold Fun.Fine Fun.Permitted Fun.Explicit Fun.Used
  show _ ∧ _ ∧ CallableE _ ∧ (_ ∨ UsedE _) ↔ _
  constructor
  · exact fun h => h.2
  · exact fun h => ⟨fun hn => absurd hn h.1, h⟩

theorem operators_ok (s : Struct) {g : Fun} (hg : g ∈ operators s) : g.Fine := by
  have h1 : comparison.Fine := by simp [fine_iff, comparison]
  have h2 : hashing.Fine := by simp [fine_iff, hashing]
  have : g = comparison ∨ g = hashing := by
    obtain ⟨d, _, hd⟩ := List.mem_flatMap.1 hg
    split at hd
    · split at hd <;> simp at hd <;> exact .inl hd
    · split at hd <;> simp at hd <;> exact .inl hd
    · simp at hd
      exact .inr hd
    · simp at hd
  rcases this with rfl | rfl <;> assumption

theorem layoutFns_ok {g : Fun} (hg : g ∈ layoutFns) : g.Fine := by
  simp only [layoutFns, List.mem_cons, List.not_mem_nil, or_false] at hg
  rcases hg with rfl | rfl | rfl <;> simp [fine_iff]

theorem instanceFns_ok (ts : Types) (k : ImplKey) {g : Fun} (hg : g ∈ instanceFns ts k) : g.Fine := by
  cases k with
  | rustBox n =>
    simp only [instanceFns, boxFns, List.mem_cons, List.not_mem_nil, or_false] at hg
    rcases hg with rfl | rfl | rfl <;> simp [fine_iff]
  | rustVec n =>
    simp only [instanceFns, vecFns, List.mem_cons, List.not_mem_nil, or_false] at hg
    rcases hg with rfl | rfl | rfl | rfl | rfl | rfl | rfl | rfl <;> simp [fine_iff, onThis]
  | uniquePtr n =>
    simp only [instanceFns, uniquePtrFns] at hg
    cases hm : maybeTrivial ts n <;>
      simp only [hm, Bool.false_eq_true, ↓reduceIte, List.append_nil, List.cons_append, List.nil_append, List.mem_cons,
        List.not_mem_nil, or_false] at hg
    · rcases hg with rfl | rfl | rfl | rfl | rfl | rfl <;> simp [fine_iff, typename, importing, importingThen, importingRepr]
    · rcases hg with rfl | rfl | rfl | rfl | rfl | rfl | rfl <;> simp [fine_iff, typename, importing, importingThen, importingRepr]
  | sharedPtr n =>
    simp only [instanceFns, sharedPtrFns] at hg
    cases hm : maybeTrivial ts n <;>
      simp only [hm, Bool.false_eq_true, ↓reduceIte, List.append_nil, List.cons_append, List.nil_append, List.mem_cons,
        List.not_mem_nil, or_false] at hg
    · rcases hg with rfl | rfl | rfl | rfl | rfl <;> simp [fine_iff, typename, importing, importingThen]
    · rcases hg with rfl | rfl | rfl | rfl | rfl | rfl <;> simp [fine_iff, typename, importing, importingThen]
  | weakPtr n =>
    simp only [instanceFns, weakPtrFns, List.mem_cons, List.not_mem_nil, or_false] at hg
    rcases hg with rfl | rfl | rfl | rfl | rfl | rfl <;> simp [fine_iff, typename, importing]
  | cxxVector n =>
    simp only [instanceFns, vectorFns] at hg
    cases hm : maybeTrivial ts n <;>
      simp only [hm, Bool.false_eq_true, ↓reduceIte, List.append_nil, List.cons_append, List.nil_append, List.mem_cons,
        List.not_mem_nil, or_false] at hg
    · rcases hg with rfl | rfl | rfl | rfl | rfl | rfl | rfl | rfl | rfl <;>
        simp [fine_iff, typename, importing, importingThen, importingRepr]
    · rcases hg with rfl | rfl | rfl | rfl | rfl | rfl | rfl | rfl | rfl | rfl | rfl <;>
        simp [fine_iff, typename, importing, importingThen, importingRepr]

/-- **C116**.  If every function of the user that is an `unsafe fn` is declared so in the bridge, then no function of the
expansion has an unsafe operation where it is not permitted or an `unsafe` block for nothing; and there is nothing to warn
about or refuse in any of them, except for those that `exported_partial` describes.  The full property would be without the
exception. -/
theorem expansion_partial (cx : Ctx) (actual : ExternFn → Bool) (apis : List Api)
    (declared : ∀ f, .rustFunction f ∈ apis → actual f = true → f.sig.unsafety = true) {g : Fun}
    (hg : g ∈ expansion cx actual apis) :
    g.Permitted ∧ g.Used ∧
      (g.Fine ∨ ∃ f, .rustFunction f ∈ apis ∧ g = rustExported cx f ∧ f.sig.unsafety = true ∧ f.sig.throws = false ∧
        (∀ t, f.sig.ret = some t → cx.needsIndirect t = false) ∧ ∀ a ∈ f.sig.args, Harmless cx a.ty) := by
  have hfine : g.Fine → g.Permitted ∧ g.Used ∧
      (g.Fine ∨ ∃ f, .rustFunction f ∈ apis ∧ g = rustExported cx f ∧ f.sig.unsafety = true ∧ f.sig.throws = false ∧
        (∀ t, f.sig.ret = some t → cx.needsIndirect t = false) ∧ ∀ a ∈ f.sig.args, Harmless cx a.ty) :=
    fun h => ⟨h.1, h.2.2.2, .inl h⟩
  rcases List.mem_append.1 hg with hg | hg
  · obtain ⟨a, ha, hg⟩ := List.mem_flatMap.1 hg
    cases a with
    | struct s => exact hfine (operators_ok s hg)
    | rustType t => exact hfine (layoutFns_ok hg)
    | cxxFunction f =>
      rcases List.mem_cons.1 hg with rfl | hg
      · exact hfine (cxxFn_fine cx f)
      · exact hfine (trampolines_ok cx _ hg)
    | rustFunction f =>
      simp only [itemFns, List.mem_cons, List.not_mem_nil, or_false] at hg
      rcases hg with rfl | rfl
      · obtain ⟨h1, h2, h3, h4⟩ := exported_partial cx f
        refine ⟨h1, h2, ?_⟩
        by_cases he : (rustExported cx f).Explicit
        · by_cases hc : (rustExported cx f).Callable
          · exact .inl ⟨h1, he, hc, h2⟩
          · obtain ⟨c1, c2, c3, c4, c5⟩ := h4.1 hc
            refine .inr ⟨f, ha, rfl, c1, c4, fun t ht => ((unchanged_iff cx t).2 (c5 t ht)).2, ?_⟩
            simp [c3]
        · obtain ⟨c1, c2, c3, c4, c5⟩ := h3.1 he
          exact .inr ⟨f, ha, rfl, c1, c2, c3, c4⟩
      · exact hfine (inside_ok (declared f ha))
    | _ => simp [itemFns] at hg
  · obtain ⟨k, _, hg⟩ := List.mem_flatMap.1 hg
    exact hfine (instanceFns_ok _ k hg)

/-! ### Bridges -/

section Witness
open Verif.Check

/-- As `fn name(args) -> ret;`. -/
def fnOf (lang : Lang) (u : Bool) (name : Ident) (args : List (Ident × Ty)) (ret : Option Ty) (throws : Bool) : ExternFn :=
  ⟨lang, ⟨[], name, name⟩, ⟨u, [], none, args.map fun a => ⟨⟨[], a.1, a.1⟩, a.2⟩, ret, throws⟩, false⟩

/-- A bridge with functions in both directions, an unsafe one that throws, a callback, and smart pointers. -/
def bridge : List Api :=
  [.struct ⟨[.ord, .partialOrd, .eq, .partialEq, .hash], ⟨[], "S", "S"⟩, [], [⟨⟨[], "x", "x"⟩, .named "u32"⟩]⟩,
   .cxxType ⟨.cxx, [], ⟨[], "T", "T"⟩, [], [], false⟩, .rustType ⟨.rust, [.externType], ⟨[], "R", "R"⟩, [], [], false⟩,
   .cxxFunction (fnOf .cxx false "m" [("cb", .fn false [.named "u32"] (some (.named "u32")) false), ("v", .rustVec (.named "S"))]
     (some (.uniquePtr (.named "T"))) true),
   .rustFunction (fnOf .rust true "f" [("x", .rustBox (.named "R")), ("s", .str false none false (.named "str"))] (some (.named "String")) true),
   .rustFunction (fnOf .rust false "h" [] none false)]

theorem bridge_accepted : Accepted .macro bridge := by decide +kernel

/-- What the generators know of a bridge. -/
abbrev plainCx (apis : List Api) : Ctx := ⟨collect apis, [], 4⟩

example : (expansion (plainCx bridge) (fun f => f.name.rust == "f") bridge).length > 20 := by decide +kernel

example : ∀ g ∈ expansion (plainCx bridge) (fun f => f.name.rust == "f") bridge, g.Permitted ∧ g.Used := fun g hg =>
  have h := expansion_partial (plainCx bridge) (fun f => f.name.rust == "f") bridge (by
    intro f hf
    simp only [bridge, List.mem_cons, reduceCtorEq, Api.rustFunction.injEq, List.not_mem_nil, or_false, false_or] at hf
    rcases hf with rfl | rfl <;> simp [fnOf]) hg
  ⟨h.1, h.2.1⟩

/-- `extern "Rust" { unsafe fn f(); }` -/
def bare : List Api := [.rustFunction (fnOf .rust true "f" [] none false)]

/-- The full **C116** is false of the code: `unsafe fn f();` is accepted, and the exported function gives the unsafe `__f`
itself to `prevent_unwind`, which wants an `FnOnce`; it does not compile. -/
theorem bare_not_callable : Accepted .macro bare ∧
    ∃ g ∈ expansion (plainCx bare) (fun _ => true) bare, ¬g.Callable := by
  refine ⟨by decide +kernel, rustExported (plainCx bare) (fnOf .rust true "f" [] none false), by simp [expansion, bare, itemFns], ?_⟩
  exact (exported_partial _ _).2.2.2.2 (by simp [fnOf])

/-- `extern "Rust" { unsafe fn f(x: u8); }` -/
def plainArg : List Api := [.rustFunction (fnOf .rust true "f" [("x", .named "u8")] none false)]

/-- As does this: the exported function calls the unsafe `__f` outside of `unsafe` blocks. -/
theorem plain_not_explicit : Accepted .macro plainArg ∧
    ∃ g ∈ expansion (plainCx plainArg) (fun _ => true) plainArg, ¬g.Explicit := by
  refine ⟨by decide +kernel, rustExported (plainCx plainArg) (fnOf .rust true "f" [("x", .named "u8")] none false),
    by simp [expansion, plainArg, itemFns], ?_⟩
  refine (exported_partial _ _).2.2.1.2 ⟨rfl, rfl, by simp [fnOf], ?_, by simp [fnOf]⟩
  simp only [fnOf, List.map_cons, List.map_nil, List.mem_singleton]
  rintro a rfl
  exact ⟨by decide, by decide +kernel⟩

example : ¬(rustInside true (fnOf .rust false "f" [("x", .named "i32")] none false)).Permitted := by
  simp [undeclared_rejected, fnOf]

end Witness

end Verif.Unsafety
