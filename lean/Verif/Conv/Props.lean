import Verif.Conv.Spec
import Verif.Abi.Props
/-!
# The conversions in the generated shims have the types they need
-/
namespace Verif.Conv
open Verif.Syntax Verif.Types Verif.Check Verif.Abi

variable {g : Generator} {apis : List Api} {cx : Ctx}

theorem hasType_append {a b : List ROp} {t u v : RT} (h : HasType a t u) (h' : HasType b u v) :
    HasType (a ++ b) t v := by
  induction h with
  | nil => exact h'
  | cons h _ ih => exact .cons h (ih h')

theorem one {op : ROp} {t u : RT} (h : Sig op t u) : HasType [op] t u := .cons h (.nil _)

theorem two {op op' : ROp} {t u v : RT} (h : Sig op t u) (h' : Sig op' u v) : HasType [op, op'] t v := .cons h (one h')

theorem isRustString_iff {t : Ty} : isRustString t = true ↔ ∃ n, t = .ident n ∧ n.rust = "String" := by
  cases t <;> simp [isRustString]

/-- The name in a smart pointer is never `String`. -/
theorem externType_source {n : NamedType} (h : n.rust ≠ "String") (proper : Bool) :
    externType cx proper (.ident n) = .source (.ident n) := by
  simp [externType, h]

theorem box_inner (h : Accepted g apis) {t : Ty} (ho : Occurs apis (.rustBox t)) :
    ∃ n, t = .ident n ∧ n.rust ≠ "String" := by
  have hck := accepted_type h ho
  cases t <;> simp only [checkType, checkTypeBox, List.append_eq_nil_iff, reduceCtorEq] at hck
  next n =>
  refine ⟨n, rfl, fun hn => ?_⟩
  have := hck.2
  rw [hn] at this
  simp [Atom.fromStr] at this

theorem unique_inner (h : Accepted g apis) {t : Ty} (ho : Occurs apis (.uniquePtr t)) (proper : Bool) :
    externType cx proper t = .source t := by
  have hck := accepted_type h ho
  cases t <;> simp only [checkType, checkTypeUniquePtr, reduceCtorEq] at hck
  · next n =>
    apply externType_source
    intro hn
    rw [hn] at hck
    simp [Atom.fromStr] at hck
    split at hck <;> cases hck
  · rfl

theorem vec_inner (h : Accepted g apis) {t : Ty} (ho : Occurs apis (.rustVec t)) (hs : ¬ VecOfStr (.rustVec t)) :
    ∃ n, t = .ident n := by
  have hck := accepted_type h ho
  cases t <;> simp [checkType, checkTypeRustVec, VecOfStr] at hck hs ⊢

theorem indirect_string (n : NamedType) (hn : n.rust = "String") : cx.needsIndirect (.ident n) = true := by
  have : cx.isImproper (.ident n) = true := by
    simp [Ctx.isImproper, Improper.isImproper, Improper.determine, hn, Atom.fromStr]
  simp [Ctx.needsIndirect, this]

theorem improper_vec (t : Ty) : cx.isImproper (.rustVec t) = true := by
  simp [Ctx.isImproper, Improper.isImproper, Improper.determine]

theorem indirect_vec (t : Ty) : cx.needsIndirect (.rustVec t) = true := by
  simp [Ctx.needsIndirect, improper_vec]

/-- The type of a reference that is not pinned, and not to one of the owners with a type of their own. -/
theorem externType_ref_other {p : Bool} {l : Option Ident} {m : Bool} {t : Ty} (hs : isRustString t = false)
    (hv : ∀ v, t ≠ .rustVec v) (proper : Bool) :
    externType cx proper (.ref p l m t) =
      if proper && cx.isImproper t then .void m else .source (.ref p l m t) := by
  cases t <;> simp_all [externType, isRustString]

theorem cxx_ref (h : Accepted g apis) {p : Bool} {l : Option Ident} {m : Bool} {t : Ty}
    (ho : Occurs apis (.ref p l m t)) (h1 : ¬ PinnedOwner (.ref p l m t)) (h2 : ¬ RefVecOfStr (.ref p l m t)) :
    HasType (cxxRefR cx p m t) (den (.ref p l m t)) (denTok (externType cx true (.ref p l m t))) := by
  by_cases hs : isRustString t = true
  · obtain ⟨n, rfl, hn⟩ := isRustString_iff.1 hs
    have hp : p = false := by cases p <;> simp_all [PinnedOwner]
    subst hp
    simp only [cxxRefR, hs, if_true, den, externType, hn, denTok, Bool.false_eq_true, if_false]
    exact one (.stringFrom m)
  · simp only [Bool.not_eq_true] at hs
    by_cases hv : ∃ v, t = .rustVec v
    · obtain ⟨v, rfl⟩ := hv
      have hp : p = false := by cases p <;> simp_all [PinnedOwner]
      subst hp
      obtain ⟨n, rfl⟩ := vec_inner h (occurs_part ho (.ref _ _ _ _)) h2
      by_cases hn : n.rust = "String"
      · simp only [cxxRefR, hs, Bool.false_eq_true, if_false, isRustString, hn, decide_true, if_true, den, externType, denTok]
        exact one (.vecStringFrom m)
      · simp only [cxxRefR, hs, Bool.false_eq_true, if_false, isRustString, hn, decide_false, den, externType, denTok]
        exact one (.vecFrom m _)
    · have hv' : ∀ v, t ≠ .rustVec v := fun v e => hv ⟨v, e⟩
      rw [externType_ref_other hs hv']
      have : cxxRefR cx p m t =
          if cx.isImproper t then (if p then [.pinIntoInner] else []) ++ [.asVoid m t] else [] := by
        cases t <;> simp_all [cxxRefR]
      rw [this]
      cases hi : cx.isImproper t
      · simp only [Bool.and_false, Bool.false_eq_true, if_false, denTok]
        exact .nil _
      · cases p
        · exact one (.asVoid m t)
        · exact two (.pinIntoInner _) (.asVoid m t)

theorem cxx_arg (h : Accepted g apis) {ty : Ty} (ho : Occurs apis ty) (h1 : ¬ PinnedOwner ty) (h2 : ¬ RefVecOfStr ty) :
    HasType (cxxSetupR cx ty ++ cxxPassR cx ty) (den ty) (denTok (cxxParamR cx ty)) := by
  cases ty with
  | ident n =>
    by_cases hn : n.rust = "String"
    · have hi := indirect_string (cx := cx) n hn
      simp only [cxxSetupR, hi, if_true, cxxPassR, cxxParamR, isRustString, hn, decide_true, externType, denTok]
      exact .cons (.maybeUninit _) (two (.asMutPtr _) (.asConstRustString _ _))
    · simp only [cxxSetupR, cxxPassR, cxxParamR, isRustString, hn, decide_false, Bool.false_eq_true, if_false, externType]
      split
      · exact two (.maybeUninit _) (.asMutPtr _)
      · exact .nil _
  | rustBox t =>
    obtain ⟨n, rfl, hn⟩ := box_inner h ho
    simp only [cxxSetupR, Ctx.needsIndirect, Bool.false_eq_true, if_false, cxxPassR, isRustString, cxxParamR, externType,
      List.nil_append, hn, Bool.true_and, den]
    cases cx.isImproper (.ident n)
    · exact one (.boxIntoRaw _)
    · exact two (.boxIntoRaw _) (.cast _ _ _)
  | uniquePtr t =>
    have ht := unique_inner (cx := cx) h ho true
    simp only [cxxSetupR, Ctx.needsIndirect, Bool.false_eq_true, if_false, cxxPassR, isRustString, cxxParamR, externType,
      List.nil_append, Bool.true_and, den, ht]
    cases cx.isImproper t
    · exact one (.uniqueIntoRaw _)
    · exact two (.uniqueIntoRaw _) (.cast _ _ _)
  | rustVec t =>
    simp only [cxxSetupR, indirect_vec, if_true, cxxPassR, isRustString, Bool.false_eq_true, if_false, cxxParamR, externType]
    exact .cons (.maybeUninit _) (two (.asMutPtr _) (.asConstRustVec _ _ _))
  | ref p l m t =>
    simp only [cxxSetupR, Ctx.needsIndirect, Bool.false_eq_true, if_false, cxxPassR, isRustString, cxxParamR, List.nil_append]
    exact cxx_ref h ho h1 h2
  | ptr m t =>
    simp only [cxxSetupR, Ctx.needsIndirect, Bool.false_eq_true, if_false, cxxPassR, isRustString, cxxParamR,
      List.nil_append, externType, Bool.true_and]
    cases cx.isImproper t
    · exact .nil _
    · exact one (.cast _ _ _)
  | str p l m t =>
    simp only [cxxSetupR, Ctx.needsIndirect, Bool.false_eq_true, if_false, cxxPassR, isRustString, cxxParamR,
      List.nil_append, externType]
    exact one .strFrom
  | sliceRef l m t =>
    simp only [cxxSetupR, Ctx.needsIndirect, Bool.false_eq_true, if_false, cxxPassR, isRustString, cxxParamR,
      List.nil_append, externType]
    exact one (.sliceFrom _ _)
  | fn u as r th =>
    simp only [cxxSetupR, Ctx.needsIndirect, Bool.false_eq_true, if_false, cxxPassR, isRustString, cxxParamR]
    exact one .fatFunction
  | _ =>
    simp only [cxxSetupR, cxxPassR, cxxParamR, isRustString, Bool.false_eq_true, if_false, externType]
    split
    · exact two (.maybeUninit _) (.asMutPtr _)
    · exact .nil _

theorem cxx_ret_ref (h : Accepted g apis) {p : Bool} {l : Option Ident} {m : Bool} {t : Ty}
    (ho : Occurs apis (.ref p l m t)) (h1 : ¬ PinnedOwner (.ref p l m t)) (h2 : ¬ RefVecOfStr (.ref p l m t)) :
    HasType (cxxRetRefR cx p m t) (denTok (externType cx true (.ref p l m t))) (den (.ref p l m t)) := by
  by_cases hs : isRustString t = true
  · obtain ⟨n, rfl, hn⟩ := isRustString_iff.1 hs
    have hp : p = false := by cases p <;> simp_all [PinnedOwner]
    subst hp
    simp only [cxxRetRefR, hs, if_true, den, externType, hn, denTok, Bool.false_eq_true, if_false]
    exact one (.asString m)
  · simp only [Bool.not_eq_true] at hs
    by_cases hv : ∃ v, t = .rustVec v
    · obtain ⟨v, rfl⟩ := hv
      have hp : p = false := by cases p <;> simp_all [PinnedOwner]
      subst hp
      obtain ⟨n, rfl⟩ := vec_inner h (occurs_part ho (.ref _ _ _ _)) h2
      by_cases hn : n.rust = "String"
      · simp only [cxxRetRefR, hs, Bool.false_eq_true, if_false, isRustString, hn, decide_true, if_true, den, externType, denTok]
        exact one (.asVecString m)
      · simp only [cxxRetRefR, hs, Bool.false_eq_true, if_false, isRustString, hn, decide_false, den, externType, denTok]
        exact one (.asVec m _)
    · have hv' : ∀ v, t ≠ .rustVec v := fun v e => hv ⟨v, e⟩
      rw [externType_ref_other hs hv']
      have : cxxRetRefR cx p m t =
          if cx.isImproper t then [.cast, .reborrow m] ++ (if p then [.pinNew] else []) else [] := by
        cases t <;> simp_all [cxxRetRefR]
      rw [this]
      cases hi : cx.isImproper t
      · simp only [Bool.and_false, Bool.false_eq_true, if_false, denTok]
        exact .nil _
      · cases p
        · exact two (.cast _ _ _) (.reborrow m m _ id)
        · exact .cons (.cast _ _ _) (two (.reborrow m m _ id) (.pinNew _ _))

/-- What the rest of the expression does to the result of a C++ function. -/
theorem cxx_ret (h : Accepted g apis) {ty : Ty} (ho : Occurs apis ty) (throws : Bool) (h1 : ¬ PinnedOwner ty)
    (h2 : ¬ RefVecOfStr ty) (h3 : ¬ VecOfStr ty) :
    HasType (cxxRetR cx throws ty)
      (if indirectReturnR cx (some ty) throws then .maybeUninit (denTok (externType cx true ty))
       else denTok (externType cx true ty)) (den ty) := by
  unfold cxxRetR
  apply hasType_append (u := denTok (externType cx true ty))
  · split
    · exact one (.assumeInit _)
    · exact .nil _
  cases ty with
  | ident n =>
    by_cases hn : n.rust = "String"
    · simp only [isRustString, hn, decide_true, if_true, externType, denTok, den]
      exact one .intoString
    · simp only [isRustString, hn, decide_false, Bool.false_eq_true, if_false, externType]
      exact .nil _
  | rustBox t =>
    obtain ⟨n, rfl, hn⟩ := box_inner h ho
    simp only [isRustString, Bool.false_eq_true, if_false, externType, hn, Bool.true_and, den]
    cases cx.isImproper (.ident n)
    · exact one (.boxFromRaw _)
    · exact two (.cast _ _ _) (.boxFromRaw _)
  | uniquePtr t =>
    have ht := unique_inner (cx := cx) h ho true
    simp only [isRustString, Bool.false_eq_true, if_false, externType, ht, Bool.true_and, den]
    cases cx.isImproper t
    · exact one (.uniqueFromRaw _)
    · exact two (.cast _ _ _) (.uniqueFromRaw _)
  | rustVec t =>
    obtain ⟨n, rfl⟩ := vec_inner h ho h3
    by_cases hn : n.rust = "String"
    · simp only [isRustString, Bool.false_eq_true, if_false, hn, decide_true, if_true, externType, denTok, den]
      exact one .intoVecString
    · simp only [isRustString, Bool.false_eq_true, if_false, hn, decide_false, externType, denTok, den]
      exact one (.intoVec _)
  | ref p l m t =>
    simp only [isRustString, Bool.false_eq_true, if_false]
    exact cxx_ret_ref h ho h1 h2
  | ptr m t =>
    simp only [isRustString, Bool.false_eq_true, if_false, externType, Bool.true_and]
    cases cx.isImproper t
    · exact .nil _
    · exact one (.cast _ _ _)
  | str p l m t => exact one .asStr
  | sliceRef l m t => exact one (.asSlice _ _)
  | _ => exact .nil _

theorem rust_ref (h : Accepted g apis) {p : Bool} {l : Option Ident} {m : Bool} {t : Ty}
    (ho : Occurs apis (.ref p l m t)) (h1 : ¬ PinnedOwner (.ref p l m t)) (h2 : ¬ RefVecOfStr (.ref p l m t)) :
    HasType (rustRefR m t) (denTok (externType cx false (.ref p l m t))) (den (.ref p l m t)) ∧
      HasType (rustRetRefR m t) (den (.ref p l m t)) (denTok (externType cx false (.ref p l m t))) := by
  by_cases hs : isRustString t = true
  · obtain ⟨n, rfl, hn⟩ := isRustString_iff.1 hs
    have hp : p = false := by cases p <;> simp_all [PinnedOwner]
    subst hp
    simp only [rustRefR, rustRetRefR, hs, if_true, den, externType, hn, denTok, Bool.false_eq_true, if_false]
    exact ⟨one (.asString m), one (.stringFrom m)⟩
  · simp only [Bool.not_eq_true] at hs
    by_cases hv : ∃ v, t = .rustVec v
    · obtain ⟨v, rfl⟩ := hv
      have hp : p = false := by cases p <;> simp_all [PinnedOwner]
      subst hp
      obtain ⟨n, rfl⟩ := vec_inner h (occurs_part ho (.ref _ _ _ _)) h2
      by_cases hn : n.rust = "String"
      · simp only [rustRefR, rustRetRefR, hs, Bool.false_eq_true, if_false, isRustString, hn, decide_true, if_true, den,
          externType, denTok]
        exact ⟨one (.asVecString m), one (.vecStringFrom m)⟩
      · simp only [rustRefR, rustRetRefR, hs, Bool.false_eq_true, if_false, isRustString, hn, decide_false, den, externType,
          denTok]
        exact ⟨one (.asVec m _), one (.vecFrom m _)⟩
    · have hv' : ∀ v, t ≠ .rustVec v := fun v e => hv ⟨v, e⟩
      rw [externType_ref_other hs hv']
      have e1 : rustRefR m t = [] := by cases t <;> simp_all [rustRefR]
      have e2 : rustRetRefR m t = [] := by cases t <;> simp_all [rustRetRefR]
      rw [e1, e2]
      exact ⟨.nil _, .nil _⟩

theorem rust_arg (h : Accepted g apis) {ty : Ty} (ho : Occurs apis ty) (hodd : ¬ Odd ty) (h1 : ¬ PinnedOwner ty)
    (h2 : ¬ RefVecOfStr ty) (h3 : ¬ VecOfStr ty) :
    HasType (rustReceiveR cx ty) (denTok (rustParamR cx ty)) (den ty) := by
  cases ty with
  | ident n =>
    by_cases hn : n.rust = "String"
    · have hi := indirect_string (cx := cx) n hn
      simp only [rustReceiveR, isRustString, hn, decide_true, if_true, rustParamR, hi, externType, denTok, den]
      exact two .derefString .takeString
    · simp only [rustReceiveR, isRustString, hn, decide_false, Bool.false_eq_true, if_false, rustParamR, externType]
      split
      · exact one (.read _ _)
      · exact .nil _
  | rustBox t =>
    obtain ⟨n, rfl, hn⟩ := box_inner h ho
    simp only [rustReceiveR, isRustString, Bool.false_eq_true, if_false, rustParamR, Ctx.needsIndirect, externType, hn,
      Bool.false_and, den]
    exact one (.boxFromRaw _)
  | uniquePtr t =>
    have ht := unique_inner (cx := cx) h ho false
    simp only [rustReceiveR, isRustString, Bool.false_eq_true, if_false, rustParamR, Ctx.needsIndirect, externType, ht,
      Bool.false_and, den]
    exact one (.uniqueFromRaw _)
  | rustVec t =>
    obtain ⟨n, rfl⟩ := vec_inner h ho h3
    by_cases hn : n.rust = "String"
    · simp only [rustReceiveR, isRustString, Bool.false_eq_true, if_false, hn, decide_true, if_true, rustParamR,
        indirect_vec, externType, denTok, den]
      exact two .derefVecString (.takeVec _)
    · simp only [rustReceiveR, isRustString, Bool.false_eq_true, if_false, hn, decide_false, rustParamR, indirect_vec,
        if_true, externType, denTok, den]
      exact two (.derefVec _) (.takeVec _)
  | ref p l m t =>
    simp only [rustReceiveR, isRustString, Bool.false_eq_true, if_false, rustParamR, Ctx.needsIndirect]
    exact (rust_ref h ho h1 h2).1
  | ptr m t =>
    simp only [rustReceiveR, isRustString, Bool.false_eq_true, if_false, rustParamR, Ctx.needsIndirect, externType,
      Bool.false_and]
    exact .nil _
  | str p l m t => exact one .asStr
  | sliceRef l m t => exact one (.asSlice _ _)
  | fn => exact absurd trivial hodd
  | _ =>
    simp only [rustReceiveR, isRustString, Bool.false_eq_true, if_false, rustParamR, externType]
    split
    · exact one (.read _ _)
    · exact .nil _

theorem rust_ret (h : Accepted g apis) {ty : Ty} (ho : Occurs apis ty) (h1 : ¬ PinnedOwner ty)
    (h2 : ¬ RefVecOfStr ty) (h3 : ¬ VecOfStr ty) :
    HasType (rustRetR ty) (den ty) (denTok (externType cx false ty)) := by
  cases ty with
  | ident n =>
    by_cases hn : n.rust = "String"
    · simp only [rustRetR, isRustString, hn, decide_true, if_true, externType, denTok, den]
      exact one .stringInto
    · simp only [rustRetR, isRustString, hn, decide_false, Bool.false_eq_true, if_false, externType]
      exact .nil _
  | rustBox t =>
    obtain ⟨n, rfl, hn⟩ := box_inner h ho
    simp only [rustRetR, isRustString, Bool.false_eq_true, if_false, externType, hn, Bool.false_and, den]
    exact one (.boxIntoRaw _)
  | uniquePtr t =>
    have ht := unique_inner (cx := cx) h ho false
    simp only [rustRetR, isRustString, Bool.false_eq_true, if_false, externType, ht, Bool.false_and, den]
    exact one (.uniqueIntoRaw _)
  | rustVec t =>
    obtain ⟨n, rfl⟩ := vec_inner h ho h3
    by_cases hn : n.rust = "String"
    · simp only [rustRetR, isRustString, Bool.false_eq_true, if_false, hn, decide_true, if_true, externType, denTok, den]
      exact one .vecStringInto
    · simp only [rustRetR, isRustString, Bool.false_eq_true, if_false, hn, decide_false, externType, denTok, den]
      exact one (.vecInto _)
  | ref p l m t =>
    simp only [rustRetR, isRustString, Bool.false_eq_true, if_false]
    exact (rust_ref h ho h1 h2).2
  | ptr m t =>
    simp only [rustRetR, isRustString, Bool.false_eq_true, if_false, externType, Bool.false_and]
    exact .nil _
  | str p l m t => exact one .strFrom
  | sliceRef l m t => exact one (.sliceFrom _ _)
  | _ => exact .nil _

/-! ### Rust: functions -/

/-- **C76**, a C++ function called from Rust: what is passed for each argument has the type of the declared parameter. -/
theorem cxx_arguments_typed_partial (h : Accepted g apis) {f : ExternFn} (hf : Api.cxxFunction f ∈ apis) {a : Var}
    (ha : a ∈ f.sig.args) (h1 : ¬ PinnedOwner a.ty) (h2 : ¬ RefVecOfStr a.ty) :
    HasType (cxxSetupR cx a.ty ++ cxxPassR cx a.ty) (den a.ty) (denTok (cxxParamR cx a.ty)) :=
  cxx_arg h (arg_occurs (.inl hf) ha) h1 h2

/-- **C76**, a C++ function called from Rust: if the declaration has an out-pointer then a pointer to `__return` is passed
for it and the result is made of `__return`, otherwise it is made of the declared result; it has the type that was
written. -/
theorem cxx_result_typed_partial (h : Accepted g apis) {f : ExternFn} (hf : Api.cxxFunction f ∈ apis) {ty : Ty}
    (hr : f.sig.ret = some ty) (h1 : ¬ PinnedOwner ty) (h2 : ¬ RefVecOfStr ty) (h3 : ¬ VecOfStr ty) :
    (∃ slot out, cxxSlotR cx f.sig.throws ty = some slot ∧ outParamR cx true f.sig.ret f.sig.throws = [out] ∧
        HasType cxxOutArgR (.maybeUninit (denTok slot)) (denTok out) ∧
        HasType (cxxRetR cx f.sig.throws ty) (.maybeUninit (denTok slot)) (den ty)) ∨
      ∃ r, cxxSlotR cx f.sig.throws ty = none ∧ outParamR cx true f.sig.ret f.sig.throws = [] ∧
        externReturnType cx true f.sig.ret = some r ∧ f.sig.throws = false ∧
        HasType (cxxRetR cx f.sig.throws ty) (denTok r) (den ty) := by
  have := cxx_ret (cx := cx) h (ret_occurs (.inl hf) hr) f.sig.throws h1 h2 h3
  rw [hr]
  cases hi : indirectReturnR cx (some ty) f.sig.throws
  · rw [hi] at this
    refine .inr ⟨externType cx true ty, by simp [cxxSlotR, hi], by simp [outParamR, hi], ?_, ?_, this⟩
    · simp only [indirectReturnR, Bool.or_eq_false_iff] at hi
      simp [externReturnType, hi.2]
    · simp only [indirectReturnR, Bool.or_eq_false_iff] at hi
      exact hi.1
  · rw [hi] at this
    exact .inl ⟨externType cx true ty, .raw true (externType cx true ty), by simp [cxxSlotR, hi], by simp [outParamR, hi],
      one (.asMutPtr _), this⟩

/-- **C76**, a Rust function called from C++: what the user's function is given for each argument has the type that was
written. -/
theorem rust_arguments_typed_partial (h : Accepted g apis) {f : ExternFn} (hf : Api.rustFunction f ∈ apis)
    (hl : f.lang = .rust) {a : Var} (ha : a ∈ f.sig.args) (h1 : ¬ PinnedOwner a.ty) (h2 : ¬ RefVecOfStr a.ty)
    (h3 : ¬ VecOfStr a.ty) :
    HasType (rustReceiveR cx a.ty) (denTok (rustParamR cx a.ty)) (den a.ty) :=
  rust_arg h (arg_occurs (.inr hf) ha) ((arg_checked h (.inr hf) ha).2 hl) h1 h2 h3

/-- **C76**, a Rust function called from C++: its result is converted to the type that is written through the out-pointer,
or to the one that is returned. -/
theorem rust_result_typed_partial (h : Accepted g apis) {f : ExternFn} (hf : Api.rustFunction f ∈ apis) {ty : Ty}
    (hr : f.sig.ret = some ty) (h1 : ¬ PinnedOwner ty) (h2 : ¬ RefVecOfStr ty) (h3 : ¬ VecOfStr ty) :
    ∃ t, HasType (rustRetR ty) (den ty) t ∧
      ((∃ out, outParamR cx false f.sig.ret f.sig.throws = [out] ∧ denTok out = .ptr true t) ∨
        ∃ r, outParamR cx false f.sig.ret f.sig.throws = [] ∧ f.sig.throws = false ∧
          externReturnType cx false f.sig.ret = some r ∧ denTok r = t) := by
  refine ⟨_, rust_ret (cx := cx) h (ret_occurs (.inr hf) hr) h1 h2 h3, ?_⟩
  rw [hr]
  cases hi : indirectReturnR cx (some ty) f.sig.throws
  · refine .inr ⟨externType cx false ty, by simp [outParamR, hi], ?_, ?_, rfl⟩
    · simp only [indirectReturnR, Bool.or_eq_false_iff] at hi
      exact hi.1
    · simp only [indirectReturnR, Bool.or_eq_false_iff] at hi
      simp [externReturnType, hi.2]
  · exact .inl ⟨.raw true (externType cx false ty), by simp [outParamR, hi], rfl⟩

/-- **C76**, a function pointer given to C++: the same for its trampoline. -/
theorem trampoline_typed_partial (h : Accepted g apis) {f : ExternFn} (hf : Api.cxxFunction f ∈ apis) {v : Var}
    (hv : v ∈ f.sig.args) {u th : Bool} {as : List Ty} {r : Option Ty} (hty : v.ty = .fn u as r th) :
    (∀ a ∈ as, ¬ Odd a → ¬ PinnedOwner a → ¬ RefVecOfStr a → ¬ VecOfStr a →
        HasType (rustReceiveR cx a) (denTok (rustParamR cx a)) (den a)) ∧
      ∀ t, r = some t → ¬ PinnedOwner t → ¬ RefVecOfStr t → ¬ VecOfStr t →
        HasType (rustRetR t) (den t) (denTok (externType cx false t)) := by
  have ho : Occurs apis (.fn u as r th) := hty ▸ arg_occurs (.inl hf) hv
  refine ⟨fun a ha hodd h1 h2 h3 => rust_arg h (occurs_part ho (.fnArg _ _ _ _ ha)) hodd h1 h2 h3, ?_⟩
  rintro t rfl h1 h2 h3
  exact rust_ret h (occurs_part ho (.fnRet _ _ _ _)) h1 h2 h3

/-! ### C++ -/

theorem cone {op : COp} {e e' : CE} (h : CSig op e e') : CHasType [op] e e' := .cons h (.nil _)

theorem nameOf_other {c : CTok} (h : ∀ m t, c ≠ .lref m t) : nameOf c = .lvalue true (.tok c) := by
  cases c <;> first | rfl | exact absurd rfl (h _ _)

theorem callOf_other {c : CTok} (h : ∀ m t, c ≠ .lref m t) : callOf c = .prvalue (.tok c) := by
  cases c <;> first | rfl | exact absurd rfl (h _ _)

/-- Only references are printed as references. -/
theorem write_not_ref {ts : Types} {ty : Ty} {c : CTok} (hc : writeType ts ty = some c) (hr : ∀ p l m t, ty ≠ .ref p l m t) :
    ∀ m t, c ≠ .lref m t := by
  rintro m t rfl
  cases ty <;> simp only [writeType, Option.map_eq_some_iff, reduceCtorEq, and_false, exists_false, Option.some.injEq] at hc
  · next n =>
    split at hc
    · cases hc
    · rw [Option.map_eq_some_iff] at hc
      obtain ⟨_, _, h⟩ := hc
      cases h
  · exact hr _ _ _ _ rfl
  · split at hc <;> cases hc

theorem write_some (h : Accepted g apis) (hC : CtxFor apis cx) {ty : Ty} (ho : Occurs apis ty) (hb : ¬ Bare ty) :
    ∃ c, writeType cx.types ty = some c := by
  obtain ⟨c, hc, -⟩ := write_agrees (cx := cx) h ty ho hb
  exact ⟨c, by rw [hC.types]; exact hc⟩

/-- A value that can be passed without conversion. -/
theorem gives_copy {c : CTok} (hl : ∀ m t, c ≠ .lref m t) (hc : ByValue apis c) : Gives apis [] (nameOf c) c := by
  rw [nameOf_other hl]
  exact ⟨_, .nil _, .copy _ _ hl hc⟩

theorem gives_ref (m : Bool) (t : CTok) : Gives apis [] (nameOf (.lref m t)) (.lref m t) :=
  ⟨_, .nil _, .bind _ id⟩

theorem write_string {ts : Types} {n : NamedType} (hn : n.rust = "String") :
    writeType ts (.ident n) = some (.atom .rustString) := by
  simp [writeType, hn, Atom.fromStr]

theorem not_void_of_odd {ty : Ty} (h : ¬ Odd ty) : ty ≠ .void := by rintro rfl; exact h trivial

theorem cxx_shim_arg (h : Accepted g apis) (hu : NoUnit apis) (hC : CtxFor apis cx) {ty : Ty} (ho : Occurs apis ty)
    (hodd : ¬ Odd ty ∨ isFn ty = true) :
    ∃ p c ops, cxxParamC cx ty = some p ∧ writeType cx.types ty = some c ∧ cxxReceiveC cx ty = some ops ∧
      Gives apis ops (nameOf p) c := by
  have hv : ty ≠ .void := by rintro rfl; rcases hodd with h | h; exact h trivial; simp [isFn] at h
  obtain ⟨c, hc⟩ := write_total_partial h hu ty ho hv
  have hcc : writeType cx.types ty = some c := by rw [hC.types]; exact hc
  have hdirect : (∀ t, ty ≠ .rustBox t) → (∀ t, ty ≠ .uniquePtr t) → cx.needsIndirect ty = false → ByValue apis c :=
    fun hb hu hi => byValue_of_direct h hC ho hv hi hc hb hu
  /- what is neither an owner nor a reference -/
  have hplain : (∀ p l m t, ty ≠ .ref p l m t) → (∀ t, ty ≠ .rustBox t) → (∀ t, ty ≠ .uniquePtr t) →
      externArgBase cx ty = some c → cxxParamC cx ty = externArg cx ty →
      cxxReceiveC cx ty = (if cx.needsIndirect ty then some [.deref, .move] else some []) →
      ∃ p c ops, cxxParamC cx ty = some p ∧ writeType cx.types ty = some c ∧ cxxReceiveC cx ty = some ops ∧
        Gives apis ops (nameOf p) c := by
    intro hr hb hu he hp ho
    have hl := write_not_ref hcc hr
    rw [hp, ho]
    unfold externArg
    rw [he]
    cases hi : cx.needsIndirect ty
    · exact ⟨c, c, [], rfl, hcc, rfl, gives_copy hl (hdirect hb hu hi)⟩
    · exact ⟨.star true c, c, _, rfl, hcc, rfl, _, .cons (.deref true c (.lvalue true)) (cone (.move c)), .xvalue c hl⟩
  cases ty with
  | ident n =>
    by_cases hn : n.rust = "String"
    · have hw := write_string (ts := cx.types) hn
      rw [hw] at hcc
      cases hcc
      refine ⟨.star false (.atom .rustString), _, [.deref, .bitcopy rustStringC], ?_, hw, ?_, _,
        .cons (.deref false _ (.lvalue true)) (cone (.bitcopyString false)), .prvalue _ (by simp)⟩
      · simp [cxxParamC, isRustString, hn, hw]
      · simp [cxxReceiveC, isRustString, hn]
    · exact hplain (by simp) (by simp) (by simp) (by simpa [externArgBase] using hcc) (by simp [cxxParamC, isRustString, hn])
        (by simp [cxxReceiveC, isRustString, hn])
  | rustBox t =>
    simp only [writeType, Option.map_eq_some_iff] at hcc
    obtain ⟨d, hd, rfl⟩ := hcc
    refine ⟨.star true d, .box d, [.boxFromRaw (.box d)], ?_, ?_, ?_, _, cone (.boxFromRaw d (.lvalue true)),
      .prvalue _ (by simp)⟩
    · simp [cxxParamC, isRustString, externArg, Ctx.needsIndirect, externArgBase, hd]
    · simp [writeType, hd]
    · simp [cxxReceiveC, writeType, hd]
  | uniquePtr t =>
    simp only [writeType, Option.map_eq_some_iff] at hcc
    obtain ⟨d, hd, rfl⟩ := hcc
    refine ⟨.star true d, .uniquePtr d, [.construct (.uniquePtr d)], ?_, ?_, ?_, _, cone (.construct d (.lvalue true)),
      .prvalue _ (by simp)⟩
    · simp [cxxParamC, isRustString, externArg, Ctx.needsIndirect, externArgBase, hd]
    · simp [writeType, hd]
    · simp [cxxReceiveC, writeType, hd]
  | rustVec t =>
    simp only [writeType, Option.map_eq_some_iff] at hcc
    obtain ⟨d, hd, rfl⟩ := hcc
    refine ⟨.star false (.vec d), .vec d, [.deref, .bitcopy (.vec d)], ?_, ?_, ?_, _,
      .cons (.deref false _ (.lvalue true)) (cone (.bitcopyVec false d)), .prvalue _ (by simp)⟩
    · simp [cxxParamC, isRustString, writeType, hd]
    · simp [writeType, hd]
    · simp [cxxReceiveC, isRustString, writeType, hd]
  | ref p l m t =>
    simp only [writeType, Option.map_eq_some_iff] at hcc
    obtain ⟨d, hd, rfl⟩ := hcc
    refine ⟨.lref m d, .lref m d, [], ?_, ?_, ?_, gives_ref m d⟩
    · simp [cxxParamC, isRustString, externArg, Ctx.needsIndirect, externArgBase, writeType, hd]
    · simp [writeType, hd]
    · simp [cxxReceiveC, isRustString, Ctx.needsIndirect]
  | cxxVector t => rcases hodd with h | h; exact absurd trivial h; simp [isFn] at h
  | void => exact absurd rfl hv
  | _ =>
    exact hplain (by simp) (by simp) (by simp) (by simpa [externArgBase] using hcc) (by simp [cxxParamC, isRustString])
      (by simp [cxxReceiveC, isRustString])

theorem cxx_shim_ret (h : Accepted g apis) (hC : CtxFor apis cx) {ty : Ty} (ho : Occurs apis ty) (hb : ¬ Bare ty)
    (throws : Bool) :
    ∃ c ops, writeType cx.types ty = some c ∧ cxxRetC cx throws ty = some ops ∧
      (indirectReturnC cx (some ty) throws = true → ∃ r, indirectReturnType cx ty = some r ∧ Gives apis ops (callOf c) r) ∧
      (indirectReturnC cx (some ty) throws = false →
        ∃ r, externReturnC cx (some ty) = some (some r) ∧ Gives apis ops (callOf c) r) := by
  obtain ⟨c, hcc⟩ := write_some h hC ho hb
  have hplain : (∀ p l m t, ty ≠ .ref p l m t) → indirectReturnType cx ty = some c → cxxRetC cx throws ty = some [] →
      (indirectReturnC cx (some ty) throws = false → externReturnC cx (some ty) = some (some c)) →
      ∃ c ops, writeType cx.types ty = some c ∧ cxxRetC cx throws ty = some ops ∧
        (indirectReturnC cx (some ty) throws = true →
          ∃ r, indirectReturnType cx ty = some r ∧ Gives apis ops (callOf c) r) ∧
        (indirectReturnC cx (some ty) throws = false →
          ∃ r, externReturnC cx (some ty) = some (some r) ∧ Gives apis ops (callOf c) r) := by
    intro hr hi hops he
    have hl := write_not_ref hcc hr
    have hg : Gives apis [] (callOf c) c := by
      rw [callOf_other hl]
      exact ⟨_, .nil _, .prvalue c hl⟩
    exact ⟨c, [], hcc, hops, fun _ => ⟨c, hi, hg⟩, fun hf => ⟨c, he hf, hg⟩⟩
  cases ty with
  | rustBox t =>
    simp only [writeType, Option.map_eq_some_iff] at hcc
    obtain ⟨d, hd, rfl⟩ := hcc
    have hg : Gives apis [.intoRaw] (callOf (.box d)) (.star true d) :=
      ⟨_, cone (.intoRawCall d), .prvalue _ (by simp)⟩
    refine ⟨.box d, [.intoRaw], by simp [writeType, hd], rfl, fun _ => ⟨.star true d, ?_, hg⟩, fun _ => ⟨.star true d, ?_, hg⟩⟩
    · simp [indirectReturnType, hd]
    · simp [externReturnC, hd]
  | uniquePtr t =>
    simp only [writeType, Option.map_eq_some_iff] at hcc
    obtain ⟨d, hd, rfl⟩ := hcc
    have hg : Gives apis [.release] (callOf (.uniquePtr d)) (.star true d) :=
      ⟨_, cone (.releaseCall d), .prvalue _ (by simp)⟩
    refine ⟨.uniquePtr d, [.release], by simp [writeType, hd], rfl, fun _ => ⟨.star true d, ?_, hg⟩,
      fun _ => ⟨.star true d, ?_, hg⟩⟩
    · simp [indirectReturnType, hd]
    · simp [externReturnC, hd]
  | ref p l m t =>
    simp only [writeType, Option.map_eq_some_iff] at hcc
    obtain ⟨d, hd, rfl⟩ := hcc
    have hg : Gives apis [.addr] (callOf (.lref m d)) (.star m d) :=
      ⟨_, cone (.addr m d), .prvalue _ (by simp)⟩
    refine ⟨.lref m d, [.addr], by simp [writeType, hd], rfl, fun _ => ⟨.star m d, ?_, hg⟩, fun _ => ⟨.star m d, ?_, hg⟩⟩
    · simp [indirectReturnType, hd]
    · simp [externReturnC, hd]
  | str p l m t =>
    refine ⟨.str, if indirectReturnC cx (some (.str p l m t)) throws then [] else [.strRepr], rfl, rfl, ?_, ?_⟩
    · intro hi
      simp only [hi, if_true]
      exact ⟨.str, rfl, _, .nil _, .prvalue _ (by simp)⟩
    · intro hi
      simp only [hi, Bool.false_eq_true, if_false]
      exact ⟨.fat, rfl, _, cone (.strRepr .prvalue), .prvalue _ (by simp)⟩
  | sliceRef l m t =>
    simp only [writeType, Option.map_eq_some_iff] at hcc
    obtain ⟨d, hd, rfl⟩ := hcc
    cases hi : indirectReturnC cx (some (.sliceRef l m t)) throws
    · refine ⟨.slice m d, [.sliceRepr (.slice m d)], by simp [writeType, hd], by simp [cxxRetC, hi, writeType, hd], by simp,
        fun _ => ⟨.fat, rfl, _, cone (.sliceRepr m d .prvalue), .prvalue _ (by simp)⟩⟩
    · refine ⟨.slice m d, [], by simp [writeType, hd], by simp [cxxRetC, hi],
        fun _ => ⟨.slice m d, by simp [indirectReturnType, writeType, hd], _, .nil _, .prvalue _ (by simp)⟩, by simp⟩
  | fn => exact absurd trivial hb
  | void => exact absurd trivial hb
  | ptr m t =>
    refine hplain (by simp) (by simpa [indirectReturnType] using hcc) rfl fun hi => ?_
    simp [externReturnC, Ctx.needsIndirect, hcc]
  | array t n => exact hplain (by simp) (by simpa [indirectReturnType] using hcc) rfl (by simp [indirectReturnC, Ctx.needsIndirect])
  | _ =>
    refine hplain (by simp) (by simpa [indirectReturnType] using hcc) rfl fun hi => ?_
    simp only [indirectReturnC, Bool.or_eq_false_iff] at hi
    simp [externReturnC, hi.2, hcc]

theorem rust_shim_arg (h : Accepted g apis) (hC : CtxFor apis cx) {ty : Ty} (ho : Occurs apis ty) (hodd : ¬ Odd ty) :
    ∃ p c ops, writeType cx.types ty = some p ∧ externArg cx ty = some c ∧ rustPassC cx ty = some ops ∧
      Gives apis ops (nameOf p) c := by
  have hb : ¬ Bare ty := by cases ty <;> simp [Odd, Bare] at hodd ⊢
  obtain ⟨c, hcc⟩ := write_some h hC ho hb
  have hc : writeType (collect apis) ty = some c := by rw [← hC.types]; exact hcc
  have hplain : (∀ p l m t, ty ≠ .ref p l m t) → (∀ t, ty ≠ .rustBox t) → (∀ t, ty ≠ .uniquePtr t) →
      externArgBase cx ty = some c →
      rustPassC cx ty = (if cx.needsIndirect ty then some [.move, .manuallyDrop c, .value, .addr] else some []) →
      ∃ p c ops, writeType cx.types ty = some p ∧ externArg cx ty = some c ∧ rustPassC cx ty = some ops ∧
        Gives apis ops (nameOf p) c := by
    intro hr hb hu he hops
    have hl := write_not_ref hcc hr
    rw [hops]
    unfold externArg
    rw [he]
    cases hi : cx.needsIndirect ty
    · exact ⟨c, c, [], hcc, rfl, rfl,
        gives_copy hl (byValue_of_direct h hC ho (not_void_of_odd hodd) hi hc hb hu)⟩
    · refine ⟨c, .star true c, _, hcc, rfl, rfl, ?_⟩
      rw [nameOf_other hl]
      exact ⟨_, .cons (.move c) (.cons (.manuallyDrop c) (.cons (.valueDrop c) (cone (.addr true c)))),
        .prvalue _ (by simp)⟩
  cases ty with
  | ident n =>
    by_cases hn : n.rust = "String"
    · have hw := write_string (ts := cx.types) hn
      have hi := indirect_string (cx := cx) n hn
      refine ⟨.atom .rustString, .star true (.atom .rustString), [.addr], hw, ?_, ?_, _, cone (.addr true _),
        .prvalue _ (by simp)⟩
      · simp [externArg, hi, externArgBase, hw]
      · simp [rustPassC, isRustString, hn, hi]
    · exact hplain (by simp) (by simp) (by simp) (by simpa [externArgBase] using hcc)
        (by simp [rustPassC, isRustString, hn, hcc])
  | rustBox t =>
    simp only [writeType, Option.map_eq_some_iff] at hcc
    obtain ⟨d, hd, rfl⟩ := hcc
    refine ⟨.box d, .star true d, [.intoRaw], by simp [writeType, hd], ?_, rfl, _, cone (.intoRawVar d),
      .prvalue _ (by simp)⟩
    simp [externArg, Ctx.needsIndirect, externArgBase, hd]
  | uniquePtr t =>
    simp only [writeType, Option.map_eq_some_iff] at hcc
    obtain ⟨d, hd, rfl⟩ := hcc
    refine ⟨.uniquePtr d, .star true d, [.release], by simp [writeType, hd], ?_, rfl, _, cone (.releaseVar d),
      .prvalue _ (by simp)⟩
    simp [externArg, Ctx.needsIndirect, externArgBase, hd]
  | ref p l m t =>
    simp only [writeType, Option.map_eq_some_iff] at hcc
    obtain ⟨d, hd, rfl⟩ := hcc
    refine ⟨.lref m d, .lref m d, [], by simp [writeType, hd], ?_, ?_, gives_ref m d⟩
    · simp [externArg, Ctx.needsIndirect, externArgBase, writeType, hd]
    · simp [rustPassC, isRustString, Ctx.needsIndirect]
  | cxxVector t => exact absurd trivial hodd
  | void => exact absurd trivial hodd
  | fn => exact absurd trivial hodd
  | _ =>
    exact hplain (by simp) (by simp) (by simp) (by simpa [externArgBase] using hcc)
      (by simp [rustPassC, isRustString, hcc])

theorem rust_shim_ret (h : Accepted g apis) (hC : CtxFor apis cx) {ty : Ty} (ho : Occurs apis ty) (hb : ¬ Bare ty)
    (throws : Bool) :
    ∃ c, writeType cx.types ty = some c ∧
      (indirectReturnC cx (some ty) throws = true →
        ∃ u out, rustUninitC cx ty = some u ∧ rustOutC cx (some ty) throws = some [out] ∧
          Gives apis rustOutArgC (.lvalue true (.maybeUninit u)) out ∧
          Gives apis (rustRetIndirectC ty) (.lvalue true (.maybeUninit u)) c) ∧
      (indirectReturnC cx (some ty) throws = false →
        ∃ r ops, externReturnC cx (some ty) = some (some r) ∧ rustRetC cx ty = some ops ∧ Gives apis ops (callOf r) c) := by
  obtain ⟨c, hcc⟩ := write_some h hC ho hb
  refine ⟨c, hcc, fun hi => ?_, fun hi => ?_⟩
  · have hother : (∀ p l m t, ty ≠ .ref p l m t) → rustUninitC cx ty = some c → rustReturnPointee cx ty = some c →
        rustRetIndirectC ty = [.value, .move] →
        ∃ u out, rustUninitC cx ty = some u ∧ rustOutC cx (some ty) throws = some [out] ∧
          Gives apis rustOutArgC (.lvalue true (.maybeUninit u)) out ∧
          Gives apis (rustRetIndirectC ty) (.lvalue true (.maybeUninit u)) c := by
      intro hr h1 h2 h3
      have hl := write_not_ref hcc hr
      refine ⟨c, .star true c, h1, by simp [rustOutC, hi, h2], ?_, ?_⟩
      · exact ⟨_, .cons (.valueUninit c) (cone (.addr true c)), .prvalue _ (by simp)⟩
      · rw [h3]
        exact ⟨_, .cons (.valueUninit c) (cone (.move c)), .xvalue c hl⟩
    cases ty with
    | ref p l m t =>
      simp only [writeType, Option.map_eq_some_iff] at hcc
      obtain ⟨d, hd, rfl⟩ := hcc
      refine ⟨.star m d, .star true (.star m d), by simp [rustUninitC, hd], by simp [rustOutC, hi, rustReturnPointee, hd],
        ?_, ?_⟩
      · exact ⟨_, .cons (.valueUninit _) (cone (.addr true _)), .prvalue _ (by simp)⟩
      · exact ⟨_, .cons (.valueUninit _) (cone (.deref m d (.lvalue true))), .bind _ id⟩
    | _ => exact hother (by simp) (by simpa [rustUninitC] using hcc) (by simpa [rustReturnPointee] using hcc) rfl
  · have hother : (∀ p l m t, ty ≠ .ref p l m t) → externReturnC cx (some ty) = some (some c) → rustRetC cx ty = some [] →
        ∃ r ops, externReturnC cx (some ty) = some (some r) ∧ rustRetC cx ty = some ops ∧ Gives apis ops (callOf r) c := by
      intro hr h1 h2
      have hl := write_not_ref hcc hr
      refine ⟨c, [], h1, h2, ?_⟩
      rw [callOf_other hl]
      exact ⟨_, .nil _, .prvalue c hl⟩
    simp only [indirectReturnC, Bool.or_eq_false_iff] at hi
    cases ty with
    | rustBox t =>
      simp only [writeType, Option.map_eq_some_iff] at hcc
      obtain ⟨d, hd, rfl⟩ := hcc
      exact ⟨.star true d, [.boxFromRaw (.box d)], by simp [externReturnC, hd], by simp [rustRetC, writeType, hd], _,
        cone (.boxFromRaw d .prvalue), .prvalue _ (by simp)⟩
    | uniquePtr t =>
      simp only [writeType, Option.map_eq_some_iff] at hcc
      obtain ⟨d, hd, rfl⟩ := hcc
      exact ⟨.star true d, [.construct (.uniquePtr d)], by simp [externReturnC, hd], by simp [rustRetC, writeType, hd], _,
        cone (.construct d .prvalue), .prvalue _ (by simp)⟩
    | ref p l m t =>
      simp only [writeType, Option.map_eq_some_iff] at hcc
      obtain ⟨d, hd, rfl⟩ := hcc
      exact ⟨.star m d, [.deref], by simp [externReturnC, hd], rfl, _, cone (.deref m d .prvalue), .bind _ id⟩
    | str p l m t =>
      simp only [writeType, Option.some.injEq] at hcc
      subst hcc
      exact ⟨.fat, [.strNew], rfl, rfl, _, cone (.strNew .prvalue), .prvalue _ (by simp)⟩
    | sliceRef l m t =>
      simp only [writeType, Option.map_eq_some_iff] at hcc
      obtain ⟨d, hd, rfl⟩ := hcc
      exact ⟨.fat, [.sliceNew (.slice m d)], rfl, by simp [rustRetC, writeType, hd], _, cone (.sliceNew m d .prvalue),
        .prvalue _ (by simp)⟩
    | fn => exact absurd trivial hb
    | void => exact absurd trivial hb
    | ptr m t => exact hother (by simp) (by simp [externReturnC, Ctx.needsIndirect, hcc]) rfl
    | array t n => simp [Ctx.needsIndirect] at hi
    | _ => exact hother (by simp) (by simp [externReturnC, hi.2, hcc]) rfl

/-- **C76**, the C++ half of a C++ function: what the shim hands to the user's function initialises a parameter of the type
that was written. -/
theorem cxx_shim_arguments_typed_partial (h : Accepted g apis) (hu : NoUnit apis) (hC : CtxFor apis cx) {f : ExternFn}
    (hf : Api.cxxFunction f ∈ apis) {a : Var} (ha : a ∈ f.sig.args) :
    ∃ p c ops, cxxParamC cx a.ty = some p ∧ writeType cx.types a.ty = some c ∧ cxxReceiveC cx a.ty = some ops ∧
      Gives apis ops (nameOf p) c :=
  cxx_shim_arg h hu hC (arg_occurs (.inl hf) ha) (arg_checked h (.inl hf) ha).1

/-- **C76**, the C++ half of a C++ function: the result of the user's function is turned into what the out-pointer points
to, or into what the shim returns. -/
theorem cxx_shim_result_typed (h : Accepted g apis) (hC : CtxFor apis cx) {f : ExternFn} (hf : Api.cxxFunction f ∈ apis)
    {ty : Ty} (hr : f.sig.ret = some ty) :
    ∃ c ops, writeType cx.types ty = some c ∧ cxxRetC cx f.sig.throws ty = some ops ∧
      ((∃ r, cxxOutC cx f.sig.ret f.sig.throws = some [.star true r] ∧ indirectReturnType cx ty = some r ∧
          Gives apis ops (callOf c) r) ∨
        ∃ r, cxxOutC cx f.sig.ret f.sig.throws = some [] ∧ returnC cx f.sig.ret f.sig.throws = some (some r) ∧
          Gives apis ops (callOf c) r) := by
  obtain ⟨c, ops, h1, h2, h3, h4⟩ :=
    cxx_shim_ret h hC (ret_occurs (.inl hf) hr) (ret_checked h (.inl hf) hr) f.sig.throws
  refine ⟨c, ops, h1, h2, ?_⟩
  rw [hr]
  cases hi : indirectReturnC cx (some ty) f.sig.throws
  · obtain ⟨r, hr', hg⟩ := h4 hi
    refine .inr ⟨r, by simp [cxxOutC, hi], ?_, hg⟩
    simp only [indirectReturnC, Bool.or_eq_false_iff] at hi
    simp [returnC, hi.1, hr']
  · obtain ⟨r, hr', hg⟩ := h3 hi
    exact .inl ⟨r, by simp [cxxOutC, hi, hr'], hr', hg⟩

/-- **C76**, the C++ half of a Rust function: what the shim passes for each argument initialises the declared
parameter. -/
theorem rust_shim_arguments_typed (h : Accepted g apis) (hC : CtxFor apis cx) {f : ExternFn}
    (hf : Api.rustFunction f ∈ apis) (hl : f.lang = .rust) {a : Var} (ha : a ∈ f.sig.args) :
    ∃ p c ops, writeType cx.types a.ty = some p ∧ externArg cx a.ty = some c ∧ rustPassC cx a.ty = some ops ∧
      Gives apis ops (nameOf p) c :=
  rust_shim_arg h hC (arg_occurs (.inr hf) ha) ((arg_checked h (.inr hf) ha).2 hl)

/-- **C76**, the C++ half of a Rust function: a pointer to `return$.value` initialises the declared out-pointer, if there
is one; and the result, taken from there or from the call, initialises a result of the type that was written. -/
theorem rust_shim_result_typed (h : Accepted g apis) (hC : CtxFor apis cx) {f : ExternFn} (hf : Api.rustFunction f ∈ apis)
    {ty : Ty} (hr : f.sig.ret = some ty) :
    ∃ c, writeType cx.types ty = some c ∧
      ((∃ u out, rustUninitC cx ty = some u ∧ rustOutC cx f.sig.ret f.sig.throws = some [out] ∧
          Gives apis rustOutArgC (.lvalue true (.maybeUninit u)) out ∧
          Gives apis (rustRetIndirectC ty) (.lvalue true (.maybeUninit u)) c) ∨
        ∃ r ops, rustOutC cx f.sig.ret f.sig.throws = some [] ∧ returnC cx f.sig.ret f.sig.throws = some (some r) ∧
          rustRetC cx ty = some ops ∧ Gives apis ops (callOf r) c) := by
  obtain ⟨c, h1, h2, h3⟩ :=
    rust_shim_ret h hC (ret_occurs (.inr hf) hr) (ret_checked h (.inr hf) hr) f.sig.throws
  refine ⟨c, h1, ?_⟩
  rw [hr]
  cases hi : indirectReturnC cx (some ty) f.sig.throws
  · obtain ⟨r, ops, hr', ho, hg⟩ := h3 hi
    refine .inr ⟨r, ops, by simp [rustOutC, hi], ?_, ho, hg⟩
    simp only [indirectReturnC, Bool.or_eq_false_iff] at hi
    simp [returnC, hi.1, hr']
  · exact .inl (h2 hi)

/-! ### Examples and counterexamples -/

section Witness

/-- `fn f(a: &Vec<&str>)`, `fn f(a: Pin<&mut String>)` and `fn f() -> Vec<&'static str>` in C++. -/
def refStr : List Api := [cfn [.ref false none false (.rustVec (.str false none false (.named "str")))] none]
def pinString : List Api := [cfn [.ref true none true (.named "String")] none]
def retStr : List Api := [cfn [] (some (.rustVec (.str false (some "static") false (.named "str"))))]
/-- `fn f(a: Vec<&str>)` in Rust. -/
def rustStrArg : List Api :=
  [.rustFunction ⟨.rust, nm "f", ⟨false, [], none, [⟨nm "a", .rustVec (.str false none false (.named "str"))⟩], none, false⟩,
    true⟩]

/-- The full **C76** is false of the code: `&Vec<&str>` is accepted (syntax/check.rs:131 lets `&str` be an element), but
`RustVec::from_ref` makes a `&RustVec<&str>` of it and the declaration has `&RustVec<RustStr>`. -/
theorem ref_vec_of_str_mistyped : Accepted .build refStr ∧ Accepted .macro refStr ∧
    CtxFor refStr (context refStr 1) ∧
    ∃ f a, Api.cxxFunction f ∈ refStr ∧ a ∈ f.sig.args ∧ RefVecOfStr a.ty ∧
      ¬ HasType (cxxSetupR (context refStr 1) a.ty ++ cxxPassR (context refStr 1) a.ty) (den a.ty)
        (denTok (cxxParamR (context refStr 1) a.ty)) := by
  refine ⟨by decide +kernel, by decide +kernel, context_for (by decide +kernel), _, _, .head _, .head _, trivial, ?_⟩
  change ¬ HasType [.vecFrom false] (.ref false (.vec (.ref false .str))) (.ref false (.rustVec .rustStr))
  intro h
  cases h with
  | cons h hs =>
    cases h
    cases hs

/-- ... and so is `Pin<&mut String>`, but `RustString::from_mut` takes a `&mut String`. -/
theorem pinned_string_mistyped : Accepted .build pinString ∧ Accepted .macro pinString ∧
    CtxFor pinString (context pinString 1) ∧
    ∃ f a, Api.cxxFunction f ∈ pinString ∧ a ∈ f.sig.args ∧ PinnedOwner a.ty ∧
      ¬ ∃ t, HasType (cxxSetupR (context pinString 1) a.ty ++ cxxPassR (context pinString 1) a.ty) (den a.ty) t := by
  refine ⟨by decide +kernel, by decide +kernel, context_for (by decide +kernel), _, _, .head _, .head _, rfl, ?_⟩
  change ¬ ∃ t, HasType [.stringFrom true] (.pin (.ref true string)) t
  rintro ⟨t, h⟩
  cases h with
  | cons h hs => cases h

/-- ... and `Vec<&str>` as the result of a C++ function: `into_vec` makes a `Vec<RustStr>` of it. -/
theorem returned_vec_of_str_mistyped : Accepted .build retStr ∧ Accepted .macro retStr ∧
    CtxFor retStr (context retStr 1) ∧
    ∃ f ty slot, Api.cxxFunction f ∈ retStr ∧ f.sig.ret = some ty ∧ VecOfStr ty ∧
      cxxSlotR (context retStr 1) f.sig.throws ty = some slot ∧
      ¬ HasType (cxxRetR (context retStr 1) f.sig.throws ty) (.maybeUninit (denTok slot)) (den ty) := by
  refine ⟨by decide +kernel, by decide +kernel, context_for (by decide +kernel), _, _, .rustVec .rustStr, .head _, rfl,
    trivial, rfl, ?_⟩
  change ¬ HasType [.assumeInit, .intoVec] (.maybeUninit (.rustVec .rustStr)) (.vec (.ref false .str))
  intro h
  cases h with
  | cons h hs =>
    cases h
    cases hs with
    | cons h hs =>
      cases h
      cases hs

/-- ... and as an argument of a Rust function. -/
theorem received_vec_of_str_mistyped : Accepted .build rustStrArg ∧ Accepted .macro rustStrArg ∧
    CtxFor rustStrArg (context rustStrArg 1) ∧
    ∃ f a, Api.rustFunction f ∈ rustStrArg ∧ a ∈ f.sig.args ∧ VecOfStr a.ty ∧
      ¬ HasType (rustReceiveR (context rustStrArg 1) a.ty) (denTok (rustParamR (context rustStrArg 1) a.ty)) (den a.ty) := by
  refine ⟨by decide +kernel, by decide +kernel, context_for (by decide +kernel), _, _, .head _, .head _, trivial, ?_⟩
  change ¬ HasType [.derefVec, .take] (.ptr true (.rustVec .rustStr)) (.vec (.ref false .str))
  intro h
  cases h with
  | cons h hs =>
    cases h
    cases hs with
    | cons h hs =>
      cases h
      cases hs

/-- Every function of `demo` is covered: no argument and no result is of the excluded types. -/
example : ∀ a ∈ demo, ∀ t ∈ writtenTypes a, ¬ PinnedOwner t ∧ ¬ RefVecOfStr t ∧ ¬ VecOfStr t := by
  simp [demo, writtenTypes, opaqueT, rustR, PinnedOwner, RefVecOfStr, VecOfStr, nm, Ty.named]

/-- The conversions in `demo`: a struct with a string in it, a string, a box and a function pointer on the way to C++, and
a vector on the way to Rust. -/
example :
    HasType [.maybeUninit, .asMutPtr] (.named "Q") (.ptr true (.named "Q")) ∧
    cxxSetupR (context demo 3) (.named "Q") ++ cxxPassR (context demo 3) (.named "Q") = [.maybeUninit, .asMutPtr] ∧
    cxxSetupR (context demo 3) (.named "String") ++ cxxPassR (context demo 3) (.named "String") =
      [.maybeUninit, .asMutPtr, .asConstRustString] ∧
    cxxPassR (context demo 3) (.rustBox (.named "R")) = [.boxIntoRaw, .cast] ∧
    cxxParamR (context demo 3) (.rustBox (.named "R")) = .void true ∧
    rustReceiveR (context demo 3) (.rustVec (.named "P")) = [.derefVec, .take] ∧
    rustRetIndirectC (.ref false none false (.named "R")) = [.value, .deref] :=
  ⟨two (.maybeUninit _) (.asMutPtr _), rfl, rfl, rfl, rfl, rfl, rfl⟩

end Witness

end Verif.Conv
