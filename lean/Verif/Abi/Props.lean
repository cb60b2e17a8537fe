import Verif.Abi.Spec
import Verif.Pod.Props
import Verif.Check.Resolve
import Verif.Mangle.Props
/-!
# The two generators agree on the ABI
-/
namespace Verif.Abi
open Verif.Syntax Verif.Types Verif.Check Verif.Mangle

/-! ### Both sides decide indirection alike -/

theorem isImproper_iff {apis : List Api} (hd : (collect apis).dups = []) {cx : Ctx} (hcx : CtxFor apis cx) (ty : Ty) :
    cx.isImproper ty = true ↔ Improper.Improper apis ty := by
  obtain ⟨order, hperm, himp⟩ := hcx.improper
  unfold Ctx.isImproper
  rw [hcx.types, himp]
  exact Improper.improper_exact hd order hperm ty

theorem isPod_iff {apis : List Api} (hd : (collect apis).dups = []) {cx : Ctx} (hcx : CtxFor apis cx) {ty : Ty}
    (ho : Occurs apis ty) : cx.isPod ty = true ↔ Pod.Plain apis ty := by
  obtain ⟨b, hb⟩ := Option.isSome_iff_exists.1 (hcx.depth ty ho)
  unfold Ctx.isPod
  rw [hcx.types, hb]
  exact Pod.pod_exact hd cx.depth ty b hb

theorem indirect_same {apis : List Api} (hd : (collect apis).dups = []) {cx cx' : Ctx} (hcx : CtxFor apis cx)
    (hcx' : CtxFor apis cx') {ty : Ty} (ho : Occurs apis ty) : cx.needsIndirect ty = cx'.needsIndirect ty := by
  have h1 : cx.isPod ty = cx'.isPod ty := by
    rw [Bool.eq_iff_iff, isPod_iff hd hcx ho, isPod_iff hd hcx' ho]
  have h2 : cx.isImproper ty = cx'.isImproper ty := by
    rw [Bool.eq_iff_iff, isImproper_iff hd hcx, isImproper_iff hd hcx']
  cases ty <;> simp only [Ctx.needsIndirect, h1, h2]

/-! ### Types -/

theorem within_part {t u w : Ty} (h : Within u w) (hp : Part t u) : Within t w := by
  induction h with
  | self => exact .part hp (.self t)
  | part hp' _ ih => exact .part hp' ih

theorem occurs_part {apis : List Api} {t u : Ty} (h : Occurs apis u) (hp : Part t u) : Occurs apis t := by
  obtain ⟨a, ha, w, hw, hin⟩ := h
  exact ⟨a, ha, w, hw, within_part hin hp⟩

/-- `()` or a function. -/
def Bare : Ty → Prop
  | .void | .fn .. => True
  | _ => False

theorem names_of_resolve {apis : List Api} {n : Ident} {p : Pair} (h : resolve (collect apis) n = some p) :
    Names apis n p := by
  unfold resolve at h
  rw [(gathers apis).resolutions] at h
  rw [Option.map_eq_some_iff] at h
  obtain ⟨r, hr, rfl⟩ := h
  have h1 := List.find?_some hr
  have h2 := List.mem_of_find?_eq_some hr
  rw [List.mem_reverse, List.mem_filterMap] at h2
  obtain ⟨a, ha, har⟩ := h2
  exact ⟨by simpa using h1, a, ha, r.2, har⟩

theorem resolve_some {g : Generator} {apis : List Api} (h : Accepted g apis) {n : NamedType}
    (ho : Occurs apis (.ident n)) (ha : Atom.fromStr n.rust = none) : ∃ p, resolve (collect apis) n.rust = some p := by
  have := ((names_resolve h).1 n ho ha).2
  unfold resolve
  cases hm : mapGet (collect apis).resolutions n.rust with
  | none => exact absurd hm this
  | some r => exact ⟨r.1, rfl⟩

/-- The types a generic type, reference, slice or array of an accepted bridge is built from are neither `()`
nor functions. -/
theorem inner_not_bare {g : Generator} {apis : List Api} (h : Accepted g apis) {t u : Ty} (ho : Occurs apis u)
    (hp : Part t u) (hu : ¬ Bare u) : ¬ Bare t := by
  have hck := accepted_type h ho
  intro hb
  cases hp with
  | fnArg => exact hu trivial
  | fnRet => exact hu trivial
  | rustBox t => cases t <;> simp [Bare, checkType, checkTypeBox] at hb hck
  | rustVec t => cases t <;> simp [Bare, checkType, checkTypeRustVec] at hb hck
  | uniquePtr t => cases t <;> simp [Bare, checkType, checkTypeUniquePtr] at hb hck
  | sharedPtr t => cases t <;> simp [Bare, checkType, checkTypeSharedPtr] at hb hck
  | weakPtr t => cases t <;> simp [Bare, checkType, checkTypeWeakPtr] at hb hck
  | cxxVector t => cases t <;> simp [Bare, checkType, checkTypeCxxVector] at hb hck
  | ref p l m t => cases t <;> simp [Bare, checkType, checkTypeRef] at hb hck
  | ptr m t => cases t <;> simp [Bare, checkType, checkTypePtr] at hb hck
  | sliceRef l m t => cases t <;> simp [Bare, checkType, checkTypeSliceRef, isUnsized] at hb hck
  | array t n => cases t <;> simp [Bare, checkType, checkTypeArray, isUnsized] at hb hck

/-- Every type that occurs can be printed in C++, and the Rust type means the same. -/
theorem write_agrees {g : Generator} {apis : List Api} (h : Accepted g apis) {cx : Ctx} (ty : Ty)
    (ho : Occurs apis ty) (hb : ¬ Bare ty) :
    ∃ c, writeType (collect apis) ty = some c ∧ Agree apis (layoutSource ty) (layoutC c) ∧
      ∀ proper, Agree apis (layoutR (externType cx proper ty)) (layoutC c) := by
  induction ty using Ty.induct with
  | ident t =>
    cases ha : Atom.fromStr t.rust with
    | some a =>
      refine ⟨.atom a, by simp [writeType, ha], ?_, ?_⟩
      · simp only [layoutSource, ha, layoutC]; exact .atom a
      · intro proper
        simp only [externType]
        split
        · next hs =>
          rw [hs] at ha
          have : a = .rustString := by
            have : Atom.fromStr "String" = some .rustString := by decide
            rw [this] at ha; injection ha with ha; exact ha.symm
          rw [this]; exact .atom _
        · simp only [layoutR, layoutSource, ha, layoutC]; exact .atom a
    | none =>
      obtain ⟨p, hp⟩ := resolve_some h ho ha
      have hn := names_of_resolve hp
      refine ⟨.named p, by simp [writeType, ha, hp], ?_, ?_⟩
      · simp only [layoutSource, ha, layoutC]; exact .named _ _ hn
      · intro proper
        have : t.rust ≠ "String" := by rintro hs; rw [hs] at ha; exact absurd ha (by decide)
        simp only [externType, if_neg this, layoutR, layoutSource, ha, layoutC]; exact .named _ _ hn
  | rustBox t ih =>
    obtain ⟨c, hc, h1, h2⟩ := ih (occurs_part ho (.rustBox t)) (inner_not_bare h ho (.rustBox t) hb)
    refine ⟨.box c, by simp [writeType, hc], .pointer _ h1, fun proper => ?_⟩
    simp only [externType]
    split
    · exact .erased _ _
    · exact .pointer _ (h2 proper)
  | uniquePtr t ih =>
    obtain ⟨c, hc, h1, h2⟩ := ih (occurs_part ho (.uniquePtr t)) (inner_not_bare h ho (.uniquePtr t) hb)
    refine ⟨.uniquePtr c, by simp [writeType, hc], .pointer _ h1, fun proper => ?_⟩
    simp only [externType]
    split
    · exact .erased _ _
    · exact .pointer _ (h2 proper)
  | rustVec t ih =>
    obtain ⟨c, hc, h1, h2⟩ := ih (occurs_part ho (.rustVec t)) (inner_not_bare h ho (.rustVec t) hb)
    exact ⟨.vec c, by simp [writeType, hc], .vec h1, fun proper => .vec (h2 proper)⟩
  | sharedPtr t ih =>
    obtain ⟨c, hc, h1, h2⟩ := ih (occurs_part ho (.sharedPtr t)) (inner_not_bare h ho (.sharedPtr t) hb)
    exact ⟨.sharedPtr c, by simp [writeType, hc], .sharedPtr h1, fun proper => .sharedPtr h1⟩
  | weakPtr t ih =>
    obtain ⟨c, hc, h1, h2⟩ := ih (occurs_part ho (.weakPtr t)) (inner_not_bare h ho (.weakPtr t) hb)
    exact ⟨.weakPtr c, by simp [writeType, hc], .weakPtr h1, fun proper => .weakPtr h1⟩
  | cxxVector t ih =>
    obtain ⟨c, hc, h1, h2⟩ := ih (occurs_part ho (.cxxVector t)) (inner_not_bare h ho (.cxxVector t) hb)
    exact ⟨.vector c, by simp [writeType, hc], .cxxVector h1, fun proper => .cxxVector h1⟩
  | ref p l m t ih =>
    obtain ⟨c, hc, h1, h2⟩ := ih (occurs_part ho (.ref p l m t)) (inner_not_bare h ho (.ref p l m t) hb)
    refine ⟨.lref m c, by simp [writeType, hc], .pointer _ h1, fun proper => ?_⟩
    have hdef : ∀ b : Bool, Agree apis (layoutR (if b then RTok.void m else .source (.ref p l m t)))
        (layoutC (.lref m c)) := by
      intro b; cases b
      · exact .pointer _ h1
      · exact .erased _ _
    cases t with
    | ident n =>
      simp only [externType]
      by_cases hs : n.rust = "String"
      · rw [if_pos hs]
        have := h2 proper
        simp only [externType, if_pos hs] at this
        exact .pointer _ this
      · rw [if_neg hs]; exact hdef _
    | rustVec v => exact .pointer _ (h2 proper)
    | _ => exact hdef _
  | ptr m t ih =>
    obtain ⟨c, hc, h1, h2⟩ := ih (occurs_part ho (.ptr m t)) (inner_not_bare h ho (.ptr m t) hb)
    refine ⟨.star m c, by simp [writeType, hc], .pointer _ h1, fun proper => ?_⟩
    simp only [externType]
    split
    · exact .erased _ _
    · exact .pointer _ h1
  | str p l m t _ => exact ⟨.str, rfl, .twoWords, fun _ => .twoWords⟩
  | fn => exact absurd trivial hb
  | void => exact absurd trivial hb
  | sliceRef l m t ih =>
    obtain ⟨c, hc, h1, h2⟩ := ih (occurs_part ho (.sliceRef l m t)) (inner_not_bare h ho (.sliceRef l m t) hb)
    exact ⟨.slice m c, by simp [writeType, hc], .twoWords, fun _ => .twoWords⟩
  | array t n ih =>
    obtain ⟨c, hc, h1, h2⟩ := ih (occurs_part ho (.array t n)) (inner_not_bare h ho (.array t n) hb)
    exact ⟨.array c n, by simp [writeType, hc], .array n h1, fun _ => .array n h1⟩

theorem writeTypes_some {ts : Types} {tys : List Ty} (h : ∀ t ∈ tys, ∃ c, writeType ts t = some c) :
    ∃ cs, writeTypes ts tys = some cs := by
  induction tys with
  | nil => exact ⟨[], rfl⟩
  | cons t tys ih =>
    obtain ⟨c, hc⟩ := h t (by simp)
    obtain ⟨cs, hcs⟩ := ih (fun t ht => h t (by simp [ht]))
    exact ⟨c :: cs, by simp [writeTypes, hc, hcs]⟩

/-- **C56** (with `()` in function pointers excluded).  Printing a type that occurs in an accepted bridge does
not reach the `unreachable!()` of `write_type` nor the panic of `resolve`.  Missing: `unit_in_fn_pointer_panics`. -/
theorem write_total_partial {g : Generator} {apis : List Api} (h : Accepted g apis) (hu : NoUnit apis) (ty : Ty)
    (ho : Occurs apis ty) (hv : ty ≠ .void) : ∃ c, writeType (collect apis) ty = some c := by
  induction ty using Ty.induct with
  | void => exact absurd rfl hv
  | fn u as r th iha ihr =>
    obtain ⟨h1, h2⟩ := hu u as r th ho
    obtain ⟨cs, hcs⟩ := writeTypes_some (ts := collect apis) (tys := as) (fun a ha =>
      iha a ha (occurs_part ho (.fnArg u as r th ha)) (by rintro rfl; exact h1 ha))
    cases r with
    | none => exact ⟨.fn cs none, by simp [writeType, writeOpt, hcs]⟩
    | some r =>
      obtain ⟨c, hc⟩ := ihr r rfl (occurs_part ho (.fnRet u as r th)) (by rintro rfl; exact h2 rfl)
      exact ⟨.fn cs (some c), by simp [writeType, writeOpt, hcs, hc]⟩
  | _ =>
    obtain ⟨c, hc, _⟩ := write_agrees (cx := ⟨collect apis, [], 0⟩) h _ ho (by simp [Bare])
    exact ⟨c, hc⟩

/-! ### Parameters and returns -/

theorem agreeAll_append {apis : List Api} {r r' : List RTok} {c c' : List CTok} (h : AgreeAll apis r c)
    (h' : AgreeAll apis r' c') : AgreeAll apis (r ++ r') (c ++ c') := by
  induction h with
  | nil => exact h'
  | cons h _ ih => exact .cons h ih

theorem mapM_agrees {α : Type} {apis : List Api} {f : α → Option CTok} {k : α → RTok} {l : List α}
    (h : ∀ a ∈ l, ∃ c, f a = some c ∧ Passes apis (k a) c) :
    ∃ cs, l.mapM f = some cs ∧ AgreeAll apis (l.map k) cs := by
  induction l with
  | nil => exact ⟨[], rfl, .nil⟩
  | cons a l ih =>
    obtain ⟨c, hc, hag⟩ := h a (by simp)
    obtain ⟨cs, hcs, hall⟩ := ih (fun a ha => h a (by simp [ha]))
    exact ⟨c :: cs, by simp [List.mapM_cons, hc, hcs], .cons hag hall⟩

variable {g : Generator} {apis : List Api} {cxR cxC : Ctx}

theorem plain_generics {t : NamedType} (gs : List Ident) (h : Pod.Plain apis (.ident t)) :
    Pod.Plain apis (.ident ⟨t.rust, gs⟩) := by
  cases h with
  | numeric t h => exact .numeric ⟨t.rust, gs⟩ h
  | enum t hb e h hn hs => exact .enum ⟨t.rust, gs⟩ hb e h hn hs
  | struct t hb s h hn hp hf => exact .struct ⟨t.rust, gs⟩ hb s h hn hp hf

/-- What is passed directly may be passed by value. -/
theorem byValue_of_direct (h : Accepted g apis) {cx : Ctx} (hcx : CtxFor apis cx) {ty : Ty} (ho : Occurs apis ty)
    (hv : ty ≠ .void) (hi : cx.needsIndirect ty = false) {c : CTok} (hc : writeType (collect apis) ty = some c)
    (hbox : ∀ t, ty ≠ .rustBox t) (huniq : ∀ t, ty ≠ .uniquePtr t) : ByValue apis c := by
  have hplain : cx.isPod ty = true → Pod.Plain apis ty := (isPod_iff h.1 hcx ho).1
  cases ty with
  | ident t =>
    have hp := hplain (by simp_all [Ctx.needsIndirect])
    simp only [writeType] at hc
    cases ha : Atom.fromStr t.rust with
    | some a =>
      rw [ha] at hc; cases hc
      have hno := Pod.plain_not_owning h.1 hp
      constructor
      · rintro rfl
        exact hno (.string t (.inl ((Atom.fromStr_eq_some_iff _ _).1 ha)))
      · rintro rfl
        exact hno (.string t (.inr ((Atom.fromStr_eq_some_iff _ _).1 ha)))
    | none =>
      rw [ha] at hc
      obtain ⟨p, hr, rfl⟩ := Option.map_eq_some_iff.1 hc
      have hn := (names_of_resolve hr).1
      exact Pod.plain_not_owning h.1 (hn ▸ plain_generics [] hp)
  | rustBox t => exact absurd rfl (hbox t)
  | uniquePtr t => exact absurd rfl (huniq t)
  | void => exact absurd rfl hv
  | array => simp [Ctx.needsIndirect] at hi
  | rustVec t => cases hplain (by simp_all [Ctx.needsIndirect])
  | sharedPtr t => cases hplain (by simp_all [Ctx.needsIndirect])
  | weakPtr t => cases hplain (by simp_all [Ctx.needsIndirect])
  | cxxVector t => cases hplain (by simp_all [Ctx.needsIndirect])
  | str => cases hc; trivial
  | ref p l m t => obtain ⟨_, _, rfl⟩ := Option.map_eq_some_iff.1 hc; trivial
  | ptr m t => obtain ⟨_, _, rfl⟩ := Option.map_eq_some_iff.1 hc; trivial
  | sliceRef l m t => obtain ⟨_, _, rfl⟩ := Option.map_eq_some_iff.1 hc; trivial
  | fn u as r th =>
    simp only [writeType] at hc
    split at hc
    · cases hc; trivial
    · cases hc

theorem externArg_agrees (h : Accepted g apis) (hR : CtxFor apis cxR) (hC : CtxFor apis cxC) {ty : Ty}
    (ho : Occurs apis ty) (hodd : ¬ Odd ty) (proper : Bool) :
    ∃ c, externArg cxC ty = some c ∧ Passes apis
      (if cxR.needsIndirect ty then .raw true (externType cxR proper ty) else externType cxR proper ty) c := by
  have hb : ¬ Bare ty := by cases ty <;> simp [Odd, Bare] at hodd ⊢
  obtain ⟨c, hc, h1, h2⟩ := write_agrees (cx := cxR) h ty ho hb
  have hvoid : ty ≠ .void := by rintro rfl; exact hb trivial
  have hbase : ∃ c', externArgBase cxC ty = some c' ∧ Agree apis (layoutR (externType cxR proper ty)) (layoutC c') ∧
      (cxC.needsIndirect ty = false → ByValue apis c') := by
    have hcc : writeType cxC.types ty = some c := by rw [hC.types]; exact hc
    cases ty with
    | rustBox t =>
      simp only [writeType, Option.map_eq_some_iff] at hcc
      obtain ⟨c', hc', rfl⟩ := hcc
      exact ⟨.star true c', by simp [externArgBase, hc'], h2 proper, fun _ => trivial⟩
    | uniquePtr t =>
      simp only [writeType, Option.map_eq_some_iff] at hcc
      obtain ⟨c', hc', rfl⟩ := hcc
      exact ⟨.star true c', by simp [externArgBase, hc'], h2 proper, fun _ => trivial⟩
    | cxxVector t => exact absurd trivial hodd
    | _ =>
      exact ⟨c, hcc, h2 proper, fun hi => byValue_of_direct h hC ho hvoid hi hc nofun nofun⟩
  obtain ⟨c', hc', hag, hval⟩ := hbase
  unfold externArg
  rw [← indirect_same h.1 hR hC ho] at hval ⊢
  cases hi : cxR.needsIndirect ty
  · exact ⟨c', by simpa using hc', by simpa using hag, hval hi⟩
  · exact ⟨.star true c', by simp [hc'], .pointer _ hag, trivial⟩

theorem cxxParam_agrees (h : Accepted g apis) (hu : NoUnit apis) (hR : CtxFor apis cxR) (hC : CtxFor apis cxC) {ty : Ty}
    (ho : Occurs apis ty) (hodd : ¬ Odd ty ∨ isFn ty = true) :
    ∃ c, cxxParamC cxC ty = some c ∧ Passes apis (cxxParamR cxR ty) c := by
  by_cases hfn : isFn ty = true
  · cases ty <;> simp only [isFn, reduceCtorEq] at hfn
    next u as r th =>
    obtain ⟨c, hc⟩ := write_total_partial h hu _ ho (by simp)
    refine ⟨c, ?_, ?_⟩
    · simp only [cxxParamC, isRustString, externArg, Ctx.needsIndirect, externArgBase, hC.types]
      exact hc
    · simp only [writeType] at hc
      split at hc
      · injection hc with hc; subst hc; exact ⟨.closure, trivial⟩
      · cases hc
  · have hodd : ¬ Odd ty := by rcases hodd with h | h; exacts [h, absurd h hfn]
    have hb : ¬ Bare ty := by cases ty <;> simp [Odd, Bare] at hodd ⊢
    obtain ⟨c, hc, h1, h2⟩ := write_agrees (cx := cxR) h ty ho hb
    unfold cxxParamC cxxParamR
    by_cases hs : isRustString ty = true
    · rw [if_pos hs, if_pos hs, hC.types, hc]
      exact ⟨.star false c, rfl, .pointer _ (h2 true), trivial⟩
    · rw [if_neg hs, if_neg hs]
      cases ty with
      | rustVec t =>
        simp only [hC.types, hc]
        exact ⟨.star false c, rfl, .pointer _ (h2 true), trivial⟩
      | fn => exact absurd rfl hfn
      | _ => exact externArg_agrees h hR hC ho hodd true

theorem return_agrees (h : Accepted g apis) (hR : CtxFor apis cxR) (hC : CtxFor apis cxC) {ret : Option Ty}
    (ho : ∀ t, ret = some t → Occurs apis t ∧ ¬ Bare t) (throws proper : Bool) :
    ∃ c, returnC cxC ret throws = some c ∧
      AgreeRet apis (if throws then some .result else externReturnType cxR proper ret) c := by
  unfold returnC
  cases throws
  · simp only [Bool.false_eq_true, if_false]
    cases ret with
    | none => exact ⟨none, rfl, .void⟩
    | some ty =>
      obtain ⟨ho, hb⟩ := ho ty rfl
      obtain ⟨c, hc, h1, h2⟩ := write_agrees (cx := cxR) h ty ho hb
      have hcc : writeType cxC.types ty = some c := by rw [hC.types]; exact hc
      have hsame := indirect_same h.1 hR hC ho
      have hdef : ∀ (_ : externReturnC cxC (some ty) =
          if cxC.needsIndirect ty then some none else (writeType cxC.types ty).map some)
          (hbox : ∀ t, ty ≠ .rustBox t) (huniq : ∀ t, ty ≠ .uniquePtr t),
          ∃ c, externReturnC cxC (some ty) = some c ∧ AgreeRet apis (externReturnType cxR proper (some ty)) c := by
        intro he hbox huniq
        rw [he]
        simp only [externReturnType, hsame]
        cases hi : cxC.needsIndirect ty
        · exact ⟨some c, by simp [hcc], .value ⟨h2 proper,
            byValue_of_direct h hC ho (by rintro rfl; exact hb trivial) hi hc hbox huniq⟩⟩
        · exact ⟨none, rfl, .void⟩
      have hdir : cxR.needsIndirect ty = false →
          externReturnType cxR proper (some ty) = some (externType cxR proper ty) := by
        intro hn; simp [externReturnType, hn]
      cases ty with
      | rustBox t =>
        simp only [writeType, Option.map_eq_some_iff] at hcc
        obtain ⟨c', hc', rfl⟩ := hcc
        rw [hdir rfl]
        exact ⟨some (.star true c'), by simp [externReturnC, hc'], .value ⟨h2 proper, trivial⟩⟩
      | uniquePtr t =>
        simp only [writeType, Option.map_eq_some_iff] at hcc
        obtain ⟨c', hc', rfl⟩ := hcc
        rw [hdir rfl]
        exact ⟨some (.star true c'), by simp [externReturnC, hc'], .value ⟨h2 proper, trivial⟩⟩
      | ref p l m t =>
        simp only [writeType, Option.map_eq_some_iff] at hcc
        obtain ⟨c', hc', rfl⟩ := hcc
        rw [hdir rfl]
        exact ⟨some (.star m c'), by simp [externReturnC, hc'], .value ⟨h2 proper, trivial⟩⟩
      | str => rw [hdir rfl]; exact ⟨some .fat, rfl, .value ⟨.twoWords, trivial⟩⟩
      | sliceRef => rw [hdir rfl]; exact ⟨some .fat, rfl, .value ⟨.twoWords, trivial⟩⟩
      | _ => exact hdef rfl nofun nofun
  · exact ⟨some .ptrLen, rfl, .value ⟨.result, trivial⟩⟩

theorem cxxOut_agrees (h : Accepted g apis) (hC : CtxFor apis cxC) {ty : Ty}
    (ho : Occurs apis ty) (hb : ¬ Bare ty) :
    ∃ c, indirectReturnType cxC ty = some c ∧ Agree apis (layoutR (externType cxR true ty)) (layoutC c) := by
  obtain ⟨c, hc, h1, h2⟩ := write_agrees (cx := cxR) h ty ho hb
  have hcc : writeType cxC.types ty = some c := by rw [hC.types]; exact hc
  cases ty with
  | rustBox t =>
    simp only [writeType, Option.map_eq_some_iff] at hcc
    obtain ⟨c', hc', rfl⟩ := hcc
    exact ⟨.star true c', by simp [indirectReturnType, hc'], h2 true⟩
  | uniquePtr t =>
    simp only [writeType, Option.map_eq_some_iff] at hcc
    obtain ⟨c', hc', rfl⟩ := hcc
    exact ⟨.star true c', by simp [indirectReturnType, hc'], h2 true⟩
  | ref p l m t =>
    simp only [writeType, Option.map_eq_some_iff] at hcc
    obtain ⟨c', hc', rfl⟩ := hcc
    exact ⟨.star m c', by simp [indirectReturnType, hc'], h2 true⟩
  | _ => exact ⟨c, hcc, h2 true⟩

theorem rustOut_agrees (h : Accepted g apis) (hC : CtxFor apis cxC) {ty : Ty}
    (ho : Occurs apis ty) (hb : ¬ Bare ty) :
    ∃ c, rustReturnPointee cxC ty = some c ∧ Agree apis (layoutR (externType cxR false ty)) (layoutC c) := by
  obtain ⟨c, hc, h1, h2⟩ := write_agrees (cx := cxR) h ty ho hb
  have hcc : writeType cxC.types ty = some c := by rw [hC.types]; exact hc
  cases ty with
  | ref p l m t =>
    simp only [writeType, Option.map_eq_some_iff] at hcc
    obtain ⟨c', hc', rfl⟩ := hcc
    exact ⟨.star m c', by simp [rustReturnPointee, hc'], h2 false⟩
  | _ => exact ⟨c, hcc, h2 false⟩

theorem receiver_agrees (h : Accepted g apis) (hC : CtxFor apis cxC) {f : ExternFn} (hf : HasFn apis f) {r : Receiver}
    (hr : f.sig.receiver = some r) :
    ∃ c, receiverC cxC r = some c ∧ Passes apis (receiverR r) c := by
  have := ((names_resolve h).2.1 f hf r hr).2
  cases hm : mapGet (collect apis).resolutions r.ty.rust with
  | none => exact absurd hm this
  | some q =>
    have hp : resolve (collect apis) r.ty.rust = some q.1 := by simp [resolve, hm]
    refine ⟨.lref r.mutable (.named q.1), by simp [receiverC, hC.types, hp], ?_⟩
    exact ⟨.pointer _ (.named _ _ (names_of_resolve hp)), trivial⟩

theorem receivers_agree (h : Accepted g apis) (hC : CtxFor apis cxC) {f : ExternFn} (hf : HasFn apis f) :
    ∃ cs, f.sig.receiver.toList.mapM (receiverC cxC) = some cs ∧
      AgreeAll apis (f.sig.receiver.toList.map receiverR) cs := by
  apply mapM_agrees
  intro r hr
  exact receiver_agrees h hC hf (by simpa using hr)

theorem externFn_some (h : Accepted g apis) (hl : LexicalBridge apis) {f : ExternFn} (hf : HasFn apis f) :
    ∃ s, externFn (collect apis) f = some s :=
  symbol_exists h hl (e := .fn f) hf

/-- The common part of exported Rust functions and of function-pointer trampolines. -/
theorem rustDecl_agrees (h : Accepted g apis) (hR : CtxFor apis cxR) (hC : CtxFor apis cxC) (sym : Option Symbol)
    (hsym : sym ≠ none) (recv : Option Receiver)
    (hrecv : ∃ cs, recv.toList.mapM (receiverC cxC) = some cs ∧ AgreeAll apis (recv.toList.map receiverR) cs)
    (args : List Ty) (hargs : ∀ a ∈ args, Occurs apis a ∧ ¬ Odd a) (ret : Option Ty)
    (hret : ∀ t, ret = some t → Occurs apis t ∧ ¬ Bare t) (throws pointer : Bool) :
    ∃ c, rustDeclC cxC sym recv args ret throws pointer = some c ∧
      SameAbi apis (rustShimR cxR sym recv args ret throws pointer) c := by
  obtain ⟨rs, hrs, hrag⟩ := hrecv
  obtain ⟨as, has, haag⟩ := mapM_agrees (apis := apis) (f := externArg cxC) (k := rustParamR cxR) (l := args)
    (fun a ha => externArg_agrees h hR hC (hargs a ha).1 (hargs a ha).2 false)
  obtain ⟨rc, hrc, hrcag⟩ := return_agrees h hR hC hret throws false
  have hout : ∃ os, rustOutC cxC ret throws = some os ∧ AgreeAll apis (outParamR cxR false ret throws) os := by
    cases ret with
    | none => exact ⟨[], rfl, .nil⟩
    | some ty =>
      obtain ⟨ho, hb⟩ := hret ty rfl
      have hi : indirectReturnR cxR (some ty) throws = indirectReturnC cxC (some ty) throws := by
        simp only [indirectReturnC, indirectReturnR, indirect_same h.1 hR hC ho]
      obtain ⟨c, hc, hag⟩ := rustOut_agrees (cxR := cxR) h hC ho hb
      unfold rustOutC outParamR
      simp only [hi, hc]
      cases indirectReturnC cxC (some ty) throws
      · exact ⟨[], rfl, .nil⟩
      · exact ⟨[.star true c], rfl, .cons ⟨.pointer _ hag, trivial⟩ .nil⟩
  obtain ⟨os, hos, hoag⟩ := hout
  refine ⟨⟨sym, rs ++ as ++ os ++ (if pointer then [.voidPtr] else []), rc⟩,
    by simp only [rustDeclC, hrs, has, hos, hrc]; rfl, ⟨rfl, hsym⟩, ?_, hrcag⟩
  refine agreeAll_append (agreeAll_append (agreeAll_append hrag haag) hoag) ?_
  cases pointer
  · exact .nil
  · exact .cons ⟨.handle, trivial⟩ .nil

theorem arg_occurs {f : ExternFn} (hf : HasFn apis f) {a : Var} (ha : a ∈ f.sig.args) : Occurs apis a.ty := by
  rcases hf with hf | hf
  all_goals exact ⟨_, hf, a.ty, by simp [writtenTypes]; exact .inl ⟨a, ha, rfl⟩, .self _⟩

theorem ret_occurs {f : ExternFn} (hf : HasFn apis f) {t : Ty} (ht : f.sig.ret = some t) : Occurs apis t := by
  rcases hf with hf | hf
  all_goals exact ⟨_, hf, t, by simp [writtenTypes, ht], .self _⟩

theorem arg_checked (h : Accepted g apis) {f : ExternFn} (hf : HasFn apis f) {a : Var} (ha : a ∈ f.sig.args) :
    (¬ Odd a.ty ∨ isFn a.ty = true) ∧ (f.lang = .rust → ¬ Odd a.ty) := by
  have hck := accepted_fn h hf
  simp only [checkApiFn, List.append_eq_nil_iff, List.flatMap_eq_nil_iff] at hck
  have := hck.1.1.2 a ha
  unfold checkArg at this
  cases hty : a.ty with
  | fn u as r th =>
    rw [hty] at this
    simp only [isFn] at this
    exact ⟨.inr rfl, fun hl => by simp [hl] at this⟩
  | void => rw [hty] at this; simp [isFn, isPtr, isUnsized] at this
  | cxxVector => rw [hty] at this; simp [isFn, isPtr, isUnsized] at this
  | _ => exact ⟨.inl (by simp [Odd]), fun _ => by simp [Odd]⟩

theorem ret_checked (h : Accepted g apis) {f : ExternFn} (hf : HasFn apis f) {t : Ty} (ht : f.sig.ret = some t) :
    ¬ Bare t := by
  have hck := accepted_fn h hf
  simp only [checkApiFn, List.append_eq_nil_iff] at hck
  have := hck.1.2
  rw [ht] at this
  cases t <;> simp [checkRet, isFn, isUnsized, Bare] at this ⊢

/-- **C32**, C++ functions called from Rust.  For every function of an accepted bridge, the declaration in the
generated Rust and the definition in the generated C++ have the same symbol, the same parameters in the same
order, each passed the same way and pointing to the same kind of data, and the same return. -/
theorem cxx_function_abi_partial (h : Accepted g apis) (hlex : LexicalBridge apis) (hu : NoUnit apis) (hR : CtxFor apis cxR) (hC : CtxFor apis cxC)
    {f : ExternFn} (hf : Api.cxxFunction f ∈ apis) :
    ∃ c, cxxFunctionC cxC f = some c ∧ SameAbi apis (cxxFunctionR cxR f) c := by
  have hf' : HasFn apis f := .inl hf
  obtain ⟨rs, hrs, hrag⟩ := receivers_agree h hC hf'
  obtain ⟨as, has, haag⟩ := mapM_agrees (apis := apis) (f := fun a : Var => cxxParamC cxC a.ty)
    (k := fun a => cxxParamR cxR a.ty) (l := f.sig.args)
    (fun a ha => cxxParam_agrees h hu hR hC (arg_occurs hf' ha) (arg_checked h hf' ha).1)
  obtain ⟨rc, hrc, hrcag⟩ := return_agrees h hR hC (ret := f.sig.ret)
    (fun t ht => ⟨ret_occurs hf' ht, ret_checked h hf' ht⟩) f.sig.throws true
  obtain ⟨s, hs⟩ := externFn_some h hlex hf'
  have hout : ∃ os, cxxOutC cxC f.sig.ret f.sig.throws = some os ∧
      AgreeAll apis (outParamR cxR true f.sig.ret f.sig.throws) os := by
    cases hret : f.sig.ret with
    | none => exact ⟨[], rfl, .nil⟩
    | some ty =>
      have ho := ret_occurs hf' hret
      have hi : indirectReturnR cxR (some ty) f.sig.throws = indirectReturnC cxC (some ty) f.sig.throws := by
        simp only [indirectReturnC, indirectReturnR, indirect_same h.1 hR hC ho]
      obtain ⟨c, hc, hag⟩ := cxxOut_agrees (cxR := cxR) h hC ho (ret_checked h hf' hret)
      unfold cxxOutC outParamR
      simp only [hi, hc]
      cases indirectReturnC cxC (some ty) f.sig.throws
      · exact ⟨[], rfl, .nil⟩
      · exact ⟨[.star true c], rfl, .cons ⟨.pointer _ hag, trivial⟩ .nil⟩
  obtain ⟨os, hos, hoag⟩ := hout
  refine ⟨⟨externFn cxC.types f, rs ++ as ++ os, rc⟩,
    by simp only [cxxFunctionC, hrs, has, hos, hrc]; rfl, ⟨?_, ?_⟩, ?_, hrcag⟩
  · simp only [cxxFunctionR, hR.types, hC.types]
  · simp only [cxxFunctionR, hR.types, hs]; simp
  · exact agreeAll_append (agreeAll_append hrag haag) hoag

/-- **C32**, Rust functions called from C++. -/
theorem rust_function_abi (h : Accepted g apis) (hlex : LexicalBridge apis) (hR : CtxFor apis cxR) (hC : CtxFor apis cxC)
    {f : ExternFn} (hf : Api.rustFunction f ∈ apis) (hl : f.lang = .rust) :
    ∃ c, rustFunctionC cxC f = some c ∧ SameAbi apis (rustFunctionR cxR f) c := by
  have hf' : HasFn apis f := .inr hf
  obtain ⟨s, hs⟩ := externFn_some h hlex hf'
  unfold rustFunctionC rustFunctionR
  rw [hR.types, hC.types]
  refine rustDecl_agrees h hR hC _ (by rw [hs]; simp) _ (receivers_agree h hC hf') _ ?_ _
    (fun t ht => ⟨ret_occurs hf' ht, ret_checked h hf' ht⟩) _ _
  intro t ht
  obtain ⟨a, ha, rfl⟩ := List.mem_map.1 ht
  exact ⟨arg_occurs hf' ha, (arg_checked h hf' ha).2 hl⟩

/-- **C32**, function pointers passed to C++: the call of the C++ trampoline into the Rust one.  Missing: a
function pointer whose own parameters or result are functions, `()` or C++ vectors by value, which the checks
accept (`nested_fn_pointer_disagrees`). -/
theorem trampoline_abi_partial (h : Accepted g apis) (hlex : LexicalBridge apis) (hR : CtxFor apis cxR) (hC : CtxFor apis cxC)
    {f : ExternFn} (hf : Api.cxxFunction f ∈ apis) {var : Var} (hv : var ∈ f.sig.args)
    {u th : Bool} {as : List Ty} {r : Option Ty} (hty : var.ty = .fn u as r th)
    (has : ∀ a ∈ as, ¬ Odd a) (hr : ∀ t, r = some t → ¬ Odd t) :
    ∃ c, trampolineC cxC f var.name as r th = some c ∧ SameAbi apis (trampolineR cxR f var.name as r th) c := by
  have hf' : HasFn apis f := .inl hf
  have ho : Occurs apis (.fn u as r th) := hty ▸ arg_occurs hf' hv
  obtain ⟨s, hs⟩ := externFn_some h hlex hf'
  unfold trampolineC trampolineR
  rw [hR.types, hC.types]
  refine rustDecl_agrees h hR hC _ ?_ none ⟨[], rfl, .nil⟩ _ ?_ _ ?_ _ _
  · obtain ⟨s, hs⟩ := symbol_exists h hlex (e := .trampoline f var.name .rust) ⟨hf', var, hv, rfl⟩
    have hs : rTrampoline (collect apis) f var.name = some s := hs
    rw [hs]; simp
  · intro a ha; exact ⟨occurs_part ho (.fnArg u as r th ha), has a ha⟩
  · rintro t rfl
    refine ⟨occurs_part ho (.fnRet u as t th), fun hb => hr t rfl ?_⟩
    cases t <;> simp [Bare, Odd] at hb ⊢

/-! ### The hypotheses are met -/

/-- Both generators have a context for every bridge without redefinitions in which no struct contains itself. -/
theorem context_exists {apis : List Api} (hd : (collect apis).dups = [])
    (hc : ¬ Toposort.HasCycle (Pod.structsOf apis) Toposort.ContainsByValue) : ∃ cx, CtxFor apis cx := by
  obtain ⟨k, hk⟩ := Pod.common_depth (collect apis) (collect apis).all.vec (fun t _ => by
    obtain ⟨d, hd⟩ := Pod.pod_terminates_partial hd hc t
    exact ⟨d, hd d (Nat.le_refl d)⟩)
  exact ⟨⟨collect apis, Improper.improperStructs (collect apis) (fun _ l => l) (fun _ _ => rfl), k⟩, rfl,
    ⟨fun _ l => l, fun _ l => List.Perm.refl l, rfl⟩, fun ty ho => hk ty (((gathers apis).all ty).2 ho)⟩

/-- A context computed with a given recursion depth. -/
def context (apis : List Api) (depth : Nat) : Ctx :=
  ⟨collect apis, Improper.improperStructs (collect apis) (fun _ l => l) (fun _ _ => rfl), depth⟩

theorem context_for {apis : List Api} {depth : Nat}
    (h : ∀ t ∈ (collect apis).all.vec, (Pod.isPod (collect apis) depth t).isSome = true) :
    CtxFor apis (context apis depth) :=
  ⟨rfl, ⟨fun _ l => l, fun _ l => List.Perm.refl l, rfl⟩, fun ty ho => h ty (((gathers apis).all ty).2 ho)⟩

section Witness

/-- A bridge with a plain struct, a struct with a string in it, a C++ function with a receiver, arguments
passed in four ways, a function pointer and an indirect return, and a fallible Rust function. -/
def demo : List Api :=
  [opaqueT, rustR,
   .struct ⟨[], nm "P", [], [⟨nm "x", .named "u8"⟩]⟩,
   .struct ⟨[], nm "Q", [], [⟨nm "x", .named "String"⟩]⟩,
   .cxxFunction ⟨.cxx, nm "f", ⟨false, [], some ⟨true, none, true, ⟨"T", []⟩, false⟩,
     [⟨nm "a", .named "P"⟩, ⟨nm "b", .named "Q"⟩, ⟨nm "c", .named "String"⟩, ⟨nm "d", .rustBox (.named "R")⟩,
      ⟨nm "e", .fn false [.named "Q"] (some (.named "u8")) false⟩], some (.named "Q"), false⟩, true⟩,
   .rustFunction ⟨.rust, nm "g", ⟨false, [], none, [⟨nm "a", .rustVec (.named "P")⟩],
     some (.ref false none false (.named "R")), true⟩, true⟩]

theorem demo_accepted : Accepted .build demo ∧ Accepted .macro demo ∧ LexicalBridge demo := by decide +kernel

theorem demo_context : CtxFor demo (context demo 3) := context_for (by decide +kernel)

/-- How many parameters each declaration of `demo` has. -/
example : (∃ f c, Api.cxxFunction f ∈ demo ∧ cxxFunctionC (context demo 3) f = some c ∧ c.params.length = 7) ∧
    ∃ f c, Api.rustFunction f ∈ demo ∧ rustFunctionC (context demo 3) f = some c ∧ c.params.length = 2 := by
  refine ⟨⟨_, _, .tail _ (.tail _ (.tail _ (.tail _ (.head _)))), rfl, by decide +kernel⟩,
    ⟨_, _, .tail _ (.tail _ (.tail _ (.tail _ (.tail _ (.head _))))), rfl, by decide +kernel⟩⟩

/-- Whether a type is a function with `()` in its signature. -/
def takesUnit : Ty → Bool
  | .fn _ as r _ => as.any (fun | .void => true | _ => false) || (match r with | some .void => true | _ => false)
  | _ => false

example : NoUnit demo := by
  intro u as r th ho
  have ho := ((gathers demo).all _).2 ho
  have : ∀ t ∈ (collect demo).all.vec, takesUnit t = false := by decide +kernel
  have := this _ ho
  simp only [takesUnit, Bool.or_eq_false_iff, List.any_eq_false] at this
  refine ⟨fun h => absurd rfl (this.1 _ h), ?_⟩
  rintro rfl; exact absurd this.2 (by simp)

/-- A function pointer that takes a function pointer. -/
def nested : List Api := [cfn [.fn false [.fn false [] none false] none false] none]

/-- A function pointer that takes `()`. -/
def unitArg : List Api := [cfn [.fn false [.void] none false] none]

/-- The full **C32** is false of the code: a function pointer that takes a function pointer is accepted
(syntax/check.rs:301-316 does not look at the argument types), the C++ trampoline passes a `::rust::Fn`, which
is two words, and the Rust trampoline takes a `fn()`, which is one. -/
theorem nested_fn_pointer_disagrees : Accepted .build nested ∧ Accepted .macro nested ∧ LexicalBridge nested ∧
    CtxFor nested (context nested 1) ∧
    ∃ f ∈ ([⟨.cxx, nm "f", ⟨false, [], none, [⟨nm "a", .fn false [.fn false [] none false] none false⟩], none, false⟩, true⟩] : List ExternFn),
      Api.cxxFunction f ∈ nested ∧
      ∃ c, trampolineC (context nested 1) f (nm "a") [.fn false [] none false] none false = some c ∧
        ¬ SameAbi nested (trampolineR (context nested 1) f (nm "a") [.fn false [] none false] none false) c := by
  refine ⟨by decide +kernel, by decide +kernel, by decide +kernel, context_for (by decide +kernel), _, .head _, .head _,
    _, rfl, fun h => ?_⟩
  have h := h.params
  generalize hr : (trampolineR (context nested 1) _ _ _ _ _).params = rs at h
  cases h with
  | cons h _ =>
    injection hr with hr _
    subst hr
    cases h.layout

/-- The full **C56** is false of the code: a function pointer that takes `()` is accepted, and printing its type
reaches `unreachable!()`. -/
theorem unit_in_fn_pointer_panics : Accepted .build unitArg ∧ Accepted .macro unitArg ∧
    Occurs unitArg (.fn false [.void] none false) ∧
    writeType (collect unitArg) (.fn false [.void] none false) = none := by
  refine ⟨by decide +kernel, by decide +kernel, ?_, rfl⟩
  exact ⟨cfn [.fn false [.void] none false] none, .head _, _, by simp [writtenTypes, cfn], .self _⟩

end Witness

end Verif.Abi
