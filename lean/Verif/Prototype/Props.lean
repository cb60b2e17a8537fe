import Verif.Prototype.Types
/-!
# The Rust signature and the C++ prototype of a function agree
-/
namespace Verif.Prototype
open Verif.Syntax Verif.Types Verif.Check Verif.Parse Verif.Abi Verif.RustSig Verif.CxxText

variable {g : Generator} {apis : List Api} {cxR cxC : Ctx}

theorem cxxParam_same (h : Accepted g apis) (hw : StrWritten apis) (hu : NoUnit apis) (hR : CtxFor apis cxR)
    (hC : CtxFor apis cxC) {ty : Ty} (ho : Occurs apis ty) (hodd : ¬ Odd ty ∨ isFn ty = true) :
    ∃ c, cxxParamC cxC ty = some c ∧ Fits apis (declArgTy cxR ty) c := by
  by_cases hfn : isFn ty = true
  · cases ty <;> simp only [isFn, reduceCtorEq] at hfn
    next u as r th =>
    obtain ⟨c, hc⟩ := write_total_partial h hu _ ho (by simp)
    refine ⟨c, ?_, ?_⟩
    · simp only [cxxParamC, isRustString, externArg, Ctx.needsIndirect, externArgBase, hC.types]
      exact hc
    · simp only [writeType] at hc
      split at hc
      · injection hc with hc; subst hc; exact ⟨_, meaning_private _, .closure _ _, .closure _ _⟩
      · cases hc
  · have hodd : ¬ Odd ty := by
      rcases hodd with h | h
      · exact h
      · exact absurd h hfn
    have hb : ¬ Bare ty := by cases ty <;> simp [Odd, Bare] at hodd ⊢
    obtain ⟨c, hc, h1, h2⟩ := write_same (cx := cxR) h hw ty ho hb
    obtain ⟨d, hm, hs⟩ := h2 true
    have hstar : Fits apis (.ptr false (externTy cxR true ty)) (.star false c) :=
      ⟨_, by rw [meaning_ptr, hm]; rfl, .address hs (.ptr _ _) (.ptr _ _), .ptr _⟩
    unfold cxxParamC declArgTy
    by_cases hstr : isRustString ty = true
    · rw [if_pos hstr, if_pos hstr, hC.types, hc]
      exact ⟨.star false c, rfl, hstar⟩
    · rw [if_neg hstr, if_neg hstr]
      cases ty with
      | rustVec t =>
        simp only [hC.types, hc]
        exact ⟨.star false c, rfl, hstar⟩
      | fn => exact absurd rfl hfn
      | _ => exact externArg_same h hw hR hC ho hodd true

/-- Position by position. -/
inductive AllFit (apis : List Api) : List RTy → List CTok → Prop
  | nil : AllFit apis [] []
  | cons {r : RTy} {c : CTok} {rs : List RTy} {cs : List CTok} (h : Fits apis r c) (t : AllFit apis rs cs) :
      AllFit apis (r :: rs) (c :: cs)

/-- Both nothing, or the same. -/
inductive RetFits (apis : List Api) : Option RTy → Option CTok → Prop
  | void : RetFits apis none none
  | value {r : RTy} {c : CTok} (h : Fits apis r c) : RetFits apis (some r) (some c)

theorem allFit_append {r r' : List RTy} {c c' : List CTok} (h : AllFit apis r c) (h' : AllFit apis r' c') :
    AllFit apis (r ++ r') (c ++ c') := by
  induction h with
  | nil => exact h'
  | cons h _ ih => exact .cons h ih

theorem mapM_fits {α : Type} {f : α → Option CTok} {k : α → RTy} {l : List α}
    (h : ∀ a ∈ l, ∃ c, f a = some c ∧ Fits apis (k a) c) : ∃ cs, l.mapM f = some cs ∧ AllFit apis (l.map k) cs := by
  induction l with
  | nil => exact ⟨[], rfl, .nil⟩
  | cons a l ih =>
    obtain ⟨c, hc, hag⟩ := h a (by simp)
    obtain ⟨cs, hcs, hall⟩ := ih (fun a ha => h a (by simp [ha]))
    exact ⟨c :: cs, by simp [List.mapM_cons, hc, hcs], .cons hag hall⟩

theorem owned_same (h : Accepted g apis) (hw : StrWritten apis) {t : Ty} (ho : Occurs apis t) (hb : ¬ Bare t) {x : CTok}
    (hx : writeType (collect apis) t = some x) (proper : Bool) :
    Fits apis (if proper && cxR.isImproper t then RTy.ptr true cVoid else .ptr true (externTy cxR proper t)) (.star true x) := by
  split
  · exact ⟨_, meaning_void _, .erased (.ptr _ _), .ptr _⟩
  · obtain ⟨c2, hc2, _, h4⟩ := write_same (cx := cxR) h hw t ho hb
    rw [hc2] at hx
    cases hx
    obtain ⟨d2, m2, s2⟩ := h4 proper
    exact ⟨_, by rw [meaning_ptr, m2]; rfl, .address s2 (.ptr _ _) (.ptr _ _), .ptr _⟩

/-- A reference may be given back as a pointer. -/
theorem borrowed_same (h : Accepted g apis) (hw : StrWritten apis) {p : Bool} {l : Option Ident} {m : Bool} {t : Ty}
    (ho : Occurs apis (.ref p l m t)) {x : CTok} (hx : writeType (collect apis) t = some x) (proper : Bool) :
    Fits apis (externTy cxR proper (.ref p l m t)) (.star m x) := by
  have hot := occurs_part ho (.ref p l m t)
  have hbt := inner_not_bare h ho (.ref p l m t) (by simp [Bare])
  obtain ⟨c2, hc2, ⟨d1, m1, s1⟩, h4⟩ := write_same (cx := cxR) h hw t hot hbt
  rw [hc2] at hx
  cases hx
  have hdef : ∀ b : Bool, Fits apis (if b then RTy.ptr m cVoid else printType (.ref p l m t)) (.star m x) := by
    intro b; cases b
    · obtain ⟨d', hd', hpt⟩ := meaning_pinned p l m m1
      exact ⟨d', by rw [printType]; exact hd', .address s1 hpt (.ptr _ _), .ptr _⟩
    · exact ⟨_, meaning_void _, .erased (.ptr _ _), .ptr _⟩
  have hpart : ∀ t', externTy cxR proper t = t' → Fits apis (.reference l m t') (.star m x) := by
    rintro t' rfl
    obtain ⟨d2, m2, s2⟩ := h4 proper
    exact ⟨_, by rw [meaning_ref, m2]; rfl, .address s2 (.reference _ _ _) (.ptr _ _), .ptr _⟩
  cases t with
  | ident n =>
    simp only [externTy]
    by_cases hs : n.rust = "String"
    · rw [if_pos hs]
      exact hpart _ (by simp only [externTy, if_pos hs])
    · rw [if_neg hs]; exact hdef _
  | rustVec v => exact hpart _ rfl
  | _ => exact hdef _

theorem return_same (h : Accepted g apis) (hw : StrWritten apis) (hR : CtxFor apis cxR) (hC : CtxFor apis cxC)
    {ret : Option Ty} (ho : ∀ t, ret = some t → Occurs apis t ∧ ¬ Bare t) (throws proper : Bool) :
    ∃ c, returnC cxC ret throws = some c ∧ RetFits apis (externReturn cxR proper ret throws) c := by
  unfold returnC externReturn
  cases throws
  · simp only [Bool.false_eq_true, if_false]
    cases ret with
    | none => exact ⟨none, rfl, .void⟩
    | some ty =>
      obtain ⟨ho, hb⟩ := ho ty rfl
      obtain ⟨c, hc, h1, h2⟩ := write_same (cx := cxR) h hw ty ho hb
      have hcc : writeType cxC.types ty = some c := by rw [hC.types]; exact hc
      have hsame := indirect_same h.1 hR hC ho
      have hdef : ∀ (_ : externReturnC cxC (some ty) =
          if cxC.needsIndirect ty then some none else (writeType cxC.types ty).map some)
          (hbox : ∀ t, ty ≠ .rustBox t) (huniq : ∀ t, ty ≠ .uniquePtr t),
          ∃ c, externReturnC cxC (some ty) = some c ∧
            RetFits apis (if cxR.needsIndirect ty then none else some (externTy cxR proper ty)) c := by
        intro he hbox huniq
        rw [he]
        simp only [hsame]
        cases hi : cxC.needsIndirect ty
        · obtain ⟨d, hm, hs⟩ := h2 proper
          exact ⟨some c, by simp [hcc], .value ⟨d, hm, hs,
            asInC_of_byValue (byValue_of_direct h hC ho (by rintro rfl; exact hb trivial) hi hc hbox huniq)⟩⟩
        · exact ⟨none, rfl, .void⟩
      cases ty with
      | rustBox t =>
        simp only [writeType, Option.map_eq_some_iff] at hcc
        obtain ⟨c', hc', rfl⟩ := hcc
        refine ⟨some (.star true c'), by simp [externReturnC, hc'], .value ?_⟩
        rw [hC.types] at hc'
        simp only [externTy]
        exact owned_same h hw (occurs_part ho (.rustBox t)) (inner_not_bare h ho (.rustBox t) hb) hc' proper
      | uniquePtr t =>
        simp only [writeType, Option.map_eq_some_iff] at hcc
        obtain ⟨c', hc', rfl⟩ := hcc
        refine ⟨some (.star true c'), by simp [externReturnC, hc'], .value ?_⟩
        rw [hC.types] at hc'
        simp only [externTy]
        exact owned_same h hw (occurs_part ho (.uniquePtr t)) (inner_not_bare h ho (.uniquePtr t) hb) hc' proper
      | ref p l m t =>
        simp only [writeType, Option.map_eq_some_iff] at hcc
        obtain ⟨c', hc', rfl⟩ := hcc
        refine ⟨some (.star m c'), by simp [externReturnC, hc'], .value ?_⟩
        rw [hC.types] at hc'
        exact borrowed_same h hw ho hc' proper
      | str => exact ⟨some .fat, rfl, .value ⟨_, meaning_private _, .fat .rustStr .fat, .fat .fat⟩⟩
      | sliceRef => exact ⟨some .fat, rfl, .value ⟨_, meaning_private _, .fat .rustSlice .fat, .fat .fat⟩⟩
      | _ => exact hdef rfl nofun nofun
  · exact ⟨some .ptrLen, rfl, .value ⟨_, meaning_private _, .result, .result⟩⟩

theorem star_fits {r : RTy} {c : CTok} (h : ∃ d, meaning false r = some d ∧ Same apis d (denote c)) :
    Fits apis (.ptr true r) (.star true c) := by
  obtain ⟨d, hm, hs⟩ := h
  exact ⟨_, by rw [meaning_ptr, hm]; rfl, .address hs (.ptr _ _) (.ptr _ _), .ptr _⟩

theorem fits_same {r : RTy} {c : CTok} (h : Fits apis r c) : ∃ d, meaning false r = some d ∧ Same apis d (denote c) :=
  h.imp fun _ hd => ⟨hd.1, hd.2.1⟩

theorem cxxOut_same (h : Accepted g apis) (hw : StrWritten apis) (hC : CtxFor apis cxC) {ty : Ty}
    (ho : Occurs apis ty) (hb : ¬ Bare ty) :
    ∃ c, indirectReturnType cxC ty = some c ∧ Fits apis (.ptr true (externTy cxR true ty)) (.star true c) := by
  obtain ⟨c, hc, h1, h2⟩ := write_same (cx := cxR) h hw ty ho hb
  have hcc : writeType cxC.types ty = some c := by rw [hC.types]; exact hc
  cases ty with
  | rustBox t =>
    simp only [writeType, Option.map_eq_some_iff] at hcc
    obtain ⟨c', hc', rfl⟩ := hcc
    refine ⟨.star true c', by simp [indirectReturnType, hc'], star_fits (fits_same ?_)⟩
    rw [hC.types] at hc'
    simp only [externTy]
    exact owned_same h hw (occurs_part ho (.rustBox t)) (inner_not_bare h ho (.rustBox t) hb) hc' true
  | uniquePtr t =>
    simp only [writeType, Option.map_eq_some_iff] at hcc
    obtain ⟨c', hc', rfl⟩ := hcc
    refine ⟨.star true c', by simp [indirectReturnType, hc'], star_fits (fits_same ?_)⟩
    rw [hC.types] at hc'
    simp only [externTy]
    exact owned_same h hw (occurs_part ho (.uniquePtr t)) (inner_not_bare h ho (.uniquePtr t) hb) hc' true
  | ref p l m t =>
    simp only [writeType, Option.map_eq_some_iff] at hcc
    obtain ⟨c', hc', rfl⟩ := hcc
    refine ⟨.star m c', by simp [indirectReturnType, hc'], star_fits (fits_same ?_)⟩
    rw [hC.types] at hc'
    exact borrowed_same h hw ho hc' true
  | _ => exact ⟨c, hcc, star_fits (h2 true)⟩

theorem rustOut_same (h : Accepted g apis) (hw : StrWritten apis) (hC : CtxFor apis cxC) {ty : Ty}
    (ho : Occurs apis ty) (hb : ¬ Bare ty) :
    ∃ c, rustReturnPointee cxC ty = some c ∧ Fits apis (.ptr true (externTy cxR false ty)) (.star true c) := by
  obtain ⟨c, hc, h1, h2⟩ := write_same (cx := cxR) h hw ty ho hb
  have hcc : writeType cxC.types ty = some c := by rw [hC.types]; exact hc
  cases ty with
  | ref p l m t =>
    simp only [writeType, Option.map_eq_some_iff] at hcc
    obtain ⟨c', hc', rfl⟩ := hcc
    refine ⟨.star m c', by simp [rustReturnPointee, hc'], star_fits (fits_same ?_)⟩
    rw [hC.types] at hc'
    exact borrowed_same h hw ho hc' false
  | _ => exact ⟨c, hcc, star_fits (h2 false)⟩

theorem receivers_same (h : Accepted g apis) (hC : CtxFor apis cxC) {f : ExternFn} (hf : HasFn apis f) :
    ∃ cs, f.sig.receiver.toList.mapM (receiverC cxC) = some cs ∧ AllFit apis (f.sig.receiver.toList.map receiverTy) cs := by
  apply mapM_fits
  intro r hr
  have hr : f.sig.receiver = some r := by simpa using hr
  have hres := (names_resolve h).2.1 f hf r hr
  cases hm : mapGet (collect apis).resolutions r.ty.rust with
  | none => exact absurd hm hres.2
  | some q =>
    have hp : Mangle.resolve (collect apis) r.ty.rust = some q.1 := by simp [Mangle.resolve, hm]
    refine ⟨.lref r.mutable (.named q.1), by simp [receiverC, hC.types, hp], ?_⟩
    obtain ⟨d, hd, hpt⟩ := meaning_pinned r.pinned r.lifetime r.mutable (meaning_path false [] r.ty.rust r.ty.generics)
    exact ⟨d, hd, .address (.named _ _ _ (names_of_resolve hp)) hpt (.ref _ _), .ref _⟩

/-! ### From the lists to the declarations -/

theorem all_of_fit {rs : List RTy} {cs : List CTok} (h : AllFit apis rs cs) :
    ∃ ds, all (rs.map (meaning false)) = some ds ∧ ds.length = cs.length ∧ rs.length = cs.length ∧
      ∀ (i : Nat) d c, ds[i]? = some d → cs[i]? = some c → Same apis d (denote c) ∧ AsInC apis (denote c) := by
  induction h with
  | nil => exact ⟨[], rfl, rfl, rfl, by simp⟩
  | cons h _ ih =>
    obtain ⟨d, hm, hs⟩ := h
    obtain ⟨ds, h1, h2, h3, h4⟩ := ih
    refine ⟨d :: ds, by simp [hm, all, h1], by simp [h2], by simp [h3], ?_⟩
    intro i d' c' hd' hc'
    cases i with
    | zero => cases hd'; cases hc'; exact hs
    | succ i => exact h4 i d' c' hd' hc'

/-- A function of Rust without a receiver, and the C++ declaration as it is read. -/
theorem same_function {f : RFn} (hrec : f.receiver = none) {c : CDecl} {r : FnDecl} {sym : List Char}
    (hp : AllFit apis (f.inputs.map (·.2)) c.params) (hr : RetFits apis f.output c.ret)
    (hsym : c.symbol = some sym) (hname : ∃ s, c.symbol = some s ∧ r.name = [s]) (hret : r.ret = denoteRet c.ret)
    (hps : r.params.map (·.1) = c.params.map denote) :
    ∃ d, reads (meaningRet false) [] none f = some d ∧ SameFunction apis sym d r := by
  obtain ⟨ds, h1, h2, h3, h4⟩ := all_of_fit hp
  obtain ⟨s, hs, hname⟩ := hname
  rw [hsym] at hs; cases hs
  have hlen : r.params.length = c.params.length := by simpa using congrArg List.length hps
  simp only [List.map_map, Function.comp_def, List.length_map] at h1 h3
  have hzip : ((f.inputs.map (·.1)).zip ds).length = r.params.length := by
    simp only [List.length_zip, List.length_map]; omega
  have hpar : ∀ (i : Nat) p q, ((f.inputs.map (·.1)).zip ds)[i]? = some p → r.params[i]? = some q →
      Same apis p.2 q.1 ∧ AsInC apis q.1 := by
    intro i p q hp hq
    have hd : ds[i]? = some p.2 := by
      rw [List.getElem?_zip_eq_some] at hp; exact hp.2
    have hc : (c.params.map denote)[i]? = some q.1 := by rw [← hps, List.getElem?_map, hq]; rfl
    rw [List.getElem?_map] at hc
    obtain ⟨x, hx, he⟩ := Option.map_eq_some_iff.1 hc
    have := h4 i _ _ hd hx
    rwa [he] at this
  have hout : ∃ dr, meaningRet false f.output = some dr ∧
      ((dr = .unit ∧ r.ret = .prim "void".toList) ∨ (Same apis dr r.ret ∧ AsInC apis r.ret)) := by
    rw [hret]
    generalize f.output = o at hr
    generalize c.ret = co at hr
    cases hr with
    | void => exact ⟨.unit, by simp only [meaningRet], .inl ⟨rfl, rfl⟩⟩
    | value h =>
      obtain ⟨d, hm, hs⟩ := h
      exact ⟨d, by simp only [meaningRet, hm], .inr hs⟩
  obtain ⟨dr, ho1, ho2⟩ := hout
  exact ⟨_, by simp only [reads, hrec, h1, ho1]; rfl, hname, hzip, hpar, ho2⟩

theorem outArg_types (cx : Ctx) (proper : Bool) (ret : Option Ty) (throws : Bool) :
    (outArg cx proper ret throws).map (·.2) = match ret with
      | some ty => if indirectReturnR cx ret throws then [.ptr true (externTy cx proper ty)] else []
      | none => [] := by
  unfold outArg
  cases ret with
  | none => rfl
  | some t => dsimp only; split <;> rfl

theorem outs_same {F : Ty → Option CTok} (h : Accepted g apis) (hR : CtxFor apis cxR) (hC : CtxFor apis cxC) (proper : Bool)
    {ret : Option Ty} (ho : ∀ t, ret = some t → Occurs apis t) (throws : Bool)
    (hF : ∀ t, ret = some t → ∃ c, F t = some c ∧ Fits apis (.ptr true (externTy cxR proper t)) (.star true c)) :
    ∃ os, (match ret with
        | some ty => if indirectReturnC cxC ret throws then (F ty).map (fun c => [CTok.star true c]) else some []
        | none => some []) = some os ∧
      AllFit apis ((outArg cxR proper ret throws).map (·.2)) os := by
  rw [outArg_types]
  cases ret with
  | none => exact ⟨[], rfl, .nil⟩
  | some ty =>
    have hi : indirectReturnR cxR (some ty) throws = indirectReturnC cxC (some ty) throws := by
      simp only [indirectReturnC, indirectReturnR, indirect_same h.1 hR hC (ho ty rfl)]
    obtain ⟨c, hc, hag⟩ := hF ty rfl
    simp only [hi, hc]
    cases indirectReturnC cxC (some ty) throws
    · exact ⟨[], rfl, .nil⟩
    · exact ⟨[.star true c], rfl, .cons hag .nil⟩

end Verif.Prototype
