import Verif.Prototype.Spec
import Verif.CxxText.Claims
/-!
# The types of parameters and results agree
-/
namespace Verif.Prototype
open Verif.Syntax Verif.Types Verif.Check Verif.Parse Verif.Abi Verif.RustSig Verif.CxxText

variable {g : Generator} {apis : List Api} {cxR cxC : Ctx}

/-! ### What the printed types mean -/

theorem meaning_apply (b : List Ident) (n : Ident) (t : RTy) :
    meaning false (cxxPath b n (.angle [.type t])) = (meaning false t).map (.apply ("cxx" :: b ++ [n])) := by
  simp [cxxPath, meaning, pathMeans]

theorem meaning_private (n : Ident) : meaning false (privateTy n .none) = some (.named ["cxx", "private", n] []) := by
  simp [privateTy, cxxPath, meaning, pathMeans]

theorem meaning_ref (l : Option Ident) (m : Bool) (t : RTy) :
    meaning false (.reference l m t) = (meaning false t).map (.reference l m) := by
  simp [meaning]

theorem meaning_ptr (m : Bool) (t : RTy) : meaning false (.ptr m t) = (meaning false t).map (.ptr m) := by
  simp [meaning]

theorem meaning_void (m : Bool) :
    meaning false (.ptr m cVoid) = some (.ptr m (.named ["cxx", "core", "ffi", "c_void"] [])) := by
  simp [cVoid, cxxPath, meaning, pathMeans]

theorem lifetimesOf_map (ls : List Ident) : lifetimesOf (τ := RTy) (ls.map .lifetime) = some ls := by
  induction ls with
  | nil => rfl
  | cons l ls ih => simp [lifetimesOf, ih]

theorem meaning_path (c : Bool) (b : List Ident) (n : Ident) (ls : List Ident) :
    meaning false (.path false c b n (lifetimeArgs ls)) = some (.named (b ++ [n]) ls) := by
  cases ls with
  | nil => simp [lifetimeArgs, meaning, pathMeans]
  | cons l ls =>
    simp only [lifetimeArgs]
    have := lifetimesOf_map (l :: ls)
    simp only [List.map_cons] at this ⊢
    simp [meaning, pathMeans, this]

/-- The type of a name is the builtin type, or the type of the bridge. -/
theorem meaning_named (n : NamedType) : ∃ p, meaning false (printNamed n) = some (.named p n.generics) ∧
    (∀ a, Atom.fromStr n.rust = some a → p = atomPath a) ∧ (Atom.fromStr n.rust = none → p = [n.rust]) := by
  unfold printNamed
  by_cases h1 : n.rust = "c_char"
  · refine ⟨_, by rw [if_pos h1]; exact meaning_path _ _ _ _, ?_, ?_⟩
    · intro a ha
      rw [h1] at ha ⊢
      have : Atom.fromStr "c_char" = some .char := by decide
      rw [this] at ha; cases ha; rfl
    · intro ha; rw [h1] at ha; exact absurd ha (by decide)
  · rw [if_neg h1]
    by_cases h2 : n.rust = "CxxString"
    · refine ⟨_, by rw [if_pos h2]; exact meaning_path _ _ _ _, ?_, ?_⟩
      · intro a ha
        rw [h2] at ha ⊢
        have : Atom.fromStr "CxxString" = some .cxxString := by decide
        rw [this] at ha; cases ha; rfl
      · intro ha; rw [h2] at ha; exact absurd ha (by decide)
    · rw [if_neg h2]
      by_cases h3 : n.rust = "String"
      · refine ⟨_, by rw [if_pos h3]; exact meaning_path _ _ _ _, ?_, ?_⟩
        · intro a ha
          rw [h3] at ha ⊢
          have : Atom.fromStr "String" = some .rustString := by decide
          rw [this] at ha; cases ha; rfl
        · intro ha; rw [h3] at ha; exact absurd ha (by decide)
      · rw [if_neg h3]
        refine ⟨_, meaning_path _ _ _ _, ?_, fun _ => rfl⟩
        intro a ha
        have ha := (Atom.fromStr_eq_some_iff _ _).1 ha
        cases a
        case char => exact absurd ha h1
        case cxxString => exact absurd ha h2
        case rustString => exact absurd ha h3
        all_goals rw [ha]; rfl

theorem meaning_pinned (p : Bool) (l : Option Ident) (m : Bool) {t : RTy} {d : Den} (h : meaning false t = some d) :
    ∃ d', meaning false (if p then cxxPath ["core", "pin"] "Pin" (.angle [.type (.reference l m t)]) else .reference l m t) =
      some d' ∧ Points m d d' := by
  cases p
  · exact ⟨_, by simp only [Bool.false_eq_true, if_false, meaning_ref, h]; rfl, .reference l m d⟩
  · exact ⟨_, by simp only [if_true, meaning_apply, meaning_ref, h]; rfl, .pin l m d⟩

/-! ### Types that occur -/

/-- Every type that occurs is printed as the same type in C++, as it is written and as `expand_extern_type` rewrites it. -/
theorem write_same (h : Accepted g apis) (hw : StrWritten apis) {cx : Ctx} (ty : Ty) (ho : Occurs apis ty) (hb : ¬ Bare ty) :
    ∃ c, writeType (collect apis) ty = some c ∧ (∃ d, meaning false (printType ty) = some d ∧ Same apis d (denote c)) ∧
      ∀ proper, ∃ d, meaning false (externTy cx proper ty) = some d ∧ Same apis d (denote c) := by
  induction ty using Ty.induct with
  | ident t =>
    obtain ⟨p, hp, h1, h2⟩ := meaning_named t
    cases ha : Atom.fromStr t.rust with
    | some a =>
      have hs : Same apis (.named p t.generics) (denote (.atom a)) := by rw [h1 a ha]; exact .atom a _
      refine ⟨.atom a, by simp [writeType, ha], ⟨_, by rw [printType]; exact hp, hs⟩, ?_⟩
      intro proper
      simp only [externTy]
      split
      · next hstr =>
        refine ⟨_, meaning_private _, ?_⟩
        have : a = .rustString := by
          rw [hstr] at ha
          have : Atom.fromStr "String" = some .rustString := by decide
          rw [this] at ha; injection ha with ha; exact ha.symm
        rw [this]; exact .string
      · exact ⟨_, by rw [printType]; exact hp, hs⟩
    | none =>
      obtain ⟨q, hq⟩ := resolve_some h ho ha
      have hs : Same apis (.named p t.generics) (denote (.named q)) := by
        rw [h2 ha]; exact .named _ _ _ (names_of_resolve hq)
      refine ⟨.named q, by simp [writeType, ha, hq], ⟨_, by rw [printType]; exact hp, hs⟩, ?_⟩
      intro proper
      have : t.rust ≠ "String" := by rintro hs; rw [hs] at ha; exact absurd ha (by decide)
      simp only [externTy, if_neg this]
      exact ⟨_, by rw [printType]; exact hp, hs⟩
  | rustBox t ih =>
    obtain ⟨c, hc, ⟨d1, m1, s1⟩, h2⟩ := ih (occurs_part ho (.rustBox t)) (inner_not_bare h ho (.rustBox t) hb)
    refine ⟨.box c, by simp [writeType, hc], ⟨_, by rw [printType, meaning_apply, m1]; rfl, .address s1 (.box _) (.box _)⟩,
      fun proper => ?_⟩
    simp only [externTy]
    split
    · exact ⟨_, meaning_void _, .erased (.box _)⟩
    · obtain ⟨d2, m2, s2⟩ := h2 proper
      exact ⟨_, by rw [meaning_ptr, m2]; rfl, .address s2 (.ptr _ _) (.box _)⟩
  | uniquePtr t ih =>
    obtain ⟨c, hc, ⟨d1, m1, s1⟩, h2⟩ := ih (occurs_part ho (.uniquePtr t)) (inner_not_bare h ho (.uniquePtr t) hb)
    refine ⟨.uniquePtr c, by simp [writeType, hc],
      ⟨_, by rw [printType, meaning_apply, m1]; rfl, .address s1 (.uniquePtr _) (.uniquePtr _)⟩, fun proper => ?_⟩
    simp only [externTy]
    split
    · exact ⟨_, meaning_void _, .erased (.uniquePtr _)⟩
    · obtain ⟨d2, m2, s2⟩ := h2 proper
      exact ⟨_, by rw [meaning_ptr, m2]; rfl, .address s2 (.ptr _ _) (.uniquePtr _)⟩
  | rustVec t ih =>
    obtain ⟨c, hc, ⟨d1, m1, s1⟩, h2⟩ := ih (occurs_part ho (.rustVec t)) (inner_not_bare h ho (.rustVec t) hb)
    refine ⟨.vec c, by simp [writeType, hc], ⟨_, by rw [printType, meaning_apply, m1]; rfl, .template .vec s1⟩,
      fun proper => ?_⟩
    obtain ⟨d2, m2, s2⟩ := h2 proper
    exact ⟨_, by simp only [externTy, privateTy, meaning_apply, m2]; rfl, .template .rustVec s2⟩
  | sharedPtr t ih =>
    obtain ⟨c, hc, ⟨d1, m1, s1⟩, h2⟩ := ih (occurs_part ho (.sharedPtr t)) (inner_not_bare h ho (.sharedPtr t) hb)
    have hm : meaning false (printType (.sharedPtr t)) = some (.apply ["cxx", "SharedPtr"] d1) := by
      rw [printType, meaning_apply, m1]; rfl
    exact ⟨.sharedPtr c, by simp [writeType, hc], ⟨_, hm, .template .sharedPtr s1⟩, fun _ => ⟨_, hm, .template .sharedPtr s1⟩⟩
  | weakPtr t ih =>
    obtain ⟨c, hc, ⟨d1, m1, s1⟩, h2⟩ := ih (occurs_part ho (.weakPtr t)) (inner_not_bare h ho (.weakPtr t) hb)
    have hm : meaning false (printType (.weakPtr t)) = some (.apply ["cxx", "WeakPtr"] d1) := by
      rw [printType, meaning_apply, m1]; rfl
    exact ⟨.weakPtr c, by simp [writeType, hc], ⟨_, hm, .template .weakPtr s1⟩, fun _ => ⟨_, hm, .template .weakPtr s1⟩⟩
  | cxxVector t ih =>
    obtain ⟨c, hc, ⟨d1, m1, s1⟩, h2⟩ := ih (occurs_part ho (.cxxVector t)) (inner_not_bare h ho (.cxxVector t) hb)
    have hm : meaning false (printType (.cxxVector t)) = some (.apply ["cxx", "CxxVector"] d1) := by
      rw [printType, meaning_apply, m1]; rfl
    exact ⟨.vector c, by simp [writeType, hc], ⟨_, hm, .template .cxxVector s1⟩, fun _ => ⟨_, hm, .template .cxxVector s1⟩⟩
  | ref p l m t ih =>
    obtain ⟨c, hc, ⟨d1, m1, s1⟩, h2⟩ := ih (occurs_part ho (.ref p l m t)) (inner_not_bare h ho (.ref p l m t) hb)
    have hsrc : ∃ d, meaning false (printType (.ref p l m t)) = some d ∧ Same apis d (denote (.lref m c)) := by
      obtain ⟨d', hd', hpt⟩ := meaning_pinned p l m m1
      exact ⟨d', by rw [printType]; exact hd', .address s1 hpt (.ref _ _)⟩
    refine ⟨.lref m c, by simp [writeType, hc], hsrc, fun proper => ?_⟩
    have hdef : ∀ b : Bool, ∃ d, meaning false (if b then RTy.ptr m cVoid else printType (.ref p l m t)) = some d ∧
        Same apis d (denote (.lref m c)) := by
      intro b; cases b
      · exact hsrc
      · exact ⟨_, meaning_void _, .erased (.ref _ _)⟩
    have hpart : ∀ t', externTy cx proper t = t' → ∃ d, meaning false (.reference l m t') = some d ∧
        Same apis d (denote (.lref m c)) := by
      rintro t' rfl
      obtain ⟨d2, m2, s2⟩ := h2 proper
      exact ⟨_, by rw [meaning_ref, m2]; rfl, .address s2 (.reference _ _ _) (.ref _ _)⟩
    cases t with
    | ident n =>
      simp only [externTy]
      by_cases hs : n.rust = "String"
      · rw [if_pos hs]
        exact hpart _ (by simp only [externTy, if_pos hs])
      · rw [if_neg hs]; exact hdef _
    | rustVec v => exact hpart _ rfl
    | _ => exact hdef _
  | ptr m t ih =>
    obtain ⟨c, hc, ⟨d1, m1, s1⟩, h2⟩ := ih (occurs_part ho (.ptr m t)) (inner_not_bare h ho (.ptr m t) hb)
    have hm : meaning false (printType (.ptr m t)) = some (.ptr m d1) := by rw [printType, meaning_ptr, m1]; rfl
    refine ⟨.star m c, by simp [writeType, hc], ⟨_, hm, .address s1 (.ptr _ _) (.ptr _ _)⟩, fun proper => ?_⟩
    simp only [externTy]
    split
    · exact ⟨_, meaning_void _, .erased (.ptr _ _)⟩
    · exact ⟨_, hm, .address s1 (.ptr _ _) (.ptr _ _)⟩
  | str p l m t _ =>
    obtain ⟨rfl, ls, rfl⟩ := hw p l m t ho
    refine ⟨.str, rfl, ⟨.reference l m (.named ["str"] ls), ?_, .fat (.str ..) .str⟩, fun _ => ⟨_, meaning_private _, .fat .rustStr .str⟩⟩
    have : meaning false (printType (.ident ⟨"str", ls⟩)) = some (.named ["str"] ls) := meaning_path false [] "str" ls
    simp only [printType, Bool.false_eq_true, if_false, meaning_ref] at this ⊢
    rw [this]; rfl
  | fn => exact absurd trivial hb
  | void => exact absurd trivial hb
  | sliceRef l m t ih =>
    obtain ⟨c, hc, ⟨d1, m1, s1⟩, h2⟩ := ih (occurs_part ho (.sliceRef l m t)) (inner_not_bare h ho (.sliceRef l m t) hb)
    refine ⟨.slice m c, by simp [writeType, hc], ⟨.reference l m (.slice d1), ?_, .fat (.slice ..) (.slice _)⟩,
      fun _ => ⟨_, meaning_private _, .fat .rustSlice (.slice _)⟩⟩
    simp only [printType, meaning, m1, Option.map_some]
  | array t n ih =>
    obtain ⟨c, hc, ⟨d1, m1, s1⟩, h2⟩ := ih (occurs_part ho (.array t n)) (inner_not_bare h ho (.array t n) hb)
    have hm : meaning false (printType (.array t n)) = some (.array d1 n) := by simp only [printType, meaning, m1, Option.map_some]
    exact ⟨.array c n, by simp [writeType, hc], ⟨_, hm, .array n s1⟩, fun _ => ⟨_, hm, .array n s1⟩⟩

/-! ### Parameters and results -/

theorem asInC_of_byValue {c : CTok} (h : ByValue apis c) : AsInC apis (denote c) := by
  cases c <;> simp only [ByValue] at h
  case atom a => exact .atom a h
  case named p => exact .named p h
  case lref => exact .ref _
  case star => exact .ptr _
  case str => exact .fat .str
  case slice => exact .fat (.slice _)
  case fn => exact .closure _ _
  case fat => exact .fat .fat
  case ptrLen => exact .result
  case voidPtr => exact .ptr _

/-- A Rust type and a C++ type of a parameter. -/
def Fits (apis : List Api) (r : RTy) (c : CTok) : Prop :=
  ∃ d, meaning false r = some d ∧ Same apis d (denote c) ∧ AsInC apis (denote c)

theorem externArg_same (h : Accepted g apis) (hw : StrWritten apis) (hR : CtxFor apis cxR) (hC : CtxFor apis cxC) {ty : Ty}
    (ho : Occurs apis ty) (hodd : ¬ Odd ty) (proper : Bool) :
    ∃ c, externArg cxC ty = some c ∧ Fits apis
      (if cxR.needsIndirect ty then .ptr true (externTy cxR proper ty) else externTy cxR proper ty) c := by
  have hb : ¬ Bare ty := by cases ty <;> simp [Odd, Bare] at hodd ⊢
  obtain ⟨c, hc, h1, h2⟩ := write_same (cx := cxR) h hw ty ho hb
  have hvoid : ty ≠ .void := by rintro rfl; exact hb trivial
  have hbase : ∃ c', externArgBase cxC ty = some c' ∧
      (∃ d, meaning false (externTy cxR proper ty) = some d ∧ Same apis d (denote c')) ∧
      (cxC.needsIndirect ty = false → AsInC apis (denote c')) := by
    have hcc : writeType cxC.types ty = some c := by rw [hC.types]; exact hc
    have hown : ∀ t x, Occurs apis t → ¬ Bare t → writeType cxC.types t = some x →
        ∃ d, meaning false (if proper && cxR.isImproper t then RTy.ptr true cVoid else .ptr true (externTy cxR proper t)) = some d ∧
          Same apis d (denote (.star true x)) := by
      intro t x hot hbt hx
      split
      · exact ⟨_, meaning_void _, .erased (.ptr _ _)⟩
      · obtain ⟨c2, hc2, _, h4⟩ := write_same (cx := cxR) h hw t hot hbt
        rw [hC.types, hc2] at hx
        cases hx
        obtain ⟨d2, m2, s2⟩ := h4 proper
        exact ⟨_, by rw [meaning_ptr, m2]; rfl, .address s2 (.ptr _ _) (.ptr _ _)⟩
    cases ty with
    | rustBox t =>
      simp only [writeType, Option.map_eq_some_iff] at hcc
      obtain ⟨c', hc', rfl⟩ := hcc
      refine ⟨.star true c', by simp [externArgBase, hc'], ?_, fun _ => .ptr _⟩
      simp only [externTy]
      exact hown t c' (occurs_part ho (.rustBox t)) (inner_not_bare h ho (.rustBox t) hb) hc'
    | uniquePtr t =>
      simp only [writeType, Option.map_eq_some_iff] at hcc
      obtain ⟨c', hc', rfl⟩ := hcc
      refine ⟨.star true c', by simp [externArgBase, hc'], ?_, fun _ => .ptr _⟩
      simp only [externTy]
      exact hown t c' (occurs_part ho (.uniquePtr t)) (inner_not_bare h ho (.uniquePtr t) hb) hc'
    | cxxVector t => exact absurd trivial hodd
    | _ =>
      exact ⟨c, hcc, h2 proper, fun hi => asInC_of_byValue (byValue_of_direct h hC ho hvoid hi hc nofun nofun)⟩
  obtain ⟨c', hc', ⟨d, hm, hs⟩, hval⟩ := hbase
  unfold externArg
  rw [← indirect_same h.1 hR hC ho] at hval ⊢
  cases hi : cxR.needsIndirect ty
  · exact ⟨c', by simpa using hc', d, by simpa using hm, hs, hval hi⟩
  · exact ⟨.star true c', by simp [hc'], _, by simp only [if_true, meaning_ptr, hm]; rfl, .address hs (.ptr _ _) (.ptr _ _), .ptr _⟩

end Verif.Prototype
