import Verif.Preamble.UseCheck
import Verif.Preamble.BuiltinProps
import Verif.Check.Resolve
import Verif.Toposort.Model
import Verif.Abi.Props
/-!
# What generated code refers to is there
-/
namespace Verif.Preamble
open Verif.Syntax Verif.Types Verif.Check

/-! ### What has to be asked for -/

/-- What a run of format strings relies on, and what a request relies on. -/
def needs : Act → List Act
  | .text f => match f with
    | .atom a => match a with
      | .bool | .char | .f32 | .f64 => []
      | .usize => [.inc .cstddef]
      | .isize => [.ask .rustIsize]
      | .cxxString => [.inc .string]
      | .rustString => [.ask .rustString]
      | _ => [.inc .cstdint]
    | .box | .boxExtern | .boxImpl => [.ask .rustBox]
    | .vec => [.ask .rustVec]
    | .vecExtern | .vecImpl => [.ask .rustVec, .inc .cstddef]
    | .uniquePtr | .sharedPtr | .weakPtr => [.inc .memory]
    | .vector => [.inc .vector]
    | .str => [.ask .rustStr]
    | .slice => [.ask .rustSlice]
    | .fn => [.ask .rustFn]
    | .array => [.inc .array]
    | .structEnd | .enumCheck => [.inc .typeTraits]
    | .opaqueHead => [.ask .rustOpaque]
    | .opaqueLayout => [.ask .layout, .inc .cstddef]
    | .relocatable => [.ask .relocatable]
    | .relocatableOrArray => [.ask .relocatableOrArray]
    | .hashDecl | .layoutDecls | .layoutDefs => [.inc .cstddef]
    | .hashSpec => [.inc .cstddef, .inc .functional]
    | .ptrLen | .errorDecl => [.ask .ptrLen]
    | .fat => [.ask .reprFat]
    | .shimTry => [.ask .ptrLen, .ask .trycatch]
    | .placement => [.inc .new]
    | .implStrRepr => [.ask .rustStr, .ask .rustStrRepr]
    | .impl => [.ask .rustSlice]
    | .implRepr => [.ask .rustSliceRepr]
    | .bitcopyString => [.ask .rustString, .ask .unsafeBitcopy]
    | .bitcopyVec => [.ask .unsafeBitcopy]
    | .moveArg | .manuallyDropEnd | .moveReturn => [.inc .utility]
    | .shimFail => [.ask .trycatch]
    | .manuallyDrop => [.ask .manuallyDrop]
    | .maybeUninit => [.ask .maybeUninit]
    | .implStrNew => [.ask .rustStr, .ask .rustStrNewUnchecked]
    | .implSliceNew => [.ask .rustSliceNew]
    | .errorThrow => [.ask .rustError]
    | .completeAssert => [.ask .isComplete]
    | .uniquePtrHead | .uniquePtrRest | .sharedPtrHead | .sharedPtrRest | .weakPtrAll => [.inc .memory, .inc .new]
    | .uniquePtrUninit | .sharedPtrUninit => [.inc .memory, .inc .new, .ask .maybeUninit]
    | .uniquePtrDeleter => [.ask .isComplete, .ask .deleterIf]
    | .vectorHead => [.inc .vector, .inc .cstddef]
    | .vectorValue => [.inc .vector, .inc .utility, .inc .new, .ask .destroy]
  | .ask .rustStrNewUnchecked | .ask .rustStrRepr => [.ask .rustStr, .ask .reprFat]
  | .ask .rustSliceNew | .ask .rustSliceRepr => [.ask .rustSlice, .ask .reprFat]
  | .ask .rustError => [.ask .ptrLen]
  | _ => []

/-- Everything these rely on is among them or else satisfies `B`. -/
def Ok (B : Act → Prop) (L : List Act) : Prop := ∀ a ∈ L, ∀ n ∈ needs a, n ∈ L ∨ B n

theorem ok_nil {B : Act → Prop} : Ok B [] := nofun

theorem ok_append {B : Act → Prop} {L M : List Act} (hl : Ok B L) (hm : Ok B M) : Ok B (L ++ M) := by
  intro a ha n hn
  rcases List.mem_append.1 ha with h | h
  · exact (hl a h n hn).imp (List.mem_append_left _) id
  · exact (hm a h n hn).imp (List.mem_append_right _) id

theorem ok_flatMap {α : Type} {B : Act → Prop} {l : List α} {f : α → List Act} (h : ∀ x ∈ l, Ok B (f x)) :
    Ok B (l.flatMap f) := by
  induction l with
  | nil => exact ok_nil
  | cons x l ih =>
    rw [List.flatMap_cons]
    exact ok_append (h x (List.mem_cons_self ..)) (ih fun y hy => h y (List.mem_cons_of_mem _ hy))

theorem ok_if {B : Act → Prop} {c : Prop} [Decidable c] {L M : List Act} (hl : c → Ok B L) (hm : ¬ c → Ok B M) :
    Ok B (if c then L else M) := by
  by_cases h : c
  · rw [if_pos h]; exact hl h
  · rw [if_neg h]; exact hm h

theorem ok_cons {B : Act → Prop} {a : Act} {L : List Act} (ha : ∀ n ∈ needs a, n ∈ a :: L ∨ B n) (hl : Ok B L) :
    Ok B (a :: L) := by
  intro x hx n hn
  rcases List.mem_cons.1 hx with rfl | h
  · exact ha n hn
  · exact (hl x h n hn).imp (List.mem_cons_of_mem _) id

/-- Something between two parts of which the second relies on the first. -/
theorem ok_around {B : Act → Prop} {pre mid post : List Act} (h1 : ∀ a ∈ pre, ∀ n ∈ needs a, n ∈ pre ∨ B n)
    (h2 : Ok B mid) (h3 : ∀ a ∈ post, ∀ n ∈ needs a, n ∈ pre ∨ B n) : Ok B (pre ++ mid ++ post) := by
  intro a ha n hn
  rcases List.mem_append.1 ha with h | h
  · exact (ok_append h1 h2 a h n hn).imp (List.mem_append_left _) id
  · exact (h3 a h n hn).imp (fun h => List.mem_append_left _ (List.mem_append_left _ h)) id

/-- What is asked for because of the types satisfies `B`. -/
def Picked (B : Act → Prop) (t : Ty) : Prop := ∀ x, Within x t → ∀ a ∈ pick x, B a

theorem picked_part {B : Act → Prop} {t u : Ty} (h : Picked B t) (hp : Part u t) : Picked B u :=
  fun x hx => h x (.part hp hx)

theorem picked_self {B : Act → Prop} {t : Ty} (h : Picked B t) : ∀ a ∈ pick t, B a := h t (.self t)

theorem typeText_ok {B : Act → Prop} (t : Ty) : Picked B t → Ok B (typeText t) := by
  have one : ∀ {f : Frag} {t u : Ty} {L : List Act}, Picked B t → Part u t → (Picked B u → Ok B L) →
      (∀ n ∈ needs (.text f), n ∈ pick t) → Ok B (.text f :: L) := by
    intro f t u L h hp hl hn
    exact ok_cons (fun n h' => .inr (picked_self h n (hn n h'))) (hl (picked_part h hp))
  induction t using Ty.induct with
  | ident n =>
    intro h
    unfold typeText
    have hs := picked_self h
    cases ha : Atom.fromStr n.rust with
    | none => exact ok_nil
    | some a =>
      simp only [pick, ha] at hs
      refine ok_cons ?_ ok_nil
      intro m hm
      right
      cases a <;> simp only [needs, List.mem_singleton, List.not_mem_nil] at hm <;> subst hm <;> exact hs _ (by simp)
  | rustBox t ih => intro h; unfold typeText; exact one h (.rustBox _) ih (by simp [needs, pick])
  | rustVec t ih => intro h; unfold typeText; exact one h (.rustVec _) ih (by simp [needs, pick])
  | uniquePtr t ih => intro h; unfold typeText; exact one h (.uniquePtr _) ih (by simp [needs, pick])
  | sharedPtr t ih => intro h; unfold typeText; exact one h (.sharedPtr _) ih (by simp [needs, pick])
  | weakPtr t ih => intro h; unfold typeText; exact one h (.weakPtr _) ih (by simp [needs, pick])
  | cxxVector t ih => intro h; unfold typeText; exact one h (.cxxVector _) ih (by simp [needs, pick])
  | sliceRef l m t ih => intro h; unfold typeText; exact one h (.sliceRef _ _ _) ih (by simp [needs, pick])
  | array t n ih => intro h; unfold typeText; exact one h (.array _ _) ih (by simp [needs, pick])
  | ref p l m t ih => intro h; unfold typeText; exact ih (picked_part h (.ref _ _ _ _))
  | ptr m t ih => intro h; unfold typeText; exact ih (picked_part h (.ptr _ _))
  | str p l m t ih =>
    intro h
    unfold typeText
    exact ok_cons (fun n h' => .inr (picked_self h n (by simpa [needs, pick] using h'))) ok_nil
  | void => intro h; unfold typeText; exact ok_nil
  | fn u as r th iha ihr =>
    intro h
    unfold typeText
    refine ok_cons (fun n h' => .inr (picked_self h n (by simpa [needs, pick] using h'))) (ok_append ?_ ?_)
    · cases r with
      | none => unfold optText; exact ok_nil
      | some t => unfold optText; exact ihr t rfl (picked_part h (.fnRet ..))
    · have : ∀ l : List Ty, (∀ a ∈ l, Ok B (typeText a)) → Ok B (typesText l) := by
        intro l
        induction l with
        | nil => intro _; unfold typesText; exact ok_nil
        | cons x l ih =>
          intro hl
          unfold typesText
          exact ok_append (hl x (List.mem_cons_self ..)) (ih fun a ha => hl a (List.mem_cons_of_mem _ ha))
      exact this as fun a ha => iha a ha (picked_part h (.fnArg _ _ _ _ ha))

theorem optText_ok {B : Act → Prop} {r : Option Ty} (h : ∀ t, r = some t → Picked B t) : Ok B (optText r) := by
  cases r with
  | none => unfold optText; exact ok_nil
  | some t => unfold optText; exact typeText_ok t (h t rfl)

theorem indirectReturn_ok {B : Act → Prop} {t : Ty} (h : Picked B t) : Ok B (indirectReturnText t) := by
  cases t with
  | rustBox t => exact typeText_ok _ (picked_part h (.rustBox _))
  | uniquePtr t => exact typeText_ok _ (picked_part h (.uniquePtr _))
  | ref p l m t => exact typeText_ok _ (picked_part h (.ref _ _ _ _))
  | _ => exact typeText_ok _ h

theorem externReturn_ok {B : Act → Prop} {o : Out} {r : Option Ty} (h : ∀ t, r = some t → Picked B t) :
    Ok B (externReturnText o r) := by
  cases r with
  | none => exact ok_nil
  | some t =>
    have h := h t rfl
    have gen : Ok B (if o.cx.needsIndirect t then [] else typeText t) := ok_if (fun _ => ok_nil) fun _ => typeText_ok _ h
    cases t with
    | rustBox t => exact typeText_ok _ (picked_part h (.rustBox _))
    | uniquePtr t => exact typeText_ok _ (picked_part h (.uniquePtr _))
    | ref p l m t => exact typeText_ok _ (picked_part h (.ref _ _ _ _))
    | str p l m t => intro a ha n hn; simp [externReturnText] at ha ⊢; rcases ha with rfl | rfl <;> simp_all [needs]
    | sliceRef l m t => intro a ha n hn; simp [externReturnText] at ha ⊢; rcases ha with rfl | rfl <;> simp_all [needs]
    | _ => exact gen

theorem externArg_ok {B : Act → Prop} {t : Ty} (h : Picked B t) : Ok B (externArgText t) := by
  cases t with
  | rustBox t => exact typeText_ok _ (picked_part h (.rustBox _))
  | uniquePtr t => exact typeText_ok _ (picked_part h (.uniquePtr _))
  | cxxVector t => exact typeText_ok _ (picked_part h (.cxxVector _))
  | _ => exact typeText_ok _ h

/-- Requests for things that rely on nothing, then a text that relies on those. -/
theorem ok_small {B : Act → Prop} {L : List Act} (h : ∀ a ∈ L, ∀ n ∈ needs a, n ∈ L) : Ok B L :=
  fun a ha n hn => .inl (h a ha n hn)

theorem outPtr_ok {B : Act → Prop} {r : Option Ty} (h : ∀ t, r = some t → Picked B t) :
    Ok B (outPtrText r) := by
  cases r with
  | none => exact ok_nil
  | some t =>
    have h := h t rfl
    cases t with
    | ref p l m t => exact typeText_ok _ (picked_part h (.ref _ _ _ _))
    | _ => exact typeText_ok _ h

theorem rustDecl_ok {B : Act → Prop} {o : Out} {args : List Ty} {ret : Option Ty} {throws : Bool}
    (ha : ∀ t ∈ args, Picked B t) (hr : ∀ t, ret = some t → Picked B t) : Ok B (rustDecl o args ret throws) := by
  unfold rustDecl
  refine ok_append (ok_append (ok_if (fun _ => ok_small (by simp [needs])) fun _ => externReturn_ok hr)
    (ok_flatMap fun t ht => externArg_ok (ha t ht))) (ok_if (fun _ => ?_) fun _ => ok_nil)
  exact outPtr_ok hr

theorem shimDecl_ok {B : Act → Prop} {args : List Ty} {ret : Option Ty} (ha : ∀ t ∈ args, Picked B t)
    (hr : ∀ t, ret = some t → Picked B t) : Ok B (shimDecl args ret) :=
  ok_append (optText_ok hr) (ok_flatMap fun t ht => typeText_ok t (ha t ht))

theorem fat_asked {o : Out} {args : List Ty} {t : Ty} (ht : (∃ p l m u, t = .str p l m u) ∨ ∃ l m u, t = .sliceRef l m u) :
    Act.ask .reprFat ∈ rustDecl o args (some t) false := by
  unfold rustDecl
  refine List.mem_append_left _ (List.mem_append_left _ ?_)
  rcases ht with ⟨p, l, m, u, rfl⟩ | ⟨l, m, u, rfl⟩ <;> simp [externReturnText]

theorem indirect_not_throws {o : Out} {t : Ty} {throws : Bool} (h : ¬ indirectReturn o (some t) throws = true) :
    throws = false := by
  cases throws
  · rfl
  · simp [indirectReturn] at h

theorem rustShim_ok {B : Act → Prop} {o : Out} {method : Bool} {args : List Ty} {ret : Option Ty} {throws : Bool}
    (ha : ∀ t ∈ args, Picked B t) (hr : ∀ t, ret = some t → Picked B t)
    (hd : o.header = false → ∀ a ∈ rustDecl o args ret throws, B a) : Ok B (rustShimImpl o method args ret throws) := by
  unfold rustShimImpl
  refine ok_if (fun _ => ok_nil) fun _ => ok_append (shimDecl_ok ha hr) (ok_if (fun _ => ok_nil) fun hh => ?_)
  have hd := hd (by simpa using hh)
  refine ok_append (ok_append (ok_append (ok_append ?_ (ok_if (fun _ => ?_) fun hi => ?_)) ?_) ?_) ?_
  · refine ok_flatMap fun t ht => ?_
    unfold moveIn
    refine ok_if (fun _ => ?_) fun _ => ok_nil
    exact ok_around (by simp [needs]) (typeText_ok t (ha t ht)) (by simp [needs])
  · exact ok_append (ok_small (by simp [needs])) (outPtr_ok hr)
  · cases ret with
    | none => exact ok_nil
    | some t =>
      have hp := hr t rfl
      have hth := indirect_not_throws hi
      subst hth
      cases t with
      | rustBox t => exact typeText_ok _ hp
      | uniquePtr t => exact typeText_ok _ hp
      | str p l m u =>
        have h1 : B (.ask .reprFat) := hd _ (fat_asked (.inl ⟨_, _, _, _, rfl⟩))
        have h2 : B (.ask .rustStr) := picked_self hp _ (by simp [pick])
        intro a hm n hn
        simp at hm ⊢
        rcases hm with rfl | rfl <;> simp [needs] at hn <;> rcases hn with rfl | rfl <;> simp_all
      | sliceRef l m u =>
        have h1 : B (.ask .reprFat) := hd _ (fat_asked (.inr ⟨_, _, _, rfl⟩))
        have h2 : B (.ask .rustSlice) := picked_self hp _ (by simp [pick])
        refine ok_around ?_ (typeText_ok _ hp) ?_
        · intro a hm n hn
          simp at hm ⊢
          rcases hm with rfl | rfl <;> simp [needs] at hn
          · rcases hn with rfl | rfl <;> simp_all
          · subst hn; simp_all
        · simp [needs]
      | _ => exact ok_nil
  · exact ok_if (fun _ => ok_small (by simp [needs])) fun _ => ok_nil
  · refine ok_if (fun ht => ?_) fun _ => ok_nil
    intro a hm n hn
    simp at hm
    have : B (.ask .ptrLen) := hd _ (by unfold rustDecl; simp [ht])
    rcases hm with rfl | rfl <;> simp [needs] at hn <;> subst hn <;> simp_all
  · refine ok_if (fun _ => ?_) fun _ => ok_nil
    cases ret with
    | none => exact ok_small (by simp [needs])
    | some t => cases t <;> first | exact ok_nil | exact ok_small (by simp [needs])

theorem fn_args {B : Act → Prop} {u : Bool} {as : List Ty} {r : Option Ty} {th : Bool} (h : Picked B (.fn u as r th)) :
    (∀ t ∈ as, Picked B t) ∧ ∀ t, r = some t → Picked B t :=
  ⟨fun _ ht => picked_part h (.fnArg _ _ _ _ ht), fun _ ht => by subst ht; exact picked_part h (.fnRet ..)⟩

theorem trampoline_ok {B : Act → Prop} {o : Out} {t : Ty} (h : Picked B t) : Ok B (trampoline o t) := by
  cases t with
  | fn u as r th =>
    obtain ⟨ha, hr⟩ := fn_args h
    intro a hm n hn
    rcases List.mem_append.1 hm with hm | hm
    · exact (rustDecl_ok ha hr a hm n hn).imp (List.mem_append_left _) id
    · rcases rustShim_ok (B := fun a => B a ∨ a ∈ rustDecl o as r th) (fun t ht x hx a ha' => .inl (ha t ht x hx a ha'))
        (fun t ht x hx a ha' => .inl (hr t ht x hx a ha')) (fun _ a ha' => .inr ha') a hm n hn with h | h | h
      · exact .inl (List.mem_append_right _ h)
      · exact .inr h
      · exact .inl (List.mem_append_left _ h)
  | _ => exact ok_nil

theorem rustString_asked {B : Act → Prop} {t : Ty} (h : Picked B t) (hs : Verif.Abi.isRustString t = true) :
    B (.ask .rustString) := by
  cases t with
  | ident n =>
    have hn : n.rust = "String" := by simpa [Verif.Abi.isRustString] using hs
    refine picked_self h _ ?_
    have : Atom.fromStr n.rust = some .rustString := by rw [hn]; decide
    simp [pick, this]
  | _ => simp [Verif.Abi.isRustString] at hs

theorem callArg_ok {B : Act → Prop} {o : Out} {t : Ty} (h : Picked B t) : Ok B (callArg o t) := by
  have gen : Ok B (if Verif.Abi.isRustString t then [.ask .unsafeBitcopy, .text .bitcopyString]
      else if o.cx.needsIndirect t then [.inc .utility, .text .moveArg] else []) := by
    refine ok_if (fun hs => ?_) fun _ => ok_if (fun _ => ok_small (by simp [needs])) fun _ => ok_nil
    have := rustString_asked h hs
    intro a hm n hn
    simp at hm ⊢
    rcases hm with rfl | rfl <;> simp [needs] at hn
    rcases hn with rfl | rfl <;> simp_all
  cases t with
  | rustBox t => exact typeText_ok _ h
  | uniquePtr t => exact typeText_ok _ h
  | rustVec t => exact ok_around (by simp [needs]) (typeText_ok _ h) (by simp [needs])
  | _ => exact gen

theorem shimParam_ok {B : Act → Prop} {t : Ty} (h : Picked B t) : Ok B (shimParam t) := by
  unfold shimParam
  refine ok_if (fun _ => typeText_ok _ h) fun _ => ?_
  cases t with
  | rustVec e => exact typeText_ok _ h
  | _ => exact externArg_ok h

theorem toList_ok {B : Act → Prop} {r : Option Ty} {f : Ty → List Act} (h : ∀ t, r = some t → Ok B (f t)) :
    Ok B (r.toList.flatMap f) := by
  cases r with
  | none => exact ok_nil
  | some t => exact ok_flatMap fun x hx => by simp at hx; subst hx; exact h _ rfl

/-- `Ok` for a list whose parts may rely on each other. -/
theorem ok_self {B : Act → Prop} {L : List Act} (h : Ok (fun a => B a ∨ a ∈ L) L) : Ok B L := by
  intro a ha n hn
  rcases h a ha n hn with h | h | h
  · exact .inl h
  · exact .inr h
  · exact .inl h

theorem cxxShim_ok {B : Act → Prop} {o : Out} {f : ExternFn} (ha : ∀ a ∈ f.sig.args, Picked B a.ty)
    (hr : ∀ t, f.sig.ret = some t → Picked B t) : Ok B (cxxShim o f) := by
  have ha : ∀ t ∈ f.sig.args.map (·.ty), Picked B t := by
    intro t ht
    obtain ⟨a, hm, rfl⟩ := List.mem_map.1 ht
    exact ha a hm
  refine ok_self ?_
  have up : ∀ {t : Ty}, Picked B t → Picked (fun a => B a ∨ a ∈ cxxShim o f) t := fun h x hx a ha => .inl (h x hx a ha)
  have first : ∀ a ∈ (if f.sig.throws then [.ask .ptrLen, .text .ptrLen] else externReturnText o f.sig.ret),
      a ∈ cxxShim o f := by
    intro a h
    unfold cxxShim
    simp only [List.append_assoc]
    exact List.mem_append_left _ h
  have try_ : f.sig.throws = true → Act.ask .trycatch ∈ cxxShim o f := by
    intro h
    unfold cxxShim
    simp [h]
  generalize hB : (fun a => B a ∨ a ∈ cxxShim o f) = C at up ⊢
  have mine : ∀ {a}, a ∈ cxxShim o f → C a := by rintro a h; rw [← hB]; exact .inr h
  have ha : ∀ t ∈ f.sig.args.map (·.ty), Picked C t := fun t ht => up (ha t ht)
  have hr : ∀ t, f.sig.ret = some t → Picked C t := fun t ht => up (hr t ht)
  unfold cxxShim
  refine ok_append (ok_append (ok_append (ok_append (ok_append (ok_append (ok_append (ok_append (ok_append (ok_append ?_ ?_)
    ?_) ?_) ?_) ?_) ?_) ?_) ?_) ?_) ?_
  · exact ok_if (fun _ => ok_small (by simp [needs])) fun _ => externReturn_ok hr
  · exact ok_flatMap fun t ht => shimParam_ok (ha t ht)
  · exact ok_if (fun _ => toList_ok fun t ht => indirectReturn_ok (hr t ht)) fun _ => ok_nil
  · exact optText_ok hr
  · exact ok_flatMap fun t ht => typeText_ok t (ha t ht)
  · exact ok_if (fun _ => ok_small (by simp [needs])) fun _ => ok_nil
  · exact ok_if (fun _ => ok_append (ok_small (by simp [needs])) (toList_ok fun t ht => indirectReturn_ok (hr t ht)))
      fun _ => ok_nil
  · cases hret : f.sig.ret with
    | none => exact ok_nil
    | some t =>
      have hp := hr t hret
      cases t with
      | str p l m u =>
        refine ok_if (fun _ => ok_nil) fun hi => ?_
        have hth := indirect_not_throws hi
        have h1 : C (.ask .reprFat) := mine (first _ (by rw [hth, hret]; simp [externReturnText]))
        have h2 : C (.ask .rustStr) := picked_self hp _ (by simp [pick])
        intro a hm n hn
        simp at hm ⊢
        rcases hm with rfl | rfl <;> simp [needs] at hn <;> rcases hn with rfl | rfl <;> simp_all
      | sliceRef l m u =>
        refine ok_if (fun _ => ok_nil) fun hi => ?_
        have hth := indirect_not_throws hi
        have h1 : C (.ask .reprFat) := mine (first _ (by rw [hth, hret]; simp [externReturnText]))
        have h2 : C (.ask .rustSlice) := picked_self hp _ (by simp [pick])
        refine ok_around ?_ (typeText_ok _ hp) ?_
        · intro a hm n hn
          simp at hm ⊢
          rcases hm with rfl | rfl <;> simp [needs] at hn
          · rcases hn with rfl | rfl <;> simp_all
          · subst hn; simp_all
        · simp [needs]
      | _ => exact ok_nil
  · exact ok_flatMap fun t ht => callArg_ok (ha t ht)
  · refine ok_if (fun ht => ?_) fun _ => ok_nil
    intro a hm n hn
    simp at hm
    subst hm
    simp [needs] at hn
    subst hn
    exact .inr (mine (try_ ht))
  · exact ok_flatMap fun t ht => trampoline_ok (ha t ht)

/-! ### The items of a bridge -/

/-- What the generator knows, for a bridge. -/
structure OutFor (apis : List Api) (o : Out) : Prop where
  types : o.cx.types = collect apis
  items : o.apis = apis
  sorted : ∃ errors, Verif.Toposort.sort (apis.filterMap fun | .struct s => some s | _ => none) = some (o.sorted, errors)

theorem sorted_mem {apis : List Api} {o : Out} (h : OutFor apis o) {s : Struct} (hs : s ∈ o.sorted) :
    Api.struct s ∈ apis := by
  obtain ⟨e, he⟩ := h.sorted
  unfold Verif.Toposort.sort at he
  simp only [Option.map_eq_some_iff, Prod.mk.injEq] at he
  obtain ⟨st, -, hl, -⟩ := he
  rw [← hl, List.mem_filterMap] at hs
  obtain ⟨i, -, hi⟩ := hs
  have := List.mem_of_getElem? hi
  rw [List.mem_filterMap] at this
  obtain ⟨a, ha, hs⟩ := this
  cases a <;> simp at hs
  subst hs
  exact ha

theorem picked_written {apis : List Api} {o : Out} (h : OutFor apis o) {a : Api} (ha : a ∈ apis) {t : Ty}
    (ht : t ∈ writtenTypes a) : Picked (· ∈ emits o) t := by
  intro x hx b hb
  unfold emits picks
  simp only [List.append_assoc]
  refine List.mem_append_left _ (List.mem_flatMap.2 ⟨x, ?_, hb⟩)
  rw [h.types]
  exact ((gathers apis).all x).2 ⟨a, ha, t, ht, hx⟩

theorem methods_mem {apis : List Api} {name : Ident} {f : ExternFn} (hf : f ∈ methodsFor apis name) :
    Api.cxxFunction f ∈ apis ∨ Api.rustFunction f ∈ apis := by
  unfold methodsFor at hf
  rw [List.mem_filterMap] at hf
  obtain ⟨a, ha, hf⟩ := hf
  cases a with
  | cxxFunction g =>
    simp only at hf
    cases hr : g.sig.receiver with
    | none => rw [hr] at hf; cases hf
    | some r =>
      rw [hr] at hf
      simp only at hf
      by_cases hn : r.ty.rust = name
      · rw [if_pos hn] at hf; cases hf; exact .inl ha
      · rw [if_neg hn] at hf; cases hf
  | rustFunction g =>
    simp only at hf
    cases hr : g.sig.receiver with
    | none => rw [hr] at hf; cases hf
    | some r =>
      rw [hr] at hf
      simp only at hf
      by_cases hn : r.ty.rust = name
      · rw [if_pos hn] at hf; cases hf; exact .inr ha
      · rw [if_neg hn] at hf; cases hf
  | _ => cases hf

theorem sig_picked {apis : List Api} {o : Out} (h : OutFor apis o) {f : ExternFn}
    (hf : Api.cxxFunction f ∈ apis ∨ Api.rustFunction f ∈ apis) :
    (∀ a ∈ f.sig.args, Picked (· ∈ emits o) a.ty) ∧ ∀ t, f.sig.ret = some t → Picked (· ∈ emits o) t := by
  have key : ∀ t ∈ f.sig.args.map (·.ty) ++ f.sig.ret.toList, Picked (· ∈ emits o) t := by
    intro t ht
    rcases hf with hf | hf
    · exact picked_written h hf (by simpa [writtenTypes] using ht)
    · exact picked_written h hf (by simpa [writtenTypes] using ht)
  exact ⟨fun a ha => key _ (List.mem_append_left _ (List.mem_map_of_mem ha)),
    fun t ht => key _ (List.mem_append_right _ (by simp [ht]))⟩

theorem map_picked {B : Act → Prop} {args : List Var} (h : ∀ a ∈ args, Picked B a.ty) : ∀ t ∈ args.map (·.ty), Picked B t := by
  intro t ht
  obtain ⟨a, ha, rfl⟩ := List.mem_map.1 ht
  exact h a ha

theorem methods_ok {apis : List Api} {o : Out} (h : OutFor apis o) (name : Ident) :
    Ok (· ∈ emits o) ((methodsFor o.apis name).flatMap methodDecl) := by
  refine ok_flatMap fun f hf => ?_
  rw [h.items] at hf
  obtain ⟨ha, hr⟩ := sig_picked h (methods_mem hf)
  exact shimDecl_ok (map_picked ha) hr

theorem enum_ok {apis : List Api} {o : Out} (h : OutFor apis o) {e : Enum} (he : Api.enum e ∈ apis) :
    ∀ n ∈ needs (.text (.atom e.repr)), n ∈ emits o := by
  have hp := picked_self (picked_written h he (t := Ty.named e.repr.asRef) (by simp [writtenTypes]))
  intro n hn
  have hf : Atom.fromStr e.repr.asRef = some e.repr := (Atom.fromStr_eq_some_iff _ _).2 rfl
  refine hp n ?_
  simp only [pick, Ty.named, hf]
  cases hr : e.repr <;> rw [hr] at hn <;> simpa [needs] using hn

theorem struct_ok {apis : List Api} {o : Out} (h : OutFor apis o) {s : Struct} (hs : Api.struct s ∈ apis) :
    Ok (· ∈ emits o) (writeStruct o s) := by
  unfold writeStruct
  refine ok_append (ok_append (ok_flatMap fun f hf => typeText_ok _ ?_) (methods_ok h _)) (ok_small (by simp [needs]))
  exact picked_written h hs (by simp only [writtenTypes]; exact List.mem_map_of_mem hf)

theorem opaque_ok {apis : List Api} {o : Out} (h : OutFor apis o) (t : ExternType) :
    Ok (· ∈ emits o) (writeOpaque o t) := by
  unfold writeOpaque
  exact ok_append (ok_append (ok_small (by simp [needs])) (methods_ok h _)) (ok_small (by simp [needs]))

theorem takeTo_mem {name : Ident} {l : List Struct} : ∀ s, s ∈ (takeTo name l).1 ∨ s ∈ (takeTo name l).2 → s ∈ l := by
  induction l with
  | nil => simp [takeTo]
  | cons x l ih =>
    intro s hs
    unfold takeTo at hs
    by_cases hn : x.name.rust = name
    · rw [if_pos hn] at hs; simpa using hs
    · rw [if_neg hn] at hs
      simp only [List.mem_cons] at hs ⊢
      rcases hs with (h | h) | h
      · exact .inl h
      · exact .inr (ih s (.inl h))
      · exact .inr (ih s (.inr h))

theorem dataLoop_ok {apis : List Api} {o : Out} (h : OutFor apis o) (items : List Api) : ∀ (written : List Ident)
    (rest : List Struct), (∀ a ∈ items, a ∈ apis) → (∀ s ∈ rest, Api.struct s ∈ apis) →
    Ok (· ∈ emits o) (dataLoop o items written rest) := by
  induction items with
  | nil => intro _ _ _ _; exact ok_nil
  | cons a items ih =>
    intro written rest hi hr
    have hi' : ∀ a ∈ items, a ∈ apis := fun b hb => hi b (List.mem_cons_of_mem _ hb)
    have ha := hi a (List.mem_cons_self ..)
    cases a with
    | struct s =>
      unfold dataLoop
      refine ok_if (fun _ => ih _ _ hi' hr) fun _ => ok_append (ok_flatMap fun n hn => ?_) (ih _ _ hi' fun n hn => ?_)
      · exact ok_if (fun _ => ok_nil) fun _ => struct_ok h (hr n (takeTo_mem n (.inl hn)))
      · exact hr n (takeTo_mem n (.inr hn))
    | enum e =>
      unfold dataLoop
      have he := enum_ok h ha
      refine ok_append (ok_if (fun _ => ?_) fun _ => ok_if (fun _ => ok_nil) fun _ => ?_) (ih _ _ hi' hr)
      · exact ok_cons (fun n hn => .inr (he n hn)) ok_nil
      · unfold checkEnum
        refine ok_append ?_ ?_
        · intro a hm n hn
          simp only [List.mem_cons, List.not_mem_nil, or_false] at hm
          rcases hm with rfl | rfl | rfl
          · simp [needs] at hn
          · simp [needs] at hn; simp [hn]
          · exact .inr (he n hn)
        · intro a hm n hn
          obtain ⟨_, -, rfl⟩ := List.mem_map.1 hm
          exact .inr (he n hn)
    | rustType t => unfold dataLoop; exact ok_append (opaque_ok h t) (ih _ _ hi' hr)
    | _ => unfold dataLoop; exact ih _ _ hi' hr

theorem opaque_written {o : Out} {t : ExternType} {items : List Api} (ht : Api.rustType t ∈ items) :
    ∀ (written : List Ident) (rest : List Struct), ∀ a ∈ writeOpaque o t, a ∈ dataLoop o items written rest := by
  induction items with
  | nil => cases ht
  | cons x items ih =>
    intro written rest a ha
    rcases List.mem_cons.1 ht with rfl | ht'
    · unfold dataLoop; exact List.mem_append_left _ ha
    · clear ht
      have ht := ht'
      clear ht'
      cases x with
      | struct s =>
        unfold dataLoop
        by_cases hw : s.name.rust ∈ written
        · rw [if_pos hw]; exact ih ht _ _ a ha
        · rw [if_neg hw]; exact List.mem_append_right _ (ih ht _ _ a ha)
      | enum e => unfold dataLoop; exact List.mem_append_right _ (ih ht _ _ a ha)
      | rustType t' => unfold dataLoop; exact List.mem_append_right _ (ih ht _ _ a ha)
      | _ => unfold dataLoop; exact ih ht _ _ a ha

theorem dataStructures_ok {apis : List Api} {o : Out} (h : OutFor apis o) : Ok (· ∈ emits o) (dataStructures o) := by
  unfold dataStructures
  refine ok_append (dataLoop_ok h _ _ _ (by rw [h.items]; exact fun _ => id) fun s hs => sorted_mem h hs)
    (ok_if (fun _ => ok_nil) fun _ => ok_flatMap fun a _ => ?_)
  cases a with
  | typeAlias a =>
    show Ok _ (checkTrivial o a)
    unfold checkTrivial
    refine ok_if (fun _ => ok_nil) fun _ => ?_
    by_cases hr : ((requiredTrivial o.apis o.cx.types).filterMap fun e => if e.1 = a.name.rust then some e.2 else none).all
        arrayReason = true
    · rw [if_pos hr]; exact ok_small (by simp [needs])
    · rw [if_neg hr]; exact ok_small (by simp [needs])
  | _ => exact ok_nil

theorem layout_asked {apis : List Api} {o : Out} (h : OutFor apis o) {t : ExternType} (ht : Api.rustType t ∈ apis) :
    Act.inc .cstddef ∈ emits o := by
  unfold emits dataStructures
  simp only [List.append_assoc]
  refine List.mem_append_right _ (List.mem_append_right _ (List.mem_append_left _ ?_))
  exact opaque_written (by rw [h.items]; exact ht) _ _ _ (by simp [writeOpaque])

theorem mem_functions {o : Out} {a : Act} (h : a ∈ functions o) : a ∈ emits o := by
  unfold emits
  exact List.mem_append_left _ (List.mem_append_right _ h)

theorem functions_ok {apis : List Api} {o : Out} (h : OutFor apis o) : Ok (· ∈ emits o) (functions o) := by
  unfold functions
  refine ok_append (ok_if (fun _ => ok_nil) fun _ => ok_append (ok_flatMap fun a ha => ?_) (ok_flatMap fun a _ => ?_))
    (ok_flatMap fun a ha => ?_)
  · rw [h.items] at ha
    cases a with
    | struct s => exact ok_if (fun _ => ok_small (by simp [needs])) fun _ => ok_nil
    | rustType t => exact ok_cons (by simp [needs, layout_asked h ha]) ok_nil
    | cxxFunction f =>
      obtain ⟨ha, hr⟩ := sig_picked h (.inl ha)
      exact cxxShim_ok ha hr
    | rustFunction f =>
      obtain ⟨ha, hr⟩ := sig_picked h (.inr ha)
      exact rustDecl_ok (map_picked ha) hr
    | _ => exact ok_nil
  · cases a with
    | struct s => exact ok_if (fun _ => ok_small (by simp [needs])) fun _ => ok_nil
    | _ => exact ok_nil
  · have ha' := ha
    rw [h.items] at ha
    cases a with
    | rustType t => exact ok_if (fun _ => ok_nil) fun _ => ok_cons (by simp [needs, layout_asked h ha]) ok_nil
    | rustFunction f =>
      obtain ⟨ha, hr⟩ := sig_picked h (.inr ha)
      refine rustShim_ok (map_picked ha) hr fun hh a hm => mem_functions ?_
      unfold functions
      rw [if_neg (by simp [hh])]
      exact List.mem_append_left _ (List.mem_append_left _ (List.mem_flatMap.2 ⟨_, ha', hm⟩))
    | _ => exact ok_nil

/-- The type behind an instantiation occurs in the bridge. -/
theorem key_picked {apis : List Api} {o : Out} (h : OutFor apis o) {k : ImplKey} (hk : k ∈ o.cx.types.impls.map (·.1)) :
    ∃ t, implKey t = some k ∧ ∀ a ∈ pick t, a ∈ emits o := by
  rw [h.types] at hk
  rcases (impls_exact apis k).1 hk with ⟨i, hi, hik⟩ | ⟨-, -, t, ⟨a, ha, w, hw, ht⟩, hkt⟩
  · exact ⟨i.ty, hik, picked_self (picked_written h hi (by simp [writtenTypes]))⟩
  · exact ⟨t, hkt, fun b hb => picked_written h ha hw t ht b hb⟩

/-- What is picked for an instantiation. -/
def keyPick : ImplKey → Act
  | .rustBox _ => .ask .rustBox
  | .rustVec _ => .ask .rustVec
  | .uniquePtr _ | .sharedPtr _ | .weakPtr _ => .inc .memory
  | .cxxVector _ => .inc .vector

theorem key_pick {apis : List Api} {o : Out} (h : OutFor apis o) {k : ImplKey} (hk : k ∈ o.cx.types.impls.map (·.1)) :
    keyPick k ∈ emits o := by
  obtain ⟨t, ht, hp⟩ := key_picked h hk
  refine hp _ ?_
  cases t <;> simp [implKey] at ht <;> rename_i u <;> cases u <;> simp at ht <;> subst ht <;> simp [pick, keyPick]

theorem ok_ask {B : Act → Prop} {c : Prop} [Decidable c] {L : List Act} (h : c → ∀ a ∈ L, ∀ n ∈ needs a, n ∈ L ∨ B n) :
    Ok B (if c then L else []) := ok_if h fun _ => ok_nil

theorem uniquePtr_ok {B : Act → Prop} {o : Out} {name : Option Ident} (hm : B (.inc .memory))
    (hv : name = none → B (.inc .vector)) : Ok B (uniquePtrCommon o name) := by
  refine ok_self ?_
  generalize hL : uniquePtrCommon o name = L
  have h1 : Act.inc .new ∈ L := by rw [← hL]; simp [uniquePtrCommon]
  have h2 : ∀ n, name = some n → (!mapHas o.cx.types.structs n && !mapHas o.cx.types.enums n) = true →
      Act.ask .isComplete ∈ L := by
    intro n hn hc; rw [← hL, hn]; unfold uniquePtrCommon; simp [hc]
  rw [← hL]
  unfold uniquePtrCommon
  cases name with
  | none => intro a ha n hn; simp at ha; rcases ha with rfl | rfl | rfl | rfl | rfl <;> simp [needs] at hn ⊢ <;> grind
  | some m =>
    have h2 := h2 m rfl
    intro a ha n hn
    simp at ha
    rcases ha with rfl | rfl | ⟨⟨c1, c2⟩, rfl | rfl⟩ | rfl | ⟨c, rfl | rfl⟩ | rfl | ⟨⟨c1, c2⟩, rfl | rfl⟩ <;>
      simp [needs] at hn ⊢ <;> grind

theorem instantiations_ok {apis : List Api} {o : Out} (h : OutFor apis o) : Ok (· ∈ emits o) (instantiations o) := by
  unfold instantiations
  refine ok_if (fun _ => ok_nil) fun _ => ok_append (ok_flatMap fun k hk => ?_) (ok_flatMap fun k hk => ?_)
  · have hp := key_pick h hk
    cases k with
    | rustBox n => exact ok_cons (by simpa [needs, keyPick] using hp) ok_nil
    | rustVec n =>
      simp only [keyPick] at hp
      intro a ha m hm
      simp [externPart] at ha
      rcases ha with rfl | rfl <;> simp [needs, externPart] at hm ⊢ <;> grind
    | uniquePtr n => exact uniquePtr_ok hp nofun
    | sharedPtr n =>
      simp only [keyPick] at hp
      intro a ha m hm
      simp [externPart] at ha
      rcases ha with rfl | rfl | rfl | ⟨c, rfl | rfl⟩ | rfl <;> simp [needs, externPart] at hm ⊢ <;> grind
    | weakPtr n =>
      simp only [keyPick] at hp
      intro a ha m hm
      simp [externPart] at ha
      rcases ha with rfl | rfl | rfl <;> simp [needs, externPart] at hm ⊢ <;> grind
    | cxxVector n =>
      simp only [keyPick] at hp
      refine ok_self ?_
      generalize hL : externPart o (.cxxVector n) = L
      have m1 : Act.inc .memory ∈ L := by rw [← hL]; simp [externPart]
      have m2 : Act.inc .new ∈ L := by rw [← hL]; simp [externPart, uniquePtrCommon]
      have m3 : Act.inc .utility ∈ L := by rw [← hL]; simp [externPart]
      have m4 : Act.ask .destroy ∈ L := by rw [← hL]; simp [externPart]
      suffices hs : Ok (fun a => a ∈ emits o ∨ a ∈ L) (externPart o (.cxxVector n)) by rw [hL] at hs; exact hs
      clear hL
      unfold externPart
      refine ok_append (ok_append (ok_append ?_ (ok_if (fun _ => ?_) fun _ => ok_nil)) (ok_small (by simp [needs])))
        (uniquePtr_ok (.inr m1) fun _ => .inl hp)
      · intro a ha m hm
        simp at ha
        rcases ha with rfl | rfl | rfl | rfl <;> simp [needs] at hm ⊢
        rcases hm with rfl | rfl <;> simp [hp]
      · refine ok_cons ?_ ok_nil
        intro m hm
        simp [needs] at hm
        rcases hm with rfl | rfl | rfl | rfl <;> simp_all
  · have hp := key_pick h hk
    cases k with
    | rustBox n => exact ok_cons (by simpa [needs, keyPick] using hp) ok_nil
    | rustVec n =>
      simp only [keyPick] at hp
      intro a ha m hm
      simp [rustPart] at ha
      rcases ha with rfl | rfl <;> simp [needs, rustPart] at hm ⊢ <;> grind
    | _ => exact ok_nil

theorem picks_ok {B : Act → Prop} (ts : Types) : Ok B (picks ts) := by
  refine ok_flatMap fun t _ => ok_small fun a ha n hn => ?_
  exfalso
  cases t with
  | ident m =>
    simp only [pick] at ha
    cases hf : Atom.fromStr m.rust with
    | none => rw [hf] at ha; simp at ha
    | some x => rw [hf] at ha; cases x <;> simp at ha <;> subst ha <;> simp [needs] at hn
  | _ => simp [pick] at ha <;> subst ha <;> simp [needs] at hn

theorem emits_ok {apis : List Api} {o : Out} (h : OutFor apis o) : ∀ a ∈ emits o, ∀ n ∈ needs a, n ∈ emits o := by
  have : Ok (· ∈ emits o) (emits o) := by
    conv => arg 2; unfold emits
    refine ok_append (ok_append (ok_append (ok_append (picks_ok _) (ok_flatMap fun a ha => ?_)) (dataStructures_ok h))
      (functions_ok h)) (instantiations_ok h)
    rw [h.items] at ha
    cases a with
    | enum e => exact ok_if (fun _ => ok_nil) fun _ => ok_cons (fun n hn => .inr (enum_ok h ha n hn)) ok_nil
    | _ => exact ok_nil
  exact fun a ha n hn => (this a ha n hn).elim id id

/-! ### What that gives -/

/-- The runs, the flags and the headers agree. -/
theorem coherent_emits {apis : List Api} {o : Out} (h : OutFor apis o) : Coherent (asked (emits o)) := by
  have hs : ∀ f n, (emits o).contains (.ask f) = true → n ∈ needs (.ask f) → (emits o).contains n = true := by
    intro f n hf hn
    rw [List.contains_iff_mem] at hf ⊢
    exact emits_ok h _ hf n hn
  exact ⟨fun a => ⟨hs _ _ a (by simp [needs]), hs _ _ a (by simp [needs])⟩,
    fun a => ⟨hs _ _ a (by simp [needs]), hs _ _ a (by simp [needs])⟩,
    fun a => ⟨hs _ _ a (by simp [needs]), hs _ _ a (by simp [needs])⟩,
    fun a => ⟨hs _ _ a (by simp [needs]), hs _ _ a (by simp [needs])⟩,
    fun a => hs _ _ a (by simp [needs])⟩

/-- A request sets its flag. -/
theorem asked_flags {L : List Act} (i : Std → Bool) (n : Flag) (hn : Act.ask n ∈ L) (h : Helper)
    (hh : h ∈ (match n with
      | .rustString => [Helper.string] | .rustStr => [.str, .impl] | .rustSlice => [.slice, .impl] | .rustBox => [.box]
      | .rustVec => [.vec] | .rustFn => [.fn] | .rustIsize => [.isize] | .rustOpaque => [.«opaque»] | .layout => [.layout]
      | .unsafeBitcopy => [.unsafeBitcopy] | .rustError => [.error, .impl, .errorFrom] | .manuallyDrop => [.manuallyDrop]
      | .maybeUninit => [.maybeUninit] | .trycatch => [.trycatch, .fail] | .ptrLen => [.ptrLen] | .reprFat => [.fat]
      | .rustStrNewUnchecked => [.newUnchecked] | .rustStrRepr => [.reprOf] | .rustSliceNew => [.sliceFrom]
      | .rustSliceRepr => [.reprOf] | .relocatable => [.isRelocatable] | .relocatableOrArray => [.isRelocatableOrArray]
      | .isComplete => [.isComplete] | .destroy => [.destroy] | .deleterIf => [.deleterIf])) :
    Asked (propagate (asked L) i).1 h := by
  rw [propagate_flags]
  cases n <;> simp at hh <;> (try rcases hh with rfl | rfl | rfl) <;> (try rcases hh with rfl | rfl) <;> (try subst hh) <;>
    simp [Asked, asked, hn]

/-- Every helper a run refers to is asked for. -/
theorem helpers_asked {L : List Act} (i : Std → Bool) {f : Frag} (hn : ∀ n ∈ needs (.text f), n ∈ L) {h : Helper}
    (hh : h ∈ f.helpers) : Asked (propagate (asked L) i).1 h := by
  cases f with
  | atom a =>
    cases a with
    | isize => exact asked_flags i .rustIsize (hn _ (by simp [needs])) h (by simpa [Frag.helpers] using hh)
    | rustString => exact asked_flags i .rustString (hn _ (by simp [needs])) h (by simpa [Frag.helpers] using hh)
    | _ => cases hh
  | box | boxExtern | boxImpl => exact asked_flags i .rustBox (hn _ (by simp [needs])) h (by simpa [Frag.helpers] using hh)
  | vec | vecExtern | vecImpl => exact asked_flags i .rustVec (hn _ (by simp [needs])) h (by simpa [Frag.helpers] using hh)
  | str => exact asked_flags i .rustStr (hn _ (by simp [needs])) h (by simp [Frag.helpers] at hh; simp [hh])
  | slice => exact asked_flags i .rustSlice (hn _ (by simp [needs])) h (by simp [Frag.helpers] at hh; simp [hh])
  | fn => exact asked_flags i .rustFn (hn _ (by simp [needs])) h (by simpa [Frag.helpers] using hh)
  | opaqueHead => exact asked_flags i .rustOpaque (hn _ (by simp [needs])) h (by simpa [Frag.helpers] using hh)
  | opaqueLayout => exact asked_flags i .layout (hn _ (by simp [needs])) h (by simpa [Frag.helpers] using hh)
  | relocatable => exact asked_flags i .relocatable (hn _ (by simp [needs])) h (by simpa [Frag.helpers] using hh)
  | relocatableOrArray => exact asked_flags i .relocatableOrArray (hn _ (by simp [needs])) h (by simpa [Frag.helpers] using hh)
  | ptrLen | errorDecl => exact asked_flags i .ptrLen (hn _ (by simp [needs])) h (by simpa [Frag.helpers] using hh)
  | fat => exact asked_flags i .reprFat (hn _ (by simp [needs])) h (by simpa [Frag.helpers] using hh)
  | shimTry =>
    simp [Frag.helpers] at hh
    rcases hh with rfl | rfl
    · exact asked_flags i .ptrLen (hn _ (by simp [needs])) _ (by simp)
    · exact asked_flags i .trycatch (hn _ (by simp [needs])) _ (by simp)
  | implStrRepr =>
    simp [Frag.helpers] at hh
    rcases hh with rfl | rfl | rfl
    · exact asked_flags i .rustStr (hn _ (by simp [needs])) _ (by simp)
    · exact asked_flags i .rustStr (hn _ (by simp [needs])) _ (by simp)
    · exact asked_flags i .rustStrRepr (hn _ (by simp [needs])) _ (by simp)
  | impl => exact asked_flags i .rustSlice (hn _ (by simp [needs])) h (by simp [Frag.helpers] at hh; simp [hh])
  | implRepr => exact asked_flags i .rustSliceRepr (hn _ (by simp [needs])) h (by simpa [Frag.helpers] using hh)
  | bitcopyString =>
    simp [Frag.helpers] at hh
    rcases hh with rfl | rfl
    · exact asked_flags i .unsafeBitcopy (hn _ (by simp [needs])) _ (by simp)
    · exact asked_flags i .rustString (hn _ (by simp [needs])) _ (by simp)
  | bitcopyVec => exact asked_flags i .unsafeBitcopy (hn _ (by simp [needs])) h (by simpa [Frag.helpers] using hh)
  | shimFail => exact asked_flags i .trycatch (hn _ (by simp [needs])) h (by simp [Frag.helpers] at hh; simp [hh])
  | manuallyDrop => exact asked_flags i .manuallyDrop (hn _ (by simp [needs])) h (by simpa [Frag.helpers] using hh)
  | maybeUninit | uniquePtrUninit | sharedPtrUninit =>
    exact asked_flags i .maybeUninit (hn _ (by simp [needs])) h (by simpa [Frag.helpers] using hh)
  | implStrNew =>
    simp [Frag.helpers] at hh
    rcases hh with rfl | rfl | rfl
    · exact asked_flags i .rustStr (hn _ (by simp [needs])) _ (by simp)
    · exact asked_flags i .rustStr (hn _ (by simp [needs])) _ (by simp)
    · exact asked_flags i .rustStrNewUnchecked (hn _ (by simp [needs])) _ (by simp)
  | implSliceNew => exact asked_flags i .rustSliceNew (hn _ (by simp [needs])) h (by simpa [Frag.helpers] using hh)
  | errorThrow =>
    exact asked_flags i .rustError (hn _ (by simp [needs])) h (by simp [Frag.helpers] at hh; rcases hh with rfl | rfl | rfl <;> simp)
  | completeAssert => exact asked_flags i .isComplete (hn _ (by simp [needs])) h (by simpa [Frag.helpers] using hh)
  | uniquePtrDeleter =>
    simp [Frag.helpers] at hh
    rcases hh with rfl | rfl
    · exact asked_flags i .isComplete (hn _ (by simp [needs])) _ (by simp)
    · exact asked_flags i .deleterIf (hn _ (by simp [needs])) _ (by simp)
  | vectorValue => exact asked_flags i .destroy (hn _ (by simp [needs])) h (by simpa [Frag.helpers] using hh)
  | _ => cases hh

/-- Every name a run takes from the standard library is in a header asked for. -/
theorem stds_asked {f : Frag} {t : Tok} (ht : t ∈ f.stds) :
    ∃ s ∈ providers t, (.inc s) ∈ needs (.text f) ∧ ∀ p, s.Available p := by
  cases f with
  | atom a => cases a <;> simp [Frag.stds] at ht <;> subst ht <;> exact ⟨_, List.mem_singleton_self _, by simp [needs], fun _ => trivial⟩
  | _ =>
    simp [Frag.stds] at ht <;> (try rcases ht with rfl | rfl) <;> (try subst ht) <;>
      exact ⟨_, List.mem_singleton_self _, by simp [needs], fun _ => trivial⟩

theorem constructs_asked {f : Frag} (h : f.constructs = true) : (.inc .new) ∈ needs (.text f) := by
  cases f <;> simp [Frag.constructs] at h <;> simp [needs]

/-- **C31**, the helpers themselves.  For every bridge: what a helper in the output mentions is declared in front of it
or in the copy of rust/cxx.h that the user includes. -/
theorem bridge_helpers_declared {apis : List Api} {o : Out} (h : OutFor apis o) {custom : List Include}
    {pre post : List (List Blk × Piece)} {e : List Blk × Piece}
    (hp : place [] (generated o custom).2 = some (pre ++ e :: post)) {x : Helper} (hm : Mentions e.2.lines x) :
    Declared (pre ++ [e]) x ∨ UserHasCxx custom ∧ InHeader x :=
  helpers_declared (coherent_emits h) hp hm

/-- **C31**, generated code.  For every bridge: the helpers are written with their blocks matching up, and each helper
that the generated code refers to is declared among them or in the copy of rust/cxx.h that the user includes. -/
theorem generated_helpers_declared {apis : List Api} {o : Out} (h : OutFor apis o) (custom : List Include) :
    ∃ placed, place [] (generated o custom).2 = some placed ∧
      ∀ f, Act.text f ∈ emits o → ∀ x, Refers f x → Declared placed x ∨ UserHasCxx custom ∧ InHeader x := by
  obtain ⟨placed, hp⟩ := helpers_balance ⟨custom, fun h => (emits o).contains (.inc h)⟩ (asked (emits o))
  refine ⟨placed, hp, fun f hf x hx => ?_⟩
  have ha := helpers_asked (fun h => (emits o).contains (.inc h)) (emits_ok h _ hf) (refers_spec hx)
  have hb : asked (emits o) ≠ {} := by
    intro hb
    rw [hb, propagate_flags] at ha
    cases x <;> simp [Asked] at ha
  rw [placed_exact hb] at hp
  have hp := Option.some.inj hp
  subst hp
  rcases asked_row ha (Includes.hasCxxHeader ⟨custom, fun h => (emits o).contains (.inc h)⟩) with
    ⟨hx, hh⟩ | ⟨x, hx, inner, hi, hn⟩
  · exact .inr ⟨(hasCxx_iff ⟨custom, fun h => (emits o).contains (.inc h)⟩).1 hx, header_gives hh⟩
  · exact .inl ⟨x, chosen_mem.2 hx, inner, gives_spec hi, hn⟩

/-- Headers asked for stay so. -/
theorem flag_kept (o : Out) (custom : List Include) {s : Std} (hs : Act.inc s ∈ emits o) :
    (generated o custom).1.flag s = true ∧ (generated o custom).1.custom = custom := by
  unfold generated
  constructor
  · by_cases hb : asked (emits o) = {}
    · unfold writeBuiltins; rw [if_pos hb]; simpa using hs
    · rw [flags_final hb]; simp [hs]
  · unfold writeBuiltins
    by_cases hb : asked (emits o) = {}
    · rw [if_pos hb]
    · rw [if_neg hb]

/-- The header is included where the platform has it. -/
def Included (p : Platform) (o : Out) (custom : List Include) (s : Std) : Prop :=
  ∃ items, read p [] (write o.header (generated o custom).1) = some items ∧
    (.std s ∈ items ∨ UserHasCxx custom ∧ ∃ top, read p [] cxxTop = some top ∧ .std s ∈ top)

theorem included {p : Platform} {o : Out} {custom : List Include} {s : Std} (hs : Act.inc s ∈ emits o)
    (ha : s.Available p) : Included p o custom s := by
  obtain ⟨hf, hc⟩ := flag_kept o custom hs
  have := requested_included p o.header _ hf ha
  rw [hc] at this
  exact this

/-- **C31**, headers of generated code.  For every bridge and platform: each name that the generated code takes from the
standard library is declared by a header that is included. -/
theorem generated_headers_included {apis : List Api} {o : Out} (h : OutFor apis o) (custom : List Include) (p : Platform)
    {f : Frag} (hf : Act.text f ∈ emits o) {t : Tok} (ht : Takes f t) :
    ∃ s ∈ providers t, Included p o custom s := by
  obtain ⟨s, hs, hn, ha⟩ := stds_asked (takes_spec ht)
  exact ⟨s, hs, included (emits_ok h _ hf _ hn) (ha p)⟩

/-- **C31**, placement new.  Generated code that constructs objects in place comes with <new>. -/
theorem generated_new_included {apis : List Api} {o : Out} (h : OutFor apis o) (custom : List Include) (p : Platform)
    {f : Frag} (hf : Act.text f ∈ emits o) (hc : Constructs f) : Included p o custom .new :=
  included (emits_ok h _ hf _ (constructs_asked (constructs_spec hc))) trivial

/-! ### A bridge -/

/-- What the generator knows for `Verif.Abi.demo`. -/
def demoOut : Out := ⟨Verif.Abi.context Verif.Abi.demo 3, Verif.Abi.demo,
  [⟨[], nm "P", [], [⟨nm "x", .named "u8"⟩]⟩, ⟨[], nm "Q", [], [⟨nm "x", .named "String"⟩]⟩], false⟩

theorem demo_out : OutFor Verif.Abi.demo demoOut := ⟨rfl, rfl, ⟨0, rfl⟩⟩

/-- Its code refers to `rust::unsafe_bitcopy` and to `rust::impl<rust::Error>::error`, uses `std::move`, and constructs
objects in place. -/
example : (∃ f, Act.text f ∈ emits demoOut ∧ Refers f .unsafeBitcopy) ∧ (∃ f, Act.text f ∈ emits demoOut ∧ Refers f .errorFrom) ∧
    (∃ f, Act.text f ∈ emits demoOut ∧ Takes f w!"move") ∧ ∃ f, Act.text f ∈ emits demoOut ∧ Constructs f :=
  ⟨⟨.bitcopyString, by decide +kernel, .inl (by decide +kernel)⟩,
   ⟨.errorThrow, by decide +kernel, by unfold Refers; decide +kernel⟩,
   ⟨.moveArg, by decide +kernel, .inl (by decide +kernel)⟩,
   ⟨.placement, by decide +kernel, by unfold Constructs; decide +kernel⟩⟩

end Verif.Preamble
