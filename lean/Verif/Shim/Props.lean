import Verif.Shim.Spec
import Verif.Abi.Props
/-!
# Arguments and return values by value
-/
namespace Verif.Shim
open Verif.Syntax Verif.Types Verif.Check Verif.Pod Verif.Abi

/-! ### Several arguments -/

theorem mapM_bind {α β γ : Type} (f : α → Option β) (g : β → Option γ) (l : List α) :
    (l.mapM f).bind (fun m => m.mapM g) = l.mapM fun a => (f a).bind g := by
  induction l with
  | nil => rfl
  | cons a l ih =>
    simp only [List.mapM_cons, bind, pure] at ih ⊢
    cases h : f a with
    | none => rfl
    | some b =>
      cases h' : l.mapM f with
      | none =>
        rw [h'] at ih
        simp only [Option.bind] at ih ⊢
        rw [← ih]
        cases g b <;> rfl
      | some m =>
        rw [h'] at ih
        simp only [Option.bind_some] at ih ⊢
        rw [← ih, List.mapM_cons]
        rfl

theorem mapM_some {α β : Type} {f : α → Option β} {g : α → β} {l : List α} (h : ∀ a ∈ l, f a = some (g a)) :
    l.mapM f = some (l.map g) := by
  induction l with
  | nil => rfl
  | cons a l ih =>
    rw [List.mapM_cons, h a (List.mem_cons_self ..), ih fun b hb => h b (List.mem_cons_of_mem _ hb)]
    rfl

theorem map_mapM {α β γ : Type} (f : α → Option β) (g : β → γ) (l : List α) :
    (l.mapM f).map (List.map g) = l.mapM fun a => (f a).map g := by
  induction l with
  | nil => rfl
  | cons a l ih =>
    simp only [List.mapM_cons, bind, pure] at ih ⊢
    rw [← ih]
    cases f a <;> cases l.mapM f <;> rfl

theorem bind_map {α β γ : Type} (o : Option α) (f : α → Option β) (g : β → γ) :
    (o.bind fun x => (f x).map g) = (o.bind f).map g := by cases o <;> rfl

/-- One argument on its own. -/
def callOne (setup pass receive : Ty → List Stmt) (a : Arg) : Option (Option Obj × List Nat) :=
  (execAll (setup a.ty) (start a.val)).bind fun σ => (execAll (pass a.ty) σ).bind fun σ =>
    (execAll (receive a.ty) σ).bind fun σ => (callee a.keep σ).map fun r => (r.1, r.2.finish)

theorem call_eq (setup pass receive : Ty → List Stmt) (as : List Arg) :
    call setup pass receive as = (as.mapM (callOne setup pass receive)).map fun done =>
      ⟨done.map (·.1), done.flatMap (·.2)⟩ := by
  have hr : (fun done : List (Option Obj × State) => (⟨done.map (·.1), done.flatMap (·.2.finish)⟩ : Result)) =
      (fun done : List (Option Obj × List Nat) => (⟨done.map (·.1), done.flatMap (·.2)⟩ : Result)) ∘
        List.map fun r => (r.1, r.2.finish) := by
    funext done
    simp [Function.comp_def, List.flatMap_map]
  unfold call phase
  rw [← Option.bind_assoc, mapM_bind, ← Option.bind_assoc, mapM_bind]
  rw [bind_map, mapM_bind, hr, ← Option.map_map, map_mapM, List.mapM_map]
  congr 2
  funext a
  simp only [Function.comp, callOne]
  cases execAll (setup a.ty) (start a.val) with
  | none => rfl
  | some σ =>
    simp only [Option.map_some, Option.bind_some]
    cases execAll (pass a.ty) σ with
    | none => rfl
    | some σ =>
      simp only [Option.map_some, Option.bind_some]
      cases execAll (receive a.ty) σ <;> rfl

/-- What becomes of the arguments, one by one. -/
theorem call_of {setup pass receive : Ty → List Stmt} {as : List Arg} {drops : Arg → List Nat}
    (h : ∀ a ∈ as, callOne setup pass receive a = some (a.val, drops a)) :
    call setup pass receive as = some ⟨as.map (·.val), as.flatMap drops⟩ := by
  rw [call_eq, mapM_some h]
  simp [Function.comp_def, List.flatMap_map]

/-! ### One argument -/

/-- What is passed as it is owns nothing. -/
theorem direct_plain {apis : List Api} (hd : (collect apis).dups = []) {cx : Ctx} (hcx : CtxFor apis cx) {ty : Ty}
    (ho : Occurs apis ty) (hi : cx.needsIndirect ty = false) (hb : ∀ t, ty ≠ .rustBox t) (hu : ∀ t, ty ≠ .uniquePtr t) :
    ¬ Owning apis ty := by
  have hp : cx.isPod ty = true → ¬ Owning apis ty := fun h => plain_not_owning hd ((isPod_iff hd hcx ho).1 h)
  cases ty <;> first
    | (rintro ⟨⟩; done)
    | exact absurd rfl (hb _)
    | exact absurd rfl (hu _)
    | (exact hp (by simp_all [Ctx.needsIndirect]))
    | simp [Ctx.needsIndirect] at hi

theorem not_owns {apis : List Api} {ty : Ty} {o : Obj} (hf : Fits apis ty (some o)) (hn : ¬ Owning apis ty) : o.owns = false := by
  cases h : o.owns
  · rfl
  · exact absurd (hf.owns _ ⟨o, rfl, h, rfl⟩) hn

/-- What is destroyed when Rust calls C++. -/
def cxxDrops (a : Arg) : List Nat := if a.keep then [] else destroyed a.val

theorem run_bitcopy (v : Option Obj) (k : Bool) (ty : Ty) :
    callOne (fun _ => [.use .wrap .param]) (fun _ => [.addrOf .ext .wrap]) (fun _ => [.bitcopy .recv .ext]) ⟨ty, v, k⟩ =
      some (v, if k then [] else destroyed v) := by
  simp [callOne, execAll, exec, start, State.set, callee, State.finish]

theorem run_moveDeref (v : Option Obj) (k : Bool) (ty : Ty) :
    callOne (fun _ => [.use .wrap .param]) (fun _ => [.addrOf .ext .wrap]) (fun _ => [.moveDeref .recv .ext]) ⟨ty, v, k⟩ =
      some (v, if k then [] else destroyed v) := by
  simp [callOne, execAll, exec, start, State.set, callee, State.finish]

theorem run_intoRaw (v : Option Obj) (k : Bool) (ty : Ty) :
    callOne (fun _ => []) (fun _ => [.intoRaw .ext .param]) (fun _ => [.fromRaw .recv .ext]) ⟨ty, v, k⟩ =
      some (v, if k then [] else destroyed v) := by
  simp [callOne, execAll, exec, start, State.set, callee, State.finish]

theorem run_use (v : Option Obj) (hv : ∀ o, v = some o → o.owns = false) (k : Bool) (ty : Ty) :
    callOne (fun _ => []) (fun _ => [.use .ext .param]) (fun _ => [.copy .recv .ext]) ⟨ty, v, k⟩ =
      some (v, if k then [] else destroyed v) := by
  cases v with
  | none => simp [callOne, execAll, exec, start, State.set, callee, State.finish]
  | some o => simp [callOne, execAll, exec, start, State.set, callee, State.finish, hv o rfl, destroyed]

theorem run_fn (v : Option Obj) (hv : ∀ o, v = some o → o.owns = false) (k : Bool) (ty : Ty) :
    callOne (fun _ => [.use .wrap .param]) (fun _ => [.use .ext .wrap]) (fun _ => [.copy .recv .ext]) ⟨ty, v, k⟩ =
      some (v, if k then [] else destroyed v) := by
  cases v with
  | none => simp [callOne, execAll, exec, start, State.set, callee, State.finish]
  | some o => simp [callOne, execAll, exec, start, State.set, callee, State.finish, hv o rfl, destroyed]

theorem callOne_congr {s s' p p' r r' : Ty → List Stmt} {ty : Ty} {v : Option Obj} {k : Bool} {x : Option (Option Obj × List Nat)}
    (h : callOne s p r ⟨ty, v, k⟩ = x) (h1 : s' ty = s ty) (h2 : p' ty = p ty) (h3 : r' ty = r ty) :
    callOne s' p' r' ⟨ty, v, k⟩ = x := by
  unfold callOne at h ⊢
  rw [h1, h2, h3]
  exact h

theorem cxx_arg {g : Generator} {apis : List Api} (h : Accepted g apis) {cxR cxC : Ctx} (hR : CtxFor apis cxR) (hC : CtxFor apis cxC)
    {a : Arg} (ho : Occurs apis a.ty) (hf : Fits apis a.ty a.val) :
    callOne (rustSetup cxR) (rustPass cxR) (cxxReceive cxC) a = some (a.val, cxxDrops a) := by
  have hs := indirect_same h.1 hR hC ho
  have hn := direct_plain h.1 hR ho
  obtain ⟨ty, v, keep⟩ := a
  simp only at ho hf hs hn
  have hd : cxR.needsIndirect ty = false → (∀ t, ty ≠ .rustBox t) → (∀ t, ty ≠ .uniquePtr t) → ∀ o, v = some o → o.owns = false :=
    fun h1 h2 h3 o ho => not_owns (ho ▸ hf) (hn h1 h2 h3)
  show _ = some (v, if keep then [] else destroyed v)
  have other (hb : ∀ t, ty ≠ .rustBox t) (hu : ∀ t, ty ≠ .uniquePtr t)
      (h1 : rustSetup cxR ty = if cxR.needsIndirect ty then [.use .wrap .param] else [])
      (h2 : rustPass cxR ty = if cxR.needsIndirect ty then [.addrOf .ext .wrap] else [.use .ext .param])
      (h3 : cxxReceive cxC ty = if cxC.needsIndirect ty then [.moveDeref .recv .ext] else [.copy .recv .ext]) :
      callOne (rustSetup cxR) (rustPass cxR) (cxxReceive cxC) ⟨ty, v, keep⟩ = some (v, if keep then [] else destroyed v) := by
    rw [← hs] at h3
    cases hi : cxR.needsIndirect ty <;> rw [hi] at h1 h2 h3
    · exact callOne_congr (run_use v (hd hi hb hu) keep ty) h1 h2 h3
    · exact callOne_congr (run_moveDeref v keep ty) h1 h2 h3
  cases ty with
  | rustBox t => exact callOne_congr (run_intoRaw v keep _) rfl rfl rfl
  | uniquePtr t => exact callOne_congr (run_intoRaw v keep _) rfl rfl rfl
  | rustVec t =>
    cases hi : cxR.needsIndirect (.rustVec t)
    · exact absurd (.vec t) (hn hi nofun nofun)
    · exact callOne_congr (run_bitcopy v keep _) (by simp only [rustSetup, hi, if_true]) rfl rfl
  | ref p l m t => exact callOne_congr (run_use v (hd rfl nofun nofun) keep _) rfl rfl rfl
  | ptr m t => exact callOne_congr (run_use v (hd rfl nofun nofun) keep _) rfl rfl rfl
  | str p l m t => exact callOne_congr (run_use v (hd rfl nofun nofun) keep _) rfl rfl rfl
  | sliceRef l m t => exact callOne_congr (run_use v (hd rfl nofun nofun) keep _) rfl rfl rfl
  | fn u as r th => exact callOne_congr (run_fn v (hd rfl nofun nofun) keep _) rfl rfl rfl
  | ident n =>
    by_cases hr : n.rust = "String"
    · cases hi : cxR.needsIndirect (.ident n)
      · exact absurd (.string n (.inl hr)) (hn hi nofun nofun)
      · exact callOne_congr (run_bitcopy v keep _) (by simp only [rustSetup, hi, if_true]) (by simp [rustPass, isRustString, hr])
          (by simp [cxxReceive, isRustString, hr])
    · exact other nofun nofun rfl (by simp [rustPass, isRustString, hr]) (by simp [cxxReceive, isRustString, hr])
  | sharedPtr t => exact other nofun nofun rfl rfl rfl
  | weakPtr t => exact other nofun nofun rfl rfl rfl
  | cxxVector t => exact other nofun nofun rfl rfl rfl
  | void => exact other nofun nofun rfl rfl rfl
  | array t n => exact other nofun nofun rfl rfl rfl

/-! ### Counting -/

theorem count_flatMap {α : Type} (f : α → List Nat) (n : Nat) : ∀ (l : List α) (i : Nat) (a : α), l[i]? = some a →
    (∀ j b, l[j]? = some b → j ≠ i → n ∉ f b) → (l.flatMap f).count n = (f a).count n := by
  intro l
  induction l with
  | nil => intro i a h; simp at h
  | cons b l ih =>
    intro i a h hn
    rw [List.flatMap_cons, List.count_append]
    cases i with
    | zero =>
      simp only [List.getElem?_cons_zero, Option.some.injEq] at h
      subst h
      have : (l.flatMap f).count n = 0 := by
        rw [List.count_eq_zero, List.mem_flatMap]
        rintro ⟨c, hc, hm⟩
        obtain ⟨j, hj⟩ := List.getElem?_of_mem hc
        exact hn (j + 1) c (by simpa using hj) (by simp) hm
      omega
    | succ i =>
      have h0 : (f b).count n = 0 := List.count_eq_zero.2 (hn 0 b (by simp) (by simp))
      rw [h0, ih i a (by simpa using h) fun j c hj hji => hn (j + 1) c (by simpa using hj) (by simpa using hji)]
      omega

theorem mem_destroyed {v : Option Obj} {n : Nat} : n ∈ destroyed v ↔ Owns v n := by
  cases v with
  | none => simp [destroyed, Owns]
  | some o =>
    show n ∈ (if o.owns = true then [o.id] else []) ↔ _
    constructor
    · intro h
      split at h
      · exact ⟨o, rfl, ‹_›, (List.mem_singleton.1 h).symm⟩
      · cases h
    · rintro ⟨o', h, ho, rfl⟩
      cases h
      rw [if_pos ho]
      exact List.mem_singleton.2 rfl

theorem count_destroyed {v : Option Obj} {n : Nat} (h : Owns v n) : (destroyed v).count n = 1 := by
  obtain ⟨o, rfl, ho, rfl⟩ := h
  simp [destroyed, ho]

/-- **C39**, a call of a C++ function from Rust.  For every accepted bridge and arguments of types that occur in it: the
objects are handed over and destroyed once.  Moving must not leave anything behind in the object moved from, whose
destructor does not run: see `residue_leaks`. -/
theorem cxx_call_balanced_partial {g : Generator} {apis : List Api} (h : Accepted g apis) {cxR cxC : Ctx} (hR : CtxFor apis cxR)
    (hC : CtxFor apis cxC) {as : List Arg} (ho : ∀ a ∈ as, Occurs apis a.ty) (hf : ∀ a ∈ as, Fits apis a.ty a.val)
    (hl : ∀ a ∈ as, ∀ n, ¬ Leaves a.val n) (hd : Distinct as) : ∃ r, rustCallsCxx cxR cxC as = some r ∧ Balanced as r := by
  refine ⟨_, call_of fun a ha => cxx_arg h hR hC (ho a ha) (hf a ha), rfl, ?_, ?_, fun a ha n hn => absurd hn (hl a ha n), ?_⟩
  all_goals simp only
  · intro a ha n hn hk
    obtain ⟨i, hi⟩ := List.getElem?_of_mem ha
    rw [count_flatMap cxxDrops n as i a hi, cxxDrops, hk, if_neg (by simp), count_destroyed hn]
    intro j b hj hji hm
    unfold cxxDrops at hm
    split at hm
    · cases hm
    · exact hji (hd.apart j i b a n hj hi (.inl (mem_destroyed.1 hm)) (.inl hn))
  · intro a ha n hn hk
    obtain ⟨i, hi⟩ := List.getElem?_of_mem ha
    rw [count_flatMap cxxDrops n as i a hi, cxxDrops, hk, if_pos rfl, List.count_nil]
    intro j b hj hji hm
    unfold cxxDrops at hm
    split at hm
    · cases hm
    · exact hji (hd.apart j i b a n hj hi (.inl (mem_destroyed.1 hm)) (.inl hn))
  · intro n hn
    obtain ⟨a, ha, hm⟩ := List.mem_flatMap.1 hn
    unfold cxxDrops at hm
    split at hm
    · cases hm
    · exact ⟨a, ha, .inl (mem_destroyed.1 hm)⟩

/-! ### Calls of Rust functions -/

/-- What is destroyed when C++ calls Rust. -/
def rustDrops (a : Arg) : List Nat := (if a.keep then [] else destroyed a.val) ++ destroyed (leftBehind a.val)

theorem run_take (v : Option Obj) (hl : leftBehind v = none) (k : Bool) (ty : Ty) :
    callOne (fun _ => []) (fun _ => [.addrOf .ext .param]) (fun _ => [.take .recv .ext]) ⟨ty, v, k⟩ =
      some (v, (if k then [] else destroyed v) ++ destroyed (leftBehind v)) := by
  rw [hl]
  simp [callOne, execAll, exec, start, State.set, callee, State.finish]

theorem run_takeWrap (v : Option Obj) (k : Bool) (ty : Ty) :
    callOne (fun _ => [.move .wrap .param]) (fun _ => [.addrOf .ext .wrap]) (fun _ => [.take .recv .ext]) ⟨ty, v, k⟩ =
      some (v, (if k then [] else destroyed v) ++ destroyed (leftBehind v)) := by
  simp [callOne, execAll, exec, start, State.set, callee, State.finish]

theorem run_read (v : Option Obj) (k : Bool) (ty : Ty) :
    callOne (fun _ => [.move .wrap .param]) (fun _ => [.addrOf .ext .wrap]) (fun _ => [.bitcopy .recv .ext]) ⟨ty, v, k⟩ =
      some (v, (if k then [] else destroyed v) ++ destroyed (leftBehind v)) := by
  simp [callOne, execAll, exec, start, State.set, callee, State.finish]

theorem run_release (v : Option Obj) (hl : leftBehind v = none) (k : Bool) (ty : Ty) :
    callOne (fun _ => []) (fun _ => [.release .ext .param]) (fun _ => [.fromRaw .recv .ext]) ⟨ty, v, k⟩ =
      some (v, (if k then [] else destroyed v) ++ destroyed (leftBehind v)) := by
  rw [hl]
  simp [callOne, execAll, exec, start, State.set, callee, State.finish]

theorem run_box (o : Obj) (hl : leftBehind (some o) = none) (k : Bool) (ty : Ty) :
    callOne (fun _ => []) (fun _ => [.release .ext .param]) (fun _ => [.boxFromRaw .recv .ext]) ⟨ty, some o, k⟩ =
      some (some o, (if k then [] else destroyed (some o)) ++ destroyed (leftBehind (some o))) := by
  rw [hl]
  simp [callOne, execAll, exec, start, State.set, callee, State.finish]

theorem run_copy (v : Option Obj) (hv : ∀ o, v = some o → o.owns = false) (hl : leftBehind v = none) (k : Bool) (ty : Ty) :
    callOne (fun _ => []) (fun _ => [.copy .ext .param]) (fun _ => [.use .recv .ext]) ⟨ty, v, k⟩ =
      some (v, (if k then [] else destroyed v) ++ destroyed (leftBehind v)) := by
  rw [hl]
  cases v with
  | none => simp [callOne, execAll, exec, start, State.set, callee, State.finish]
  | some o => simp [callOne, execAll, exec, start, State.set, callee, State.finish, hv o rfl, destroyed]

theorem mem_left {v : Option Obj} {n : Nat} : n ∈ destroyed (leftBehind v) ↔ Leaves v n := by
  rw [mem_destroyed]
  unfold leftBehind Owns Leaves
  constructor
  · rintro ⟨o, h, -, rfl⟩
    simp only [Option.bind_eq_some_iff, Option.map_eq_some_iff] at h
    obtain ⟨o', rfl, r, hr, rfl⟩ := h
    exact ⟨o', rfl, hr⟩
  · rintro ⟨o, rfl, hr⟩
    exact ⟨⟨n, true, none⟩, by simp [hr], rfl, rfl⟩

theorem left_none {v : Option Obj} (h : ∀ n, ¬ Leaves v n) : leftBehind v = none := by
  cases v with
  | none => rfl
  | some o =>
    cases hr : o.residue with
    | none => simp [leftBehind, hr]
    | some n => exact absurd ⟨o, rfl, hr⟩ (h n)

theorem rust_arg {g : Generator} {apis : List Api} (h : Accepted g apis) {cxR cxC : Ctx} (hR : CtxFor apis cxR) (hC : CtxFor apis cxC)
    {a : Arg} (ho : Occurs apis a.ty) (hf : Fits apis a.ty a.val) :
    callOne (cxxSetup cxC) (cxxPass cxC) (rustReceive cxR) a = some (a.val, rustDrops a) := by
  have hs := indirect_same h.1 hC hR ho
  have hn := direct_plain h.1 hC ho
  obtain ⟨ty, v, keep⟩ := a
  simp only at ho hf hs hn
  have hd : cxC.needsIndirect ty = false → (∀ t, ty ≠ .rustBox t) → (∀ t, ty ≠ .uniquePtr t) → ∀ o, v = some o → o.owns = false :=
    fun h1 h2 h3 o ho => not_owns (ho ▸ hf) (hn h1 h2 h3)
  have hp : cxC.needsIndirect ty = false → (∀ t, ty ≠ .rustBox t) → (∀ t, ty ≠ .uniquePtr t) → leftBehind v = none :=
    fun h1 h2 h3 => left_none fun n hl => hn h1 h2 h3 (hf.leaves n hl).1
  have hrt : Runtime ty → leftBehind v = none := fun hr => left_none fun n hl => (hf.leaves n hl).2 hr
  show _ = some (v, (if keep then [] else destroyed v) ++ destroyed (leftBehind v))
  have borrowed (hb : ∀ t, ty ≠ .rustBox t) (hu : ∀ t, ty ≠ .uniquePtr t) (hi : cxC.needsIndirect ty = false)
      (h2 : cxxSetup cxC ty = []) (h1 : cxxPass cxC ty = [.copy .ext .param]) (h3 : rustReceive cxR ty = [.use .recv .ext]) :
      callOne (cxxSetup cxC) (cxxPass cxC) (rustReceive cxR) ⟨ty, v, keep⟩ =
        some (v, (if keep then [] else destroyed v) ++ destroyed (leftBehind v)) :=
    callOne_congr (run_copy v (hd hi hb hu) (hp hi hb hu) keep ty) h2 h1 h3
  have other (hb : ∀ t, ty ≠ .rustBox t) (hu : ∀ t, ty ≠ .uniquePtr t) (hr : isRustString ty = false)
      (h2 : cxxPass cxC ty = if cxC.needsIndirect ty then [.addrOf .ext (if !isRustString ty && cxC.needsIndirect ty then .wrap else .param)]
        else [.copy .ext (if !isRustString ty && cxC.needsIndirect ty then .wrap else .param)])
      (h3 : rustReceive cxR ty = if cxR.needsIndirect ty then [.bitcopy .recv .ext] else [.use .recv .ext]) :
      callOne (cxxSetup cxC) (cxxPass cxC) (rustReceive cxR) ⟨ty, v, keep⟩ =
        some (v, (if keep then [] else destroyed v) ++ destroyed (leftBehind v)) := by
    rw [← hs] at h3
    rw [hr] at h2
    have h1 : cxxSetup cxC ty = if !isRustString ty && cxC.needsIndirect ty then [.move .wrap .param] else [] := rfl
    rw [hr] at h1
    cases hi : cxC.needsIndirect ty <;> rw [hi] at h1 h2 h3
    · exact borrowed hb hu hi h1 h2 h3
    · exact callOne_congr (run_read v keep ty) h1 h2 h3
  cases ty with
  | rustBox t =>
    cases v with
    | none => exact absurd rfl (hf.box t rfl)
    | some o => exact callOne_congr (run_box o (hrt trivial) keep _) rfl rfl rfl
  | uniquePtr t => exact callOne_congr (run_release v (hrt trivial) keep _) rfl rfl rfl
  | rustVec t =>
    cases hi : cxC.needsIndirect (.rustVec t)
    · exact absurd (.vec t) (hn hi nofun nofun)
    · refine callOne_congr (run_takeWrap v keep _) ?_ ?_ rfl
      · simp [cxxSetup, hi, isRustString]
      · simp [cxxPass, hi, isRustString]
  | ref p l m t => exact borrowed nofun nofun rfl rfl rfl rfl
  | ptr m t => exact borrowed nofun nofun rfl rfl rfl rfl
  | str p l m t => exact borrowed nofun nofun rfl rfl rfl rfl
  | sliceRef l m t => exact borrowed nofun nofun rfl rfl rfl rfl
  | fn u as r th => exact borrowed nofun nofun rfl rfl rfl rfl
  | ident n =>
    by_cases hr : n.rust = "String"
    · cases hi : cxC.needsIndirect (.ident n)
      · exact absurd (.string n (.inl hr)) (hn hi nofun nofun)
      · refine callOne_congr (run_take v (hrt hr) keep _) ?_ ?_ ?_
        · simp [cxxSetup, isRustString, hr]
        · simp [cxxPass, hi, isRustString, hr]
        · simp [rustReceive, isRustString, hr]
    · exact other nofun nofun (by simp [isRustString, hr]) rfl (by simp [rustReceive, isRustString, hr])
  | sharedPtr t => exact other nofun nofun rfl rfl rfl
  | weakPtr t => exact other nofun nofun rfl rfl rfl
  | cxxVector t => exact other nofun nofun rfl rfl rfl
  | void => exact other nofun nofun rfl rfl rfl
  | array t n => exact other nofun nofun rfl rfl rfl

theorem mem_rustDrops {a : Arg} {n : Nat} (h : n ∈ rustDrops a) : Owns a.val n ∨ Leaves a.val n := by
  rcases List.mem_append.1 h with h | h
  · split at h
    · cases h
    · exact .inl (mem_destroyed.1 h)
  · exact .inr (mem_left.1 h)

/-- **C39**, a call of a Rust function from C++, directly or through a function pointer.  For every accepted bridge and
arguments of types that occur in it: the objects are handed over and destroyed once, and so is what moving them leaves
behind. -/
theorem rust_call_balanced {g : Generator} {apis : List Api} (h : Accepted g apis) {cxR cxC : Ctx} (hR : CtxFor apis cxR)
    (hC : CtxFor apis cxC) {as : List Arg} (ho : ∀ a ∈ as, Occurs apis a.ty) (hf : ∀ a ∈ as, Fits apis a.ty a.val)
    (hd : Distinct as) : ∃ r, cxxCallsRust cxC cxR as = some r ∧ Balanced as r := by
  have count : ∀ {i : Nat} {a : Arg} {n : Nat}, as[i]? = some a → Owns a.val n ∨ Leaves a.val n →
      (as.flatMap rustDrops).count n = (rustDrops a).count n := fun {i a n} hi hn =>
    count_flatMap rustDrops n as i a hi fun j b hj hji hm => hji (hd.apart j i b a n hj hi (mem_rustDrops hm) hn)
  refine ⟨_, call_of fun a ha => rust_arg h hR hC (ho a ha) (hf a ha), rfl, ?_, ?_, ?_, ?_⟩
  all_goals simp only
  · intro a ha n hn hk
    obtain ⟨i, hi⟩ := List.getElem?_of_mem ha
    rw [count hi (.inl hn), rustDrops, hk, if_neg (by simp), List.count_append, count_destroyed hn,
      List.count_eq_zero.2 fun hm => hd.residue a ha n ⟨hn, mem_left.1 hm⟩]
  · intro a ha n hn hk
    obtain ⟨i, hi⟩ := List.getElem?_of_mem ha
    rw [count hi (.inl hn), rustDrops, hk, if_pos rfl, List.nil_append,
      List.count_eq_zero.2 fun hm => hd.residue a ha n ⟨hn, mem_left.1 hm⟩]
  · intro a ha n hn
    obtain ⟨i, hi⟩ := List.getElem?_of_mem ha
    rw [count hi (.inr hn), rustDrops, List.count_append, count_destroyed (mem_destroyed.1 (mem_left.2 hn)),
      List.count_eq_zero.2 ?_]
    intro hm
    split at hm
    · cases hm
    · exact hd.residue a ha n ⟨mem_destroyed.1 hm, hn⟩
  · intro n hn
    obtain ⟨a, ha, hm⟩ := List.mem_flatMap.1 hn
    exact ⟨a, ha, mem_rustDrops hm⟩

/-! ### Return values -/

/-- **C60**, a C++ function called from Rust.  The value it returns is handed to the caller and not destroyed. -/
theorem cxx_return {g : Generator} {apis : List Api} (h : Accepted g apis) {cxR cxC : Ctx} (hR : CtxFor apis cxR)
    (hC : CtxFor apis cxC) (throws : Bool) {ty : Ty} (ho : Occurs apis ty) {v : Option Obj} (hf : Fits apis ty v) :
    giveBack (cxxReturn cxC throws ty) (rustTakeReturn cxR throws ty) v = some (v, []) := by
  have hs := indirect_same h.1 hC hR ho
  have hn := direct_plain h.1 hC ho
  have hd : cxC.needsIndirect ty = false → (∀ t, ty ≠ .rustBox t) → (∀ t, ty ≠ .uniquePtr t) → ∀ o, v = some o → o.owns = false :=
    fun h1 h2 h3 o ho => not_owns (ho ▸ hf) (hn h1 h2 h3)
  have other (hb : ∀ t, ty ≠ .rustBox t) (hu : ∀ t, ty ≠ .uniquePtr t)
      (h1 : cxxReturn cxC throws ty = if throws || cxC.needsIndirect ty then [.store .wrap .param] else [.copy .ext .param])
      (h2 : rustTakeReturn cxR throws ty = (if throws || cxR.needsIndirect ty then [.assumeInit .ext .wrap] else []) ++ [.use .recv .ext]) :
      giveBack (cxxReturn cxC throws ty) (rustTakeReturn cxR throws ty) v = some (v, []) := by
    rw [h1, h2, ← hs]
    cases hi : throws || cxC.needsIndirect ty
    · have hd := hd (Bool.or_eq_false_iff.1 hi).2 hb hu
      cases v with
      | none => simp [giveBack, execAll, exec, start, State.set, State.finish, destroyed]
      | some o => simp [giveBack, execAll, exec, start, State.set, State.finish, destroyed, hd o rfl]
    · simp [giveBack, execAll, exec, start, State.set, State.finish]
  cases ty with
  | rustBox t =>
    cases v with
    | none => exact absurd rfl (hf.box t rfl)
    | some o => cases throws <;>
        simp [giveBack, cxxReturn, rustTakeReturn, Ctx.needsIndirect, execAll, exec, start, State.set, State.finish, destroyed]
  | uniquePtr t => cases throws <;>
      simp [giveBack, cxxReturn, rustTakeReturn, Ctx.needsIndirect, execAll, exec, start, State.set, State.finish, destroyed]
  | _ => exact other nofun nofun rfl rfl

/-- **C60**, a Rust function called from C++.  The value it returns is handed to the caller and not destroyed.  If moving
leaves something behind, that is lost: see `residue_leaks`. -/
theorem rust_return_partial {g : Generator} {apis : List Api} (h : Accepted g apis) {cxR cxC : Ctx} (hR : CtxFor apis cxR)
    (hC : CtxFor apis cxC) (throws : Bool) {ty : Ty} (ho : Occurs apis ty) {v : Option Obj} (hf : Fits apis ty v)
    (_hl : ∀ n, ¬ Leaves v n) :
    giveBack (rustReturn cxR throws ty) (cxxTakeReturn cxC throws ty) v = some (v, []) := by
  have hs := indirect_same h.1 hC hR ho
  have hn := direct_plain h.1 hC ho
  have hd : cxC.needsIndirect ty = false → (∀ t, ty ≠ .rustBox t) → (∀ t, ty ≠ .uniquePtr t) → ∀ o, v = some o → o.owns = false :=
    fun h1 h2 h3 o ho => not_owns (ho ▸ hf) (hn h1 h2 h3)
  have other (hb : ∀ t, ty ≠ .rustBox t) (hu : ∀ t, ty ≠ .uniquePtr t)
      (h1 : rustReturn cxR throws ty = [.use .ext .param] ++ if throws || cxR.needsIndirect ty then [.store .wrap .ext] else [])
      (h2 : cxxTakeReturn cxC throws ty = if throws || cxC.needsIndirect ty then [.moveRepr .recv .wrap] else [.copy .recv .ext]) :
      giveBack (rustReturn cxR throws ty) (cxxTakeReturn cxC throws ty) v = some (v, []) := by
    rw [h1, h2, ← hs]
    cases hi : throws || cxC.needsIndirect ty
    · have hd := hd (Bool.or_eq_false_iff.1 hi).2 hb hu
      cases v with
      | none => simp [giveBack, execAll, exec, start, State.set, State.finish]
      | some o => simp [giveBack, execAll, exec, start, State.set, State.finish, hd o rfl]
    · simp [giveBack, execAll, exec, start, State.set, State.finish]
  cases ty with
  | rustBox t => cases throws <;>
      simp [giveBack, rustReturn, cxxTakeReturn, Ctx.needsIndirect, execAll, exec, start, State.set, State.finish]
  | uniquePtr t => cases throws <;>
      simp [giveBack, rustReturn, cxxTakeReturn, Ctx.needsIndirect, execAll, exec, start, State.set, State.finish]
  | _ => exact other nofun nofun rfl rfl

/-! ### Examples -/

/-- A call of `f` of `demo`: `P` by value, `Q`, a string, a box and a function. -/
def demoArgs : List Arg :=
  [⟨.named "P", some ⟨0, false, none⟩, false⟩, ⟨.named "Q", some ⟨1, true, none⟩, false⟩,
   ⟨.named "String", some ⟨2, true, none⟩, true⟩, ⟨.rustBox (.named "R"), some ⟨3, true, none⟩, false⟩,
   ⟨.fn false [.named "Q"] (some (.named "u8")) false, some ⟨4, false, none⟩, false⟩]

theorem demo_call : rustCallsCxx (context demo 3) (context demo 3) demoArgs = some ⟨demoArgs.map (·.val), [1, 3]⟩ ∧
    cxxCallsRust (context demo 3) (context demo 3) demoArgs = some ⟨demoArgs.map (·.val), [1, 3]⟩ := by decide +kernel

theorem demo_distinct : Distinct demoArgs := by
  have none : ∀ a ∈ demoArgs, ∀ n, ¬ Leaves a.val n := by
    intro a ha n
    simp only [demoArgs, List.mem_cons, List.not_mem_nil, or_false] at ha
    rcases ha with rfl | rfl | rfl | rfl | rfl <;> rintro ⟨o, ho, hr⟩ <;> cases ho <;> cases hr
  have ids : ∀ (i : Nat) (a : Arg) (n : Nat), demoArgs[i]? = some a → Owns a.val n ∨ Leaves a.val n → n = i := by
    intro i a n hi h
    rcases h with ⟨o, ho, hw, rfl⟩ | h
    · match i, hi with
      | 0, hi | 1, hi | 2, hi | 3, hi | 4, hi => cases hi; cases ho; rfl
      | n + 5, hi => simp [demoArgs] at hi
    · exact absurd h (none a (List.mem_of_getElem? hi) n)
  exact ⟨fun i j a b n hi hj ha hb => (ids i a n hi ha).symm.trans (ids j b n hj hb), fun a ha n h => none a ha n h.2⟩

/-- The hypotheses hold of it. -/
example : Accepted .build demo ∧ CtxFor demo (context demo 3) ∧ (∀ a ∈ demoArgs, Occurs demo a.ty) ∧
    (∀ a ∈ demoArgs, Fits demo a.ty a.val) ∧ (∀ a ∈ demoArgs, ∀ n, ¬ Leaves a.val n) ∧ Distinct demoArgs := by
  have none : ∀ a ∈ demoArgs, ∀ n, ¬ Leaves a.val n := by
    intro a ha n
    simp only [demoArgs, List.mem_cons, List.not_mem_nil, or_false] at ha
    rcases ha with rfl | rfl | rfl | rfl | rfl <;> rintro ⟨o, ho, hr⟩ <;> cases ho <;> cases hr
  have string : Owning demo (.named "String") := .string _ (.inl rfl)
  have q : Owning demo (.named "Q") :=
    .field _ (by decide +kernel) ⟨[], nm "Q", [], [⟨nm "x", .named "String"⟩]⟩ (.tail _ (.tail _ (.tail _ (.head _)))) rfl _ (.head _) string
  refine ⟨demo_accepted.1, demo_context, ?_, ?_, none, demo_distinct⟩
  · intro a ha
    have : ∃ x, x ∈ [(⟨nm "a", .named "P"⟩ : Var), ⟨nm "b", .named "Q"⟩, ⟨nm "c", .named "String"⟩, ⟨nm "d", .rustBox (.named "R")⟩,
        ⟨nm "e", .fn false [.named "Q"] (some (.named "u8")) false⟩] ∧ x.ty = a.ty := by
      simp only [demoArgs, List.mem_cons, List.not_mem_nil, or_false] at ha
      rcases ha with rfl | rfl | rfl | rfl | rfl <;> simp
    obtain ⟨x, hx, he⟩ := this
    rw [← he]
    exact arg_occurs (.inl (.tail _ (.tail _ (.tail _ (.tail _ (.head _)))))) hx
  · intro a ha
    refine ⟨?_, fun n hn => absurd hn (none a ha n), ?_⟩ <;>
      simp only [demoArgs, List.mem_cons, List.not_mem_nil, or_false] at ha <;>
      rcases ha with rfl | rfl | rfl | rfl | rfl
    · rintro n ⟨o, ho, hw, -⟩; cases ho; cases hw
    · intro n hn; exact q
    · intro n hn; exact string
    · intro n hn; exact .box _
    · rintro n ⟨o, ho, hw, -⟩; cases ho; cases hw
    all_goals intro t ht <;> simp

/-- A C++ function that takes by value a type of C++ that promises to be relocatable. -/
def relocatable : List Api := [.typeAlias ⟨[], nm "T", []⟩, cfn [.named "T"] none]

/-- The full **C39** is false of the code: gen/src/write.rs:874-875 moves the argument with the move constructor of its
type, but the destructor of the object moved from never runs (macro/src/expand.rs:621-623 made it `MaybeUninit`).  If
objects moved from still own something, as a type with `IsRelocatable = std::true_type` may, that is lost. -/
theorem residue_leaks : Accepted .build relocatable ∧ Accepted .macro relocatable ∧ CtxFor relocatable (context relocatable 1) ∧
    ∃ a : Arg, Occurs relocatable a.ty ∧ Fits relocatable a.ty a.val ∧ Distinct [a] ∧ Leaves a.val 8 ∧
      rustCallsCxx (context relocatable 1) (context relocatable 1) [a] = some ⟨[a.val], [7]⟩ := by
  have owning : Owning relocatable (.named "T") := by
    refine .extern _ (by decide +kernel) ?_ ?_
    · intro s hs; simp [relocatable, cfn] at hs
    · intro s hs; simp [relocatable, cfn] at hs
  refine ⟨by decide +kernel, by decide +kernel, context_for (by decide +kernel), ⟨.named "T", some ⟨7, true, some 8⟩, false⟩, ?_, ?_, ?_,
    ⟨_, rfl, rfl⟩, by decide +kernel⟩
  · exact arg_occurs (a := ⟨nm "a", .named "T"⟩) (.inl (.tail _ (.head _))) (.head _)
  · exact ⟨fun _ _ => owning, fun _ _ => ⟨owning, by simp [Runtime, Ty.named]⟩, fun _ _ => by simp⟩
  · refine ⟨fun i j a b n hi hj _ _ => ?_, ?_⟩
    · match i, j, hi, hj with
      | 0, 0, _, _ => rfl
    · rintro a ha n ⟨⟨o, ho, -, rfl⟩, o', ho', hr⟩
      simp at ha
      subst ha
      cases ho
      cases ho'
      cases hr

end Verif.Shim
