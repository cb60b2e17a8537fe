import Verif.Call.Lemmas
/-!
# Running fronts and backs
-/
namespace Verif.Call
open Verif.Syntax Verif.Types Verif.Abi Verif.Mangle

/-- What comes back from a back whose out-pointer, if it has one, points to `y`. -/
def reply (throws indirect : Bool) (y : Name) : Outcome → Option Wire
  | .panic => none
  | .ret v =>
    if throws then some (.flag none (if indirect then some (y, v) else none))
    else if indirect then some (.plain .unit (some (y, v))) else some (.plain v none)
  | .throw m => if throws then some (.flag (some m) none) else none

/-- The values for the out-pointer. -/
def outValue (indirect : Bool) (y : Name) : List V := if indirect then [.slot y] else []

/-- The result of a front. -/
def frontResult (throws indirect : Bool) (y : Name) : FrontResult :=
  if throws then .checked (if indirect then some y else none)
  else if indirect then .out y else .direct

/-- The result of a back. -/
def backResult (throws indirect : Bool) (x : Name) : BackResult :=
  if throws then .caught (if indirect then some x else none)
  else if indirect then .store x else .direct

theorem answer_reply {env : Env} {throws indirect : Bool} {x y : Name}
    (h : indirect = true → env.get x = some (.slot y)) (o : Outcome) :
    answer env (backResult throws indirect x) o = some (reply throws indirect y o) := by
  cases throws <;> cases indirect <;> cases o <;> simp [answer, backResult, reply, h]

/-- Both sides agree on what is returned how. -/
theorem front_reply {w : World} {ds : List (Symbol × Def)} {f : Front} {b : Back} {vs us vs' : List V} {t : FnName}
    {env env' : Env} {throws indirect hasResult : Bool} {y : Name} (h1 : bind f.params vs = some env)
    (h2 : declare f.lang env f.lets = some env') (h3 : env'.getAll f.passes = some us)
    (h4 : link ds f.symbol = some (.back b))
    (h5 : runBack w b us = some ([(t, vs')], reply throws indirect y (w t vs')))
    (h6 : f.result = frontResult throws indirect y) (h7 : throws = true → indirect = hasResult) :
    runFront w ds f vs = some ([(t, vs')], delivered throws hasResult (w t vs')) := by
  simp only [runFront, h1, h2, h3, h4, h5, h6]
  cases throws
  · cases indirect <;> cases w t vs' <;> simp [reply, frontResult, conclude, delivered]
  · have := h7 rfl
    subst this
    cases indirect <;> cases w t vs' <;> simp [reply, frontResult, conclude, delivered]

theorem indirectReturn_eq (cx : Ctx) (ret : Option Ty) (throws : Bool) :
    indirectReturnR cx ret throws = indirectReturnC cx ret throws := by
  cases ret <;> rfl

theorem indirect_throws (cx : Ctx) (ret : Option Ty) : indirectReturnC cx ret true = ret.isSome := by
  cases ret <;> simp [indirectReturnC]

theorem outName_nodup {vars : List Name} {x : Name} {indirect : Bool} (h : vars.Nodup) (hx : x ∉ vars) :
    (vars ++ outName indirect x).Nodup := by
  cases indirect
  · simpa [outName] using h
  · simp only [outName, if_true]
    rw [List.nodup_append]
    exact ⟨h, by simp, by
      intro a ha b hb hab
      simp only [List.mem_singleton] at hb
      subst hb; subst hab
      exact hx ha⟩

theorem out_length (indirect : Bool) (x y : Name) : (outName indirect x).length = (outValue indirect y).length := by
  cases indirect <;> rfl

/-- A C++ shim calls its function. -/
theorem back_cxx (w : World) {vars : List Name} {n : Name} (t : FnName) (throws indirect : Bool) {vals : List V}
    (y : Name) (hnd : vars.Nodup) (hl : vars.length = vals.length) (hr : "return$" ∉ vars) (hn : n ∉ vars)
    (ht : "throw$" ∉ vars) (hnr : n ≠ "return$") (hnt : throws = true → n ≠ "throw$") :
    runBack w
      { lang := .cxx, params := vars ++ outName indirect "return$"
        lets := (n, .fn t) :: (if throws then [("throw$", .uninit)] else [])
        callee := .var n, passes := vars, result := backResult throws indirect "return$" }
      (vals ++ outValue indirect y) = some ([(t, vals)], reply throws indirect y (w t vals)) := by
  obtain ⟨env, hb, hg, hm⟩ := bind_some (outName_nodup (indirect := indirect) hnd hr)
    (vs := vals ++ outValue indirect y) (by simp [hl, out_length indirect "return$" y])
  obtain ⟨hg1, hg2⟩ := getAll_split hg hl
  have hnout : n ∉ outName indirect "return$" := by
    cases indirect <;> simp [outName, hnr]
  have htout : "throw$" ∉ outName indirect "return$" := by
    cases indirect <;> simp [outName]
  obtain ⟨env', hd, hd1, hd2⟩ := declare_cxx (env := env)
    (lets := (n, Rhs.fn t) :: (if throws then [("throw$", .uninit)] else []))
    (by
      cases throws with
      | false => simp
      | true => simpa using hnt rfl)
    (by
      intro x hx
      rw [hm, List.mem_append, not_or]
      simp only [List.map_cons, List.mem_cons] at hx
      rcases hx with rfl | hx
      · exact ⟨hn, hnout⟩
      · cases throws
        · simp at hx
        · simp at hx; subst hx; exact ⟨ht, htout⟩)
    (by
      intro p hp
      simp only [List.mem_cons] at hp
      rcases hp with rfl | hp
      · simp [evalRhs]
      · cases throws
        · simp at hp
        · simp at hp; subst hp; simp [evalRhs])
  have hv : env'.getAll vars = some vals := by
    rw [← hg1]
    exact getAll_congr (fun x hx => hd1 x (by rw [hm]; exact List.mem_append_left _ hx))
  have hf : env'.get n = some (.code t) := by
    have := hd2 (n, .fn t) (by simp)
    simpa [evalRhs] using this
  simp only [runBack, hb, hd, hv, invoked, hf]
  rw [answer_reply (y := y)]
  · rfl
  · intro hi
    subst hi
    rw [hd1 _ (by rw [hm]; exact List.mem_append_right _ (by simp [outName]))]
    exact one_getAll hg2

theorem invoked_target {env : Env} (target : Option FnName) (q : FnName) {vars : List Name} {vals : List V}
    (hnd : vars.Nodup) (hl : vars.length = vals.length) (h : target = none → env.get "__extern" = some (.code q)) :
    invoked env (rustCallee vars target) vals =
      some (target.getD q, vals) := by
  cases target with
  | none => simp [rustCallee, invoked, h rfl]
  | some t =>
    obtain ⟨env2, hb2, hg5, _⟩ := bind_some hnd hl
    simp [rustCallee, invoked, hb2, hg5]

/-- A Rust shim calls its function. -/
theorem back_rust (w : World) (cx : Ctx) (target : Option FnName) (q : FnName) (receiver : Bool)
    {args : List (Name × Ty)} {ret : Option Ty} {throws : Bool} {vals : List V} (y : Name)
    (hnd : ((if receiver then ["__self"] else []) ++ args.map (·.1)).Nodup)
    (hl : ((if receiver then ["__self"] else []) ++ args.map (·.1)).length = vals.length)
    (hr : "__return" ∉ args.map (·.1)) (he : target = none → "__extern" ∉ args.map (·.1)) :
    runBack w (rustBackImpl cx target receiver args ret throws)
      (vals ++ outValue (indirectReturnR cx ret throws) y ++ (if target.isNone then [.code q] else [])) =
    some ([(target.getD q, vals)], reply throws (indirectReturnR cx ret throws) y (w (target.getD q) vals)) := by
  generalize hvars : (if receiver then ["__self"] else []) ++ args.map (·.1) = vars at hnd hl
  have hr' : "__return" ∉ vars := by
    subst hvars
    cases receiver <;> simp at hr ⊢ <;> exact hr
  have he' : target = none → "__extern" ∉ vars := by
    intro ht
    have he := he ht
    subst hvars
    cases receiver <;> simp at he ⊢ <;> exact he
  have hres : (if throws then BackResult.caught (if ret.isSome then some "__return" else none)
      else if indirectReturnR cx ret throws then .store "__return" else .direct) =
      backResult throws (indirectReturnR cx ret throws) "__return" := by
    cases throws
    · rfl
    · rw [indirectReturn_eq, indirect_throws]; rfl
  unfold rustBackImpl
  simp only [hvars, hres]
  generalize indirectReturnR cx ret throws = indirect at *
  have h1 := outName_nodup (indirect := indirect) hnd hr'
  have h2 : (vars ++ outName indirect "__return" ++ (if target.isNone then ["__extern"] else [])).Nodup := by
    cases target with
    | some t => simpa using h1
    | none =>
      simp only [Option.isNone_none, if_true]
      rw [List.nodup_append]
      refine ⟨h1, by simp, ?_⟩
      intro a ha b hb hab
      simp only [List.mem_singleton] at hb
      subst hb; subst hab
      rcases List.mem_append.1 ha with ha | ha
      · exact he' rfl ha
      · cases indirect <;> simp [outName] at ha
  obtain ⟨env, hb, hg, hm⟩ := bind_some h2
    (vs := vals ++ outValue indirect y ++ (if target.isNone then [.code q] else []))
    (by cases target <;> simp [hl, out_length indirect "__return" y])
  obtain ⟨hg1, hg2⟩ := getAll_split hg (by simp [hl, out_length indirect "__return" y])
  obtain ⟨hg3, hg4⟩ := getAll_split hg1 hl
  have hinv := invoked_target (env := env) target q hnd hl (by
    intro ht
    subst ht
    exact one_getAll (v := .code q) (by simpa using hg2))
  simp only [runBack, hb, declare, hg3]
  rw [hinv]
  simp only []
  rw [answer_reply (y := y)]
  · rfl
  · intro hi
    subst hi
    exact one_getAll hg4

/-! ### Fronts in C++ -/

theorem dollar_ne {x y : Name} (h : x ≠ y) : x ++ "$" ≠ y ++ "$" := by
  intro e
  have := congrArg String.toList e
  simp only [String.toList_append, List.append_cancel_right_eq] at this
  exact h (String.toList_injective this)

theorem dollar_lexical {x y : Name} (h : '$' ∉ y.toList) : x ++ "$" ≠ y := by
  intro e
  subst e
  simp at h

theorem getAll_map {α : Type} (env : Env) (g : α → Name) {as : List α} {vs : List V} (hl : as.length = vs.length) :
    env.getAll (as.map g) = some vs ↔ ∀ p ∈ as.zip vs, env.get (g p.1) = some p.2 := by
  induction as generalizing vs with
  | nil => cases vs with
    | nil => simp [Env.getAll]
    | cons => cases hl
  | cons a as ih => cases vs with
    | nil => cases hl
    | cons v vs =>
      have ih := ih (vs := vs) (by simpa using hl)
      simp only [List.map_cons, Env.getAll, List.zip_cons_cons, List.mem_cons, forall_eq_or_imp]
      cases h1 : env.get (g a) with
      | none => simp
      | some u =>
        cases h2 : env.getAll (as.map g) with
        | none =>
          rw [h2] at ih
          simp only [reduceCtorEq, false_iff, not_and]
          exact fun _ h => absurd (ih.2 h) (by simp)
        | some us =>
          rw [h2] at ih
          simp only [Option.some.injEq, List.cons.injEq] at ih ⊢
          rw [ih]

theorem passArg_cases (cx : Ctx) {args : List (Name × Ty)} {a : Name × Ty} (ha : a ∈ args) :
    passArg cx a = a.1 ∨ (passArg cx a = a.1 ++ "$" ∧ (a.1 ++ "$", .var a.1) ∈ dropLets cx args) := by
  obtain ⟨x, t⟩ := a
  unfold passArg
  split
  · exact .inl rfl
  · exact .inl rfl
  · split
    · rename_i h
      refine .inr ⟨rfl, ?_⟩
      unfold dropLets
      exact List.mem_map.2 ⟨(x, t), List.mem_filter.2 ⟨ha, h⟩, rfl⟩
    · exact .inl rfl

/-- What a C++ shim for a Rust function passes on. -/
theorem front_passes (cx : Ctx) (name : FnName) (s : Symbol) (receiver pointer : Bool) {args : List (Name × Ty)}
    {ret : Option Ty} {throws : Bool} {self vals fp : List V} (hs : self.length = (if receiver then 1 else 0))
    (hl : args.length = vals.length) (hfp : fp.length = (if pointer then 1 else 0)) (hnd : (args.map (·.1)).Nodup)
    (hlex : ∀ x ∈ args.map (·.1), '$' ∉ x.toList) (hthis : receiver = true → "this" ∉ args.map (·.1))
    (hret : "return" ∉ args.map (·.1)) (hext : pointer = true → "extern" ∉ args.map (·.1))
    (herr : throws = true → ∀ a ∈ args, cx.needsIndirect a.2 = true → a.1 ≠ "error") :
    ∃ env env', bind (rustFrontImpl cx name s receiver args ret throws pointer).params (self ++ vals ++ fp) = some env ∧
      declare .cxx env (rustFrontImpl cx name s receiver args ret throws pointer).lets = some env' ∧
      env'.getAll (rustFrontImpl cx name s receiver args ret throws pointer).passes =
        some (self ++ vals ++ outValue (indirectReturnC cx ret throws) "return$" ++ fp) := by
  simp only [rustFrontImpl]
  generalize indirectReturnC cx ret throws = indirect
  generalize hthis' : (if receiver then ["this"] else ([] : List Name)) = this
  generalize hptr' : (if pointer then ["extern$"] else ([] : List Name)) = ptr
  have hthisl : this.length = self.length := by subst hthis'; rw [hs]; cases receiver <;> rfl
  have hptrl : ptr.length = fp.length := by subst hptr'; rw [hfp]; cases pointer <;> rfl
  have hnd' : (this ++ args.map (·.1) ++ ptr).Nodup := by
    rw [List.nodup_append, List.nodup_append]
    refine ⟨⟨by subst hthis'; cases receiver <;> simp, hnd, ?_⟩, by subst hptr'; cases pointer <;> simp, ?_⟩
    · intro a ha b hb hab
      subst hab; subst hthis'
      cases receiver
      · simp at ha
      · simp at ha; subst ha; exact hthis rfl hb
    · intro a ha b hb hab
      subst hab
      have hb' : a = "extern$" := by
        subst hptr'
        cases pointer <;> simp at hb
        exact hb
      rcases List.mem_append.1 ha with ha | ha
      · subst hthis'
        cases receiver <;> simp at ha
        rw [ha] at hb'
        simp at hb'
      · exact hlex a ha (by rw [hb']; decide)
  obtain ⟨env, hb, hg, hm⟩ := bind_some hnd' (vs := self ++ vals ++ fp) (by simp [hthisl, hl, hptrl])
  obtain ⟨hg1, hg2⟩ := getAll_split hg (by simp [hthisl, hl])
  obtain ⟨hg3, hg4⟩ := getAll_split hg1 hthisl
  -- the names of the local variables
  have hdrop : ∀ x ∈ (dropLets cx args).map (·.1), ∃ a ∈ args, x = a.1 ++ "$" ∧ cx.needsIndirect a.2 = true := by
    intro x hx
    obtain ⟨p, hp, rfl⟩ := List.mem_map.1 hx
    unfold dropLets at hp
    obtain ⟨a, ha, rfl⟩ := List.mem_map.1 hp
    obtain ⟨ha, hc⟩ := List.mem_filter.1 ha
    simp only [Bool.and_eq_true] at hc
    exact ⟨a, ha, rfl, hc.2⟩
  have hdropnd : ((dropLets cx args).map (·.1)).Nodup := by
    unfold dropLets
    rw [List.map_map, List.Nodup, List.pairwise_map]
    rw [List.Nodup, List.pairwise_map] at hnd
    exact (hnd.filter _).imp (fun h => dollar_ne h)
  have hmemenv : ∀ x, x ∈ env.map (·.1) → x = "this" ∨ x ∈ args.map (·.1) ∨ (pointer = true ∧ x = "extern$") := by
    intro x hx
    rw [hm, List.mem_append, List.mem_append] at hx
    rcases hx with (hx | hx) | hx
    · subst hthis'
      cases receiver <;> simp at hx
      exact .inl hx
    · exact .inr (.inl hx)
    · subst hptr'
      cases pointer <;> simp at hx
      exact .inr (.inr ⟨rfl, hx⟩)
  obtain ⟨env', hd, hd1, hd2⟩ := declare_cxx (env := env)
    (lets := dropLets cx args ++ (outName indirect "return$").map (·, Rhs.uninit) ++
      (if throws then [("error$", .uninit)] else []))
    (by
      rw [List.map_append, List.map_append, List.nodup_append, List.nodup_append]
      refine ⟨⟨hdropnd, by cases indirect <;> simp [outName], ?_⟩, by cases throws <;> simp, ?_⟩
      · intro a ha b hb hab
        subst hab
        have hb' : a = "return$" := by
          cases indirect <;> simp [outName] at hb
          exact hb
        obtain ⟨c, hc, he, _⟩ := hdrop a ha
        rw [hb'] at he
        have : c.1 ≠ "return" := fun h => hret (h ▸ List.mem_map.2 ⟨c, hc, rfl⟩)
        exact dollar_ne this (he.symm.trans rfl)
      · intro a ha b hb hab
        subst hab
        have hb' : throws = true ∧ a = "error$" := by
          cases throws <;> simp at hb
          exact ⟨rfl, hb⟩
        rcases List.mem_append.1 ha with ha | ha
        · obtain ⟨c, hc, he, hi⟩ := hdrop a ha
          rw [hb'.2] at he
          exact dollar_ne (herr hb'.1 c hc hi) (he.symm.trans rfl)
        · cases indirect <;> simp [outName] at ha
          rw [ha] at hb'
          simp at hb')
    (by
      intro x hx hxe
      rw [List.map_append, List.map_append, List.mem_append, List.mem_append] at hx
      have hx' : ∃ z : Name, x = z ++ "$" ∧ (z ∈ args.map (·.1) ∨ z = "return" ∨ z = "error") := by
        rcases hx with (hx | hx) | hx
        · obtain ⟨c, hc, he, _⟩ := hdrop x hx
          exact ⟨c.1, he, .inl (List.mem_map.2 ⟨c, hc, rfl⟩)⟩
        · cases indirect <;> simp [outName] at hx
          exact ⟨"return", hx, .inr (.inl rfl)⟩
        · cases throws <;> simp at hx
          exact ⟨"error", hx, .inr (.inr rfl)⟩
      obtain ⟨z, hz, hz'⟩ := hx'
      rcases hmemenv x hxe with h | h | ⟨hp, h⟩
      · exact dollar_lexical (x := z) (y := "this") (by decide) (hz.symm.trans h)
      · exact hlex x h (by rw [hz]; simp)
      · have : z = "extern" := by
          by_cases he : z = "extern"
          · exact he
          · exact absurd (hz.symm.trans h) (dollar_ne he)
        subst this
        rcases hz' with hz' | hz' | hz'
        · exact hext hp hz'
        · simp at hz'
        · simp at hz')
    (by
      intro p hp
      rw [List.mem_append, List.mem_append] at hp
      rcases hp with (hp | hp) | hp
      · unfold dropLets at hp
        obtain ⟨a, ha, rfl⟩ := List.mem_map.1 hp
        have ha := (List.mem_filter.1 ha).1
        simp only [evalRhs]
        obtain ⟨i, hi, rfl⟩ := List.mem_iff_getElem.1 ha
        have := (getAll_map env (·.1) hl).1 hg4 (args[i], vals[i]'(hl ▸ hi))
          (List.mem_iff_getElem.2 ⟨i, by rw [List.length_zip]; omega, by simp⟩)
        simp only at this
        rw [this]
        simp
      · cases indirect <;> simp [outName] at hp
        subst hp; simp [evalRhs]
      · cases throws <;> simp at hp
        subst hp; simp [evalRhs])
  refine ⟨env, env', hb, hd, ?_⟩
  have hkeep : ∀ {xs : List Name} {vs : List V}, env.getAll xs = some vs → env'.getAll xs = some vs := by
    intro xs vs h
    rw [← h]
    exact getAll_congr (fun x hx => hd1 x (getAll_mem h x hx))
  refine getAll_append _ (getAll_append _ (getAll_append _ (hkeep hg3) ?_) ?_) (hkeep hg2)
  · rw [getAll_map env' _ hl]
    intro p hp
    have h1 := (getAll_map env (·.1) hl).1 hg4 p hp
    have hpa := (List.of_mem_zip (a := p.1) (b := p.2) hp).1
    rcases passArg_cases cx hpa with h | ⟨h, hlet⟩
    · rw [h, hd1 _ (get_mem h1)]; exact h1
    · rw [h]
      have := hd2 _ (List.mem_append_left _ (List.mem_append_left _ hlet))
      simp only [evalRhs] at this
      rw [this]; exact h1
  · cases indirect
    · rfl
    · refine getAll_one _ ?_
      have := hd2 ("return$", .uninit) (by simp [outName])
      simpa [evalRhs] using this

end Verif.Call
