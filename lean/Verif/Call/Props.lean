import Verif.Call.Run
import Verif.Call.Link
import Verif.Abi.Props
/-!
# A call reaches the function that was meant
-/
namespace Verif.Call
open Verif.Syntax Verif.Types Verif.Abi Verif.Mangle Verif.Check

variable {g : Generator} {apis : List Api} {cx : Ctx} {names : CallbackNames} {w : World} {ds : List (Symbol × Def)}

/-! ### Names -/

/-- Arguments do not have two adjacent underscores, because the C++ name must not. -/
theorem arg_double (ha : Accepted g apis) {f : ExternFn} (hf : DeclaresFn apis f) (hn : ArgNames f) {a : Var}
    (haa : a ∈ f.sig.args) : hasDouble a.name.rust.toList = false := by
  have hi : checkName a.name = [] := by
    rcases hf with hf | hf <;>
    · have := accepted_ident ha hf
      simp only [checkIdents, List.append_eq_nil_iff, List.flatMap_eq_nil_iff] at this
      exact this.2 a haa
  simp only [checkName, List.append_eq_nil_iff] at hi
  have := hi.1.2
  simp only [checkCxxIdent, List.append_eq_nil_iff] at this
  rw [hn.same a haa] at this
  have := this.2
  cases hd : hasDouble a.name.rust.toList with
  | false => rfl
  | true => simp [hd] at this

theorem arg_dollar (hl : LexicalBridge apis) {f : ExternFn} (hf : DeclaresFn apis f) {a : Var}
    (haa : a ∈ f.sig.args) : '$' ∉ a.name.rust.toList ∧ '$' ∉ a.name.cxx.toList := by
  have := (lexical_fn hl hf).2 a haa
  exact ⟨this.2.2.2.1, this.2.1.2.1⟩

theorem map_cxx {f : ExternFn} (hn : ArgNames f) : f.sig.args.map (·.name.cxx) = f.sig.args.map (·.name.rust) :=
  List.map_congr_left hn.same

/-! ### Rust functions -/

theorem back_member {s : Symbol} {d : Def} (hnd : (ds.map (·.1)).Nodup)
    (hds : defs cx names apis = some ds) {a : Api} (haa : a ∈ apis) {xs : List (Symbol × Def)}
    (hx : apiDefs cx names a = some xs) (hm : (s, d) ∈ xs) : link ds s = some d :=
  link_mem hnd (defs_mem hds haa hx _ hm)

/-- The names of a C++ shim and of the Rust function behind it fit. -/
theorem rust_call {target : Option FnName} {q : FnName} (name : FnName) (s : Symbol) (receiver : Bool)
    {cargs rargs : List (Name × Ty)} {ret : Option Ty} {throws : Bool} {self vals : List V}
    (hlink : link ds s = some (.back (rustBackImpl cx target receiver rargs ret throws)))
    (hself : self.length = (if receiver then 1 else 0)) (hl : cargs.length = vals.length)
    (hsame : cargs.map (·.1) = rargs.map (·.1))
    (hnd : (cargs.map (·.1)).Nodup) (hlex : ∀ x ∈ cargs.map (·.1), '$' ∉ x.toList)
    (hthis : receiver = true → "this" ∉ cargs.map (·.1) ∧ "__self" ∉ cargs.map (·.1))
    (hret : "return" ∉ cargs.map (·.1) ∧ "__return" ∉ cargs.map (·.1))
    (hext : target = none → "extern" ∉ cargs.map (·.1) ∧ "__extern" ∉ cargs.map (·.1))
    (herr : throws = true → ∀ a ∈ cargs, cx.needsIndirect a.2 = true → a.1 ≠ "error") :
    runFront w ds (rustFrontImpl cx name s receiver cargs ret throws target.isNone)
      (self ++ vals ++ (if target.isNone then [.code q] else [])) =
    some ([(target.getD q, self ++ vals)], delivered throws ret.isSome (w (target.getD q) (self ++ vals))) := by
  obtain ⟨env, env', h1, h2, h3⟩ := front_passes cx name s receiver target.isNone (ret := ret) (throws := throws)
    (fp := if target.isNone then [.code q] else []) hself hl
    (by cases target <;> rfl) hnd hlex (fun h => (hthis h).1) hret.1
    (fun h => (hext (by cases target with
      | none => rfl
      | some t => cases h)).1) herr
  have hb := back_rust w cx target q receiver (args := rargs) (ret := ret) (throws := throws) (vals := self ++ vals)
    "return$"
    (by
      rw [← hsame]
      cases receiver with
      | false => simpa using hnd
      | true => simpa using ⟨by simpa using (hthis rfl).2, hnd⟩)
    (by
      have := congrArg List.length hsame
      simp only [List.length_map] at this
      cases receiver <;> simp at hself ⊢ <;> simp [hself] <;> omega)
    (by rw [← hsame]; exact hret.2)
    (fun h => by rw [← hsame]; exact (hext h).2)
  rw [indirectReturn_eq] at hb
  refine front_reply h1 h2 h3 hlink hb rfl ?_
  intro ht
  subst ht
  exact indirect_throws cx ret

/-! ### Callbacks -/

theorem callback_seen {f : ExternFn} (ha : Accepted g apis) (hl : LexicalBridge apis)
    (hcx : cx.types = collect apis) (hnd : (ds.map (·.1)).Nodup) (hds : defs cx names apis = some ds)
    (hf : Api.cxxFunction f ∈ apis) {a : Var} (haa : a ∈ f.sig.args) {u th : Bool} {as : List Ty} {r : Option Ty}
    (hty : a.ty = .fn u as r th) (hcb : CallbackArgs (names f a.name) as.length) {t : Symbol}
    (ht : cTrampoline cx.types f a.name = some t) (q : FnName) : Seen w ds a.ty (.code q) (.fat t q) := by
  rw [hty]
  refine .callback u as r th q t ?_
  intro vs hvs
  obtain ⟨_, ⟨rs, hrs⟩⟩ := trampolines_some ha hl hcx (f := f) (.inl hf) haa
  obtain ⟨ts, hts, htm⟩ := allTrampolines_some (names := names) ha hl hcx (f := f) (.inl hf) f.sig.args (fun _ h => h)
  obtain ⟨s, hs⟩ := externFn_some ha hl hcx (f := f) (.inl hf)
  obtain ⟨tg, htg⟩ := cxxTarget_some ha hcx (f := f) (.inl hf)
  have hx : ∃ b, apiDefs cx names (.cxxFunction f) = some ((s, .back b) :: ts) := by
    simp only [apiDefs, hs, cxxBack, htg, hts, Option.map_some]
    exact ⟨_, rfl⟩
  obtain ⟨b, hx⟩ := hx
  have htr : trampolines cx names f a = some
      [(rs, .back (rustBackImpl cx none false ((names f a.name).zip as) r th)),
       (t, .front (rustFrontImpl cx (.cxx f.name.ns "") rs false ((names f a.name).zip as) r th true))] := by
    simp only [trampolines, hty, ht, hrs]
  have hlr := back_member hnd hds hf hx (List.mem_cons_of_mem _ (htm a haa _ htr _ List.mem_cons_self))
  have hlc := back_member hnd hds hf hx
    (List.mem_cons_of_mem _ (htm a haa _ htr _ (List.mem_cons_of_mem _ List.mem_cons_self)))
  have hth : th = false := by
    have := accepted_type ha (t := a.ty) ⟨_, hf, a.ty, List.mem_append_left _ (List.mem_map.2 ⟨a, haa, rfl⟩), .self _⟩
    rw [hty] at this
    simp only [checkType, checkTypeFn, List.append_eq_nil_iff] at this
    cases th with
    | false => rfl
    | true => simp at this
  subst hth
  have hm : ((names f a.name).zip as).map (·.1) = names f a.name := List.map_fst_zip (Nat.le_of_eq hcb.length)
  simp only [callFat, hlc]
  have hk : ∀ x, x ∈ ["extern", "return", "__return", "__extern"] → x ∉ names f a.name := fun x h hx =>
    hcb.keywords x hx h
  have := rust_call (w := w) (q := q) (self := []) (vals := vs) (.cxx f.name.ns "") rs false hlr rfl
    (by simp [hcb.length, hvs]) rfl (by rw [hm]; exact hcb.nodup)
    (by rw [hm]; exact fun x hx => (hcb.lexical x hx).2.1) (by simp)
    (by rw [hm]; exact ⟨hk _ (by simp), hk _ (by simp)⟩)
    (by rw [hm]; exact fun _ => ⟨hk _ (by simp), hk _ (by simp)⟩) (by simp)
  simpa using this

/-! ### C++ functions -/

/-- What the callee gets for an argument. -/
def fatV (cx : Ctx) (f : ExternFn) (a : Var) (v : V) : V :=
  if isFn a.ty then
    match cTrampoline cx.types f a.name, v with
    | some t, .code q => .fat t q
    | _, v => v
  else v

theorem fatLets_spec {f : ExternFn} (h : ∀ a ∈ f.sig.args, ∃ t, cTrampoline cx.types f a.name = some t)
    (as : List Var) (has : ∀ a ∈ as, a ∈ f.sig.args) :
    ∃ ls, fatLets cx f as = some ls ∧ ls.map (·.1) = (as.filter (fun a => isFn a.ty)).map (·.name.rust) ∧
      (∀ p ∈ ls, ∃ a ∈ as, isFn a.ty = true ∧ ∃ t, cTrampoline cx.types f a.name = some t ∧
        p = (a.name.rust, .fat t a.name.rust)) ∧
      (∀ a ∈ as, isFn a.ty = true → ∀ t, cTrampoline cx.types f a.name = some t →
        (a.name.rust, Rhs.fat t a.name.rust) ∈ ls) := by
  induction as with
  | nil => exact ⟨[], rfl, rfl, by simp, by simp⟩
  | cons a as ih =>
    obtain ⟨ls, h1, h2, h3, h4⟩ := ih (fun x hx => has x (List.mem_cons_of_mem _ hx))
    obtain ⟨t, ht⟩ := h a (has a List.mem_cons_self)
    by_cases hfn : isFn a.ty = true
    · refine ⟨(a.name.rust, .fat t a.name.rust) :: ls, by simp [fatLets, hfn, ht, h1], by simp [hfn, h2], ?_, ?_⟩
      · intro p hp
        rcases List.mem_cons.1 hp with rfl | hp
        · exact ⟨a, List.mem_cons_self, hfn, t, ht, rfl⟩
        · obtain ⟨b, hb, h⟩ := h3 p hp
          exact ⟨b, List.mem_cons_of_mem _ hb, h⟩
      · intro b hb hbf u hu
        rcases List.mem_cons.1 hb with rfl | hb
        · rw [ht] at hu; cases hu; exact List.mem_cons_self
        · exact List.mem_cons_of_mem _ (h4 b hb hbf u hu)
    · refine ⟨ls, by simp [fatLets, hfn, h1], by simp [hfn, h2], ?_, ?_⟩
      · intro p hp
        obtain ⟨b, hb, h⟩ := h3 p hp
        exact ⟨b, List.mem_cons_of_mem _ hb, h⟩
      · intro b hb hbf u hu
        rcases List.mem_cons.1 hb with rfl | hb
        · exact absurd hbf hfn
        · exact h4 b hb hbf u hu

/-- What a Rust function for a C++ function passes on. -/
theorem cxxFront_passes {f : ExternFn} {self vs : List V}
    (ht : ∀ a ∈ f.sig.args, ∃ t, cTrampoline cx.types f a.name = some t) (hnd : (f.sig.args.map (·.name.rust)).Nodup)
    (hself : "self" ∉ f.sig.args.map (·.name.rust)) (hret : "__return" ∉ f.sig.args.map (·.name.rust))
    (hsl : self.length = f.sig.receiver.toList.length) (hl : f.sig.args.length = vs.length)
    (hcode : ∀ p ∈ f.sig.args.zip vs, isFn p.1.ty = true → ∃ q, p.2 = .code q) (indirect : Bool)
    (recv : List Name) (hrecv : recv = (f.sig.receiver.map (fun _ => "self")).toList) :
    ∃ fats env env', fatLets cx f f.sig.args = some fats ∧
      bind (recv ++ f.sig.args.map (·.name.rust)) (self ++ vs) = some env ∧
      declare .rust env (fats ++ uninitLets cx f.sig.args ++ (outName indirect "__return").map (·, .uninit)) =
        some env' ∧
      env'.getAll (recv ++ f.sig.args.map (·.name.rust) ++ outName indirect "__return") =
        some (self ++ List.zipWith (fatV cx f) f.sig.args vs ++ outValue indirect "__return") := by
  have hrm : ∀ x ∈ recv, x = "self" := by
    subst hrecv
    cases f.sig.receiver <;> simp
  have hrl : recv.length = self.length := by
    subst hrecv
    rw [hsl]
    cases f.sig.receiver <;> rfl
  have hrnd : recv.Nodup := by
    subst hrecv
    cases f.sig.receiver <;> simp
  obtain ⟨fats, hf, hf1, hf2, hf3⟩ := fatLets_spec ht f.sig.args (fun _ h => h)
  obtain ⟨env, hb, hg, hm⟩ := bind_some (xs := recv ++ f.sig.args.map (·.name.rust)) (vs := self ++ vs)
    (by
      rw [List.nodup_append]
      refine ⟨hrnd, hnd, ?_⟩
      intro a ha b hb hab
      subst hab
      exact hself (hrm a ha ▸ hb))
    (by simp [hrl, hl])
  obtain ⟨hg1, hg2⟩ := getAll_split hg hrl
  have hv := (getAll_map env (fun a : Var => a.name.rust) hl).1 hg2
  have hin : ∀ a ∈ f.sig.args, ∃ v, (a, v) ∈ f.sig.args.zip vs := by
    intro a ha
    obtain ⟨i, hi, rfl⟩ := List.mem_iff_getElem.1 ha
    exact ⟨vs[i]'(hl ▸ hi), List.mem_iff_getElem.2 ⟨i, by rw [List.length_zip]; omega, by simp⟩⟩
  -- function pointers
  obtain ⟨env1, hd1, hk1, hn1⟩ := declare_rust (env := env) (lets := fats)
    (by
      rw [hf1]
      rw [List.Nodup, List.pairwise_map] at hnd ⊢
      exact hnd.filter _)
    (by
      intro p hp
      obtain ⟨a, _, _, t, _, rfl⟩ := hf2 p hp
      exact .inr (.inr ⟨t, rfl⟩))
    (by
      intro p hp
      obtain ⟨a, haa, hfn, t, _, rfl⟩ := hf2 p hp
      obtain ⟨v, hav⟩ := hin a haa
      obtain ⟨q, hq⟩ := hcode _ hav hfn
      have := hv _ hav
      simp only at this hq
      subst hq
      simp [evalRhs, this])
  have hv1 : ∀ p ∈ f.sig.args.zip vs, env1.get p.1.name.rust = some (fatV cx f p.1 p.2) := by
    intro p hp
    obtain ⟨a, v⟩ := p
    have haa := (List.of_mem_zip hp).1
    have h0 := hv _ hp
    simp only at h0 ⊢
    by_cases hfn : isFn a.ty = true
    · obtain ⟨t, hta⟩ := ht a haa
      obtain ⟨q, hq⟩ := hcode _ hp hfn
      simp only at hq
      subst hq
      have := hn1 _ (hf3 a haa hfn t hta)
      simp only [evalRhs, h0] at this
      rw [this]
      simp [fatV, hfn, hta]
    · rw [hk1, h0]
      · simp [fatV, hfn]
      · rw [hf1]
        intro hmem
        obtain ⟨b, hb, hbe⟩ := List.mem_map.1 hmem
        obtain ⟨hb, hbf⟩ := List.mem_filter.1 hb
        have hinj : ∀ (l : List Var), (l.map (·.name.rust)).Nodup → ∀ x ∈ l, ∀ y ∈ l, x.name.rust = y.name.rust →
            x = y := by
          intro l hl
          induction l with
          | nil => simp
          | cons z l ih =>
            have hc := List.nodup_cons.1 hl
            intro x hx y hy he
            rcases List.mem_cons.1 hx with rfl | hx' <;> rcases List.mem_cons.1 hy with rfl | hy'
            · rfl
            · exact absurd (List.mem_map.2 ⟨y, hy', he.symm⟩) hc.1
            · exact absurd (List.mem_map.2 ⟨x, hx', he⟩) hc.1
            · exact ih hc.2 x hx' y hy' he
        have := hinj _ hnd b hb a haa hbe
        subst this
        exact hfn hbf
  -- moved arguments
  obtain ⟨env2, hd2, hk2, hn2⟩ := declare_rust (env := env1) (lets := uninitLets cx f.sig.args)
    (by
      unfold uninitLets
      rw [List.map_map, List.Nodup, List.pairwise_map]
      rw [List.Nodup, List.pairwise_map] at hnd
      exact hnd.filter _)
    (by
      intro p hp
      unfold uninitLets at hp
      obtain ⟨a, _, rfl⟩ := List.mem_map.1 hp
      exact .inr (.inl rfl))
    (by
      intro p hp
      unfold uninitLets at hp
      obtain ⟨a, haa, rfl⟩ := List.mem_map.1 hp
      obtain ⟨v, hav⟩ := hin a (List.mem_filter.1 haa).1
      have := hv1 _ hav
      simp only [evalRhs] at this ⊢
      rw [this]
      simp)
  have hsame2 : ∀ y, env2.get y = env1.get y := by
    intro y
    by_cases hy : y ∈ (uninitLets cx f.sig.args).map (·.1)
    · obtain ⟨p, hp, rfl⟩ := List.mem_map.1 hy
      have := hn2 p hp
      unfold uninitLets at hp
      obtain ⟨a, _, rfl⟩ := List.mem_map.1 hp
      exact this
    · exact hk2 y hy
  -- the out-pointer
  obtain ⟨env3, hd3, hk3, hn3⟩ := declare_rust (env := env2) (lets := (outName indirect "__return").map (·, Rhs.uninit))
    (by cases indirect <;> simp [outName])
    (by
      intro p hp
      cases indirect <;> simp [outName] at hp
      subst hp
      exact .inl rfl)
    (by
      intro p hp
      cases indirect <;> simp [outName] at hp
      subst hp
      simp [evalRhs])
  have hsame3 : ∀ y, y ≠ "__return" → env3.get y = env1.get y := by
    intro y hy
    rw [hk3, hsame2]
    cases indirect <;> simp [outName]
    exact hy
  refine ⟨fats, env, env3, hf, hb, by rw [declare_append, declare_append, hd1]; simp [hd2, hd3], ?_⟩
  refine getAll_append _ (getAll_append _ ?_ ?_) ?_
  · rw [← hg1]
    refine getAll_congr (fun x hx => ?_)
    have hxs := hrm x hx
    subst hxs
    rw [hsame3 _ (by decide), hk1]
    rw [hf1]
    intro hmem
    obtain ⟨b, hb, hbe⟩ := List.mem_map.1 hmem
    exact hself (List.mem_map.2 ⟨b, (List.mem_filter.1 hb).1, hbe⟩)
  · rw [getAll_map env3 _ (by simp [hl])]
    intro p hp
    obtain ⟨i, hi, rfl⟩ := List.mem_iff_getElem.1 hp
    have hi' : i < f.sig.args.length ∧ i < vs.length := by
      rw [List.length_zip, List.length_zipWith] at hi
      omega
    have := hv1 (f.sig.args[i]'hi'.1, vs[i]'hi'.2) (List.mem_iff_getElem.2 ⟨i, by rw [List.length_zip]; omega, by simp⟩)
    simp only [List.getElem_zip, List.getElem_zipWith] at this ⊢
    rw [hsame3, this]
    intro he
    exact hret (List.mem_map.2 ⟨_, List.getElem_mem hi'.1, he⟩)
  · cases indirect
    · rfl
    · refine getAll_one _ ?_
      have := hn3 ("__return", .uninit) (by simp [outName])
      simpa [evalRhs] using this

theorem seen_all {f : ExternFn} (ha : Accepted g apis) (hl : LexicalBridge apis)
    (hcx : cx.types = collect apis) (hnd : (ds.map (·.1)).Nodup) (hds : defs cx names apis = some ds)
    (hf : Api.cxxFunction f ∈ apis)
    (hcb : ∀ a ∈ f.sig.args, ∀ u as r th, a.ty = .fn u as r th → CallbackArgs (names f a.name) as.length)
    (args : List Var) (has : ∀ a ∈ args, a ∈ f.sig.args) (vs : List V) (hvs : args.length = vs.length)
    (hcode : ∀ p ∈ args.zip vs, isFn p.1.ty = true → ∃ q, p.2 = .code q) :
    SeenAll w ds (args.map (·.ty)) vs (List.zipWith (fatV cx f) args vs) := by
  induction args generalizing vs with
  | nil => cases vs with
    | nil => exact .nil
    | cons => cases hvs
  | cons a args ih => cases vs with
    | nil => cases hvs
    | cons v vs =>
      refine .cons ?_ (ih (fun x hx => has x (List.mem_cons_of_mem _ hx)) vs (by simpa using hvs)
        (fun p hp => hcode p (List.mem_cons_of_mem _ hp)))
      have haa := has a List.mem_cons_self
      unfold fatV
      split
      · rename_i hfn
        obtain ⟨q, hq⟩ := hcode (a, v) List.mem_cons_self hfn
        simp only at hq
        subst hq
        obtain ⟨⟨t, ht⟩, _⟩ := trampolines_some ha hl hcx (f := f) (.inl hf) haa
        simp only [ht]
        cases hty : a.ty with
        | fn u as r th =>
          have := callback_seen (w := w) ha hl hcx hnd hds hf haa hty (hcb a haa u as r th hty) ht q
          rwa [hty] at this
        | _ => rw [hty] at hfn; cases hfn
      · rename_i hfn
        refine .same _ _ ?_
        intro u as r th he
        simp only at he
        rw [he] at hfn
        exact hfn rfl

theorem cxx_reaches {f : ExternFn} (ha : Accepted g apis) (hl : LexicalBridge apis)
    (hcx : cx.types = collect apis) (hnd : (ds.map (·.1)).Nodup) (hds : defs cx names apis = some ds)
    (hf : Api.cxxFunction f ∈ apis) (hn : ArgNames f)
    (hcb : ∀ a ∈ f.sig.args, ∀ u as r th, a.ty = .fn u as r th → CallbackArgs (names f a.name) as.length)
    (hclash : NoClash cx (.cxxFunction f)) :
    ∃ t front, cxxTarget cx f = some t ∧ cxxFront cx f = some front ∧
      front.name = .rust (f.sig.receiver.map (·.ty.rust)) f.name.rust ∧
      ∀ (w : World) (self vs : List V), self.length = f.sig.receiver.toList.length → vs.length = f.sig.args.length →
        (∀ p ∈ f.sig.args.zip vs, isFn p.1.ty = true → ∃ q, p.2 = .code q) →
        ∃ vs', SeenAll w ds (f.sig.args.map (·.ty)) vs vs' ∧
          runFront w ds front (self ++ vs) =
            some ([(t, self ++ vs')], delivered f.sig.throws f.sig.ret.isSome (w t (self ++ vs'))) := by
  have hd : DeclaresFn apis f := .inl hf
  obtain ⟨s, hs⟩ := externFn_some ha hl hcx hd
  obtain ⟨t, ht⟩ := cxxTarget_some ha hcx hd
  obtain ⟨ts, hts, _⟩ := allTrampolines_some (names := names) ha hl hcx hd f.sig.args (fun _ h => h)
  have htr : ∀ a ∈ f.sig.args, ∃ t, cTrampoline cx.types f a.name = some t := fun a haa =>
    (trampolines_some ha hl hcx hd haa).1
  obtain ⟨fats, hfats, _⟩ := fatLets_spec htr f.sig.args (fun _ h => h)
  have hx : apiDefs cx names (.cxxFunction f) = some ((s, .back
      { lang := .cxx
        params := (f.sig.receiver.map (fun _ => "self")).toList ++ f.sig.args.map (·.name.cxx) ++
          outName (indirectReturnC cx f.sig.ret f.sig.throws) "return$"
        lets := (f.name.rust ++ "$", .fn t) :: (if f.sig.throws then [("throw$", .uninit)] else [])
        callee := .var (f.name.rust ++ "$")
        passes := (f.sig.receiver.map (fun _ => "self")).toList ++ f.sig.args.map (·.name.cxx)
        result := backResult f.sig.throws (indirectReturnC cx f.sig.ret f.sig.throws) "return$" }) :: ts) := by
    simp only [apiDefs, hs, cxxBack, ht, hts, Option.map_some]
    rfl
  have hlink := back_member hnd hds hf hx List.mem_cons_self
  have hdbl : "__return" ∉ f.sig.args.map (·.name.rust) := by
    intro hm
    obtain ⟨a, haa, he⟩ := List.mem_map.1 hm
    have := arg_double ha hd hn haa
    rw [he] at this
    exact absurd this (by decide)
  have hkw : ∀ x, x ∈ ["self", "this", "return"] → x ∉ f.sig.args.map (·.name.rust) := by
    intro x hx hm
    obtain ⟨a, haa, he⟩ := List.mem_map.1 hm
    exact hn.keywords a haa (he ▸ hx)
  have hdol : ∀ x, '$' ∈ x.toList → x ∉ (f.sig.receiver.map (fun _ => "self")).toList ++ f.sig.args.map (·.name.rust) := by
    intro x hx hm
    rcases List.mem_append.1 hm with hm | hm
    · have : x = "self" := by
        cases hr : f.sig.receiver <;> simp [hr] at hm
        exact hm
      subst this
      exact absurd hx (by decide)
    · obtain ⟨a, haa, he⟩ := List.mem_map.1 hm
      exact (arg_dollar hl hd haa).1 (he ▸ hx)
  refine ⟨t, _, ht, by simp only [cxxFront, hs, hfats]; rfl, rfl, ?_⟩
  intro w self vs hsl hvs hcode
  refine ⟨_, seen_all ha hl hcx hnd hds hf hcb f.sig.args (fun _ h => h) vs hvs.symm hcode, ?_⟩
  obtain ⟨fats', env, env', h1, h2, h3, h4⟩ := cxxFront_passes htr hn.nodup (hkw _ (by simp)) hdbl hsl hvs.symm hcode
    (indirectReturnR cx f.sig.ret f.sig.throws) _ rfl
  rw [hfats] at h1
  cases h1
  have hback := back_cxx w (vars := (f.sig.receiver.map (fun _ => "self")).toList ++ f.sig.args.map (·.name.rust))
    (n := f.name.rust ++ "$") t f.sig.throws (indirectReturnC cx f.sig.ret f.sig.throws)
    (vals := self ++ List.zipWith (fatV cx f) f.sig.args vs) "__return"
    (by
      rw [List.nodup_append]
      refine ⟨by cases f.sig.receiver <;> simp, hn.nodup, ?_⟩
      intro a ha' b hb hab
      subst hab
      have : a = "self" := by
        cases hr : f.sig.receiver <;> simp [hr] at ha'
        exact ha'
      exact hkw a (by simp [this]) hb)
    (by
      simp only [List.length_append, List.length_map, List.length_zipWith, hvs, Nat.min_self, hsl]
      cases f.sig.receiver <;> rfl)
    (hdol _ (by decide)) (hdol _ (by simp)) (hdol _ (by decide))
    (fun e => dollar_ne hn.name (e.trans rfl))
    (fun h e => dollar_ne (hclash h) (e.trans rfl))
  rw [← map_cxx hn] at hback
  rw [indirectReturn_eq] at h3 h4
  refine front_reply h2 (by simpa only [indirectReturn_eq] using h3) (by simpa only [indirectReturn_eq] using h4) hlink
    hback ?_ ?_
  · simp only [indirectReturn_eq, frontResult]
    cases f.sig.throws <;> cases indirectReturnC cx f.sig.ret _ <;> rfl
  · intro hth
    rw [hth]
    exact indirect_throws cx f.sig.ret

theorem rust_reaches {f : ExternFn} (ha : Accepted g apis) (hl : LexicalBridge apis)
    (hcx : cx.types = collect apis) (hnd : (ds.map (·.1)).Nodup) (hds : defs cx names apis = some ds)
    (hf : Api.rustFunction f ∈ apis) (hn : ArgNames f) (hlang : f.lang = .rust)
    (hclash : NoClash cx (.rustFunction f)) :
    ∃ front, rustFront cx f = some front ∧
      ((f.sig.receiver = none ∧ front.name = .cxx f.name.ns f.name.cxx) ∨
        ∃ r p, f.sig.receiver = some r ∧ Names apis r.ty.rust p ∧ front.name = .member f.name.ns p.cxx f.name.cxx) ∧
      ∀ (w : World) (self vs : List V), self.length = f.sig.receiver.toList.length → vs.length = f.sig.args.length →
        SeenAll w ds (f.sig.args.map (·.ty)) vs vs ∧
          runFront w ds front (self ++ vs) =
            some ([(.rust (f.sig.receiver.map (·.ty.rust)) f.name.rust, self ++ vs)],
              delivered f.sig.throws f.sig.ret.isSome
                (w (.rust (f.sig.receiver.map (·.ty.rust)) f.name.rust) (self ++ vs))) := by
  have hd : DeclaresFn apis f := .inr hf
  obtain ⟨s, hs⟩ := externFn_some ha hl hcx hd
  have hlink : link ds s = some (.back (rustBack cx f)) :=
    back_member hnd hds hf (xs := [(s, .back (rustBack cx f))]) (by simp [apiDefs, hs]) List.mem_cons_self
  have hdbl : ∀ x, hasDouble x.toList = true → x ∉ f.sig.args.map (·.name.cxx) := by
    intro x hx hm
    rw [map_cxx hn] at hm
    obtain ⟨a, haa, he⟩ := List.mem_map.1 hm
    have := arg_double ha hd hn haa
    rw [he, hx] at this
    cases this
  have hkw : ∀ x, x ∈ ["self", "this", "return"] → x ∉ f.sig.args.map (·.name.cxx) := by
    intro x hx hm
    rw [map_cxx hn] at hm
    obtain ⟨a, haa, he⟩ := List.mem_map.1 hm
    exact hn.keywords a haa (he ▸ hx)
  have hc : (f.sig.args.map (fun a => (a.name.cxx, a.ty))).map (·.1) = f.sig.args.map (·.name.cxx) := by simp
  have hr : (f.sig.args.map (fun a => (a.name.rust, a.ty))).map (·.1) = f.sig.args.map (·.name.cxx) := by
    rw [map_cxx hn]; simp
  have key : ∀ (name : FnName) (w : World) (self vs : List V), self.length = f.sig.receiver.toList.length →
      vs.length = f.sig.args.length →
      runFront w ds (rustFrontImpl cx name s f.sig.receiver.isSome (f.sig.args.map (fun a => (a.name.cxx, a.ty)))
        f.sig.ret f.sig.throws false) (self ++ vs) =
      some ([(.rust (f.sig.receiver.map (·.ty.rust)) f.name.rust, self ++ vs)],
        delivered f.sig.throws f.sig.ret.isSome
          (w (.rust (f.sig.receiver.map (·.ty.rust)) f.name.rust) (self ++ vs))) := by
    intro name w self vs hsl hvs
    have := rust_call (w := w) (q := name) (self := self) (vals := vs)
      (cargs := f.sig.args.map (fun a => (a.name.cxx, a.ty)))
      name s f.sig.receiver.isSome hlink
      (by rw [hsl]; cases f.sig.receiver <;> rfl) (by simp [hvs]) (by rw [hc, hr])
      (by rw [hc, map_cxx hn]; exact hn.nodup)
      (by
        rw [hc]
        intro x hx
        obtain ⟨a, haa, rfl⟩ := List.mem_map.1 hx
        exact (arg_dollar hl hd haa).2)
      (by rw [hc]; exact fun _ => ⟨hkw _ (by simp), hdbl _ (by decide)⟩)
      (by rw [hc]; exact ⟨hkw _ (by simp), hdbl _ (by decide)⟩)
      (by simp)
      (by
        intro hth a haa hi
        obtain ⟨b, hb, rfl⟩ := List.mem_map.1 haa
        exact hclash hth b hb hi)
    simpa using this
  have hseen : ∀ (w : World) (vs : List V), vs.length = f.sig.args.length →
      SeenAll w ds (f.sig.args.map (·.ty)) vs vs := by
    intro w vs hvs
    have hno : ∀ a ∈ f.sig.args, ∀ u as r th, a.ty ≠ .fn u as r th := by
      intro a haa u as r th he
      have h := accepted_fn ha (f := f) (.inr hf)
      simp only [checkApiFn, List.append_eq_nil_iff, List.flatMap_eq_nil_iff] at h
      have := h.1.1.2 a haa
      simp only [checkArg, he, Verif.Check.isFn, if_true, hlang] at this
      cases this
    have : ∀ (args : List Var) (vs : List V), (∀ a ∈ args, a ∈ f.sig.args) → vs.length = args.length →
        SeenAll w ds (args.map (·.ty)) vs vs := by
      intro args
      induction args with
      | nil =>
        intro vs _ h
        cases vs with
        | nil => exact .nil
        | cons => cases h
      | cons a args ih =>
        intro vs has h
        cases vs with
        | nil => cases h
        | cons v vs =>
          exact .cons (.same _ _ (hno a (has a List.mem_cons_self)))
            (ih vs (fun x hx => has x (List.mem_cons_of_mem _ hx)) (by simpa using h))
    exact this _ vs (fun _ h => h) hvs
  cases hrec : f.sig.receiver with
  | none =>
    refine ⟨_, by simp only [rustFront, hs, hrec]; rfl, .inl ⟨rfl, rfl⟩, ?_⟩
    intro w self vs hsl hvs
    have := key (.cxx f.name.ns f.name.cxx) w self vs (by rw [hrec]; exact hsl) hvs
    rw [hrec] at this
    exact ⟨hseen w vs hvs, this⟩
  | some r =>
    obtain ⟨p, hp⟩ := resolve_receiver ha hd hrec
    have hp' : resolve cx.types r.ty.rust = some p := by rw [hcx]; exact hp
    refine ⟨_, by simp only [rustFront, hs, hrec, hp', Option.map_some]; rfl, .inr ⟨r, p, rfl, names_of_resolve hp, rfl⟩, ?_⟩
    intro w self vs hsl hvs
    have := key (.member f.name.ns p.cxx f.name.cxx) w self vs (by rw [hrec]; exact hsl) hvs
    rw [hrec] at this
    exact ⟨hseen w vs hvs, this⟩

/-! ### The theorem -/

/-- **C73**.  In an accepted bridge every function can be called: the call is compiled, linked to one definition, and
calls the function that the item stands for, exactly once, with the arguments in order; a callback that is passed on
calls the function that was passed; and the caller gets the result.  Missing from the full statement: names of
arguments and functions that clash with local variables of the generated code (`NoClash`, `CallbackArgs`; `error_clash`
and `throw_clash` show they do), methods with the same name of types with the same name in different namespaces
(`NoTwinMethods`), a C++ type declared in the namespace of the symbols of `std::vector` (`InsideStdVector`), and
methods in another namespace than their type (`method_outside`). -/
theorem call_reaches_partial (ha : Accepted g apis) (hl : LexicalBridge apis) (hcx : cx.types = collect apis)
    (hv : ∀ p, DeclaresType apis p → ¬ InsideStdVector p) (ht : NoTwinMethods apis)
    (hargs : ∀ f, DeclaresFn apis f → ArgNames f) (hlang : ∀ f, Api.rustFunction f ∈ apis → f.lang = .rust)
    (hcb : ∀ f, Api.cxxFunction f ∈ apis → ∀ a ∈ f.sig.args, ∀ u as r th, a.ty = .fn u as r th →
      CallbackArgs (names f a.name) as.length) :
    ∃ ds, defs cx names apis = some ds ∧
      ∀ f a, a ∈ apis → (a = .cxxFunction f ∨ a = .rustFunction f) → NoClash cx a → InNamespaceOfType apis a →
        ∃ n t front, CallerName apis a n ∧ Meant apis a t ∧ apiFront cx a = some front ∧ front.name = n ∧
          ∀ (w : World) (self vs : List V), self.length = f.sig.receiver.toList.length →
            vs.length = f.sig.args.length →
            (∀ p ∈ f.sig.args.zip vs, (∃ u as r th, p.1.ty = .fn u as r th) → ∃ q, p.2 = .code q) →
            ∃ vs', SeenAll w ds (f.sig.args.map (·.ty)) vs vs' ∧
              runFront w ds front (self ++ vs) =
                some ([(t, self ++ vs')], delivered f.sig.throws f.sig.ret.isSome (w t (self ++ vs'))) := by
  obtain ⟨ds, hds⟩ := defs_some (names := names) ha hl hcx
  have hnd := symbols_nodup ha hl hv ht (fun f hf => (hargs f hf).nodup) hcx hds
  refine ⟨ds, hds, ?_⟩
  rintro f a haa (rfl | rfl) hclash hns
  · obtain ⟨t, front, h1, h2, h3, h4⟩ := cxx_reaches ha hl hcx hnd hds haa (hargs f (.inl haa)) (hcb f haa) hclash
    refine ⟨_, t, front, ?_, ?_, h2, h3, ?_⟩
    · cases hr : f.sig.receiver with
      | none => exact .cxxFree f hr
      | some r => exact .cxxMethod f r hr
    · unfold cxxTarget at h1
      cases hr : f.sig.receiver with
      | none => rw [hr] at h1; cases h1; exact .cxxFree f hr
      | some r =>
        simp only [hr, Option.map_eq_some_iff] at h1
        obtain ⟨p, hp, rfl⟩ := h1
        rw [hcx] at hp
        exact .cxxMethod f r p hr (names_of_resolve hp)
    · intro w self vs hsl hvs hcode
      refine h4 w self vs hsl hvs (fun p hp hfn => hcode p hp ?_)
      cases hty : p.1.ty with
      | fn u as r th => exact ⟨u, as, r, th, rfl⟩
      | _ => rw [hty] at hfn; cases hfn
  · obtain ⟨front, h2, h3, h4⟩ := rust_reaches ha hl hcx hnd hds haa (hargs f (.inr haa)) (hlang f haa) hclash
    refine ⟨front.name, .rust (f.sig.receiver.map (·.ty.rust)) f.name.rust, front, ?_, ?_, h2, rfl, ?_⟩
    · rcases h3 with ⟨hr, hn⟩ | ⟨r, p, hr, hp, hn⟩
      · rw [hn]; exact .rustFree f hr
      · rw [hn, hns r p hr hp]; exact .rustMethod f r p hr hp
    · cases hr : f.sig.receiver with
      | none => exact .rustFree f hr
      | some r => exact .rustMethod f r hr
    · intro w self vs hsl hvs _
      exact ⟨vs, h4 w self vs hsl hvs⟩

/-! ### Witnesses -/

/-- The namespace and Rust name of a function. -/
def fnKey : Api → Option (Namespace × Ident)
  | .cxxFunction f | .rustFunction f => some (f.name.ns, f.name.rust)
  | _ => none

theorem noTwins_of_names (h : (apis.filterMap fnKey).Nodup) : NoTwinMethods apis := by
  have key : ∀ (i j : Nat) (x y : Api) (f f' : ExternFn), i < j → apis[i]? = some x → apis[j]? = some y →
      (x = .cxxFunction f ∨ x = .rustFunction f) → (y = .cxxFunction f' ∨ y = .rustFunction f') →
      (f.name.ns, f.name.rust) ≠ (f'.name.ns, f'.name.rust) := by
    intro i j x y f f' hij hx hy hf hf'
    rw [List.Nodup, List.pairwise_filterMap, List.pairwise_iff_getElem] at h
    obtain ⟨hi, hx'⟩ := List.getElem?_eq_some_iff.1 hx
    obtain ⟨hj, hy'⟩ := List.getElem?_eq_some_iff.1 hy
    refine h i j hi hj hij _ ?_ _ ?_
    · rw [hx']; rcases hf with rfl | rfl <;> rfl
    · rw [hy']; rcases hf' with rfl | rfl <;> rfl
  intro i j x y f f' hij hx hy hf hf' _ hs
  have e : (f.name.ns, f.name.rust) = (f'.name.ns, f'.name.rust) := by rw [hs.1, hs.2.1]
  rcases Nat.lt_or_gt_of_ne hij with h1 | h1
  · exact key i j x y f f' h1 hx hy hf hf' e
  · exact key j i y x f' f h1 hy hx hf' hf e.symm

/-- `fn visit(cb: fn(u8) -> String, s: String) -> Result<u64>` in C++. -/
def visit : ExternFn :=
  ⟨.cxx, pr ["org"] "visit", ⟨false, [], none, [⟨pr [] "cb", .fn false [.named "u8"] (some (.named "String")) false⟩,
    ⟨pr [] "s", .named "String"⟩], some (.named "u64"), true⟩, true⟩

/-- `fn update(self: &mut R, text: Vec<u8>, error: u8) -> Result<()>` in Rust. -/
def update : ExternFn :=
  ⟨.rust, pr ["org"] "update", ⟨false, [], some ⟨false, none, true, ⟨"R", []⟩, false⟩,
    [⟨pr [] "text", .rustVec (.named "u8")⟩, ⟨pr [] "error", .named "u8"⟩], none, true⟩, false⟩

def sample : List Api :=
  [.cxxType ⟨.cxx, [], pr ["org"] "T", [], [], true⟩, .rustType ⟨.rust, [], pr ["org"] "R", [], [], false⟩,
   .cxxFunction (method (pr ["org"] "get") false false "T"), .cxxFunction visit, .rustFunction update]

def sampleCtx : Ctx := ⟨collect sample, [], 4⟩
def sampleNames : CallbackNames := fun _ _ => ["x"]
/-- The functions of the user return the number of their arguments; `visit` throws if it gets a zero. -/
def sampleWorld : World := fun f vs =>
  if f = .cxx ["org"] "visit" ∧ vs[1]? = some (.data 0) then .throw 7 else .ret (.data vs.length)

theorem sample_accepted : Accepted .build sample ∧ Accepted .macro sample ∧ LexicalBridge sample := by decide +kernel

theorem sample_fns {f : ExternFn} (h : DeclaresFn sample f) :
    f = method (pr ["org"] "get") false false "T" ∨ f = visit ∨ f = update := by
  rcases h with h | h <;> simp [sample] at h
  · rcases h with h | h
    · exact .inl h
    · exact .inr (.inl h)
  · exact .inr (.inr h)

theorem sample_types : ∀ p, DeclaresType sample p → ¬ InsideStdVector p := by
  rintro p ⟨a, ha, g, hr⟩ ⟨rest, h⟩
  simp only [sample, List.mem_cons, List.not_mem_nil, or_false] at ha
  rcases ha with rfl | rfl | rfl | rfl | rfl <;> simp [resolves] at hr
  all_goals (rw [← hr.1] at h; simp [pr] at h)

theorem sample_args (f : ExternFn) (h : DeclaresFn sample f) : ArgNames f := by
  rcases sample_fns h with rfl | rfl | rfl <;> exact ⟨by decide, by decide, by decide, by decide⟩

theorem sample_callbacks (f : ExternFn) (h : Api.cxxFunction f ∈ sample) (a : Var) (ha : a ∈ f.sig.args) (u : Bool)
    (as : List Ty) (r : Option Ty) (th : Bool) (hty : a.ty = .fn u as r th) :
    CallbackArgs (sampleNames f a.name) as.length := by
  have hl : as.length = 1 := by
    rcases sample_fns (.inl h) with rfl | rfl | rfl
    · simp [method] at ha
    · simp [visit] at ha
      rcases ha with rfl | rfl
      · cases hty; rfl
      · cases hty
    · simp [update] at ha
      rcases ha with rfl | rfl <;> cases hty
  rw [hl]
  exact ⟨rfl, by simp [sampleNames], by simp [sampleNames], (by decide : ∀ x ∈ (["x"] : List Name), Lexical x)⟩

/-- The theorem applies to the sample; no function of it is left out. -/
example : ∃ ds, defs sampleCtx sampleNames sample = some ds ∧
    ∀ f a, a ∈ sample → (a = .cxxFunction f ∨ a = .rustFunction f) → NoClash sampleCtx a ∧ InNamespaceOfType sample a := by
  obtain ⟨ds, h, _⟩ := call_reaches_partial (names := sampleNames) sample_accepted.1 sample_accepted.2.2
    (cx := sampleCtx) rfl sample_types (noTwins_of_names (by decide)) sample_args
    (by intro f hf; rcases sample_fns (.inr hf) with rfl | rfl | rfl
        · simp [sample, update, method] at hf
        · simp [sample, update, visit] at hf
        · rfl) sample_callbacks
  refine ⟨ds, h, ?_⟩
  rintro f a ha hf
  simp only [sample, List.mem_cons, List.not_mem_nil, or_false] at ha
  rcases ha with rfl | rfl | rfl | rfl | rfl
  · simp at hf
  · simp at hf
  · exact ⟨fun h => (by cases h), trivial⟩
  · exact ⟨fun _ => by decide, trivial⟩
  · refine ⟨?_, ?_⟩
    · intro _ a ha hi
      simp [update] at ha
      rcases ha with rfl | rfl
      · decide
      · exact absurd hi (by decide +kernel)
    · rintro r p hr ⟨h2, a, ha, g, h1⟩
      cases hr
      simp only [sample, List.mem_cons, List.not_mem_nil, or_false] at ha
      rcases ha with rfl | rfl | rfl | rfl | rfl <;> simp [resolves] at h1
      · rw [← h1.1] at h2; simp [pr] at h2
      · rw [← h1.1]; rfl

/-- Calling `visit` from Rust calls `::org::visit` with the callback and the string, and gives back the number; the
callback calls the Rust function behind the pointer; calling `R::update` from C++ calls it. -/
example :
    let run := fun (front : Option Front) (vs : List V) => do
      let ds ← defs sampleCtx sampleNames sample
      let front ← front
      runFront sampleWorld ds front vs
    let t : Symbol := "org$cxxbridge1$visit$cb$0".toList
    run (cxxFront sampleCtx visit) [.code (.pointer 3), .data 5] =
      some ([(.cxx ["org"] "visit", [.fat t (.pointer 3), .data 5])], some (.ret (.data 2))) ∧
    run (cxxFront sampleCtx visit) [.code (.pointer 3), .data 0] =
      some ([(.cxx ["org"] "visit", [.fat t (.pointer 3), .data 0])], some (.throw 7)) ∧
    (do let ds ← defs sampleCtx sampleNames sample; callFat sampleWorld ds t (.pointer 3) [.data 9]) =
      some ([(.pointer 3, [.data 9])], some (.ret (.data 1))) ∧
    (rustFront sampleCtx update).map (·.name) = some (.member ["org"] "R" "update") ∧
    run (rustFront sampleCtx update) [.data 1, .data 2, .data 4] =
      some ([(.rust (some "R") "update", [.data 1, .data 2, .data 4])], some (.ret .unit)) := by
  refine ⟨?_, ?_, ?_, ?_, ?_⟩ <;> decide +kernel

/-- Finding: `extern "Rust" { fn f(error: Vec<u8>) -> Result<()>; }` is accepted, and the generated C++ declares two
variables `error$`; with any other name of the argument it works. -/
theorem error_clash :
    let f := fun x => (⟨.rust, pr [] "f", ⟨false, [], none, [⟨pr [] x, .rustVec (.named "u8")⟩], none, true⟩, false⟩ : ExternFn)
    let run := fun x => do
      let cx : Ctx := ⟨collect [.rustFunction (f x)], [], 0⟩
      let ds ← defs cx sampleNames [.rustFunction (f x)]
      let front ← rustFront cx (f x)
      runFront sampleWorld ds front [.data 1]
    Accepted .build [.rustFunction (f "error")] ∧ Accepted .macro [.rustFunction (f "error")] ∧
      run "error" = none ∧ run "err" = some ([(.rust none "f", [.data 1])], some (.ret .unit)) := by decide +kernel

/-- Finding: `extern "C++" { #[cxx_name = "x"] fn throw() -> Result<()>; }` is accepted, and the generated C++ declares
two variables `throw$`. -/
theorem throw_clash :
    let f := fun x => (⟨.cxx, ⟨[], "x", x⟩, ⟨false, [], none, [], none, true⟩, true⟩ : ExternFn)
    let run := fun x => do
      let cx : Ctx := ⟨collect [.cxxFunction (f x)], [], 0⟩
      let ds ← defs cx sampleNames [.cxxFunction (f x)]
      let front ← cxxFront cx (f x)
      runFront sampleWorld ds front []
    Accepted .build [.cxxFunction (f "throw")] ∧ Accepted .macro [.cxxFunction (f "throw")] ∧
      run "throw" = none ∧ run "throws" = some ([(.cxx [] "x", [])], some (.ret .unit)) := by decide +kernel

/-- Finding: the name of an argument of a function pointer is not checked: `fn f(cb: fn(__return: u8) -> String)` is
accepted, and the trampoline has two parameters `__return`. -/
theorem callback_return_clash :
    let f : ExternFn := ⟨.cxx, pr [] "f", ⟨false, [], none,
      [⟨pr [] "cb", .fn false [.named "u8"] (some (.named "String")) false⟩], none, false⟩, true⟩
    let run := fun x => do
      let cx : Ctx := ⟨collect [.cxxFunction f], [], 0⟩
      let ds ← defs cx (fun _ _ => [x]) [.cxxFunction f]
      let t ← cTrampoline cx.types f (pr [] "cb")
      callFat sampleWorld ds t (.pointer 0) [.data 1]
    Accepted .build [.cxxFunction f] ∧ Accepted .macro [.cxxFunction f] ∧
      run "__return" = none ∧ run "x" = some ([(.pointer 0, [.data 1])], some (.ret (.data 1))) := by decide +kernel

/-- Finding: a Rust method may be in another namespace than its type; the generated C++ then defines `other::R::m`,
while the type is `org::R`. -/
theorem method_outside :
    let f : ExternFn := ⟨.rust, pr ["other"] "m", ⟨false, [], some ⟨false, none, false, ⟨"R", []⟩, false⟩, [], none, false⟩, false⟩
    let apis := [.rustType ⟨.rust, [], pr ["org"] "R", [], [], false⟩, .rustFunction f]
    Accepted .build apis ∧ Accepted .macro apis ∧
      (rustFront ⟨collect apis, [], 0⟩ f).map (·.name) = some (.member ["other"] "R" "m") ∧
      ¬ CallerName apis (.rustFunction f) (.member ["other"] "R" "m") := by
  refine ⟨by decide +kernel, by decide +kernel, by decide +kernel, ?_⟩
  intro hn
  generalize he : FnName.member ["other"] "R" "m" = n at hn
  cases hn with
  | rustFree _ h => cases he
  | rustMethod _ r p hr hp =>
    obtain ⟨_, a, ha, g, h1⟩ := hp
    simp only [List.mem_cons, List.not_mem_nil, or_false] at ha
    rcases ha with rfl | rfl
    · simp [resolves] at h1
      simp [← h1.1, pr] at he
    · cases h1

end Verif.Call
