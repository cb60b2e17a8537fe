import Verif.Call.Spec
import Verif.Mangle.Props
/-!
# Every symbol of a bridge has one definition
-/
namespace Verif.Call
open Verif.Syntax Verif.Types Verif.Abi Verif.Mangle Verif.Check

variable {g : Generator} {apis : List Api} {cx : Ctx} {names : CallbackNames}

/-- The entities that are defined for one argument. -/
def argEntities (f : ExternFn) (a : Var) : List Entity :=
  if isFn a.ty then [.trampoline f a.name .rust, .trampoline f a.name .c] else []

/-- The entities that are defined for an item. -/
def entities : Api → List Entity
  | .cxxFunction f => .fn f :: f.sig.args.flatMap (argEntities f)
  | .rustFunction f => [.fn f]
  | _ => []

theorem trampolines_symbols {f : ExternFn} {a : Var} {ds : List (Symbol × Def)}
    (h : trampolines cx names f a = some ds) :
    ds.map (fun d => some d.1) = (argEntities f a).map (symbolOf cx.types) := by
  unfold trampolines at h
  split at h
  · rename_i hty
    split at h
    · rename_i c r hc hr
      cases h
      simp [argEntities, hty, isFn, symbolOf, hc, hr]
    · cases h
  · rename_i hty
    cases h
    have : isFn a.ty = false := by
      unfold isFn; split
      · rename_i he; exact absurd he (hty _ _ _ _)
      · rfl
    simp [argEntities, this]

theorem allTrampolines_symbols {f : ExternFn} {as : List Var} {ds : List (Symbol × Def)}
    (h : allTrampolines cx names f as = some ds) :
    ds.map (fun d => some d.1) = (as.flatMap (argEntities f)).map (symbolOf cx.types) := by
  induction as generalizing ds with
  | nil => cases h; rfl
  | cons a as ih =>
    simp only [allTrampolines] at h
    split at h
    · rename_i x y hx hy
      cases h
      simp only [List.map_append, List.flatMap_cons, trampolines_symbols hx, ih hy]
    · cases h

theorem apiDefs_symbols {a : Api} {ds : List (Symbol × Def)} (h : apiDefs cx names a = some ds) :
    ds.map (fun d => some d.1) = (entities a).map (symbolOf cx.types) := by
  cases a with
  | cxxFunction f =>
    simp only [apiDefs] at h
    split at h
    · rename_i hs _ ht
      cases h
      simp only [List.map_cons, entities, symbolOf, hs, allTrampolines_symbols ht]
    · cases h
  | rustFunction f =>
    simp only [apiDefs, Option.map_eq_some_iff] at h
    obtain ⟨s, hs, rfl⟩ := h
    simp [entities, symbolOf, hs]
  | _ => cases h; rfl

theorem defs_symbols {ds : List (Symbol × Def)} (h : defs cx names apis = some ds) :
    ds.map (fun d => some d.1) = (apis.flatMap entities).map (symbolOf cx.types) := by
  induction apis generalizing ds with
  | nil => cases h; rfl
  | cons a as ih =>
    simp only [defs] at h
    split at h
    · rename_i x y hx hy
      cases h
      simp only [List.map_append, List.flatMap_cons, apiDefs_symbols hx, ih hy]
    · cases h

theorem entity_fn {a : Api} {e : Entity} (h : e ∈ entities a) :
    ∃ f, (a = .cxxFunction f ∨ a = .rustFunction f) ∧
      (e = .fn f ∨ ∃ v ∈ f.sig.args, ∃ k, e = .trampoline f v.name k) := by
  cases a with
  | cxxFunction f =>
    refine ⟨f, .inl rfl, ?_⟩
    simp only [entities, List.mem_cons, List.mem_flatMap] at h
    rcases h with h | ⟨v, hv, h⟩
    · exact .inl h
    · unfold argEntities at h
      split at h
      · simp only [List.mem_cons, List.not_mem_nil, or_false] at h
        rcases h with h | h <;> exact .inr ⟨v, hv, _, h⟩
      · cases h
  | rustFunction f =>
    simp only [entities, List.mem_cons, List.not_mem_nil, or_false] at h
    exact ⟨f, .inr rfl, .inl h⟩
  | _ => cases h

theorem entity_in {a : Api} (ha : a ∈ apis) {e : Entity} (h : e ∈ entities a) : e.In apis := by
  obtain ⟨f, hf, he⟩ := entity_fn h
  have hd : DeclaresFn apis f := by
    rcases hf with rfl | rfl
    · exact .inl ha
    · exact .inr ha
  rcases he with rfl | ⟨v, hv, k, rfl⟩
  · exact hd
  · exact ⟨hd, v, hv, rfl⟩

theorem no_twins (ha : Accepted g apis) (ht : NoTwinMethods apis) {i j : Nat} {x y : Api} {f f' : ExternFn}
    (hij : i < j) (hx : apis[i]? = some x) (hy : apis[j]? = some y)
    (hf : x = .cxxFunction f ∨ x = .rustFunction f) (hf' : y = .cxxFunction f' ∨ y = .rustFunction f') :
    ¬ SameFn apis f f' := by
  intro hs
  cases hr : f.sig.receiver with
  | some r => exact ht i j x y f f' (by omega) hx hy hf hf' (by simp [hr]) hs
  | none =>
    obtain ⟨_, hn, h | ⟨r, _, _, _, h, _⟩⟩ := hs
    · have hnd := ((duplicates_exact apis).1 ha.1).2
      rw [List.Nodup, List.pairwise_filterMap, List.pairwise_iff_getElem] at hnd
      obtain ⟨hi, hx'⟩ := List.getElem?_eq_some_iff.1 hx
      obtain ⟨hj, hy'⟩ := List.getElem?_eq_some_iff.1 hy
      have hsig : ∀ {x : Api} {f : ExternFn}, (x = .cxxFunction f ∨ x = .rustFunction f) → signatureOf x =
          some (f.sig.receiver.map (fun r => (r.ty, r.pinned, r.lifetime, r.mutable)), f.name.rust) := by
        rintro x f (rfl | rfl) <;> rfl
      exact hnd i j hi hj hij _ (hx' ▸ hsig hf) _ (hy' ▸ hsig hf') (by simp [h.1, h.2, hn])
    · rw [hr] at h; cases h

/-- All definitions of a bridge have different symbols. -/
theorem symbols_nodup (ha : Accepted g apis) (hl : LexicalBridge apis)
    (hv : ∀ p, DeclaresType apis p → ¬ InsideStdVector p) (ht : NoTwinMethods apis)
    (hargs : ∀ f, DeclaresFn apis f → (f.sig.args.map (·.name.rust)).Nodup) (hcx : cx.types = collect apis)
    {ds : List (Symbol × Def)} (h : defs cx names apis = some ds) : (ds.map (·.1)).Nodup := by
  have hs := defs_symbols h
  have hpair : (apis.flatMap entities).Pairwise (fun e e' => ¬ SameEntity apis e e') := by
    rw [List.pairwise_flatMap]
    constructor
    · intro a haa
      cases a with
      | cxxFunction f =>
        simp only [entities, List.pairwise_cons]
        constructor
        · intro e he
          simp only [List.mem_flatMap] at he
          obtain ⟨v, _, he⟩ := he
          unfold argEntities at he
          split at he
          · simp only [List.mem_cons, List.not_mem_nil, or_false] at he
            rcases he with rfl | rfl <;> exact id
          · cases he
        · rw [List.pairwise_flatMap]
          constructor
          · intro v _
            unfold argEntities
            split
            · simp [SameEntity]
            · exact .nil
          · have hn := hargs f (.inl haa)
            rw [List.Nodup, List.pairwise_map] at hn
            refine hn.imp (fun {v u} hne => ?_)
            intro x hx y hy
            unfold argEntities at hx hy
            split at hx
            · split at hy
              · simp only [List.mem_cons, List.not_mem_nil, or_false] at hx hy
                rcases hx with rfl | rfl <;> rcases hy with rfl | rfl <;> exact fun h => hne h.2.1
              · cases hy
            · cases hx
      | rustFunction f => simp [entities]
      | _ => exact .nil
    · rw [List.pairwise_iff_getElem]
      intro i j hi hj hij x hx y hy hsame
      obtain ⟨f, hf, he⟩ := entity_fn hx
      obtain ⟨f', hf', he'⟩ := entity_fn hy
      refine no_twins ha ht hij (List.getElem?_eq_getElem hi) (List.getElem?_eq_getElem hj) hf hf' ?_
      rcases he with rfl | ⟨v, _, k, rfl⟩ <;> rcases he' with rfl | ⟨v', _, k', rfl⟩
      · exact hsame
      · exact hsame.elim
      · exact hsame.elim
      · exact hsame.1
  have hnd : ((apis.flatMap entities).map (symbolOf cx.types)).Nodup := by
    rw [List.Nodup, List.pairwise_map]
    refine (List.pairwise_iff_forall_sublist.2 fun {e e'} hsub hee => ?_)
    have hne := List.pairwise_iff_forall_sublist.1 hpair hsub
    have hmem : ∀ x ∈ [e, e'], x.In apis := by
      intro x hx
      obtain ⟨a, haa, hxa⟩ := List.mem_flatMap.1 (hsub.subset hx)
      exact entity_in haa hxa
    have he := hmem e (by simp)
    have he' := hmem e' (by simp)
    obtain ⟨s, hs1⟩ := symbol_exists ha hl he
    rw [hcx] at hee
    exact hne (symbol_determines_entity ha hl hv he he' hs1 (hee ▸ hs1))
  rw [← hs, List.Nodup, List.pairwise_map] at hnd
  rw [List.Nodup, List.pairwise_map]
  exact hnd.imp (fun h e => h (by rw [e]))

theorem link_mem {ds : List (Symbol × Def)} (hn : (ds.map (·.1)).Nodup) {s : Symbol} {d : Def} (h : (s, d) ∈ ds) :
    link ds s = some d := by
  have : ds.filter (fun d => d.1 = s) = [(s, d)] := by
    induction ds with
    | nil => cases h
    | cons p ds ih =>
      have hc := List.nodup_cons.1 hn
      rcases List.mem_cons.1 h with rfl | h
      · rw [List.filter_cons_of_pos (by simp)]
        congr 1
        rw [List.filter_eq_nil_iff]
        intro x hx
        have : x.1 ≠ s := fun e => hc.1 (List.mem_map.2 ⟨x, hx, e⟩)
        simpa using this
      · rw [List.filter_cons_of_neg, ih hc.2 h]
        have : p.1 ≠ s := fun e => hc.1 (List.mem_map.2 ⟨(s, d), h, e.symm⟩)
        simpa using this
  simp [link, this]

/-! ### The definitions exist -/

theorem resolve_receiver (ha : Accepted g apis) {f : ExternFn} (hf : DeclaresFn apis f) {r : Receiver}
    (hr : f.sig.receiver = some r) : ∃ p, resolve (collect apis) r.ty.rust = some p := by
  have := ((names_resolve ha).2.1 f hf r hr).2
  unfold resolve
  cases hm : mapGet (collect apis).resolutions r.ty.rust with
  | none => exact absurd hm this
  | some q => exact ⟨q.1, rfl⟩

theorem trampolines_some (ha : Accepted g apis) (hl : LexicalBridge apis) (hcx : cx.types = collect apis)
    {f : ExternFn} (hf : DeclaresFn apis f) {a : Var} (haa : a ∈ f.sig.args) :
    (∃ c, cTrampoline cx.types f a.name = some c) ∧ (∃ r, rTrampoline cx.types f a.name = some r) := by
  rw [hcx]
  exact ⟨symbol_exists ha hl (e := .trampoline f a.name .c) ⟨hf, a, haa, rfl⟩,
    symbol_exists ha hl (e := .trampoline f a.name .rust) ⟨hf, a, haa, rfl⟩⟩

theorem allTrampolines_some (ha : Accepted g apis) (hl : LexicalBridge apis) (hcx : cx.types = collect apis)
    {f : ExternFn} (hf : DeclaresFn apis f) (as : List Var) (has : ∀ a ∈ as, a ∈ f.sig.args) :
    ∃ ts, allTrampolines cx names f as = some ts ∧
      ∀ a ∈ as, ∀ xs, trampolines cx names f a = some xs → ∀ x ∈ xs, x ∈ ts := by
  induction as with
  | nil => exact ⟨[], rfl, by simp⟩
  | cons a as ih =>
    obtain ⟨ts, h1, h2⟩ := ih (fun x hx => has x (List.mem_cons_of_mem _ hx))
    obtain ⟨⟨c, hc⟩, ⟨r, hr⟩⟩ := trampolines_some ha hl hcx hf (has a List.mem_cons_self)
    have : ∃ xs, trampolines cx names f a = some xs := by
      unfold trampolines
      split
      · simp [hc, hr]
      · exact ⟨[], rfl⟩
    obtain ⟨xs, hxs⟩ := this
    refine ⟨xs ++ ts, by simp [allTrampolines, hxs, h1], ?_⟩
    intro b hb ys hys y hy
    rcases List.mem_cons.1 hb with rfl | hb
    · rw [hxs] at hys; cases hys; exact List.mem_append_left _ hy
    · exact List.mem_append_right _ (h2 b hb ys hys y hy)

theorem externFn_some (ha : Accepted g apis) (hl : LexicalBridge apis) (hcx : cx.types = collect apis)
    {f : ExternFn} (hf : DeclaresFn apis f) : ∃ s, externFn cx.types f = some s := by
  rw [hcx]; exact symbol_exists ha hl (e := .fn f) hf

theorem cxxTarget_some (ha : Accepted g apis) (hcx : cx.types = collect apis) {f : ExternFn}
    (hf : DeclaresFn apis f) : ∃ t, cxxTarget cx f = some t := by
  unfold cxxTarget
  cases hr : f.sig.receiver with
  | none => exact ⟨_, rfl⟩
  | some r =>
    obtain ⟨p, hp⟩ := resolve_receiver ha hf hr
    exact ⟨_, by simp only [hcx, hp, Option.map_some]; rfl⟩

theorem apiDefs_some (ha : Accepted g apis) (hl : LexicalBridge apis) (hcx : cx.types = collect apis) {a : Api}
    (haa : a ∈ apis) : ∃ ds, apiDefs cx names a = some ds := by
  cases a with
  | cxxFunction f =>
    obtain ⟨s, hs⟩ := externFn_some ha hl hcx (f := f) (.inl haa)
    obtain ⟨t, ht⟩ := cxxTarget_some ha hcx (f := f) (.inl haa)
    obtain ⟨ts, hts, _⟩ := allTrampolines_some (names := names) ha hl hcx (f := f) (.inl haa) f.sig.args (fun _ h => h)
    simp [apiDefs, hs, cxxBack, ht, hts]
  | rustFunction f =>
    obtain ⟨s, hs⟩ := externFn_some ha hl hcx (f := f) (.inr haa)
    simp [apiDefs, hs]
  | _ => exact ⟨[], rfl⟩

theorem defs_some (ha : Accepted g apis) (hl : LexicalBridge apis) (hcx : cx.types = collect apis) :
    ∃ ds, defs cx names apis = some ds := by
  suffices h : ∀ l : List Api, (∀ a ∈ l, a ∈ apis) → ∃ ds, defs cx names l = some ds from h apis (fun _ h => h)
  intro l
  induction l with
  | nil => exact fun _ => ⟨[], rfl⟩
  | cons a l ih =>
    intro hm
    obtain ⟨x, hx⟩ := apiDefs_some (names := names) ha hl hcx (hm a List.mem_cons_self)
    obtain ⟨y, hy⟩ := ih (fun b hb => hm b (List.mem_cons_of_mem _ hb))
    exact ⟨x ++ y, by simp [defs, hx, hy]⟩

theorem defs_mem {ds : List (Symbol × Def)} (h : defs cx names apis = some ds) {a : Api} (haa : a ∈ apis)
    {xs : List (Symbol × Def)} (hx : apiDefs cx names a = some xs) : ∀ x ∈ xs, x ∈ ds := by
  induction apis generalizing ds with
  | nil => cases haa
  | cons b as ih =>
    simp only [defs] at h
    split at h
    · rename_i u w hu hw
      cases h
      rcases List.mem_cons.1 haa with rfl | haa
      · rw [hx] at hu; cases hu
        exact fun x hx => List.mem_append_left _ hx
      · exact fun x hx => List.mem_append_right _ (ih hw haa x hx)
    · cases h

end Verif.Call
