import Verif.Check.Props
/-!
# C51: in an accepted bridge every name resolves
-/
namespace Verif.Check
open Verif.Syntax Verif.Types Verif.Ordered

theorem implsInsert_keys (m : List (ImplKey × Bool)) (k k' : ImplKey) (v : Bool) :
    k' ∈ (implsInsert m k v).map (·.1) ↔ k' = k ∨ k' ∈ m.map (·.1) := by
  unfold implsInsert
  split
  · next h =>
    have he : (m.map (fun e => if e.1 = k then (e.1, v) else e)).map (·.1) = m.map (·.1) := by
      rw [List.map_map]
      apply List.map_congr_left
      intro e _
      simp only [Function.comp]
      split <;> rfl
    rw [he]
    rw [List.any_eq_true] at h
    obtain ⟨e, hm, he⟩ := h
    constructor
    · exact .inr
    · rintro (rfl | h)
      · exact List.mem_map.2 ⟨e, hm, by simpa using he⟩
      · exact h
  · simp [or_comm]

theorem scan_impls (apis : List Api) (k : ImplKey) :
    k ∈ (scan apis).impls.map (·.1) ↔ ∃ i, Api.impl i ∈ apis ∧ implKey i.ty = some k := by
  induction apis using Ordered.snoc_induction with
  | nil => simp [scan]
  | snoc xs x ih =>
    have same : ∀ st' : Types, st'.impls = (scan xs).impls → (∀ i, x ≠ .impl i) →
        (k ∈ st'.impls.map (·.1) ↔ ∃ i, Api.impl i ∈ xs ++ [x] ∧ implKey i.ty = some k) := by
      intro st' he hn
      rw [he, ih]
      simp only [List.mem_append, List.mem_singleton]
      constructor
      · rintro ⟨i, hi, hk⟩; exact ⟨i, .inl hi, hk⟩
      · rintro ⟨i, hi | hi, hk⟩
        · exact ⟨i, hi, hk⟩
        · exact absurd hi.symm (hn i)
    have hx : scan (xs ++ [x]) = collectApi (scan xs) x := by rw [scan, List.foldl_append]; rfl
    rw [hx]
    cases x with
    | impl i =>
      simp only [collectApi]
      cases hk : implKey i.ty with
      | none =>
        simp only [Types.visit, List.mem_append, List.mem_singleton]
        rw [ih]
        constructor
        · rintro ⟨j, hj, hkj⟩; exact ⟨j, .inl hj, hkj⟩
        · rintro ⟨j, hj | hj, hkj⟩
          · exact ⟨j, hj, hkj⟩
          · cases hj; rw [hk] at hkj; cases hkj
      | some key =>
        simp only [Types.visit, implsInsert_keys, List.mem_append, List.mem_singleton]
        rw [ih]
        constructor
        · rintro (rfl | ⟨j, hj, hkj⟩)
          · exact ⟨i, .inr rfl, hk⟩
          · exact ⟨j, .inl hj, hkj⟩
        · rintro ⟨j, hj | hj, hkj⟩
          · exact .inr ⟨j, hj, hkj⟩
          · cases hj; rw [hk] at hkj; cases hkj; exact .inl rfl
    | «include» p => exact same _ rfl (by simp)
    | rustType t => exact same _ rfl (by simp)
    | typeAlias t => exact same _ rfl (by simp)
    | cxxType t => exact same _ (by simp only [collectApi]; split <;> rfl) (by simp)
    | enum e => exact same _ (by simp only [collectApi]; split <;> rfl) (by simp)
    | struct s => exact same _ (by simp only [collectApi]; rw [visitAll_eq']; rfl) (by simp)
    | cxxFunction f =>
      exact same _ (by simp only [collectApi]; rw [visitAll_eq']; split <;> rfl) (by simp)
    | rustFunction f =>
      exact same _ (by simp only [collectApi]; rw [visitAll_eq']; split <;> rfl) (by simp)

theorem implicit_keys (st : Types) (ts : List Ty) (k : ImplKey) :
    k ∈ (ts.foldl implicitImpl st).impls.map (·.1) ↔ k ∈ st.impls.map (·.1) ∨
      (Atom.fromStr k.rust = none ∧ mapHas st.aliases k.rust = false ∧ ∃ t ∈ ts, implKey t = some k) := by
  induction ts generalizing st with
  | nil => simp
  | cons t ts ih =>
    rw [List.foldl_cons, ih]
    have hal : (implicitImpl st t).aliases = st.aliases := by
      unfold implicitImpl; split
      · rfl
      · split <;> rfl
    rw [hal]
    unfold implicitImpl
    cases hk : implKey t with
    | none => simp [hk]
    | some key =>
      simp only []
      split
      · next hc =>
        simp only [implsInsert_keys]
        constructor
        · rintro ((rfl | h) | ⟨h1, h2, u, hu, hku⟩)
          · exact .inr ⟨hc.1, hc.2.1, t, by simp, hk⟩
          · exact .inl h
          · exact .inr ⟨h1, h2, u, by simp [hu], hku⟩
        · rintro (h | ⟨h1, h2, u, hu, hku⟩)
          · exact .inl (.inr h)
          · rcases List.mem_cons.1 hu with rfl | hu
            · rw [hk] at hku; cases hku; exact .inl (.inl rfl)
            · exact .inr ⟨h1, h2, u, hu, hku⟩
      · next hc =>
        constructor
        · rintro (h | ⟨h1, h2, u, hu, hku⟩)
          · exact .inl h
          · exact .inr ⟨h1, h2, u, by simp [hu], hku⟩
        · rintro (h | ⟨h1, h2, u, hu, hku⟩)
          · exact .inl h
          · rcases List.mem_cons.1 hu with rfl | hu
            · rw [hk] at hku; cases hku
              left
              by_cases ha : st.impls.any (fun e => decide (e.1 = k)) = true
              · rw [List.any_eq_true] at ha
                obtain ⟨e, he, hek⟩ := ha
                exact List.mem_map.2 ⟨e, he, by simpa using hek⟩
              · exact absurd ⟨h1, h2, Bool.not_eq_true _ ▸ ha⟩ hc
            · exact .inr ⟨h1, h2, u, hu, hku⟩

/-- Exactly the instantiations a bridge produces: those of an explicit `impl`, and those of a type that
occurs somewhere and whose argument is neither a builtin nor an alias. -/
theorem impls_exact (apis : List Api) (k : ImplKey) :
    k ∈ (collect apis).impls.map (·.1) ↔
      (∃ i, Api.impl i ∈ apis ∧ implKey i.ty = some k) ∨
      (Atom.fromStr k.rust = none ∧ Kind.alias ∉ definitions apis k.rust ∧
        ∃ t, Occurs apis t ∧ implKey t = some k) := by
  rw [collect, implicit_keys, scan_impls]
  have ha := (gathers_scan apis).aliases k.rust
  have hall := (gathers_scan apis).all
  refine or_congr_right (and_congr_right fun _ => and_congr ?_ ?_)
  · rw [← ha]; simp
  · constructor
    · rintro ⟨t, ht, hk⟩; exact ⟨t, (hall t).1 ht, hk⟩
    · rintro ⟨t, ht, hk⟩; exact ⟨t, (hall t).2 ht, hk⟩

theorem within_trans {t u w : Ty} (h : Within t w) (hu : Within u t) : Within u w := by
  induction h with
  | self => exact hu
  | part hp _ ih => exact .part hp ih

theorem occurs_trans {apis : List Api} {t u : Ty} (h : Occurs apis t) (hu : Within u t) :
    Occurs apis u := by
  obtain ⟨a, ha, w, hw, ht⟩ := h
  exact ⟨a, ha, w, hw, within_trans ht hu⟩

theorem implKey_arg {t : Ty} {k : ImplKey} (h : implKey t = some k) :
    ∃ n : NamedType, n.rust = k.rust ∧ Within (Ty.ident n) t := by
  unfold implKey at h
  split at h <;> cases h <;> exact ⟨_, rfl, .part (by constructor) (.self _)⟩

/-- **C51**.  In an accepted bridge, every named type at any depth is a builtin or has exactly the
declarations a resolution comes from; every receiver type resolves; every instantiation's argument
resolves and is not a builtin.  These are the names the generators look up with `Types::resolve`, so its
panic is unreachable. -/
theorem names_resolve {g : Generator} {apis : List Api} (h : Accepted g apis) :
    (∀ n, Occurs apis (.ident n) → Atom.fromStr n.rust = none →
      definitions apis n.rust ≠ [] ∧ mapGet (collect apis).resolutions n.rust ≠ none) ∧
    (∀ f, HasFn apis f → ∀ r, f.sig.receiver = some r →
      definitions apis r.ty.rust ≠ [] ∧ mapGet (collect apis).resolutions r.ty.rust ≠ none) ∧
    (∀ k ∈ (collect apis).impls.map (·.1),
      Atom.fromStr k.rust = none ∧ mapGet (collect apis).resolutions k.rust ≠ none) := by
  have key : ∀ n, Occurs apis (.ident n) → Atom.fromStr n.rust = none → definitions apis n.rust ≠ [] := by
    intro n ho hat
    have hck : checkTypeIdent (cxOf g apis) n = [] := accepted_type h ho
    unfold checkTypeIdent at hck
    apply defined_of_known
    by_cases h1 : mapHas (collect apis).structs n.rust = true
    · exact .inl h1
    · by_cases h2 : mapHas (collect apis).enums n.rust = true
      · exact .inr (.inl h2)
      · by_cases h3 : n.rust ∈ (collect apis).cxx
        · exact .inr (.inr (.inl h3))
        · by_cases h4 : n.rust ∈ (collect apis).rust
          · exact .inr (.inr (.inr h4))
          · simp [cxOf, hat, h1, h2, h3, h4] at hck
  refine ⟨fun n ho hat => ⟨key n ho hat, resolved (key n ho hat)⟩, ?_, ?_⟩
  · intro f hf r hr
    have hc := accepted_fn h hf
    simp only [checkApiFn, List.append_eq_nil_iff] at hc
    have hrecv := hc.1.1.1.2
    rw [hr] at hrecv
    have : definitions apis r.ty.rust ≠ [] := by
      apply defined_of_known
      by_cases h1 : mapHas (collect apis).structs r.ty.rust = true
      · exact .inl h1
      · by_cases h2 : mapHas (collect apis).enums r.ty.rust = true
        · exact .inr (.inl h2)
        · by_cases h3 : r.ty.rust ∈ (collect apis).cxx
          · exact .inr (.inr (.inl h3))
          · by_cases h4 : r.ty.rust ∈ (collect apis).rust
            · exact .inr (.inr (.inr h4))
            · simp only [checkReceiver] at hrecv
              split at hrecv
              · cases hrecv
              · have h2' : ¬ mapHas (cxOf g apis).types.enums r.ty.rust = true := h2
                have h1' : mapHas (cxOf g apis).types.structs r.ty.rust = false := by
                  simpa [cxOf] using h1
                rw [if_neg h2', if_pos ⟨h1', h3, h4⟩] at hrecv; cases hrecv
    exact ⟨this, resolved this⟩
  · intro k hk
    rcases (impls_exact apis k).1 hk with ⟨i, hi, hik⟩ | ⟨hat, _, t, ht, hkt⟩
    · have hc : checkApiImpl (cxOf g apis) i = [] := accepted_api h hi
      simp only [checkApiImpl, List.append_eq_nil_iff, hik] at hc
      have hat : Atom.fromStr k.rust = none := by
        have := hc.2
        split at this
        · cases this
        · split at this
          · assumption
          · cases this
      obtain ⟨n, hn, hv⟩ := implKey_arg hik
      refine ⟨hat, ?_⟩
      rw [← hn]
      refine resolved (key n ⟨_, hi, i.ty, by simp [writtenTypes], hv⟩ ?_)
      rw [hn]; exact hat
    · obtain ⟨n, hn, hv⟩ := implKey_arg hkt
      refine ⟨hat, ?_⟩
      rw [← hn]
      refine resolved (key n (occurs_trans ht hv) ?_)
      rw [hn]; exact hat

example : Accepted .build sample ∧ Occurs sample (.ident ⟨"R", []⟩) ∧
    ImplKey.rustBox "R" ∈ (collect sample).impls.map (·.1) := by
  refine ⟨sample_accepted.1, ?_, by decide +kernel⟩
  exact ⟨_, List.mem_cons_of_mem _ (List.mem_cons_of_mem _ (List.mem_cons_of_mem _ (List.mem_cons_of_mem _
    (List.mem_cons_self)))), .rustBox (.named "R"), by simp [cfn, writtenTypes], .part (.rustBox _) (.self _)⟩

end Verif.Check
