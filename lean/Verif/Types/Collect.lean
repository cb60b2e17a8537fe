import Verif.Types.Props
/-!
# What `Types::collect` gathers

Each table of `collect apis` described by the items of the bridge.
-/
namespace Verif.Types
open Verif.Syntax Verif.Ordered Verif.TypeEq

theorem within_iff_visit (t w : Ty) : t ∈ visitTypes w ↔ Within t w := by
  have one : ∀ {w u : Ty}, (∀ v, Part v w → v = u) → Part u w →
      (t ∈ visitTypes u ↔ Within t u) → (t = w ∨ t ∈ visitTypes u ↔ Within t w) := by
    intro w u hu hp ih
    rw [ih]
    constructor
    · rintro (rfl | h)
      · exact .self _
      · exact .part hp h
    · intro h
      cases h with
      | self => exact .inl rfl
      | part hp h => rw [hu _ hp] at h; exact .inr h
  have zero : ∀ {w : Ty}, (∀ v, ¬ Part v w) → (t = w ↔ Within t w) := by
    intro w hn
    constructor
    · rintro rfl; exact .self _
    · intro h
      cases h with
      | self => rfl
      | part hp _ => exact absurd hp (hn _)
  have list : ∀ as : List Ty, (∀ a ∈ as, (t ∈ visitTypes a ↔ Within t a)) →
      (t ∈ visitList as ↔ ∃ a ∈ as, Within t a) := by
    intro as
    induction as with
    | nil => simp [visitList]
    | cons a as ih =>
      intro h
      simp only [visitList, List.mem_append, h a (by simp), ih (fun b hb => h b (by simp [hb]))]
      simp
  induction w using Ty.induct with
  | fn u as r th h1 h2 =>
    simp only [visitTypes, List.mem_cons, List.mem_append, list as h1]
    constructor
    · rintro (rfl | h | ⟨a, ha, h⟩)
      · exact .self _
      · cases r with
        | none => simp [visitOpt] at h
        | some r => exact .part (.fnRet u as r th) ((h2 r rfl).1 h)
      · exact .part (.fnArg u as r th ha) h
    · intro h
      cases h with
      | self => exact .inl rfl
      | part hp h =>
        cases hp with
        | fnArg _ _ _ _ ha => exact .inr (.inr ⟨_, ha, h⟩)
        | fnRet => exact .inr (.inl ((h2 _ rfl).2 h))
  | _ =>
    simp only [visitTypes, List.mem_cons, List.not_mem_nil, or_false]
    first
      | exact zero (fun v hv => by cases hv)
      | exact one (fun v hv => by cases hv; rfl) (by constructor) (by assumption)

theorem beq_eq {a b : Ty} (h : (a == b) = true) : a = b :=
  ((type_eq_iff a b).1 h).1

theorem contains_mem {l : List Ty} {x : Ty} (h : l.contains x = true) : x ∈ l := by
  induction l with
  | nil => simp at h
  | cons a l ih =>
    simp only [List.contains_cons, Bool.or_eq_true] at h
    rcases h with h | h
    · rw [beq_eq h]; exact List.mem_cons_self
    · exact List.mem_cons_of_mem _ (ih h)

/-- Membership in the collected set after inserting one type. -/
theorem mem_insert (s : OSet Ty) (h : ∀ x, x ∈ s.set ↔ x ∈ s.vec) (t : Ty) :
    (∀ x, x ∈ (s.insert t).1.set ↔ x ∈ (s.insert t).1.vec) ∧
    ∀ x, x ∈ (s.insert t).1.vec ↔ x ∈ s.vec ∨ x = t := by
  unfold OSet.insert
  cases hc : s.set.contains t with
  | true =>
    have := (h t).1 (contains_mem hc)
    simp only [Bool.not_true, Bool.false_eq_true, if_false]
    exact ⟨h, fun x => ⟨.inl, fun e => e.elim id (fun e => e ▸ this)⟩⟩
  | false =>
    simp only [Bool.not_false, if_true]
    constructor
    · intro x; simp [h x, or_comm]
    · intro x; simp

theorem mem_insertAll (s : OSet Ty) (h : ∀ x, x ∈ s.set ↔ x ∈ s.vec) (ts : List Ty) :
    (∀ x, x ∈ (s.insertAll ts).1.set ↔ x ∈ (s.insertAll ts).1.vec) ∧
    ∀ x, x ∈ (s.insertAll ts).1.vec ↔ x ∈ s.vec ∨ x ∈ ts := by
  induction ts generalizing s with
  | nil => simp [OSet.insertAll, h]
  | cons t ts ih =>
    obtain ⟨h1, h2⟩ := mem_insert s h t
    obtain ⟨h3, h4⟩ := ih _ h1
    refine ⟨h3, fun x => ?_⟩
    rw [show (s.insertAll (t :: ts)).1 = ((s.insert t).1.insertAll ts).1 from rfl, h4, h2]
    simp [or_assoc]

theorem mem_visitAll (st : Types) (h : ∀ x, x ∈ st.all.set ↔ x ∈ st.all.vec) (ts : List Ty) :
    (∀ x, x ∈ (st.visitAll ts).all.set ↔ x ∈ (st.visitAll ts).all.vec) ∧
    ∀ x, x ∈ (st.visitAll ts).all.vec ↔ x ∈ st.all.vec ∨ ∃ w ∈ ts, x ∈ visitTypes w := by
  induction ts generalizing st with
  | nil => simp [Types.visitAll, h]
  | cons t ts ih =>
    obtain ⟨h1, h2⟩ := mem_insertAll st.all h (visitTypes t)
    obtain ⟨h3, h4⟩ := ih (st.visit t) h1
    refine ⟨h3, fun x => ?_⟩
    rw [show (st.visitAll (t :: ts)) = (st.visit t).visitAll ts from rfl, h4,
      show (st.visit t).all.vec = ((st.all.insertAll (visitTypes t)).1).vec from rfl, h2]
    simp [or_assoc]

/-- The remaining tables after the items `apis`. -/
structure Gathers (apis : List Api) (st : Types) : Prop where
  allInv : ∀ x, x ∈ st.all.set ↔ x ∈ st.all.vec
  all : ∀ x, x ∈ st.all.vec ↔ ∃ a ∈ apis, ∃ w ∈ writtenTypes a, Within x w
  rust : ∀ n, n ∈ st.rust ↔ Kind.rust ∈ definitions apis n
  aliases : ∀ n, mapHas st.aliases n = true ↔ Kind.alias ∈ definitions apis n
  structs : ∀ n s, mapGet st.structs n = some s → Api.struct s ∈ apis ∧ s.name.rust = n
  hasStruct : ∀ n, mapHas st.structs n = true ↔ ∃ s, Api.struct s ∈ apis ∧ s.name.rust = n
  hasEnum : ∀ n, mapHas st.enums n = true ↔ ∃ e, Api.enum e ∈ apis ∧ e.name.rust = n
  untrusted : ∀ n, n ∈ st.untrusted ↔ ∃ t, Api.cxxType t ∈ apis ∧ t.name.rust = n ∧ t.trusted = false
  resolutions : ∀ n, mapGet st.resolutions n =
    (apis.filterMap resolves).reverse.find? (fun r => decide (r.1.rust = n))

/-- The fields of `Types` that `Gathers` is about, and how adding one item changes them. -/
theorem gathers_step' {apis : List Api} {st st' : Types} {a : Api} (h : Gathers apis st)
    (hall : (∀ x, x ∈ st'.all.set ↔ x ∈ st'.all.vec) ∧
      ∀ x, x ∈ st'.all.vec ↔ x ∈ st.all.vec ∨ ∃ w ∈ writtenTypes a, x ∈ visitTypes w)
    (hrust : ∀ n, n ∈ st'.rust ↔ n ∈ st.rust ∨ defines a = some (n, .rust))
    (haliases : ∀ n, mapHas st'.aliases n = true ↔ mapHas st.aliases n = true ∨ defines a = some (n, .alias))
    (hstructs : ∀ n s, mapGet st'.structs n = some s →
      mapGet st.structs n = some s ∨ (a = .struct s ∧ s.name.rust = n))
    (hhas : ∀ n, mapHas st'.structs n = true ↔ mapHas st.structs n = true ∨ ∃ s, a = .struct s ∧ s.name.rust = n)
    (henum : ∀ n, mapHas st'.enums n = true ↔ mapHas st.enums n = true ∨ ∃ e, a = .enum e ∧ e.name.rust = n)
    (hunt : ∀ n, n ∈ st'.untrusted ↔ n ∈ st.untrusted ∨ ∃ t, a = .cxxType t ∧ t.name.rust = n ∧ t.trusted = false)
    (hres : ∀ n, mapGet st'.resolutions n = match resolves a with
      | some r => if r.1.rust = n then some r else mapGet st.resolutions n
      | none => mapGet st.resolutions n) :
    Gathers (apis ++ [a]) st' := by
  constructor
  · exact hall.1
  · intro x; rw [hall.2, h.all]
    simp only [List.mem_append, List.mem_singleton, within_iff_visit]
    constructor
    · rintro (⟨b, hb, hw⟩ | hw)
      · exact ⟨b, .inl hb, hw⟩
      · exact ⟨a, .inr rfl, hw⟩
    · rintro ⟨b, hb | rfl, hw⟩
      · exact .inl ⟨b, hb, hw⟩
      · exact .inr hw
  · intro n; rw [hrust, h.rust, definitions_snoc]
    cases hd : defines a with
    | none => simp
    | some d => obtain ⟨m, k⟩ := d; by_cases hm : m = n <;> simp [hm]; try grind
  · intro n; rw [haliases, h.aliases, definitions_snoc]
    cases hd : defines a with
    | none => simp
    | some d => obtain ⟨m, k⟩ := d; by_cases hm : m = n <;> simp [hm]; try grind
  · intro n s hs
    rcases hstructs n s hs with hs | ⟨rfl, hn⟩
    · exact ⟨List.mem_append_left _ (h.structs n s hs).1, (h.structs n s hs).2⟩
    · exact ⟨by simp, hn⟩
  · intro n; rw [hhas, h.hasStruct]; simp only [List.mem_append, List.mem_singleton]; grind
  · intro n; rw [henum, h.hasEnum]; simp only [List.mem_append, List.mem_singleton]; grind
  · intro n; rw [hunt, h.untrusted]; simp only [List.mem_append, List.mem_singleton]; grind
  · intro n; rw [hres, List.filterMap_append, List.reverse_append]
    cases hr : resolves a with
    | none => simp [hr, h.resolutions]
    | some r => by_cases hn : r.1.rust = n <;> simp [hr, hn, h.resolutions]

theorem all_same {st st' : Types} {a : Api} (h : ∀ x, x ∈ st.all.set ↔ x ∈ st.all.vec)
    (he : st'.all = st.all) (hw : writtenTypes a = []) :
    (∀ x, x ∈ st'.all.set ↔ x ∈ st'.all.vec) ∧
      ∀ x, x ∈ st'.all.vec ↔ x ∈ st.all.vec ∨ ∃ w ∈ writtenTypes a, x ∈ visitTypes w := by
  rw [he, hw]; simp [h]

theorem visitAll_eq' (st : Types) (ts : List Ty) :
    st.visitAll ts = { st with all := (st.visitAll ts).all } := by
  obtain ⟨all, h⟩ := visitAll_eq st ts
  rw [h]

/-- Closes the side goals of `gathers_step'` left by `simp`. -/
macro "finish" : tactic => `(tactic| first | done | (intro n s h; exact Or.inl h) | (intro n; grind) | (intro n t; grind) | grind)

theorem gathers_fn {apis : List Api} {st : Types} {a : Api} {f : ExternFn} (h : Gathers apis st)
    (ha : a = .cxxFunction f ∨ a = .rustFunction f) : Gathers (apis ++ [a]) (collectApi st a) := by
  have hc : collectApi st a = collectApi st (.cxxFunction f) := by rcases ha with rfl | rfl <;> rfl
  have hw : writtenTypes a = f.sig.args.map (·.ty) ++ f.sig.ret.toList := by rcases ha with rfl | rfl <;> rfl
  have hr : resolves a = none := by rcases ha with rfl | rfl <;> rfl
  have hd : defines a = none := by rcases ha with rfl | rfl <;> rfl
  have hns : ∀ s, a ≠ .struct s := by rcases ha with rfl | rfl <;> simp
  have hne : ∀ s, a ≠ .enum s := by rcases ha with rfl | rfl <;> simp
  have hnt : ∀ s, a ≠ .cxxType s := by rcases ha with rfl | rfl <;> simp
  rw [hc]
  have hst : ∃ all, collectApi st (.cxxFunction f) = { st with
      functionNames := setInsert st.functionNames (fnKey f)
      dups := if fnKey f ∈ st.functionNames then st.dups ++ [f.name.rust] else st.dups
      all := all } ∧ (∀ x, x ∈ all.set ↔ x ∈ all.vec) ∧
        (∀ x, x ∈ all.vec ↔ x ∈ st.all.vec ∨ ∃ w ∈ writtenTypes a, x ∈ visitTypes w) := by
    have hv := mem_visitAll { st with functionNames := setInsert st.functionNames (fnKey f), dups := if fnKey f ∈ st.functionNames then st.dups ++ [f.name.rust] else st.dups }
          h.allInv (writtenTypes a)
    refine ⟨_, ?_, hv⟩
    rw [← visitAll_eq', hw]
    simp only [collectApi]
    cases f.sig.ret with
    | none => simp
    | some r => simp [Types.visitAll, List.foldl_append]
  obtain ⟨all, he, hv⟩ := hst
  rw [he]
  refine gathers_step' h hv ?_ ?_ ?_ ?_ ?_ ?_ ?_ <;> simp [hd, hr, hns, hne, hnt] <;> finish

theorem gathers_step (apis : List Api) (st : Types) (a : Api) (h : Gathers apis st) :
    Gathers (apis ++ [a]) (collectApi st a) := by
  cases a with
  | «include» p =>
    refine gathers_step' h (all_same h.allInv rfl rfl) ?_ ?_ ?_ ?_ ?_ ?_ ?_ <;>
      simp [collectApi, defines, resolves] <;> finish
  | rustType t =>
    refine gathers_step' h (all_same h.allInv rfl rfl) ?_ ?_ ?_ ?_ ?_ ?_ ?_ <;>
      simp [collectApi, defines, resolves, Types.declare, Types.addResolution, mem_setInsert, mapGet_insert] <;> finish
  | typeAlias t =>
    refine gathers_step' h (all_same h.allInv rfl rfl) ?_ ?_ ?_ ?_ ?_ ?_ ?_ <;>
      simp [collectApi, defines, resolves, Types.declare, Types.addResolution, mapGet_insert, mapHas_insert] <;> finish
  | cxxType t =>
    simp only [collectApi]
    split <;>
    · refine gathers_step' h (all_same h.allInv rfl rfl) ?_ ?_ ?_ ?_ ?_ ?_ ?_ <;>
        simp [defines, resolves, Types.declare, Types.addResolution, mem_setInsert, mapGet_insert] <;> finish
  | impl i =>
    have hv := mem_visitAll st h.allInv [i.ty]
    have hvv : st.visitAll [i.ty] = st.visit i.ty := rfl
    rw [hvv] at hv
    simp only [collectApi]
    split <;>
    · refine gathers_step' h ?_ ?_ ?_ ?_ ?_ ?_ ?_ ?_
      · exact hv
      all_goals simp [defines, resolves, Types.visit] <;> finish
  | enum e =>
    have hv := mem_insert st.all h.allInv (Ty.named e.repr.asRef)
    have hall : (∀ x, x ∈ (st.all.insert (Ty.named e.repr.asRef)).1.set ↔ x ∈ (st.all.insert (Ty.named e.repr.asRef)).1.vec) ∧
        ∀ x, x ∈ (st.all.insert (Ty.named e.repr.asRef)).1.vec ↔
          x ∈ st.all.vec ∨ ∃ w ∈ writtenTypes (.enum e), x ∈ visitTypes w := by
      refine ⟨hv.1, fun x => ?_⟩
      rw [hv.2]
      simp [writtenTypes, Ty.named, visitTypes]
    simp only [collectApi]
    split <;>
    · refine gathers_step' h ?_ ?_ ?_ ?_ ?_ ?_ ?_ ?_
      · exact hall
      all_goals simp [defines, resolves, Types.declare, Types.addResolution, mapGet_insert, mapHas_insert, *] <;> finish
  | struct s =>
    simp only [collectApi]
    rw [visitAll_eq']
    refine gathers_step' h ?_ ?_ ?_ ?_ ?_ ?_ ?_ ?_
    · exact mem_visitAll _ (by exact h.allInv) _
    all_goals simp [defines, resolves, Types.declare, Types.addResolution, mapGet_insert, mapHas_insert] <;> finish
  | cxxFunction f => exact gathers_fn h (.inl rfl)
  | rustFunction f => exact gathers_fn h (.inr rfl)

theorem gathers_scan (apis : List Api) : Gathers apis (scan apis) := by
  induction apis using Ordered.snoc_induction with
  | nil => constructor <;> simp [scan, OSet.new, definitions, mapHas, mapGet]
  | snoc xs x ih =>
    rw [scan, List.foldl_append]
    exact gathers_step _ _ _ ih

theorem implicit_same (st : Types) (ts : List Ty) :
    ∃ impls, ts.foldl implicitImpl st = { st with impls := impls } := by
  induction ts generalizing st with
  | nil => exact ⟨st.impls, rfl⟩
  | cons t ts ih =>
    obtain ⟨impls, h⟩ := ih (implicitImpl st t)
    refine ⟨impls, ?_⟩
    rw [List.foldl_cons, h]
    unfold implicitImpl
    split
    · rfl
    · split <;> rfl

theorem gathers (apis : List Api) : Gathers apis (collect apis) := by
  obtain ⟨impls, h⟩ := implicit_same (scan apis) (scan apis).all.iter
  have hg := gathers_scan apis
  rw [collect, h]
  exact ⟨hg.1, hg.2, hg.3, hg.4, hg.5, hg.6, hg.7, hg.8, hg.9⟩

theorem knows (apis : List Api) : Knows apis (collect apis) := by
  obtain ⟨impls, h⟩ := implicit_same (scan apis) (scan apis).all.iter
  have hg := knows_scan apis
  rw [collect, h]
  exact ⟨hg.1, hg.2, hg.3, hg.4, hg.5⟩

end Verif.Types
