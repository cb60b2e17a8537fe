import Verif.Stripped.Spec
import Verif.Parse.ItemProps
import Verif.Cfg.Props
/-!
# Both halves see the same conditions
-/
namespace Verif.Stripped
open Verif.Syntax Verif.Types Verif.Parse Verif.Cfg

/-! ### Conditions with a value -/

/-- The evaluator that knows everything. -/
def full (f : Config) : Evaluator := fun n v => .ofBool (f n v)

theorem full_extends (f : Config) : Extends f (full f) := by
  intro n v
  unfold full CfgResult.ofBool
  cases f n v <;> simp

theorem settled_full (f : Config) (e : CfgExpr) : Settled (full f) e (holds f e) := by
  cases h : tryEval (full f) e with
  | ok b =>
    rw [eval_sound (full_extends f) h]
    exact (eval_settled _ _ _).1 h
  | error ms =>
    obtain ⟨h1, h2⟩ := (eval_open (full f) e).2 ms h
    obtain ⟨m, hm⟩ := List.exists_mem_of_ne_nil _ h1
    obtain ⟨n, v, _, h3⟩ := h2 m hm
    unfold full CfgResult.ofBool at h3
    split at h3 <;> cases h3

theorem allOf_holds {cfg : CfgExpr} {conditions : List CfgExpr} (h : AllOf cfg conditions) (f : Config) :
    holds f cfg = true ↔ ∀ e ∈ conditions, holds f e = true := by
  have := (h (full f)).1
  simp only [settled_full f _ _] at this
  constructor
  · intro hc e he; exact (this.1 hc.symm e he).symm
  · intro hc; exact (this.2 fun e he => (hc e he).symm).symm

/-! ### What is printed -/

theorem cfg_unique {r : Readers} {a : Attr} {e e' : CfgExpr} (h : IsCfg r a e) (h' : IsCfg r a e') : e = e' :=
  Option.some.inj (h.2.symm.trans h'.2)

theorem forRust_not_cfg {r : Readers} {a : Attr} {e : CfgExpr} (h : ForRust a) : ¬ IsCfg r a e := by
  rintro ⟨⟨_, hc⟩, _⟩
  rcases h with ⟨n, hn, _, h⟩ | ⟨x, xs, h⟩
  · rw [hc] at h
    have : n = "cfg" := by simpa using h.symm
    subst this
    revert hn; decide
  · rw [hc] at h; simp at h

/-- The conditions that the macro prints are the ones that cxx reads. -/
theorem kept_reads {r : Readers} {w : Wants} {g g' : Found} {attrs others : List Attr} {conditions : List CfgExpr}
    (h : Reads r w g attrs conditions g' others) (f : Config) :
    Kept r f others ↔ ∀ e ∈ conditions, holds f e = true := by
  induction h with
  | nil => exact ⟨fun _ _ h => (List.not_mem_nil h).elim, fun _ _ h => (List.not_mem_nil h).elim⟩
  | says _ _ _ ih => exact ih
  | forRustfmt _ _ ih => exact ih
  | stray _ _ _ ih => exact ih
  | cfg hc _ _ ih =>
    unfold Kept at ih ⊢
    simp only [List.forall_mem_cons, ih]
    constructor
    · rintro ⟨h1, h2⟩; exact ⟨h1 _ hc, h2⟩
    · rintro ⟨h1, h2⟩; exact ⟨fun e he => cfg_unique hc he ▸ h1, h2⟩
  | forRust ha _ ih =>
    unfold Kept at ih ⊢
    simp only [List.forall_mem_cons, ih]
    exact ⟨fun h => h.2, fun h => ⟨fun e he => absurd he (forRust_not_cfg ha), h⟩⟩

theorem kept_append {r : Readers} {f : Config} {as bs : List Attr} :
    Kept r f (as ++ bs) ↔ Kept r f as ∧ Kept r f bs := by
  unfold Kept
  simp only [List.mem_append, or_imp, forall_and]

theorem attached_kept {r : Readers} {f : Config} {x : Extra} {outerConditions conditions : List CfgExpr}
    {outer others : List Attr} {g : Found} (h : Attached x outerConditions conditions outer g others)
    (ho : Kept r f outer ↔ ∀ e ∈ outerConditions, holds f e = true)
    (hi : Kept r f others ↔ ∀ e ∈ conditions, holds f e = true) :
    Kept r f x.others ↔ holds f x.cfg = true := by
  rw [h.2.2.2, kept_append, ho, hi, allOf_holds h.1]
  simp only [List.mem_append, or_imp, forall_and]

theorem kept_nil {r : Readers} {f : Config} : Kept r f [] ↔ ∀ e ∈ ([] : List CfgExpr), holds f e = true :=
  ⟨fun _ _ h => (List.not_mem_nil h).elim, fun _ _ h => (List.not_mem_nil h).elim⟩

/-- The attributes of an item and of its members say to rustc what cxx makes of them. -/
structure Printed (r : Readers) (o : Out) : Prop where
  item : (∀ p, o.api ≠ .include p) → (∀ i, o.api ≠ .impl i) → ∀ f, Kept r f o.extra.others ↔ holds f o.extra.cfg = true
  members : ∀ m ∈ o.members, ∀ f, Kept r f m.1.others ↔ holds f m.1.cfg = true
  fields : ∀ s, o.api = .struct s → o.members.length = s.fields.length
  variants : ∀ e, o.api = .enum e → o.members.length = e.variants.length

theorem printed_foreign {r : Readers} {b : Around} {src : ForeignSrc} {o : Out} (h : ForeignIs r b src o)
    (hb : ∀ f, Kept r f b.others ↔ ∀ e ∈ b.conditions, holds f e = true) : Printed r o := by
  have plain {t : TypeSrc} {bounds : List Trait} {o : Out} (h : ExternTypeIs r b t bounds o) : Printed r o := by
    obtain ⟨conditions, f, others, t, h1, h2, h3, h4, _⟩ := h
    refine ⟨fun _ _ g => attached_kept h2 (hb g) (kept_reads h1 g), by simp [h3], ?_, ?_⟩
    · rintro s hs; rcases h4 with h4 | h4 <;> (rw [h4.2] at hs; cases hs)
    · rintro s hs; rcases h4 with h4 | h4 <;> (rw [h4.2] at hs; cases hs)
  cases h with
  | type h => exact plain h
  | bounded _ h => exact plain h
  | fn h =>
    obtain ⟨conditions, f, others, fn, h1, h2, h3, h4, _⟩ := h
    refine ⟨fun _ _ g => attached_kept h2 (hb g) (kept_reads h1 g), by simp [h3], ?_, ?_⟩
    · rintro s hs; rcases h4 with h4 | h4 <;> (rw [h4.2] at hs; cases hs)
    · rintro s hs; rcases h4 with h4 | h4 <;> (rw [h4.2] at hs; cases hs)
  | alias h =>
    obtain ⟨conditions, f, others, t, h1, h2, h3, _, h4, _⟩ := h
    refine ⟨fun _ _ g => attached_kept h2 (hb g) (kept_reads h1 g), by simp [h3], ?_, ?_⟩
    · rintro s hs; rw [h4] at hs; cases hs
    · rintro s hs; rw [h4] at hs; cases hs
  | «include» _ _ _ _ hm ha => exact ⟨fun h => absurd ha (h _), by simp [hm], by simp [ha], by simp [ha]⟩

theorem self_printed {r : Readers} {outs : List Out} {a b : Out} (h : Printed r a) (hs : SelfResolved outs a b) :
    Printed r b := by
  obtain ⟨h1, h2, h3⟩ := hs
  have api : (∀ p, a.api = .include p → b.api = .include p) ∧ (∀ p, a.api = .impl p → b.api = .impl p) ∧
      (∀ s, b.api = .struct s → a.api = .struct s) ∧ (∀ s, b.api = .enum s → a.api = .enum s) := by
    generalize a.api = x at h3
    generalize b.api = y at h3
    cases h3 with
    | cxx => simp
    | rust => simp
    | same => simp
  refine ⟨fun h4 h5 => ?_, ?_, fun s hs => ?_, fun s hs => ?_⟩
  · rw [h1]; exact h.item (fun p hp => h4 p (api.1 p hp)) (fun p hp => h5 p (api.2.1 p hp))
  · rw [h2]; exact h.members
  · rw [h2]; exact h.fields s (api.2.2.1 s hs)
  · rw [h2]; exact h.variants s (api.2.2.2 s hs)

theorem printed {r : Readers} {checks trusted : Bool} {ns : Namespace} {items : List ItemSrc} {outs : List Out}
    (h : parseItems r checks trusted ns items = ([], outs)) : ∀ o ∈ outs, Printed r o := by
  obtain ⟨parts, h1, rfl⟩ := items_exact h
  intro o ho
  obtain ⟨part, hp, ho⟩ := List.mem_flatten.1 ho
  obtain ⟨src, _, hi⟩ := h1.right hp
  cases hi with
  | struct h =>
    rw [List.mem_singleton.1 ho]
    obtain ⟨conditions, f, others, fields, vars, s, h1, _, _, h2, h3, h4, h5, _, _, _, h6⟩ := h
    refine ⟨fun _ _ g => attached_kept h2 kept_nil (kept_reads h1 g), ?_, ?_, by simp [h5]⟩
    · intro m hm g
      rw [h4] at hm
      obtain ⟨v, hv, rfl⟩ := List.mem_map.1 hm
      obtain ⟨_, _, _, _, _, h7, h8, _⟩ := h3.right hv
      exact attached_kept h8 kept_nil (kept_reads h7 g)
    · intro s' hs; rw [h5] at hs; cases hs; rw [h4, h6]; simp
  | enum h =>
    rw [List.mem_singleton.1 ho]
    obtain ⟨conditions, f, others, vars, e, values, h1, _, _, h2, h3, h4, _, _, h5, _, _, _, h6, _⟩ := h
    refine ⟨fun _ _ g => attached_kept h2 kept_nil (kept_reads h1 g), ?_, by simp [h5], ?_⟩
    · intro m hm g
      rw [h4] at hm
      obtain ⟨v, hv, rfl⟩ := List.mem_map.1 hm
      obtain ⟨_, _, _, _, _, h7, h8, _⟩ := h3.right hv
      exact attached_kept h8 kept_nil (kept_reads h7 g)
    · intro s' hs; rw [h5] at hs; cases hs; rw [h4, h6]; simp
  | block h =>
    obtain ⟨conditions, f, others, lang, before, h1, _, _, h2, h3⟩ := h
    obtain ⟨a, ha, hs⟩ := h3.right ho
    obtain ⟨src, _, hf⟩ := h2.right ha
    exact self_printed (printed_foreign hf fun g => kept_reads h1 g) hs
  | impl h =>
    rw [List.mem_singleton.1 ho]
    obtain ⟨conditions, f, others, i, h1, _, _, _, h2, h3, h4, _⟩ := h
    exact ⟨fun _ h => absurd h4 (h _), by simp [h3], by simp [h4], by simp [h4]⟩

/-! ### Stripping -/

theorem field_field (v : Var) : (Member.field v).field? = some v := rfl
theorem variant_variant (v : Pair) : (Member.variant v).variant? = some v := rfl

theorem filterMap_field (l : List ((Extra × Option Disc) × Var)) (f : Config) :
    (((l.map fun m => (m.1.1.cfg, Member.field m.2)).filter (fun m => holds f m.1)).filterMap
      (·.2.field?)) = (l.filter (fun m => holds f m.1.1.cfg)).map (·.2) := by
  induction l with
  | nil => rfl
  | cons a l ih =>
    simp only [List.map_cons, List.filter_cons]
    split <;> simp [ih, field_field, variant_variant]

theorem filterMap_variant (l : List ((Extra × Option Disc) × Pair)) (f : Config) :
    (((l.map fun m => (m.1.1.cfg, Member.variant m.2)).filter (fun m => holds f m.1)).filterMap
      (·.2.variant?)) = (l.filter (fun m => holds f m.1.1.cfg)).map (·.2) := by
  induction l with
  | nil => rfl
  | cons a l ih =>
    simp only [List.map_cons, List.filter_cons]
    split <;> simp [ih, field_field, variant_variant]

theorem apiOf_on (f : Config) (o : Out) :
    apiOf { itemOf o with members := (itemOf o).members.filter (fun m => holds f m.1) } = onItem f o := by
  unfold apiOf itemOf onItem
  cases o.api with
  | struct s => simp only [filterMap_field]
  | enum e => simp only [filterMap_variant]
  | _ => rfl

/-- **C88**.  If the C++ generator knows enough to report no error, it goes on with exactly what is switched on: the same items,
in order, each with the fields or variants that are switched on. -/
theorem strip_on {f : Config} {σ : Evaluator} (hx : Extends f σ) {outs : List Out} {apis : List Api}
    (h : stripped σ outs = (apis, [])) : apis = switchedOn f outs := by
  obtain ⟨p, hp⟩ := settled_decidable σ
  obtain ⟨h1, h2⟩ := strip_exact p hp (outs.map itemOf) (log := ⟨[], []⟩) ⟨List.nodup_nil, fun _ => Iff.rfl⟩
  unfold stripped at h
  cases hs : strip σ ⟨[], []⟩ (outs.map itemOf) with
  | mk items log =>
    rw [hs] at h h1 h2
    dsimp only at h h1 h2
    have hr : log.reported = [] := congrArg Prod.snd h
    have ha : items.map apiOf = apis := congrArg Prod.fst h
    have closed : ∀ e ∈ (outs.map itemOf).map (·.cfg) ++ ((outs.map itemOf).filter (fun i => p i.cfg)).flatMap
        (fun i => i.members.map (·.1)), p e = holds f e := by
      intro e he
      cases ht : tryEval σ e with
      | ok b =>
        rw [eval_sound hx ht, Bool.eq_iff_iff, hp, ← eval_settled, ht]
        cases b <;> simp
      | error ms =>
        obtain ⟨n, v, m, _, _, hm⟩ := h2.all e he ((eval_open σ e).1.1 ⟨ms, ht⟩)
        rw [hr] at hm; cases hm
    rw [← ha, h1, switchedOn, List.map_map]
    have e1 : (outs.map itemOf).filter (fun i => p i.cfg) =
        (outs.filter (fun o => holds f o.extra.cfg)).map itemOf := by
      rw [List.filter_map]
      congr 1
      apply List.filter_congr
      intro o ho
      exact closed _ (List.mem_append_left _ (List.mem_map.2 ⟨_, List.mem_map.2 ⟨o, ho, rfl⟩, rfl⟩))
    rw [e1, List.map_map]
    apply List.map_congr_left
    intro o ho
    simp only [Function.comp]
    rw [← apiOf_on]
    congr 2
    apply List.filter_congr
    intro m hm
    refine closed _ (List.mem_append_right _ ?_)
    rw [e1]
    exact List.mem_flatMap.2 ⟨_, List.mem_map.2 ⟨o, ho, rfl⟩, List.mem_map.2 ⟨m, hm, rfl⟩⟩

end Verif.Stripped
