import Verif.Parse.ItemSpec
import Verif.Check.Props
import Verif.Parse.AttrProps
import Verif.Parse.TypeProps
/-!
# Items: nothing is lost, nothing is made up
-/
namespace Verif.Parse
open Verif.Syntax Verif.Cfg Verif.Discriminant

/-! ### Attributes of an item -/

theorem allOf_none : AllOf .unconditional [] := by
  intro σ
  constructor
  · simp; exact .unconditional
  · simp; intro h; cases h

theorem allOf_merge {c oc} (h : AllOf c oc) (es) : AllOf (mergeAll c es) (oc ++ es) := by
  intro σ
  constructor
  · rw [mergeAll_true, (h σ).1]; grind
  · rw [mergeAll_false, (h σ).2]; grind

theorem attrs_of {r w ns attrs conds g others} (h : Reads r w (.nothing ns) attrs conds g others) (cfg : CfgExpr) :
    parseAttrs r w (fresh cfg ns) attrs = ([], { g with cfg := mergeAll cfg conds }, others) := read_of h cfg

theorem attrs_ok {r w cfg ns attrs f others oc} (h : parseAttrs r w (fresh cfg ns) attrs = ([], f, others))
    (hc : AllOf cfg oc) : ∃ conds, Reads r w (.nothing ns) attrs conds { f with cfg := .unconditional } others ∧
      AllOf f.cfg (oc ++ conds) := by
  obtain ⟨es, g, hr⟩ := reads_of attrs h .unconditional
  have hr : Reads r w (.nothing ns) attrs es g others := hr
  have h1 := attrs_of hr cfg
  rw [h] at h1
  simp only [Prod.mk.injEq, true_and, and_true] at h1
  have h2 := reads_cfg hr
  subst h1
  refine ⟨es, ?_, allOf_merge hc es⟩
  have : g = { g with cfg := .unconditional } := by rw [← show g.cfg = .unconditional from h2]
  show Reads r w (.nothing ns) attrs es { g with cfg := .unconditional } others
  rw [← this]
  exact hr

/-- The conditions of a reading are settled by the attributes. -/
theorem reads_unique {r w ns attrs conds g others conds' g' others'} (h : Reads r w (.nothing ns) attrs conds g others)
    (h' : Reads r w (.nothing ns) attrs conds' g' others') : g = g' ∧ others = others' := by
  have h1 := attrs_of h .unconditional
  rw [attrs_of h' .unconditional] at h1
  simp only [Prod.mk.injEq, true_and] at h1
  refine ⟨?_, h1.2.symm⟩
  have hg := reads_cfg h
  have hg' := reads_cfg h'
  have := congrArg (fun f : Found => ({ f with cfg := .unconditional } : Found)) h1.1
  dsimp only at this
  have e1 : g = { g with cfg := .unconditional } := by rw [← show g.cfg = .unconditional from hg]
  have e2 : g' = { g' with cfg := .unconditional } := by rw [← show g'.cfg = .unconditional from hg']
  rw [e1, e2, this]

/-! ### Lists -/

theorem Each.length {α β : Type} {R : α → β → Prop} {as bs} (h : Each R as bs) : as.length = bs.length := by
  induction h with
  | nil => rfl
  | cons _ _ ih => simp [ih]

theorem Each.left {α β : Type} {R : α → β → Prop} {as : List α} {bs : List β} (h : Each R as bs) {a} (ha : a ∈ as) :
    ∃ b ∈ bs, R a b := by
  induction h with
  | nil => cases ha
  | cons hr _ ih =>
    rcases List.mem_cons.1 ha with rfl | ha
    · exact ⟨_, by simp, hr⟩
    · obtain ⟨b, hb, h⟩ := ih ha; exact ⟨b, by simp [hb], h⟩

theorem Each.right {α β : Type} {R : α → β → Prop} {as : List α} {bs : List β} (h : Each R as bs) {b} (hb : b ∈ bs) :
    ∃ a ∈ as, R a b := by
  induction h with
  | nil => cases hb
  | cons hr _ ih =>
    rcases List.mem_cons.1 hb with rfl | hb
    · exact ⟨_, by simp, hr⟩
    · obtain ⟨a, ha, h⟩ := ih hb; exact ⟨a, by simp [ha], h⟩

theorem Each.map {β γ : Type} {S : β → γ → Prop} {bs : List β} (f : β → γ) (hs : ∀ b ∈ bs, S b (f b)) :
    Each S bs (bs.map f) := by
  induction bs with
  | nil => exact .nil
  | cons b bs ih => exact .cons (hs b (by simp)) (ih fun b hb => hs b (by simp [hb]))

/-! ### Generics -/

theorem lifetimes_iff : ∀ (ps : List Param) (ls : List Ident),
    (lifetimes false ps = ([], ls) ↔ ps = ls.map (.lifetime · false))
  | [], ls => by
    cases ls <;> simp [lifetimes]
  | .lifetime n b :: ps, ls => by
    have ih := lifetimes_iff ps
    unfold lifetimes
    cases b with
    | true =>
      simp
      cases ls <;> simp
    | false =>
      simp
      cases hl : lifetimes false ps with
      | mk es ls' =>
        cases ls with
        | nil => simp
        | cons l ls =>
          simp
          constructor
          · rintro ⟨rfl, rfl, rfl⟩
            exact ⟨rfl, (ih _).1 hl⟩
          · rintro ⟨rfl, h⟩
            rw [(ih _).2 h] at hl
            simp at hl
            exact ⟨hl.1, rfl, hl.2.symm⟩
  | .type :: ps, ls => by
    unfold lifetimes
    cases lifetimes true ps
    simp
    cases ls <;> simp
  | .const :: ps, ls => by
    unfold lifetimes
    cases lifetimes true ps
    simp
    cases ls <;> simp

theorem plainLifetimes_iff : ∀ (ps : List Param) (ls : List Ident),
    (plainLifetimes ps = some ls ↔ ps = ls.map (.lifetime · false))
  | [], ls => by
    cases ls <;> simp [plainLifetimes]
  | .lifetime n false :: ps, ls => by
    have ih := plainLifetimes_iff ps
    rw [plainLifetimes, Option.map_eq_some_iff]
    constructor
    · rintro ⟨ls, h, rfl⟩; simp [(ih _).1 h]
    · cases ls with
      | nil => simp
      | cons l ls => simp; intro h1 h2; exact ⟨(ih _).2 h2, h1⟩
  | .lifetime n true :: ps, ls => by simp [plainLifetimes]; cases ls <;> simp
  | .type :: ps, ls => by simp [plainLifetimes]; cases ls <;> simp
  | .const :: ps, ls => by simp [plainLifetimes]; cases ls <;> simp

/-! ### Structs -/

theorem fields_sound {r} : ∀ (fields : List FieldSrc) {vars}, parseFields r fields = ([], vars) → Each (FieldIs r) fields vars
  | [], vars, h => by simp [parseFields] at h; subst h; exact .nil
  | field :: rest, vars, h => by
    unfold parseFields at h
    cases ha : parseAttrs r memberWants (fresh .unconditional []) field.attrs with
    | mk es q =>
      obtain ⟨f, others⟩ := q
      cases hr : parseFields r rest with
      | mk es' vars' =>
        rw [ha, hr] at h
        dsimp only at h
        cases ht : parseType field.ty with
        | error e => rw [ht] at h; simp at h
        | ok ty =>
          rw [ht] at h
          simp at h
          obtain ⟨⟨rfl, rfl⟩, rfl⟩ := h
          obtain ⟨conds, h1, h2⟩ := attrs_ok ha allOf_none
          exact .cons ⟨conds, _, others, h1, ⟨h2, rfl, rfl, rfl⟩, rfl, ⟨rfl, rfl, rfl⟩, ht⟩ (fields_sound rest hr)

theorem fields_complete {r} {fields : List FieldSrc} {vars} (h : Each (FieldIs r) fields vars) : (parseFields r fields).1 = [] := by
  induction h with
  | nil => rfl
  | cons h _ ih =>
    obtain ⟨conds, f, others, h1, -, -, -, h2⟩ := h
    unfold parseFields
    have := attrs_of (w := memberWants) h1 .unconditional
    rw [this, h2]
    simp [ih]

theorem struct_sound {r ns s es out} (h : parseStruct r ns s = (es, out)) (he : es = []) : ∃ o, out = some o ∧ StructIs r ns s o := by
  subst he
  unfold parseStruct at h
  cases ha : parseAttrs r structWants (fresh .unconditional ns) s.attrs with
  | mk es q =>
    obtain ⟨f, others⟩ := q
    rw [ha] at h
    dsimp only at h
    cases hf : s.fields with
    | unit => rw [hf] at h; simp at h
    | unnamed => rw [hf] at h; simp at h
    | named fields =>
      rw [hf] at h
      cases hl : lifetimes false s.generics.params with
      | mk es1 ls =>
        cases hp : parseFields r fields with
        | mk es2 vars =>
          dsimp only at h
          rw [hl, hp] at h
          simp at h
          obtain ⟨⟨rfl, rfl, hw, rfl⟩, rfl⟩ := h
          obtain ⟨conds, h1, h2⟩ := attrs_ok ha allOf_none
          exact ⟨_, rfl, conds, _, others, fields, vars, _, h1, hf, hw, ⟨h2, rfl, rfl, rfl⟩, fields_sound _ hp, rfl, rfl, rfl,
            ⟨rfl, rfl, rfl⟩, (lifetimes_iff _ _).1 hl, rfl⟩

theorem struct_complete {r ns s out} (h : StructIs r ns s out) : (parseStruct r ns s).1 = [] := by
  obtain ⟨conds, f, others, fields, vars, st, h1, hf, hw, -, h2, -, -, -, -, hl, -⟩ := h
  unfold parseStruct
  rw [attrs_of (w := structWants) h1 .unconditional, hf]
  dsimp only
  have h3 := fields_complete h2
  cases hp : parseFields r fields with
  | mk es2 vars =>
    rw [hp] at h3
    simp only at h3
    subst h3
    rw [(lifetimes_iff _ _).2 hl]
    simp [hw]

/-! ### Enums -/

theorem variants_sound {r checks} : ∀ (vs : List VariantItem) (s : DSet) {s' vars},
    parseVariantItems r checks vs s = ([], s', vars) → Each (VariantIs r) vs vars ∧
      ∃ values, parseVariants checks (vs.map (·.src)) s = ([], s', values) ∧ vars.map (·.1.2) = values.map some
  | [], s, s', vars, h => by
    simp [parseVariantItems] at h
    obtain ⟨rfl, rfl⟩ := h
    exact ⟨.nil, [], rfl, rfl⟩
  | v :: rest, s, s', vars, h => by
    unfold parseVariantItems at h
    cases ha : parseAttrs r memberWants (fresh .unconditional []) v.attrs with
    | mk es q =>
      obtain ⟨f, others⟩ := q
      rw [ha] at h
      dsimp only at h
      cases hv : parseVariant checks v.src s with
      | error e => rw [hv] at h; simp at h
      | ok q =>
        obtain ⟨s1, d⟩ := q
        rw [hv] at h
        dsimp only at h
        cases hr : parseVariantItems r checks rest s1 with
        | mk es' q =>
          obtain ⟨s2, vars'⟩ := q
          rw [hr] at h
          simp at h
          obtain ⟨⟨rfl, rfl⟩, rfl, rfl⟩ := h
          obtain ⟨h1, values, h2, h3⟩ := variants_sound rest s1 hr
          obtain ⟨conds, h4, h5⟩ := attrs_ok ha allOf_none
          refine ⟨.cons ⟨conds, _, others, h4, ⟨h5, rfl, rfl, rfl⟩, ⟨rfl, rfl, rfl⟩⟩ h1, d :: values, ?_, ?_⟩
          · simp [parseVariants, hv, h2]
          · simp [h3]

theorem variants_complete {r checks} : ∀ {vs : List VariantItem} {vars : List ((Extra × Option Disc) × Pair)} {s s' values},
    Each (VariantIs r) vs vars → parseVariants checks (vs.map (·.src)) s = ([], s', values) →
    (parseVariantItems r checks vs s).1 = [] ∧ (parseVariantItems r checks vs s).2.1 = s'
  | [], vars, s, s', values, _, h => by
    simp [parseVariants] at h
    simp [parseVariantItems, h.1]
  | v :: rest, vars, s, s', values, h, hp => by
    cases h with
    | cons h hr =>
      obtain ⟨conds, f, others, h1, -, -⟩ := h
      simp only [List.map_cons, parseVariants] at hp
      cases hv : parseVariant checks v.src s with
      | error e => rw [hv] at hp; simp at hp
      | ok q =>
        obtain ⟨s1, d⟩ := q
        rw [hv] at hp
        simp only [Prod.mk.injEq] at hp
        have h2 := variants_complete (values := (parseVariants checks (rest.map (·.src)) s1).2.2) (s' := s') hr
          (Prod.ext hp.1 (Prod.ext hp.2.1 rfl))
        unfold parseVariantItems
        rw [attrs_of (w := memberWants) h1 .unconditional, hv]
        simp [h2]

theorem enum_sound {r checks ns e es out} (h : parseEnumItem r checks ns e = (es, out)) (he : es = []) :
    EnumIs r checks ns e out := by
  subst he
  unfold parseEnumItem at h
  cases ha : parseAttrs r enumWants (fresh .unconditional ns) e.attrs with
  | mk es q =>
    obtain ⟨f, others⟩ := q
    rw [ha] at h
    dsimp only at h
    cases hv : parseVariantItems r checks e.variants (DSet.new f.repr) with
    | mk es2 q =>
      obtain ⟨s, vars⟩ := q
      rw [hv] at h
      dsimp only at h
      cases hi : s.inferredRepr with
      | error err => rw [hi] at h; simp at h
      | ok repr =>
        rw [hi] at h
        simp at h
        obtain ⟨⟨rfl, hg, rfl⟩, rfl⟩ := h
        obtain ⟨h1, values, h2, h3⟩ := variants_sound _ _ hv
        obtain ⟨conds, h4, h5⟩ := attrs_ok ha allOf_none
        have hg : e.generics.params = [] ∧ e.generics.whereClause = false := by
          by_cases hp : e.generics.params = []
          · refine ⟨hp, ?_⟩
            cases hw : e.generics.whereClause with
            | false => rfl
            | true => simp [hp, hw] at hg
          · simp [hp] at hg
        refine ⟨conds, _, others, vars, _, values, h4, hg.1, hg.2, ⟨h5, rfl, rfl, rfl⟩, h1, rfl, ?_, h3, rfl, rfl,
          ⟨rfl, rfl, rfl⟩, rfl, rfl, rfl, rfl⟩
        dsimp only
        unfold parseEnum
        rw [h2]
        simp [hi]

theorem enum_complete {r checks ns e out} (h : EnumIs r checks ns e out) : (parseEnumItem r checks ns e).1 = [] := by
  obtain ⟨conds, f, others, vars, en, values, h1, hp, hw, -, h2, -, h3, -⟩ := h
  unfold parseEnumItem
  rw [attrs_of (w := enumWants) h1 .unconditional]
  dsimp only
  unfold parseEnum at h3
  cases hv : parseVariants checks (e.variants.map (·.src)) (DSet.new f.repr) with
  | mk es q =>
    obtain ⟨s, values'⟩ := q
    rw [hv] at h3
    dsimp only at h3
    cases hi : s.inferredRepr with
    | error err => rw [hi] at h3; simp at h3
    | ok repr =>
      rw [hi] at h3
      simp at h3
      obtain ⟨rfl, -, -⟩ := h3
      have h4 := variants_complete h2 hv
      cases hp' : parseVariantItems r checks e.variants (DSet.new f.repr) with
      | mk es q =>
        rw [hp'] at h4
        simp at h4
        obtain ⟨rfl, rfl⟩ := h4
        simp [hi, hp, hw]

/-! ### Foreign items -/

/-- What is around an item, in the model and in the specification. -/
structure Matches (b : Block) (a : Around) : Prop where
  lang : b.lang = a.lang
  trusted : b.trusted = a.unsafety
  cfg : AllOf b.cfg a.conditions
  ns : b.ns = a.ns
  others : b.others = a.others

theorem externType_sound {r b a t es out} (hm : Matches b a) (h : parseExternType r b t = (es, out)) (he : es = []) :
    ExternTypeIs r a t [] out := by
  subst he
  unfold parseExternType at h
  cases ha : parseAttrs r structWants (fresh b.cfg b.ns) t.attrs with
  | mk es q =>
    obtain ⟨f, others⟩ := q
    cases hl : lifetimes false t.generics.params with
    | mk es1 ls =>
      rw [ha, hl] at h
      simp at h
      obtain ⟨⟨rfl, rfl⟩, rfl⟩ := h
      obtain ⟨conds, h1, h2⟩ := attrs_ok ha hm.cfg
      rw [hm.ns] at h1
      refine ⟨conds, _, others, ⟨b.lang, f.derives, pair f.namespace t.name f.cxxName f.rustName, ls, [], b.trusted⟩, h1, ⟨h2, rfl, rfl, by rw [← hm.others]; rfl⟩, rfl, ?_, hm.lang, rfl, ⟨rfl, rfl, rfl⟩,
        (lifetimes_iff _ _).1 hl, rfl, hm.trusted⟩
      rw [← hm.lang]
      unfold typeApi
      cases b.lang <;> simp

theorem externType_complete {r b a t out bounds} (hm : Matches b a) (h : ExternTypeIs r a t bounds out) :
    (parseExternType r b t).1 = [] := by
  obtain ⟨conds, f, others, et, h1, -, -, -, -, -, -, hl, -⟩ := h
  unfold parseExternType
  rw [hm.ns, attrs_of (w := structWants) h1, (lifetimes_iff _ _).2 hl]
  rfl

theorem bounds_iff : ∀ (bs : List (Option Ident)) (ts : List Trait),
    (parseBounds bs = ([], ts) ↔ Each (fun b t => ∃ n, b = some n ∧ (n, t) ∈ Derivable) bs ts)
  | [], ts => by
    constructor
    · intro h; simp [parseBounds] at h; subst h; exact .nil
    · intro h; cases h; rfl
  | b :: bs, ts => by
    have ih := bounds_iff bs
    unfold parseBounds
    cases hb : parseBounds bs with
    | mk es ts' =>
      dsimp only
      cases ht : b.bind traitOf with
      | none =>
        simp
        intro h
        cases h with
        | cons h _ =>
          obtain ⟨n, rfl, hn⟩ := h
          simp [traitOf_iff.2 hn] at ht
      | some t =>
        obtain ⟨n, rfl, hn⟩ := Option.bind_eq_some_iff.1 ht
        constructor
        · intro h
          simp at h
          obtain ⟨rfl, rfl⟩ := h
          exact .cons ⟨n, rfl, traitOf_iff.1 hn⟩ ((ih _).1 hb)
        · intro h
          cases h with
          | cons h hr =>
            obtain ⟨m, h1, h2⟩ := h
            injection h1 with h1; subst h1
            rw [traitOf_iff.2 h2] at hn
            injection hn with hn; subst hn
            rw [(ih _).2 hr] at hb
            simp at hb
            simp [hb]

theorem bounded_sound {r b a t bounds es out} (hm : Matches b a) (h : parseBounded r b t bounds = (es, out)) (he : es = []) :
    ForeignIs r a (.bounded t bounds) out := by
  subst he
  unfold parseBounded at h
  cases ha : parseAttrs r structWants (fresh b.cfg b.ns) t.attrs with
  | mk es q =>
    obtain ⟨f, others⟩ := q
    cases hl : lifetimes false t.generics.params with
    | mk es1 ls =>
      cases hb : parseBounds bounds with
      | mk es2 ts =>
        rw [ha, hl, hb] at h
        simp at h
        obtain ⟨⟨rfl, rfl, rfl⟩, rfl⟩ := h
        obtain ⟨conds, h1, h2⟩ := attrs_ok ha hm.cfg
        rw [hm.ns] at h1
        refine .bounded ((bounds_iff _ _).1 hb) ⟨conds, _, others,
          ⟨b.lang, f.derives, pair f.namespace t.name f.cxxName f.rustName, ls, ts, b.trusted⟩, h1, ⟨h2, rfl, rfl, by rw [← hm.others]; rfl⟩, rfl, ?_,
          hm.lang, rfl, ⟨rfl, rfl, rfl⟩, (lifetimes_iff _ _).1 hl, rfl, hm.trusted⟩
        rw [← hm.lang]
        unfold typeApi
        cases b.lang <;> simp

theorem bounded_complete {r b a t bounds ts out} (hm : Matches b a) (h : ExternTypeIs r a t ts out)
    (hb : Each (fun b t => ∃ n, b = some n ∧ (n, t) ∈ Derivable) bounds ts) : (parseBounded r b t bounds).1 = [] := by
  obtain ⟨conds, f, others, et, h1, -, -, -, -, -, -, hl, -⟩ := h
  unfold parseBounded
  rw [hm.ns, attrs_of (w := structWants) h1, (lifetimes_iff _ _).2 hl, (bounds_iff _ _).2 hb]
  rfl

theorem alias_sound {r b a t es out} (hm : Matches b a) (h : parseAlias r b t = (es, out)) (he : es = []) :
    ∃ o, out = some o ∧ AliasIs r a t o := by
  subst he
  unfold parseAlias at h
  cases ha : parseAttrs r structWants (fresh b.cfg b.ns) t.attrs with
  | mk es q =>
    obtain ⟨f, others⟩ := q
    cases hl : lifetimes false t.generics.params with
    | mk es1 ls =>
      rw [ha, hl] at h
      dsimp only at h
      cases hg : b.lang with
      | rust => rw [if_pos hg] at h; simp at h
      | cxx =>
        rw [if_neg (by simp [hg])] at h
        simp at h
        obtain ⟨⟨rfl, rfl⟩, rfl⟩ := h
        obtain ⟨conds, h1, h2⟩ := attrs_ok ha hm.cfg
        rw [hm.ns] at h1
        exact ⟨_, rfl, conds, _, others, _, h1, ⟨h2, rfl, rfl, by rw [← hm.others]; rfl⟩, rfl, by rw [← hm.lang, hg], rfl, rfl,
          ⟨rfl, rfl, rfl⟩, (lifetimes_iff _ _).1 hl⟩

theorem alias_complete {r b a t out} (hm : Matches b a) (h : AliasIs r a t out) : (parseAlias r b t).1 = [] := by
  obtain ⟨conds, f, others, et, h1, -, -, hg, -, -, -, hl⟩ := h
  unfold parseAlias
  rw [hm.ns, attrs_of (w := structWants) h1, (lifetimes_iff _ _).2 hl]
  simp [hm.lang, hg]

theorem self_iff (s : SelfSrc) (rc : Receiver) : parseSelf s = .ok rc ↔ ReceiverIs (some s) (some rc) := by
  constructor
  · intro h
    unfold parseSelf at h
    split at h
    · injection h with h; subst h; exact .ref _ _
    · split at h
      · cases h
      · next ht => injection h with h; subst h; exact .typed ht
      · cases h
    · cases h
  · intro h
    cases h with
    | ref => rfl
    | typed ht => simp [parseSelf, ht]

/-- One argument. -/
def OneArg (i : Nat) (a : PatSrc × RTy) (v : Var) : Prop := ArgumentIs i a v

theorem inputs_iff : ∀ (inputs : List (PatSrc × RTy)) (before args : List Var),
    (parseInputs before inputs = .ok args ↔ ∃ vs, args = before ++ vs ∧ vs.length = inputs.length ∧
      ∀ i a v, inputs[i]? = some a → vs[i]? = some v → ArgumentIs (before.length + i) a v) := by
  intro inputs
  induction inputs with
  | nil =>
    intro before args
    simp [parseInputs]
    exact ⟨fun h => h.symm, fun h => h.symm⟩
  | cons a rest ih =>
    intro before args
    have step : ∀ v, ArgumentIs before.length a v → (parseInputs (before ++ [v]) rest = .ok args ↔
        ∃ vs, args = before ++ vs ∧ vs.length = (a :: rest).length ∧ vs[0]? = some v ∧
          ∀ i a' v, (a :: rest)[i]? = some a' → vs[i]? = some v → ArgumentIs (before.length + i) a' v) := by
      intro v hv
      rw [ih]
      constructor
      · rintro ⟨vs, rfl, hl, h⟩
        refine ⟨v :: vs, by simp, by simp [hl], rfl, ?_⟩
        intro i a' v' h1 h2
        cases i with
        | zero => simp at h1 h2; subst h1; subst h2; exact hv
        | succ i =>
          simp at h1 h2
          have := h i a' v' h1 h2
          simp at this
          rw [show before.length + (i + 1) = before.length + 1 + i by omega]
          exact this
      · rintro ⟨vs, rfl, hl, h0, h⟩
        cases vs with
        | nil => simp at hl
        | cons v' vs =>
          simp at h0; subst h0
          refine ⟨vs, by simp, by simpa using hl, ?_⟩
          intro i a' v' h1 h2
          have := h (i + 1) a' v' (by simpa using h1) (by simpa using h2)
          simp
          rw [show before.length + 1 + i = before.length + (i + 1) by omega]
          exact this
    have first : (∃ v, ArgumentIs before.length a v ∧ parseInputs before (a :: rest) = parseInputs (before ++ [v]) rest ∧
        ∀ v', ArgumentIs before.length a v' → v' = v) ∨
        ((∀ v, ¬ ArgumentIs before.length a v) ∧ ∀ x, parseInputs before (a :: rest) ≠ .ok x) := by
      obtain ⟨pat, ty⟩ := a
      cases pat with
      | other =>
        right
        constructor
        · intro v h; cases h
        · intro x h; simp [parseInputs] at h
      | ident name =>
        cases ht : parseType ty with
        | error e =>
          right
          constructor
          · intro v h; cases h with | named h => rw [ht] at h; cases h
          · intro x h; simp [parseInputs, ht] at h
        | ok t =>
          left
          refine ⟨_, .named ht, by simp [parseInputs, ht, pair], ?_⟩
          intro v' h; cases h with | named h => rw [ht] at h; injection h with h; subst h; rfl
      | wild =>
        cases ht : parseType ty with
        | error e =>
          right
          constructor
          · intro v h; cases h with | unnamed h => rw [ht] at h; cases h
          · intro x h; simp [parseInputs, ht] at h
        | ok t =>
          left
          refine ⟨_, .unnamed ht, by simp [parseInputs, ht, pair], ?_⟩
          intro v' h; cases h with | unnamed h => rw [ht] at h; injection h with h; subst h; rfl
    rcases first with ⟨v, hv, hp, hu⟩ | ⟨hn, hp⟩
    · rw [hp, step v hv]
      constructor
      · rintro ⟨vs, h1, h2, -, h3⟩; exact ⟨vs, h1, h2, h3⟩
      · rintro ⟨vs, h1, h2, h3⟩
        refine ⟨vs, h1, h2, ?_, h3⟩
        cases vs with
        | nil => simp at h2
        | cons v' vs =>
          have := h3 0 a v' rfl rfl
          simp [hu v' this]
    · constructor
      · intro h; exact absurd h (hp _)
      · rintro ⟨vs, h1, h2, h3⟩
        cases vs with
        | nil => simp at h2
        | cons v' vs => exact absurd (h3 0 a v' rfl rfl) (hn v')

theorem arguments_iff (s : Option SelfSrc) (inputs rc args) : parseArguments s inputs = .ok (rc, args) ↔
    ReceiverIs s rc ∧ args.length = inputs.length ∧
      ∀ i a v, inputs[i]? = some a → args[i]? = some v → ArgumentIs i a v := by
  have hi := inputs_iff inputs [] args
  simp only [List.nil_append, List.length_nil, Nat.zero_add, exists_eq_left'] at hi
  rw [← hi]
  unfold parseArguments
  cases s with
  | none =>
    cases hp : parseInputs [] inputs with
    | error e => simp
    | ok x =>
      simp only [Except.ok.injEq, Prod.mk.injEq]
      constructor
      · rintro ⟨rfl, rfl⟩; exact ⟨.none, rfl⟩
      · rintro ⟨h, rfl⟩; cases h; exact ⟨rfl, rfl⟩
  | some s =>
    dsimp only
    cases hs : parseSelf s with
    | error e =>
      simp
      intro h
      cases rc with
      | none => cases h
      | some rc => rw [(self_iff _ _).2 h] at hs; cases hs
    | ok rc' =>
      cases hp : parseInputs [] inputs with
      | error e => simp
      | ok x =>
        simp only [Except.ok.injEq, Prod.mk.injEq]
        constructor
        · rintro ⟨rfl, rfl⟩; exact ⟨(self_iff _ _).1 hs, rfl⟩
        · rintro ⟨h, rfl⟩
          cases rc with
          | none => cases h
          | some rc => rw [(self_iff _ _).2 h] at hs; injection hs with hs; subst hs; exact ⟨rfl, rfl⟩

theorem sig_iff (f : FnSrc) (sig : Sig) : parseSig f = .ok sig ↔ SigIs f sig := by
  constructor
  · intro h
    unfold parseSig at h
    split at h
    · cases h
    · next hw =>
      cases hl : plainLifetimes f.generics.params with
      | none => rw [hl] at h; cases h
      | some ls =>
        rw [hl] at h
        dsimp only at h
        split at h; · cases h
        split at h; · cases h
        split at h; · cases h
        split at h; · cases h
        next h1 h2 h3 h4 =>
          cases ha : parseArguments f.receiver f.inputs with
          | error e => rw [ha] at h; cases h
          | ok p =>
            obtain ⟨rc, args⟩ := p
            rw [ha] at h
            dsimp only at h
            cases hr : parseReturn f.output with
            | error e => rw [hr] at h; cases h
            | ok p =>
              obtain ⟨ret, throws⟩ := p
              rw [hr] at h
              injection h with h
              subst h
              obtain ⟨h5, h6, h7⟩ := (arguments_iff _ _ _ _).1 ha
              exact ⟨by simp_all, rfl, (plainLifetimes_iff _ _).1 hl, h5, h6, h7, hr⟩
  · intro h
    obtain ⟨⟨h1, h2, h3, h4, h5⟩, hu, hg, hr, hl, ha, ho⟩ := h
    unfold parseSig
    rw [(plainLifetimes_iff _ _).2 hg, (arguments_iff _ _ _ _).2 ⟨hr, hl, ha⟩, ho]
    simp [h1, h2, h3, h4, h5, ← hu]

theorem fn_sound {r b a f es out} (hm : Matches b a) (h : parseExternFn r b f = (es, out)) (he : es = []) :
    ∃ o, out = some o ∧ FunctionIs r a f o := by
  subst he
  unfold parseExternFn at h
  cases ha : parseAttrs r fnWants (fresh b.cfg b.ns) f.attrs with
  | mk es q =>
    obtain ⟨found, others⟩ := q
    rw [ha] at h
    dsimp only at h
    cases hs : parseSig f with
    | error e => rw [hs] at h; simp at h
    | ok sig =>
      rw [hs] at h
      simp at h
      obtain ⟨rfl, rfl⟩ := h
      obtain ⟨conds, h1, h2⟩ := attrs_ok ha hm.cfg
      rw [hm.ns] at h1
      refine ⟨_, rfl, conds, _, others, ⟨b.lang, pair found.namespace f.name found.cxxName found.rustName, sig, b.trusted⟩, h1,
        ⟨h2, rfl, rfl, by rw [← hm.others]; rfl⟩, rfl, ?_, hm.lang, ⟨rfl, rfl, rfl⟩, (sig_iff _ _).1 hs, hm.trusted⟩
      rw [← hm.lang]
      cases b.lang <;> simp

theorem fn_complete {r b a f out} (hm : Matches b a) (h : FunctionIs r a f out) : (parseExternFn r b f).1 = [] := by
  obtain ⟨conds, found, others, fn, h1, -, -, -, -, -, hs, -⟩ := h
  unfold parseExternFn
  rw [hm.ns, attrs_of (w := fnWants) h1, (sig_iff _ _).2 hs]
  rfl

theorem foreign_sound {r b a src es out} (hm : Matches b a) (h : parseForeign r b src = (es, out)) (he : es = []) :
    ∃ o, out = some o ∧ ForeignIs r a src o := by
  cases src with
  | type t =>
    simp only [parseForeign, Prod.mk.injEq] at h
    exact ⟨_, h.2.symm, .type (externType_sound hm rfl (h.1.trans he))⟩
  | fn f =>
    obtain ⟨o, h1, h2⟩ := fn_sound hm h he
    exact ⟨o, h1, .fn h2⟩
  | «include» p =>
    cases p with
    | none => simp [parseForeign] at h; rw [he] at h; simp at h
    | some p =>
      simp [parseForeign] at h
      exact ⟨_, h.2.symm, .include hm.cfg rfl rfl rfl rfl rfl⟩
  | alias t =>
    obtain ⟨o, h1, h2⟩ := alias_sound hm h he
    exact ⟨o, h1, .alias h2⟩
  | bounded t bs =>
    simp only [parseForeign, Prod.mk.injEq] at h
    exact ⟨_, h.2.symm, bounded_sound hm rfl (h.1.trans he)⟩
  | other => simp [parseForeign] at h; rw [he] at h; simp at h

theorem foreign_complete {r b a src out} (hm : Matches b a) (h : ForeignIs r a src out) : (parseForeign r b src).1 = [] := by
  cases h with
  | type h => exact externType_complete hm h
  | fn h => exact fn_complete hm h
  | «include» => rfl
  | alias h => exact alias_complete hm h
  | bounded hb h => exact bounded_complete hm h hb

theorem foreigns_sound {r b a} (hm : Matches b a) : ∀ (items : List ForeignSrc) {outs}, parseForeigns r b items = ([], outs) →
    Each (ForeignIs r a) items outs
  | [], outs, h => by simp [parseForeigns] at h; subst h; exact .nil
  | item :: rest, outs, h => by
    unfold parseForeigns at h
    cases h1 : parseForeign r b item with
    | mk es o =>
      cases h2 : parseForeigns r b rest with
      | mk es' outs' =>
        rw [h1, h2] at h
        simp at h
        obtain ⟨⟨rfl, rfl⟩, rfl⟩ := h
        obtain ⟨o, rfl, h3⟩ := foreign_sound hm h1 rfl
        exact .cons h3 (foreigns_sound hm rest h2)

theorem foreigns_complete {r b a items outs} (hm : Matches b a) (h : Each (ForeignIs r a) items outs) :
    (parseForeigns r b items).1 = [] := by
  induction h with
  | nil => rfl
  | cons h _ ih =>
    unfold parseForeigns
    simp [foreign_complete hm h, ih]

/-! ### Blocks -/

theorem typeName_iff (api : Api) (n : Ident) : (∃ p, typeName api = some p ∧ p.rust = n) ↔ Declares api n := by
  cases api <;> simp [typeName, Declares, eq_comm]

theorem typeName_none (api : Api) : typeName api = none ↔ ∀ n, ¬ Declares api n := by
  constructor
  · intro h n hn
    obtain ⟨p, h1, -⟩ := (typeName_iff api n).2 hn
    rw [h] at h1; cases h1
  · intro h
    cases ht : typeName api with
    | none => rfl
    | some p => exact absurd ((typeName_iff api p.rust).1 ⟨p, ht, rfl⟩) (h _)

theorem filterMap_nil {outs : List Out} : outs.filterMap (fun o => typeName o.api) = [] ↔ ∀ o ∈ outs, ∀ n, ¬ Declares o.api n := by
  rw [List.filterMap_eq_nil_iff]
  constructor
  · intro h o ho; exact (typeName_none _).1 (h o ho)
  · intro h o ho; exact (typeName_none _).2 (h o ho)

theorem only_type {outs : List Out} {n : Ident} :
    (∃ p, outs.filterMap (fun o => typeName o.api) = [p] ∧ p.rust = n) ↔ OnlyType outs n := by
  constructor
  · rintro ⟨p, h, rfl⟩
    obtain ⟨before, o, after, rfl, h1, h2, h3⟩ := List.filterMap_eq_cons_iff.1 h
    refine ⟨before, o, after, rfl, (typeName_iff _ _).1 ⟨p, h2, rfl⟩, ?_⟩
    intro o' ho
    rcases List.mem_append.1 ho with ho | ho
    · exact (typeName_none _).1 (h1 o' ho)
    · exact filterMap_nil.1 h3 o' ho
  · rintro ⟨before, o, after, rfl, h1, h2⟩
    obtain ⟨p, hp, rfl⟩ := (typeName_iff _ _).2 h1
    refine ⟨p, ?_, rfl⟩
    have hb : before.filterMap (fun o => typeName o.api) = [] := filterMap_nil.2 fun o ho => h2 o (by simp [ho])
    have ha : after.filterMap (fun o => typeName o.api) = [] := filterMap_nil.2 fun o ho => h2 o (by simp [ho])
    simp [hb, ha, hp]

theorem resolveReceiver_self {n f rc} (h : f.sig.receiver = some rc) (hs : rc.ty.rust = "Self") : resolveReceiver n f =
    { f with sig := { f.sig with receiver := some { rc with ty := { rc.ty with rust := n } } } } := by
  simp [resolveReceiver, h, hs]

theorem resolveReceiver_other {n f} (h : ∀ rc, f.sig.receiver = some rc → rc.ty.rust ≠ "Self") : resolveReceiver n f = f := by
  unfold resolveReceiver
  split
  · next rc hr => rw [if_neg (h rc hr)]
  · rfl

theorem resolve_is {outs n} (h : OnlyType outs n) (api : Api) : SelfIs outs api (resolveSelf n api) := by
  cases api with
  | cxxFunction f =>
    by_cases hs : ∃ rc, f.sig.receiver = some rc ∧ rc.ty.rust = "Self"
    · obtain ⟨rc, h1, h2⟩ := hs
      rw [resolveSelf, resolveReceiver_self h1 h2]
      exact .cxx h1 h2 h
    · rw [resolveSelf, resolveReceiver_other fun rc h1 h2 => hs ⟨rc, h1, h2⟩]
      refine .same ?_
      rintro f' rc (h1 | h1) h2 h3
      · injection h1 with h1; subst h1; exact absurd ⟨rc, h2, h3⟩ hs
      · cases h1
  | rustFunction f =>
    by_cases hs : ∃ rc, f.sig.receiver = some rc ∧ rc.ty.rust = "Self"
    · obtain ⟨rc, h1, h2⟩ := hs
      rw [resolveSelf, resolveReceiver_self h1 h2]
      exact .rust h1 h2 h
    · rw [resolveSelf, resolveReceiver_other fun rc h1 h2 => hs ⟨rc, h1, h2⟩]
      refine .same ?_
      rintro f' rc (h1 | h1) h2 h3
      · cases h1
      · injection h1 with h1; subst h1; exact absurd ⟨rc, h2, h3⟩ hs
  | _ =>
    refine .same ?_
    rintro f' rc (h1 | h1) <;> cases h1

theorem each_resolved (outs : List Out) : Each (SelfResolved outs) outs
    (match outs.filterMap (fun o => typeName o.api) with
      | [single] => outs.map fun o => { o with api := resolveSelf single.rust o.api }
      | _ => outs) := by
  split
  · next p hp =>
    exact Each.map _ fun o _ => ⟨rfl, rfl, resolve_is (only_type.1 ⟨p, hp, rfl⟩) o.api⟩
  · next hn =>
    have := Each.map (S := SelfResolved outs) (bs := outs) id fun o _ => ⟨rfl, rfl, .same ?_⟩
    · simpa using this
    · intro f rc _ _ _ n h
      obtain ⟨p, hp, -⟩ := only_type.2 h
      exact hn p hp

theorem lang_iff {abi lang} : parseLang abi = .ok lang ↔ abi = some "C++" ∧ lang = .cxx ∨ abi = some "Rust" ∧ lang = .rust := by
  unfold parseLang
  cases abi with
  | none => simp
  | some n =>
    by_cases h : n = "C++"
    · subst h; simp [eq_comm]
    · by_cases h' : n = "Rust"
      · subst h'; simp [eq_comm]
      · simp [h, h']

theorem safe_function {r a src o} (h : ForeignIs r a src o) :
    safeCxxFunction o.api = true ↔ a.lang = .cxx ∧ ∃ fn, src = .fn fn ∧ fn.unsafety = false := by
  cases h with
  | type h =>
    obtain ⟨_, _, _, t, _, _, _, hc, _⟩ := h
    rcases hc with ⟨_, hc⟩ | ⟨_, hc⟩ <;> simp [hc, safeCxxFunction]
  | fn h =>
    obtain ⟨_, _, _, fn, _, _, _, hc, _, _, hs, _⟩ := h
    rcases hc with ⟨hl, hc⟩ | ⟨hl, hc⟩ <;> simp [hc, hl, safeCxxFunction, hs.unsafety]
  | «include» _ _ _ _ _ hc => simp [hc, safeCxxFunction]
  | alias h =>
    obtain ⟨_, _, _, t, _, _, _, _, hc, _⟩ := h
    simp [hc, safeCxxFunction]
  | bounded _ h =>
    obtain ⟨_, _, _, t, _, _, _, hc, _⟩ := h
    rcases hc with ⟨_, hc⟩ | ⟨_, hc⟩ <;> simp [hc, safeCxxFunction]

theorem any_safe {r a items outs} (h : Each (ForeignIs r a) items outs) :
    outs.any (fun o => safeCxxFunction o.api) = true ↔ a.lang = .cxx ∧ ∃ fn, .fn fn ∈ items ∧ fn.unsafety = false := by
  rw [List.any_eq_true]
  constructor
  · rintro ⟨o, ho, hs⟩
    obtain ⟨src, h1, h2⟩ := h.right ho
    obtain ⟨hl, fn, rfl, hu⟩ := (safe_function h2).1 hs
    exact ⟨hl, fn, h1, hu⟩
  · rintro ⟨hl, fn, h1, hu⟩
    obtain ⟨o, h2, h3⟩ := h.left h1
    exact ⟨o, h2, (safe_function h3).2 ⟨hl, fn, rfl, hu⟩⟩

theorem block_sound {r trusted ns m outs} (h : parseForeignMod r trusted ns m = ([], outs)) : BlockIs r trusted ns m outs := by
  unfold parseForeignMod at h
  cases hl : parseLang m.abi with
  | error e => rw [hl] at h; simp at h
  | ok lang =>
    rw [hl] at h
    dsimp only at h
    cases ha : parseAttrs r blockWants (fresh .unconditional ns) m.attrs with
    | mk es q =>
      obtain ⟨f, others⟩ := q
      rw [ha] at h
      dsimp only at h
      cases hp : parseForeigns r ⟨lang, trusted || m.unsafety, f.cfg, f.namespace, others⟩ m.items with
      | mk es2 items =>
        rw [hp] at h
        simp only [Prod.mk.injEq, List.append_eq_nil_iff, List.map_eq_nil_iff] at h
        obtain ⟨⟨⟨⟨h1, rfl⟩, rfl⟩, h2⟩, rfl⟩ := h
        obtain ⟨conds, h3, h4⟩ := attrs_ok ha allOf_none
        have hm : Matches ⟨lang, trusted || m.unsafety, f.cfg, f.namespace, others⟩
          ⟨lang, trusted || m.unsafety, conds, f.namespace, others⟩ := ⟨rfl, rfl, h4, rfl, rfl⟩
        have h5 := foreigns_sound hm _ hp
        refine ⟨conds, _, others, lang, items, h3, ?_, ?_, h5, each_resolved items⟩
        · rcases lang_iff.1 hl with ⟨h6, h7⟩ | ⟨h6, h7⟩
          · exact .inl ⟨h6, h7⟩
          · refine .inr ⟨h6, h7, ?_⟩
            cases hu : m.unsafety with
            | false => rfl
            | true => simp [h7, hu] at h1
        · intro hc fn hf
          cases hu : fn.unsafety with
          | true => exact .inl rfl
          | false =>
            have h6 := (any_safe h5).2 ⟨hc, fn, hf, hu⟩
            rw [h6] at h2
            simp at h2
            cases htr : trusted with
            | true => exact .inr (.inr rfl)
            | false => exact .inr (.inl (by simpa using h2 htr))

theorem block_complete {r trusted ns m outs} (h : BlockIs r trusted ns m outs) : (parseForeignMod r trusted ns m).1 = [] := by
  obtain ⟨conds, f, others, lang, before, h1, hl, hs, h2, -⟩ := h
  unfold parseForeignMod
  have hl' : parseLang m.abi = .ok lang := lang_iff.2 (by rcases hl with h | h <;> simp [h])
  rw [hl', attrs_of (w := blockWants) h1]
  dsimp only
  have hm : Matches ⟨lang, trusted || m.unsafety, mergeAll .unconditional conds, f.namespace, others⟩
    ⟨lang, trusted || m.unsafety, conds, f.namespace, others⟩ := ⟨rfl, rfl, by simpa using allOf_merge allOf_none conds, rfl, rfl⟩
  have h3 := foreigns_complete hm h2
  cases hp : parseForeigns r ⟨lang, trusted || m.unsafety, mergeAll .unconditional conds, f.namespace, others⟩ m.items with
  | mk es items =>
    rw [hp] at h3
    simp only at h3
    subst h3
    have h4 := any_safe (foreigns_sound hm _ hp)
    have h5 : ¬ (lang = .rust ∧ m.unsafety = true) := by rcases hl with h | h <;> simp [h]
    have h6 : (!(trusted || m.unsafety) && items.any fun o => safeCxxFunction o.api) = false := by
      cases ht : (trusted || m.unsafety) with
      | true => rfl
      | false =>
        simp at ht
        have : ¬ (items.any fun o => safeCxxFunction o.api) = true := by
          rw [h4]
          rintro ⟨hc, fn, hf, hu⟩
          have := hs hc fn hf
          simp [hu, ht] at this
        simpa using this
    rw [if_neg h5, h6]
    rfl

/-! ### All items -/

theorem impl_sound {r i es out} (h : parseImpl r i = (es, out)) (he : es = []) : ∃ o, out = some o ∧ ImplIs r i o := by
  subst he
  unfold parseImpl at h
  cases ha : parseAttrs r { cfg := true } (fresh .unconditional []) i.attrs with
  | mk es q =>
    obtain ⟨f, others⟩ := q
    rw [ha] at h
    dsimp only at h
    split at h; · simp at h
    split at h; · simp at h
    split at h; · simp at h
    next h1 h2 h3 =>
      cases hl : plainLifetimes i.generics.params with
      | none => rw [hl] at h; simp at h
      | some ls =>
        rw [hl] at h
        dsimp only at h
        cases ht : parseType i.ty with
        | error e => rw [ht] at h; simp at h
        | ok ty =>
          rw [ht] at h
          simp at h
          obtain ⟨rfl, rfl⟩ := h
          obtain ⟨conds, h4, h5⟩ := attrs_ok ha allOf_none
          exact ⟨_, rfl, conds, _, others, _, h4, by simpa using h1, by simpa using h2, by simpa using h3, ⟨h5, rfl, rfl, rfl⟩,
            rfl, rfl, (plainLifetimes_iff _ _).1 hl, rfl, ht⟩

theorem impl_complete {r i out} (h : ImplIs r i out) : (parseImpl r i).1 = [] := by
  obtain ⟨conds, f, others, im, h1, h2, h3, h4, -, -, -, hl, -, ht⟩ := h
  unfold parseImpl
  have := attrs_of (w := { cfg := true }) h1 .unconditional
  rw [this, (plainLifetimes_iff _ _).2 hl, ht]
  simp [h2, h3, h4]

theorem item_sound {r checks trusted ns item outs} (h : parseItem r checks trusted ns item = ([], outs)) :
    ItemIs r checks trusted ns item outs := by
  cases item with
  | struct s =>
    simp only [parseItem, Prod.mk.injEq] at h
    obtain ⟨o, h1, h2⟩ := struct_sound (Prod.ext h.1 rfl) rfl
    have h3 : outs = [o] := h.2.symm.trans (congrArg Option.toList h1)
    rw [h3]
    exact .struct h2
  | enum e =>
    simp only [parseItem, Prod.mk.injEq] at h
    rw [← h.2]
    exact .enum (enum_sound (Prod.ext h.1 rfl) rfl)
  | foreignMod m => exact .block (block_sound h)
  | impl i =>
    simp only [parseItem, Prod.mk.injEq] at h
    obtain ⟨o, h1, h2⟩ := impl_sound (Prod.ext h.1 rfl) rfl
    have h3 : outs = [o] := h.2.symm.trans (congrArg Option.toList h1)
    rw [h3]
    exact .impl h2
  | use => simp [parseItem] at h
  | other => simp [parseItem] at h

theorem item_complete {r checks trusted ns item outs} (h : ItemIs r checks trusted ns item outs) :
    (parseItem r checks trusted ns item).1 = [] := by
  cases h with
  | struct h => exact struct_complete h
  | enum h => exact enum_complete h
  | block h => exact block_complete h
  | impl h => exact impl_complete h

theorem items_sound {r checks trusted ns} : ∀ (items : List ItemSrc) {outs}, parseItems r checks trusted ns items = ([], outs) →
    ∃ parts, Each (ItemIs r checks trusted ns) items parts ∧ outs = parts.flatten
  | [], outs, h => by simp [parseItems] at h; exact ⟨[], .nil, by simp [h]⟩
  | item :: rest, outs, h => by
    unfold parseItems at h
    cases h1 : parseItem r checks trusted ns item with
    | mk es o =>
      cases h2 : parseItems r checks trusted ns rest with
      | mk es' outs' =>
        rw [h1, h2] at h
        simp at h
        obtain ⟨⟨rfl, rfl⟩, rfl⟩ := h
        obtain ⟨parts, h3, rfl⟩ := items_sound rest h2
        exact ⟨o :: parts, .cons (item_sound h1) h3, by simp⟩

/-! ### The theorems -/

/-- C66.  The items of a bridge are accepted exactly if each of them is something that a bridge can contain. -/
theorem items_accepted (r : Readers) (checks trusted : Bool) (ns : Namespace) (items : List ItemSrc) :
    (parseItems r checks trusted ns items).1 = [] ↔ ∃ parts, Each (ItemIs r checks trusted ns) items parts := by
  constructor
  · intro h
    obtain ⟨parts, h1, -⟩ := items_sound items (Prod.ext h rfl)
    exact ⟨parts, h1⟩
  · rintro ⟨parts, h⟩
    induction h with
    | nil => rfl
    | cons h _ ih =>
      unfold parseItems
      simp [item_complete h, ih]

/-- C66.  If they are accepted, the result is what they stand for, in order: nothing is lost and nothing is made up. -/
theorem items_exact {r : Readers} {checks trusted : Bool} {ns : Namespace} {items : List ItemSrc} {outs : List Out}
    (h : parseItems r checks trusted ns items = ([], outs)) :
    ∃ parts, Each (ItemIs r checks trusted ns) items parts ∧ outs = parts.flatten := items_sound items h

/-- The result of a block is part of the result. -/
theorem block_of {r : Readers} {checks trusted : Bool} {ns : Namespace} {items : List ItemSrc} {outs : List Out} {m}
    (h : parseItems r checks trusted ns items = ([], outs)) (hm : .foreignMod m ∈ items) :
    ∃ part, BlockIs r trusted ns m part ∧ ∀ o ∈ part, o ∈ outs := by
  obtain ⟨parts, h1, rfl⟩ := items_exact h
  obtain ⟨part, h2, h3⟩ := h1.left hm
  cases h3 with
  | block h3 => exact ⟨part, h3, fun o ho => List.mem_flatten.2 ⟨part, h2, ho⟩⟩

theorem self_of {outs : List Out} {api : Api} {f : ExternFn} (h : SelfIs outs api (.cxxFunction f)) :
    ∃ f', api = .cxxFunction f' ∧ f'.sig.unsafety = f.sig.unsafety ∧ f'.name = f.name := by
  generalize hx : Api.cxxFunction f = x at h
  cases h with
  | cxx => injection hx with hx; subst hx; exact ⟨_, rfl, rfl, rfl⟩
  | rust => cases hx
  | same => subst hx; exact ⟨f, rfl, rfl, rfl⟩

/-- C67.  If Rust can call a C++ function without `unsafe`, then it is declared in an `unsafe` block or an `unsafe`
module. -/
theorem safe_call_needs_unsafe {r : Readers} {checks trusted : Bool} {ns : Namespace} {items : List ItemSrc} {outs : List Out}
    (h : parseItems r checks trusted ns items = ([], outs)) {o : Out} (ho : o ∈ outs) {f : ExternFn}
    (hf : o.api = .cxxFunction f) (hs : f.sig.unsafety = false) :
    ∃ m fn, .foreignMod m ∈ items ∧ m.abi = some "C++" ∧ .fn fn ∈ m.items ∧ fn.unsafety = false ∧
      (m.unsafety = true ∨ trusted = true) := by
  obtain ⟨parts, h1, rfl⟩ := items_exact h
  obtain ⟨part, hp, ho'⟩ := List.mem_flatten.1 ho
  obtain ⟨item, hi, h2⟩ := h1.right hp
  cases h2 with
  | struct h2 =>
    obtain ⟨_, _, _, _, _, s, _, _, _, _, _, _, h3, _⟩ := h2
    simp at ho'; subst ho'
    rw [hf] at h3; cases h3
  | enum h2 =>
    obtain ⟨_, _, _, _, e, _, _, _, _, _, _, _, _, _, h3, _⟩ := h2
    simp at ho'; subst ho'
    rw [hf] at h3; cases h3
  | impl h2 =>
    obtain ⟨_, _, _, i, _, _, _, _, _, _, h3, _⟩ := h2
    simp at ho'; subst ho'
    rw [hf] at h3; cases h3
  | @block m _ h2 =>
    obtain ⟨conds, found, others, lang, before, _, hl, hsafe, h3, h4⟩ := h2
    obtain ⟨o1, h5, h6⟩ := h4.right ho'
    have h7 := h6.2.2
    rw [hf] at h7
    obtain ⟨f', h8, h9, -⟩ := self_of h7
    obtain ⟨src, h10, h11⟩ := h3.right h5
    obtain ⟨hc, fn, rfl, hu⟩ := (safe_function h11).1 (by rw [h8]; simp [safeCxxFunction, h9, hs])
    simp only at hc
    subst hc
    refine ⟨m, fn, hi, ?_, h10, hu, ?_⟩
    · rcases hl with ⟨hl, -⟩ | ⟨_, hl, _⟩
      · exact hl
      · cases hl
    · have := hsafe rfl fn h10
      simpa [hu] using this

theorem self_function {outs : List Out} {api after : Api} {f : ExternFn} (h : SelfIs outs api after)
    (hf : api = .cxxFunction f ∨ api = .rustFunction f) : ∃ f', (after = .cxxFunction f' ∨ after = .rustFunction f') ∧
      f'.sig.unsafety = f.sig.unsafety := by
  cases h with
  | cxx => rcases hf with hf | hf <;> cases hf; exact ⟨_, .inl rfl, rfl⟩
  | rust => rcases hf with hf | hf <;> cases hf; exact ⟨_, .inr rfl, rfl⟩
  | same => exact ⟨f, hf, rfl⟩

/-- C67.  Whether a function is `unsafe` to call is kept. -/
theorem unsafety_kept {r : Readers} {checks trusted : Bool} {ns : Namespace} {items : List ItemSrc} {outs : List Out}
    (h : parseItems r checks trusted ns items = ([], outs)) {m : ForeignModSrc} (hm : .foreignMod m ∈ items) {fn : FnSrc}
    (hf : .fn fn ∈ m.items) :
    ∃ a asWritten o f, FunctionIs r a fn asWritten ∧ o ∈ outs ∧ o.extra = asWritten.extra ∧
      (o.api = .cxxFunction f ∨ o.api = .rustFunction f) ∧ f.sig.unsafety = fn.unsafety := by
  obtain ⟨part, ⟨conds, found, others, lang, before, _, hl, _, h3, h4⟩, hsub⟩ := block_of h hm
  obtain ⟨o1, h5, h6⟩ := h3.left hf
  obtain ⟨o2, h7, h8⟩ := h4.left h5
  cases h6 with
  | fn h6 =>
    have h6' := h6
    obtain ⟨_, _, _, f, _, _, _, hk, _, _, hsig, _⟩ := h6
    obtain ⟨f', h9, h10⟩ := self_function (f := f) h8.2.2 (by rcases hk with ⟨_, hk⟩ | ⟨_, hk⟩ <;> simp [hk])
    exact ⟨_, o1, o2, f', h6', hsub _ h7, h8.1, h9, h10.trans hsig.unsafety⟩

theorem declares_of {r : Readers} {a : Around} {src : ForeignSrc} {o : Out} (h : ForeignIs r a src o) :
    (∃ n, Declares o.api n) ↔ DeclaresType src := by
  cases h with
  | type h =>
    obtain ⟨_, _, _, t, _, _, _, hc, _⟩ := h
    rcases hc with ⟨_, hc⟩ | ⟨_, hc⟩ <;> simp [hc, Declares, DeclaresType]
  | fn h =>
    obtain ⟨_, _, _, fn, _, _, _, hc, _⟩ := h
    rcases hc with ⟨hl, hc⟩ | ⟨hl, hc⟩ <;> simp [hc, Declares, DeclaresType]
  | «include» _ _ _ _ _ hc => simp [hc, Declares, DeclaresType]
  | alias h =>
    obtain ⟨_, _, _, t, _, _, _, _, hc, _⟩ := h
    simp [hc, Declares, DeclaresType]
  | bounded _ h =>
    obtain ⟨_, _, _, t, _, _, _, hc, _⟩ := h
    rcases hc with ⟨_, hc⟩ | ⟨_, hc⟩ <;> simp [hc, Declares, DeclaresType]

theorem Each.split {α β : Type} {R : α → β → Prop} {as : List α} {before after : List β} {b : β}
    (h : Each R as (before ++ b :: after)) :
    ∃ as1 a as2, as = as1 ++ a :: as2 ∧ Each R as1 before ∧ R a b ∧ Each R as2 after := by
  induction before generalizing as with
  | nil =>
    cases h with
    | cons h1 h2 => exact ⟨[], _, _, rfl, .nil, h1, h2⟩
  | cons c before ih =>
    cases h with
    | cons h1 h2 =>
      obtain ⟨as1, a, as2, rfl, h3, h4, h5⟩ := ih h2
      exact ⟨_ :: as1, a, as2, rfl, .cons h1 h3, h4, h5⟩

theorem not_self {g apis} (h : Check.Accepted g apis) {f : ExternFn} {rc : Receiver}
    (hf : .cxxFunction f ∈ apis ∨ .rustFunction f ∈ apis) (hr : f.sig.receiver = some rc) : rc.ty.rust ≠ "Self" := by
  have h1 : Check.checkApiFn ⟨apis, Verif.Types.collect apis, g⟩ f = [] := by
    rcases hf with hf | hf
    · exact Check.accepted_api h hf
    · exact Check.accepted_api h hf
  intro hs
  simp [Check.checkApiFn, hr, Check.checkReceiver, hs] at h1

/-- C68.  In a bridge that is accepted, a function takes a bare `self` only if its block declares exactly one type; the
function is then a method of that type. -/
theorem bare_self {r : Readers} {checks trusted : Bool} {ns : Namespace} {items : List ItemSrc} {outs : List Out}
    {g : Check.Generator} (h : parseItems r checks trusted ns items = ([], outs)) (hc : Check.Accepted g (outs.map (·.api)))
    {m : ForeignModSrc} (hm : .foreignMod m ∈ items) {fn : FnSrc} (hf : .fn fn ∈ m.items) {l : Option Ident} {mutable : Bool}
    (hr : fn.receiver = some (.ref l mutable)) :
    ∃ before type after, m.items = before ++ type :: after ∧ DeclaresType type ∧ (∀ t ∈ before ++ after, ¬ DeclaresType t) ∧
    ∃ a ot n, ForeignIs r a type ot ∧ ot ∈ outs ∧ Declares ot.api n ∧
    ∃ asWritten f o, FunctionIs r a fn asWritten ∧ o ∈ outs ∧ o.extra = asWritten.extra ∧
      (asWritten.api = .cxxFunction f ∧ o.api = .cxxFunction (methodOf f n l mutable) ∨
        asWritten.api = .rustFunction f ∧ o.api = .rustFunction (methodOf f n l mutable)) := by
  obtain ⟨part, ⟨conds, found, others, lang, before, _, hl, _, h3, h4⟩, hsub⟩ := block_of h hm
  obtain ⟨o1, h5, h6⟩ := h3.left hf
  obtain ⟨o2, h7, h8⟩ := h4.left h5
  cases h6 with
  | fn h6 =>
    have h6' := h6
    obtain ⟨_, _, _, f, _, _, _, hk, _, _, hsig, _⟩ := h6
    have hrec := hsig.receiver
    rw [hr] at hrec
    generalize hq : f.sig.receiver = q at hrec
    cases hrec
    have hin : o2.api ∈ outs.map (·.api) := List.mem_map.2 ⟨o2, hsub _ h7, rfl⟩
    have key : ∃ n, OnlyType before n ∧
        (o1.api = .cxxFunction f ∧ o2.api = .cxxFunction (methodOf f n l mutable) ∨
          o1.api = .rustFunction f ∧ o2.api = .rustFunction (methodOf f n l mutable)) := by
      have h9 := h8.2.2
      generalize ha1 : o1.api = a1 at h9 hk
      generalize ha2 : o2.api = a2 at h9 hin
      cases h9 with
      | @cxx f' rc n e1 e2 e3 =>
        rcases hk with ⟨_, hk⟩ | ⟨_, hk⟩ <;> cases hk
        rw [hq] at e1; injection e1 with e1; subst e1
        exact ⟨n, e3, .inl ⟨rfl, rfl⟩⟩
      | @rust f' rc n e1 e2 e3 =>
        rcases hk with ⟨_, hk⟩ | ⟨_, hk⟩ <;> cases hk
        rw [hq] at e1; injection e1 with e1; subst e1
        exact ⟨n, e3, .inr ⟨rfl, rfl⟩⟩
      | same =>
        rcases hk with ⟨_, hk⟩ | ⟨_, hk⟩
        · rw [hk] at hin; exact absurd rfl (not_self hc (.inl hin) hq)
        · rw [hk] at hin; exact absurd rfl (not_self hc (.inr hin) hq)
    obtain ⟨n, ⟨b1, ot, b2, rfl, hd, hn⟩, hk2⟩ := key
    obtain ⟨s1, type, s2, e, e1, e2, e3⟩ := h3.split
    refine ⟨s1, type, s2, e, (declares_of e2).1 ⟨n, hd⟩, ?_, _, ot, n, e2, ?_, hd, o1, f, o2, h6', hsub _ h7, h8.1, hk2⟩
    · intro t ht hdt
      have : ∃ o, o ∈ b1 ++ b2 ∧
          ForeignIs r ⟨lang, trusted || m.unsafety, conds, found.namespace, others⟩ t o := by
        rcases List.mem_append.1 ht with ht | ht
        · obtain ⟨o, h1, h2⟩ := e1.left ht; exact ⟨o, by simp [h1], h2⟩
        · obtain ⟨o, h1, h2⟩ := e3.left ht; exact ⟨o, by simp [h1], h2⟩
      obtain ⟨o, ho, h2⟩ := this
      obtain ⟨n', hn'⟩ := (declares_of h2).2 hdt
      exact hn o ho n' hn'
    · obtain ⟨o3, h10, h11⟩ := h4.left (a := ot) (by simp)
      have h12 : o3 = ot := by
        obtain ⟨h13, h14, h15⟩ := h11
        have : o3.api = ot.api := by
          generalize ot.api = x at h15 hd
          generalize o3.api = y at h15
          cases h15 with
          | cxx => exact hd.elim
          | rust => exact hd.elim
          | same => rfl
        cases o3; cases ot; simp_all
      rw [← h12]
      exact hsub _ h10

/-- C68.  A function with a receiver of a type that is spelled out is a method of that type. -/
theorem named_self {r : Readers} {checks trusted : Bool} {ns : Namespace} {items : List ItemSrc} {outs : List Out}
    (h : parseItems r checks trusted ns items = ([], outs)) {m : ForeignModSrc} (hm : .foreignMod m ∈ items) {fn : FnSrc}
    (hf : .fn fn ∈ m.items) {ty : RTy} (hr : fn.receiver = some (.typed ty)) {pinned mutable : Bool} {l : Option Ident}
    {n : NamedType} (ht : parseType ty = .ok (.ref pinned l mutable (.ident n))) (hs : n.rust ≠ "Self") :
    ∃ a o f, FunctionIs r a fn o ∧ o ∈ outs ∧ (o.api = .cxxFunction f ∨ o.api = .rustFunction f) ∧
      f.sig.receiver = some ⟨pinned, l, mutable, n, false⟩ := by
  obtain ⟨part, ⟨conds, found, others, lang, before, _, hl, _, h3, h4⟩, hsub⟩ := block_of h hm
  obtain ⟨o1, h5, h6⟩ := h3.left hf
  obtain ⟨o2, h7, h8⟩ := h4.left h5
  cases h6 with
  | fn h6 =>
    have h6' := h6
    obtain ⟨_, _, _, f, _, _, _, hk, _, _, hsig, _⟩ := h6
    have hrec := hsig.receiver
    rw [hr] at hrec
    have hq : f.sig.receiver = some ⟨pinned, l, mutable, n, false⟩ := by
      generalize f.sig.receiver = q at hrec
      cases hrec with
      | typed h => rw [ht] at h; injection h with h; injection h with h1 h2 h3 h4; injection h4 with h4; subst_vars; rfl
    have he : o2 = o1 := by
      obtain ⟨h13, h14, h15⟩ := h8
      have : o2.api = o1.api := by
        generalize o1.api = x at h15 hk
        generalize o2.api = y at h15
        cases h15 with
        | cxx e1 e2 =>
          rcases hk with ⟨_, hk⟩ | ⟨_, hk⟩ <;> cases hk
          rw [hq] at e1; injection e1 with e1; subst e1; exact absurd e2 hs
        | rust e1 e2 =>
          rcases hk with ⟨_, hk⟩ | ⟨_, hk⟩ <;> cases hk
          rw [hq] at e1; injection e1 with e1; subst e1; exact absurd e2 hs
        | same => rfl
      cases o1; cases o2; simp_all
    refine ⟨_, o1, f, h6', he ▸ hsub _ h7, ?_, hq⟩
    rcases hk with ⟨_, hk⟩ | ⟨_, hk⟩
    · exact .inl hk
    · exact .inr hk

/-! ### An example -/

/-- Readers for the example. -/
def sampleReaders : Readers := ⟨fun _ => none, fun _ => some (.eq "unix" none), some, some⟩

def noGenerics : Generics := ⟨[], false⟩
def named (n : Ident) : RTy := .path false false [] n .none

/-- ```
struct Shared { #[cfg(unix)] #[rust_name = "y"] x: i32 }
extern "Rust" { type R; fn get(&self, _: Box<R>) -> Result<Shared>; }
#[cfg(unix)] unsafe extern "C++" { include!("x.h"); #[cxx_name = "T"] type C; fn set(self: Pin<&mut C>, n: i32); unsafe fn raw(p: *const i32); }
impl Box<R> {}
``` -/
def sampleItems : List ItemSrc := [
  .struct ⟨[], "Shared", noGenerics, .named [⟨[⟨false, ["cfg"], .list []⟩, ⟨false, ["rust_name"], .nameValue (.str "y")⟩], "x", named "i32"⟩]⟩,
  .foreignMod ⟨[], false, some "Rust", [
    .type ⟨[], "R", noGenerics⟩,
    .fn ⟨[], "get", noGenerics, false, false, false, false, false, some (.ref none false),
      [(.wild, .path false false [] "Box" (.angle [.type (named "R")]))],
      some (.path false false [] "Result" (.angle [.type (named "Shared")]))⟩]⟩,
  .foreignMod ⟨[⟨false, ["cfg"], .list []⟩], true, some "C++", [
    .include (some "x.h"),
    .type ⟨[⟨false, ["cxx_name"], .nameValue (.str "T")⟩], "C", noGenerics⟩,
    .fn ⟨[], "set", noGenerics, false, false, false, false, false,
      some (.typed (.path false false [] "Pin" (.angle [.type (.reference none true (named "C"))]))), [(.ident "n", named "i32")], none⟩,
    .fn ⟨[], "raw", noGenerics, false, false, false, false, true, none, [(.ident "p", .ptr false (named "i32"))], none⟩]⟩,
  .impl ⟨[], noGenerics, false, true, false, .path false false [] "Box" (.angle [.type (named "R")])⟩]

/-- The example is accepted.  It has eight items; `get` is a method of `R`, `set` a method of `C`. -/
theorem sample_accepted : (parseItems sampleReaders true false [] sampleItems).1 = [] ∧
    Check.Accepted .build ((parseItems sampleReaders true false [] sampleItems).2.map (·.api)) ∧
    (parseItems sampleReaders true false [] sampleItems).2.length = 8 ∧
    ((parseItems sampleReaders true false [] sampleItems).2.filterMap fun o => match o.api with
      | .cxxFunction f | .rustFunction f => some (f.name.rust, f.sig.receiver.map (·.ty.rust), f.sig.args.map (·.name.cxx))
      | _ => none) =
      [("get", some "R", ["arg0"]), ("set", some "C", ["n"]), ("raw", none, ["p"])] := by
  decide +kernel

/-- The hypotheses of `safe_call_needs_unsafe`, `bare_self` and `named_self` hold in the example. -/
example : ∃ outs, parseItems sampleReaders true false [] sampleItems = ([], outs) ∧ Check.Accepted .build (outs.map (·.api)) ∧
    (∃ o ∈ outs, ∃ f, o.api = .cxxFunction f ∧ f.sig.unsafety = false) ∧
    (∃ m fn l mutable, .foreignMod m ∈ sampleItems ∧ .fn fn ∈ m.items ∧ fn.receiver = some (.ref l mutable)) ∧
    ∃ m fn ty pinned l mutable n, .foreignMod m ∈ sampleItems ∧ .fn fn ∈ m.items ∧ fn.receiver = some (.typed ty) ∧
      parseType ty = .ok (.ref pinned l mutable (.ident n)) ∧ n.rust ≠ "Self" := by
  refine ⟨_, Prod.ext sample_accepted.1 rfl, sample_accepted.2.1, ?_, ?_, ?_⟩
  · refine ⟨(parseItems sampleReaders true false [] sampleItems).2[5], List.getElem_mem _, _, rfl, rfl⟩
  · exact ⟨_, _, _, _, List.mem_cons_of_mem _ (List.mem_cons_self ..), List.mem_cons_of_mem _ (List.mem_cons_self ..), rfl⟩
  · exact ⟨_, _, _, _, _, _, _, List.mem_cons_of_mem _ (List.mem_cons_of_mem _ (List.mem_cons_self ..)),
      List.mem_cons_of_mem _ (List.mem_cons_of_mem _ (List.mem_cons_self ..)), rfl, rfl, by decide⟩

/-- A safe function in a block that is not `unsafe` is refused. -/
example : (parseItems sampleReaders true false [] [.foreignMod ⟨[], false, some "C++", [.fn ⟨[], "f", noGenerics, false, false,
    false, false, false, none, [], none⟩]⟩]).1 ≠ [] := by decide +kernel

/-! ### Names of arguments -/

theorem repr_inj {i j : Nat} (h : Nat.repr i = Nat.repr j) : i = j := by
  have := congrArg String.toList h
  rw [Nat.toList_repr, Nat.toList_repr] at this
  rw [← Nat.ofDigitChars_ten_toDigits (n := i), this, Nat.ofDigitChars_ten_toDigits]

/-- C69.  If the arguments of a function have different names in the bridge, they have different names in the generated code
as long as none of them is named `arg` with a number.  Arguments without a name (`_`) are allowed. -/
theorem argument_names_partial {src : FnSrc} {sig : Sig} (h : SigIs src sig)
    (hd : ∀ (i j : Nat) (n : Ident), (src.inputs[i]?.map (·.1) = some (.ident n)) → (src.inputs[j]?.map (·.1) = some (.ident n)) → i = j)
    (hn : ∀ i k : Nat, src.inputs[i]?.map (·.1) ≠ some (.ident ("arg" ++ Nat.repr k))) :
    (sig.args.map (·.name.rust)).Nodup ∧ (sig.args.map (·.name.cxx)).Nodup := by
  have key : ∀ (i j : Nat) (v w : Var), i < j → sig.args[i]? = some v → sig.args[j]? = some w →
      v.name.rust ≠ w.name.rust ∧ v.name.cxx ≠ w.name.cxx := by
    intro i j v w hij hi hj
    have li := (List.getElem?_eq_some_iff.1 hi).1
    have lj := (List.getElem?_eq_some_iff.1 hj).1
    rw [h.arity] at li lj
    have ei := List.getElem?_eq_getElem li
    have ej := List.getElem?_eq_getElem lj
    have ai := h.arguments i _ v ei hi
    have aj := h.arguments j _ w ej hj
    generalize src.inputs[i] = a at ei ai
    generalize src.inputs[j] = b at ej aj
    have hni := hn i
    have hnj := hn j
    have hdd := hd i j
    rw [ei] at hni hdd
    rw [ej] at hnj hdd
    cases ai with
    | @named n1 =>
      cases aj with
      | @named n2 =>
        have : n1 ≠ n2 := by
          rintro rfl
          have := hdd n1 rfl rfl
          omega
        exact ⟨this, this⟩
      | unnamed =>
        have : n1 ≠ "arg" ++ Nat.repr j := by rintro rfl; exact hni j rfl
        exact ⟨this, this⟩
    | unnamed =>
      cases aj with
      | @named n2 =>
        have : "arg" ++ Nat.repr i ≠ n2 := by rintro rfl; exact hnj i rfl
        exact ⟨this, this⟩
      | unnamed =>
        have : "arg" ++ Nat.repr i ≠ "arg" ++ Nat.repr j := by
          intro h
          have := repr_inj ((String.append_right_inj _).1 h)
          omega
        exact ⟨this, this⟩
  constructor <;>
  · rw [List.nodup_iff_pairwise_ne, List.pairwise_iff_getElem]
    intro i j hi hj hij
    simp at hi hj
    simp
    have := key i j _ _ hij (List.getElem?_eq_getElem hi) (List.getElem?_eq_getElem hj)
    first | exact this.1 | exact this.2

example : ∃ src sig, SigIs src sig ∧ sig.args.length = 2 ∧
    (∀ (i j : Nat) (n : Ident), (src.inputs[i]?.map (·.1) = some (.ident n)) → (src.inputs[j]?.map (·.1) = some (.ident n)) → i = j) ∧
    ∀ i k : Nat, src.inputs[i]?.map (·.1) ≠ some (.ident ("arg" ++ Nat.repr k)) := by
  refine ⟨⟨[], "f", noGenerics, false, false, false, false, false, none, [(.ident "n", named "i32"), (.wild, named "i32")], none⟩,
    ⟨false, [], none, [⟨⟨[], "n", "n"⟩, .ident ⟨"i32", []⟩⟩, ⟨⟨[], "arg1", "arg1"⟩, .ident ⟨"i32", []⟩⟩], none, false⟩,
    (sig_iff _ _).1 rfl, rfl, ?_, ?_⟩
  · intro i j n hi hj
    match i, j with
    | 0, 0 => rfl
    | 0, 1 => simp at hj
    | 1, _ => simp at hi
    | 0, j + 2 => simp at hj
    | i + 2, _ => simp at hi
  · intro i k h
    match i with
    | 0 =>
      simp at h
      have := congrArg String.toList h
      simp at this
    | 1 => simp at h
    | i + 2 => simp at h

/-- C69.  Without that condition they may be equal: `fn f(arg1: i32, _: i32)`. -/
theorem argument_names_clash : ∃ src sig, SigIs src sig ∧
    (∀ (i j : Nat) (n : Ident), (src.inputs[i]?.map (·.1) = some (.ident n)) → (src.inputs[j]?.map (·.1) = some (.ident n)) → i = j) ∧
    ¬ (sig.args.map (·.name.rust)).Nodup := by
  refine ⟨⟨[], "f", ⟨[], false⟩, false, false, false, false, false, none,
    [(.ident "arg1", .path false false [] "i32" .none), (.wild, .path false false [] "i32" .none)], none⟩,
    ⟨false, [], none, [⟨⟨[], "arg1", "arg1"⟩, .ident ⟨"i32", []⟩⟩, ⟨⟨[], "arg1", "arg1"⟩, .ident ⟨"i32", []⟩⟩], none, false⟩, ?_, ?_, ?_⟩
  · refine (sig_iff _ _).1 ?_
    rfl
  · intro i j n hi hj
    match i, j with
    | 0, 0 => rfl
    | 0, 1 => simp at hj
    | 1, _ => simp at hi
    | 0, j + 2 => simp at hj
    | i + 2, _ => simp at hi
  · decide

end Verif.Parse
