import Verif.Types.Model
import Verif.Types.Spec
/-!
# C37: duplicate names
-/
namespace Verif.Types
open Verif.Syntax Verif.Ordered

theorem mem_setInsert {α : Type} [DecidableEq α] (s : List α) (k x : α) :
    x ∈ setInsert s k ↔ x = k ∨ x ∈ s := by
  unfold setInsert; split <;> grind

theorem mapGet_insert {ν : Type} (m : List (Ident × ν)) (k x : Ident) (v : ν) :
    mapGet (mapInsert m k v) x = if k = x then some v else mapGet m x := by
  unfold mapGet mapInsert
  by_cases h : k = x
  · simp [h]
  · simp only [List.find?_cons, h, decide_false, if_false]
    congr 1
    rw [List.find?_filter]
    congr 1
    funext e
    by_cases he : e.1 = x
    · have : ¬ e.1 = k := fun hk => h (hk.symm.trans he)
      grind
    · simp [he]

theorem mapHas_insert {ν : Type} (m : List (Ident × ν)) (k x : Ident) (v : ν) :
    mapHas (mapInsert m k v) x = (decide (k = x) || mapHas m x) := by
  unfold mapHas; rw [mapGet_insert]; by_cases h : k = x <;> simp [h]

theorem dup_if (c : Prop) [Decidable c] (l : List Ident) (x : Ident) :
    (if c then l ++ [x] else l) = [] ↔ l = [] ∧ ¬ c := by
  by_cases h : c <;> simp [h]

/-- The names fixed by the loop, apart from `all`, `impls`, `resolutions` and `untrusted`. -/
structure Core where
  structs : List (Ident × Struct)
  enums : List (Ident × Enum)
  cxx : List Ident
  typeNames : List Ident
  functionNames : List (Option RecvKey × Ident)
  dups : List Ident

def core (st : Types) : Core :=
  ⟨st.structs, st.enums, st.cxx, st.typeNames, st.functionNames, st.dups⟩

theorem visitAll_eq (st : Types) (ts : List Ty) :
    ∃ all, st.visitAll ts = { st with all := all } := by
  induction ts generalizing st with
  | nil => exact ⟨st.all, rfl⟩
  | cons t ts ih =>
    obtain ⟨all, h⟩ := ih (st.visit t)
    exact ⟨all, by simpa [Types.visitAll, Types.visit] using h⟩

/-- What the loop knows about the name `n` after the items `apis`. -/
structure Knows (apis : List Api) (st : Types) : Prop where
  names : ∀ n, n ∈ st.typeNames ↔ definitions apis n ≠ []
  cxx : ∀ n, n ∈ st.cxx ↔ ∃ k ∈ definitions apis n, k = .cxx ∨ k = .alias ∨ k = .headerEnum
  shared : ∀ n, (mapHas st.structs n = true ∨ mapHas st.enums n = true) ↔
    ∃ k ∈ definitions apis n, k = .shared ∨ k = .headerEnum
  fns : ∀ k, k ∈ st.functionNames ↔ ∃ f, (Api.cxxFunction f ∈ apis ∨ Api.rustFunction f ∈ apis) ∧ fnKey f = k
  dups : st.dups = [] ↔
    (∀ n, Compatible (definitions apis n) ∨ Tolerated (definitions apis n)) ∧
      (apis.filterMap signatureOf).Nodup

theorem definitions_snoc (apis : List Api) (a : Api) (n : Ident) :
    definitions (apis ++ [a]) n = definitions apis n ++
      (match defines a with
       | some (m, k) => if m = n then [k] else []
       | none => []) := by
  unfold definitions
  rw [List.filterMap_append, List.filter_append, List.map_append]
  congr 1
  cases h : defines a with
  | none => simp [h]
  | some d => obtain ⟨m, k⟩ := d; by_cases hm : m = n <;> simp [h, hm]

/-- Whether adding a definition of kind `k` after `ks` is reported. -/
def clashes (ks : List Kind) : Kind → Prop
  | .shared | .headerEnum => ¬ (∃ k ∈ ks, k = .cxx ∨ k = .alias ∨ k = .headerEnum) ∨
      (∃ k ∈ ks, k = .shared ∨ k = .headerEnum)
  | .cxx => (∃ k ∈ ks, k = .cxx ∨ k = .alias ∨ k = .headerEnum) ∨
      ¬ (∃ k ∈ ks, k = .shared ∨ k = .headerEnum)
  | .rust | .alias => True

theorem ok_snoc (ks : List Kind) (k : Kind) :
    (Compatible (ks ++ [k]) ∨ Tolerated (ks ++ [k])) ↔
      (Compatible ks ∨ Tolerated ks) ∧ ¬ (ks ≠ [] ∧ clashes ks k) := by
  unfold Compatible Tolerated
  match ks with
  | [] => simp
  | [a] => cases a <;> cases k <;> simp [clashes]
  | [a, b] => cases a <;> cases b <;> cases k <;> simp [clashes]
  | a :: b :: c :: ks => simp

theorem knows_nil : Knows [] {} := by
  constructor
  · simp [definitions]
  · simp [definitions]
  · simp [definitions, mapHas, mapGet]
  · simp
  · simp [definitions, Compatible]

theorem sig_inj {f g : ExternFn} :
    signatureOf (.cxxFunction f) = signatureOf (.cxxFunction g) ↔ fnKey f = fnKey g := by
  unfold signatureOf fnKey
  cases hf : f.sig.receiver <;> cases hg : g.sig.receiver <;> simp [Receiver.key, hf, hg]
  grind

/-- Adding an item that defines the type name `m` with kind `k`. -/
theorem knows_type {apis : List Api} {st st' : Types} {a : Api} {m : Ident} {k : Kind}
    (h : Knows apis st) (hd : defines a = some (m, k)) (hs : signatureOf a = none)
    (hnf : ∀ f, a ≠ .cxxFunction f ∧ a ≠ .rustFunction f)
    (hn : st'.typeNames = setInsert st.typeNames m)
    (hf : st'.functionNames = st.functionNames)
    (hc : ∀ n, n ∈ st'.cxx ↔ n ∈ st.cxx ∨ (n = m ∧ (k = .cxx ∨ k = .alias ∨ k = .headerEnum)))
    (hsh : ∀ n, (mapHas st'.structs n = true ∨ mapHas st'.enums n = true) ↔
      (mapHas st.structs n = true ∨ mapHas st.enums n = true) ∨
        (n = m ∧ (k = .shared ∨ k = .headerEnum)))
    (hdup : st'.dups = [] ↔ st.dups = [] ∧ ¬ (m ∈ st.typeNames ∧ clashes (definitions apis m) k)) :
    Knows (apis ++ [a]) st' := by
  have hdef : ∀ n, definitions (apis ++ [a]) n = definitions apis n ++ if m = n then [k] else [] := by
    intro n; rw [definitions_snoc, hd]
  constructor
  · intro n; rw [hn, mem_setInsert, h.names n, hdef n]
    by_cases hm : m = n
    · simp [hm]
    · have hm' : ¬ n = m := fun e => hm e.symm
      simp [hm, hm']
  · intro n; rw [hc n, h.cxx n, hdef n]
    by_cases hm : m = n
    · subst hm; simp [or_and_right, exists_or]
    · have hm' : ¬ n = m := fun e => hm e.symm
      simp [hm, hm']
  · intro n; rw [hsh n, h.shared n, hdef n]
    by_cases hm : m = n
    · subst hm; simp [or_and_right, exists_or]
    · have hm' : ¬ n = m := fun e => hm e.symm
      simp [hm, hm']
  · intro key; rw [hf, h.fns key]
    have := hnf
    simp only [List.mem_append, List.mem_singleton]
    constructor
    · rintro ⟨f, hf, hk⟩; exact ⟨f, hf.imp .inl .inl, hk⟩
    · rintro ⟨f, hf, hk⟩
      refine ⟨f, ?_, hk⟩
      rcases hf with (hf | hf) | (hf | hf)
      · exact .inl hf
      · exact absurd hf.symm (hnf f).1
      · exact .inr hf
      · exact absurd hf.symm (hnf f).2
  · rw [hdup, h.dups, List.filterMap_append]
    simp only [List.filterMap_cons, hs, List.filterMap_nil, List.append_nil]
    have hm : (Compatible (definitions (apis ++ [a]) m) ∨ Tolerated (definitions (apis ++ [a]) m)) ↔
        (Compatible (definitions apis m) ∨ Tolerated (definitions apis m)) ∧
        ¬ (m ∈ st.typeNames ∧ clashes (definitions apis m) k) := by
      rw [hdef m, if_pos rfl, ok_snoc, h.names m]
    have ho : ∀ n, n ≠ m → definitions (apis ++ [a]) n = definitions apis n := by
      intro n hne; rw [hdef n, if_neg (fun e => hne e.symm), List.append_nil]
    constructor
    · rintro ⟨⟨h1, h2⟩, h3⟩
      refine ⟨fun n => ?_, h2⟩
      by_cases hne : n = m
      · subst hne; exact hm.2 ⟨h1 n, h3⟩
      · rw [ho n hne]; exact h1 n
    · rintro ⟨h1, h2⟩
      refine ⟨⟨fun n => ?_, h2⟩, (hm.1 (h1 m)).2⟩
      by_cases hne : n = m
      · subst hne; exact (hm.1 (h1 n)).1
      · rw [← ho n hne]; exact h1 n

/-- Adding an item that defines no name. -/
theorem knows_other {apis : List Api} {st st' : Types} {a : Api}
    (h : Knows apis st) (hd : defines a = none) (hs : signatureOf a = none)
    (hnf : ∀ f, a ≠ .cxxFunction f ∧ a ≠ .rustFunction f)
    (he : core st' = core st) : Knows (apis ++ [a]) st' := by
  simp only [core, Core.mk.injEq] at he
  obtain ⟨e1, e2, e3, e4, e5, e6⟩ := he
  have hdef : ∀ n, definitions (apis ++ [a]) n = definitions apis n := by
    intro n; rw [definitions_snoc, hd]; simp
  constructor
  · intro n; rw [e4, hdef]; exact h.names n
  · intro n; rw [e3, hdef]; exact h.cxx n
  · intro n; rw [e1, e2, hdef]; exact h.shared n
  · intro k; rw [e5, h.fns k]
    simp only [List.mem_append, List.mem_singleton]
    constructor
    · rintro ⟨f, hf, hk⟩; exact ⟨f, hf.imp .inl .inl, hk⟩
    · rintro ⟨f, hf, hk⟩
      refine ⟨f, ?_, hk⟩
      rcases hf with (hf | hf) | (hf | hf)
      · exact .inl hf
      · exact absurd hf.symm (hnf f).1
      · exact .inr hf
      · exact absurd hf.symm (hnf f).2
  · rw [e6, h.dups, List.filterMap_append]
    simp only [List.filterMap_cons, hs, List.filterMap_nil, List.append_nil, hdef]

/-- Adding a function. -/
theorem knows_fn {apis : List Api} {st st' : Types} {a : Api} {f : ExternFn}
    (ha : a = .cxxFunction f ∨ a = .rustFunction f)
    (h : Knows apis st)
    (e1 : st'.structs = st.structs) (e2 : st'.enums = st.enums) (e3 : st'.cxx = st.cxx)
    (e4 : st'.typeNames = st.typeNames)
    (e5 : st'.functionNames = setInsert st.functionNames (fnKey f))
    (e6 : st'.dups = [] ↔ st.dups = [] ∧ fnKey f ∉ st.functionNames) :
    Knows (apis ++ [a]) st' := by
  have hd : defines a = none := by rcases ha with rfl | rfl <;> rfl
  have hsg : signatureOf a = signatureOf (.cxxFunction f) := by rcases ha with rfl | rfl <;> rfl
  have hdef : ∀ n, definitions (apis ++ [a]) n = definitions apis n := by
    intro n; rw [definitions_snoc, hd]; simp
  constructor
  · intro n; rw [e4, hdef]; exact h.names n
  · intro n; rw [e3, hdef]; exact h.cxx n
  · intro n; rw [e1, e2, hdef]; exact h.shared n
  · intro k; rw [e5, mem_setInsert, h.fns k]
    simp only [List.mem_append, List.mem_singleton]
    constructor
    · rintro (rfl | ⟨g, hg, hk⟩)
      · exact ⟨f, ha.imp (fun e => .inr e.symm) (fun e => .inr e.symm), rfl⟩
      · exact ⟨g, hg.imp .inl .inl, hk⟩
    · rintro ⟨g, hg, hk⟩
      rcases hg with (hg | hg) | (hg | hg)
      · exact .inr ⟨g, .inl hg, hk⟩
      · rcases ha with rfl | rfl
        · cases hg; exact .inl hk.symm
        · cases hg
      · exact .inr ⟨g, .inr hg, hk⟩
      · rcases ha with rfl | rfl
        · cases hg
        · cases hg; exact .inl hk.symm
  · rw [e6, h.dups, List.filterMap_append]
    have hkey : ∃ s, signatureOf a = some s := by rw [hsg]; exact ⟨_, rfl⟩
    obtain ⟨s, hs⟩ := hkey
    have hmem : fnKey f ∈ st.functionNames ↔ s ∈ apis.filterMap signatureOf := by
      rw [h.fns, List.mem_filterMap]
      constructor
      · rintro ⟨g, hg, hk⟩
        have : signatureOf (.cxxFunction g) = some s := by rw [← hs, hsg]; exact sig_inj.2 hk
        rcases hg with hg | hg
        · exact ⟨_, hg, this⟩
        · exact ⟨_, hg, this⟩
      · rintro ⟨b, hb, hbs⟩
        cases b with
        | cxxFunction g => exact ⟨g, .inl hb, sig_inj.1 (by rw [hbs, ← hs, hsg])⟩
        | rustFunction g => exact ⟨g, .inr hb, sig_inj.1 (by rw [← hsg, hs, ← hbs]; rfl)⟩
        | _ => simp [signatureOf] at hbs
    simp only [List.filterMap_cons, hs, List.filterMap_nil, hdef, List.nodup_append, hmem]
    grind

theorem knows_step (apis : List Api) (st : Types) (a : Api) (h : Knows apis st) :
    Knows (apis ++ [a]) (collectApi st a) := by
  cases a with
  | «include» p => exact knows_other h rfl rfl (by simp) rfl
  | impl i =>
    refine knows_other h rfl rfl (by simp) ?_
    simp only [collectApi]
    split <;> rfl
  | struct s =>
    simp only [collectApi]
    obtain ⟨all, he⟩ := visitAll_eq
      { st.declare s.name.rust (sharedClash st s.name.rust) with
        structs := mapInsert (st.declare s.name.rust (sharedClash st s.name.rust)).structs s.name.rust s }
      (s.fields.map (·.ty))
    rw [he]
    refine knows_type (m := s.name.rust) (k := .shared) h rfl rfl (by simp) rfl rfl ?_ ?_ ?_
    · simp [Types.declare, Types.addResolution]
    · intro n; simp only [Types.declare, Types.addResolution, mapHas_insert]; grind
    · simp only [Types.declare, Types.addResolution, clashes, ← h.cxx, ← h.shared, sharedClash]
      refine (dup_if _ _ _).trans ?_
      grind
  | enum e =>
    simp only [collectApi]
    split
    next hv =>
      refine knows_type (m := e.name.rust) (k := .headerEnum) h (by simp [defines, hv]) rfl (by simp) rfl rfl ?_ ?_ ?_
      · intro n; simp only [Types.declare, Types.addResolution, mem_setInsert]; grind
      · intro n; simp only [Types.declare, Types.addResolution, mapHas_insert]; grind
      · simp only [Types.declare, Types.addResolution, clashes, ← h.cxx, ← h.shared, sharedClash]
        refine (dup_if _ _ _).trans ?_
        grind
    next hv =>
      refine knows_type (m := e.name.rust) (k := .shared) h (by simp [defines, hv]) rfl (by simp) rfl rfl ?_ ?_ ?_
      · simp [Types.declare, Types.addResolution]
      · intro n; simp only [Types.declare, Types.addResolution, mapHas_insert]; grind
      · simp only [Types.declare, Types.addResolution, clashes, ← h.cxx, ← h.shared, sharedClash]
        refine (dup_if _ _ _).trans ?_
        grind
  | cxxType t =>
    simp only [collectApi]
    split <;>
    · refine knows_type (m := t.name.rust) (k := .cxx) h rfl rfl (by simp) rfl rfl ?_ ?_ ?_
      · intro n; simp only [Types.declare, Types.addResolution, mem_setInsert]; grind
      · intro n; simp [Types.declare, Types.addResolution]
      · simp only [Types.declare, Types.addResolution, clashes, ← h.cxx, ← h.shared, cxxClash]
        refine (dup_if _ _ _).trans ?_
        grind
  | rustType t =>
    refine knows_type (m := t.name.rust) (k := .rust) h rfl rfl (by simp) rfl rfl ?_ ?_ ?_
    · intro n; simp [collectApi, Types.declare, Types.addResolution]
    · intro n; simp [collectApi, Types.declare, Types.addResolution]
    · simp only [collectApi, Types.declare, Types.addResolution, clashes]
      refine (dup_if _ _ _).trans ?_
      grind
  | typeAlias t =>
    refine knows_type (m := t.name.rust) (k := .alias) h rfl rfl (by simp) rfl rfl ?_ ?_ ?_
    · intro n; simp only [collectApi, Types.declare, Types.addResolution, mem_setInsert]; grind
    · intro n; simp [collectApi, Types.declare, Types.addResolution]
    · simp only [collectApi, Types.declare, Types.addResolution, clashes]
      refine (dup_if _ _ _).trans ?_
      grind
  | cxxFunction f =>
    simp only [collectApi]
    obtain ⟨all, he⟩ := visitAll_eq
      { st with
        functionNames := setInsert st.functionNames (fnKey f)
        dups := if fnKey f ∈ st.functionNames then st.dups ++ [f.name.rust] else st.dups }
      (f.sig.args.map (·.ty))
    rw [he]
    refine knows_fn (f := f) (.inl rfl) h ?_ ?_ ?_ ?_ ?_ ?_ <;> split <;> try rfl
    all_goals simp only [Types.visit]; split <;> simp_all
  | rustFunction f =>
    simp only [collectApi]
    obtain ⟨all, he⟩ := visitAll_eq
      { st with
        functionNames := setInsert st.functionNames (fnKey f)
        dups := if fnKey f ∈ st.functionNames then st.dups ++ [f.name.rust] else st.dups }
      (f.sig.args.map (·.ty))
    rw [he]
    refine knows_fn (f := f) (.inr rfl) h ?_ ?_ ?_ ?_ ?_ ?_ <;> split <;> try rfl
    all_goals simp only [Types.visit]; split <;> simp_all

theorem knows_scan (apis : List Api) : Knows apis (scan apis) := by
  induction apis using Ordered.snoc_induction with
  | nil => exact knows_nil
  | snoc xs x ih => 
    rw [scan, List.foldl_append]
    exact knows_step _ _ _ ih

theorem implicit_dups (st : Types) (ts : List Ty) : core (ts.foldl implicitImpl st) = core st := by
  induction ts generalizing st with
  | nil => rfl
  | cons t ts ih =>
    rw [List.foldl_cons, ih]
    unfold implicitImpl
    split
    · rfl
    · split <;> rfl

/-- **C37**.  Exactly which bridges pass the duplicate check: for every name its definitions are
compatible or one of the three tolerated sequences, and no two functions have the same receiver and
name. -/
theorem duplicates_exact (apis : List Api) :
    (collect apis).dups = [] ↔
      (∀ n, Compatible (definitions apis n) ∨ Tolerated (definitions apis n)) ∧
        (apis.filterMap signatureOf).Nodup := by
  have := implicit_dups (scan apis) (scan apis).all.iter
  simp only [core, Core.mk.injEq] at this
  rw [show (collect apis).dups = (scan apis).dups from this.2.2.2.2.2]
  exact (knows_scan apis).dups

theorem compatible_perm {ks ks' : List Kind} (h : ks.Perm ks') (hc : Compatible ks) : Compatible ks' := by
  have key : ∀ a b : Kind, [a, b].Perm ks' → ks' = [a, b] ∨ ks' = [b, a] := by
    intro a b hp
    match ks', hp.length_eq with
    | [c, d], _ =>
      have h1 : a ∈ [c, d] := hp.mem_iff.1 (by simp)
      simp only [List.mem_cons, List.not_mem_nil, or_false] at h1
      rcases h1 with rfl | rfl
      · have := List.singleton_perm_singleton.1 (List.perm_cons a |>.1 hp)
        subst this; simp
      · have := List.singleton_perm_singleton.1
          (List.perm_cons a |>.1 (hp.trans (List.Perm.swap _ _ _)))
        subst this; simp
  unfold Compatible at hc ⊢
  rcases hc with hc | rfl | rfl
  · rw [← h.length_eq]; exact .inl hc
  · rcases key _ _ h with h | h <;> simp [h]
  · rcases key _ _ h with h | h <;> simp [h]

theorem definitions_perm {apis apis' : List Api} (h : apis.Perm apis') (n : Ident) :
    (definitions apis n).Perm (definitions apis' n) :=
  ((h.filterMap _).filter _).map _

/-- **C37** (order), as far as it holds: among bridges in which no enum takes its variants from a
header and no name is both an alias and a shared struct or enum, the order of items does not matter.
`duplicates_order_dependent` shows that the full statement is false of the code. -/
theorem duplicates_order_partial {apis apis' : List Api} (h : apis.Perm apis')
    (h1 : ∀ n, Kind.headerEnum ∉ definitions apis n)
    (h2 : ∀ n, ¬ (Kind.alias ∈ definitions apis n ∧ Kind.shared ∈ definitions apis n)) :
    (collect apis).dups = [] ↔ (collect apis').dups = [] := by
  have key : ∀ ks : List Kind, Kind.headerEnum ∉ ks → ¬ (Kind.alias ∈ ks ∧ Kind.shared ∈ ks) →
      ¬ Tolerated ks := by
    rintro ks k1 k2 (rfl | rfl | rfl) <;> simp at k1 k2
  have nt : ∀ n, ¬ Tolerated (definitions apis n) := fun n => key _ (h1 n) (h2 n)
  have nt' : ∀ n, ¬ Tolerated (definitions apis' n) := by
    intro n
    have hp := definitions_perm h n
    refine key _ ?_ ?_
    · rw [← hp.mem_iff]; exact h1 n
    · rw [← hp.mem_iff, ← hp.mem_iff]; exact h2 n
  rw [duplicates_exact, duplicates_exact]
  refine and_congr (forall_congr' fun n => ?_) (h.filterMap _).nodup_iff
  have hp := definitions_perm h n
  simp only [nt n, nt' n, or_false]
  exact ⟨compatible_perm hp, compatible_perm hp.symm⟩

section Witness

def aliasT : Api := .typeAlias ⟨[], ⟨[], "T", "T"⟩, []⟩
def structT : Api := .struct ⟨[], ⟨[], "T", "T"⟩, [], [⟨⟨[], "x", "x"⟩, Ty.named "u8"⟩]⟩
def cxxT : Api := .cxxType ⟨.cxx, [], ⟨[], "T", "T"⟩, [], [], true⟩
def rustT : Api := .rustType ⟨.rust, [], ⟨[], "T", "T"⟩, [], [], true⟩
def fnT (mutable : Bool) (name : Ident) : Api :=
  .cxxFunction ⟨.cxx, ⟨[], name, name⟩,
    ⟨false, [], some ⟨mutable, none, mutable, ⟨"T", []⟩, false⟩, [], none, false⟩, true⟩
/-- an enum with its variants from a header -/
def headerT : Api := .enum ⟨[], ⟨[], "T", "T"⟩, [], [], true, .u8, false⟩

/-- The decision depends on the order of items: a type alias followed by a struct of the same name
is accepted, the other order is rejected; likewise for an extern C++ type and an enum from a header. -/
theorem duplicates_order_dependent :
    ((collect [aliasT, structT]).dups = [] ∧ (collect [structT, aliasT]).dups ≠ []) ∧
    ((collect [cxxT, headerT]).dups = [] ∧ (collect [headerT, cxxT]).dups ≠ []) := by
  refine ⟨⟨?_, ?_⟩, ?_, ?_⟩ <;> decide +kernel

example : (collect [cxxT, structT, fnT true "f", fnT false "f", fnT true "g"]).dups = [] ∧
    (collect [structT, cxxT]).dups = [] := by decide +kernel
example : (collect [cxxT, cxxT]).dups = ["T"] ∧ (collect [rustT, structT]).dups = ["T"] ∧
    (collect [structT, cxxT, structT]).dups = ["T"] ∧ (collect [cxxT, fnT true "f", fnT true "f"]).dups = ["f"] := by
  decide +kernel
example : (∀ n, Kind.headerEnum ∉ definitions [cxxT, structT] n) ∧
    (∀ n, ¬ (Kind.alias ∈ definitions [cxxT, structT] n ∧ Kind.shared ∈ definitions [cxxT, structT] n)) := by
  constructor <;> intro n <;> by_cases h : "T" = n <;> simp [definitions, defines, cxxT, structT, h]

end Witness

end Verif.Types
