import Verif.Names.Model
import Verif.Names.Spec
import Verif.Check.Exact
import Verif.Check.Resolve
/-!
# C90: the names of the expanded module
-/
namespace Verif.Names
open Verif.Syntax Verif.Types Verif.Check Rules

/-! ### Strings -/

/-- Names in the hidden block, before they are put together. -/
inductive Tag
  | op (o : String) (s : Ident)
  | free (f : Ident)
  | method (t m : Ident)
  | box (n : Ident) (f : String)
  | vec (n : Ident) (f : String)

def Tag.render : Tag → String
  | .op o s => "__operator_" ++ o ++ "_" ++ s
  | .free f => "__" ++ f
  | .method t m => "__" ++ t ++ "__" ++ m
  | .box n f => n ++ "__box_" ++ f
  | .vec n f => n ++ "__vec_" ++ f

def ops : List String := ["eq", "ne", "lt", "le", "gt", "ge", "hash"]

def Tag.Good : Tag → Prop
  | .op o s => o ∈ ops ∧ Usual s
  | .free f => ¬ Doubled f ∧ ∀ rest, f.toList ≠ "operator_".toList ++ rest
  | .method t _ => Usual t
  | .box n f => Usual n ∧ f ∈ boxNames
  | .vec n f => Usual n ∧ f ∈ vecNames

theorem split_at_double {a b c d : List Char} (h : a ++ '_' :: '_' :: c = b ++ '_' :: '_' :: d)
    (ha : ¬ ∃ x y, a = x ++ '_' :: '_' :: y) (ha' : ∀ r, a ≠ r ++ ['_'])
    (hb : ¬ ∃ x y, b = x ++ '_' :: '_' :: y) (hb' : ∀ r, b ≠ r ++ ['_']) : a = b ∧ c = d := by
  rw [List.append_eq_append_iff] at h
  rcases h with ⟨e, h1, h2⟩ | ⟨e, h1, h2⟩
  · match e, h1, h2 with
    | [], h1, h2 => simp only [List.nil_append, List.cons.injEq, true_and] at h2; simpa [h2] using h1.symm
    | [x], h1, h2 =>
      simp only [List.cons_append, List.cons.injEq] at h2
      exact absurd (h2.1 ▸ h1) (hb' a)
    | x :: y :: e, h1, h2 =>
      simp only [List.cons_append, List.cons.injEq] at h2
      exact absurd ⟨a, e, by rw [h1, ← h2.1, ← h2.2.1]⟩ hb
  · match e, h1, h2 with
    | [], h1, h2 => simp only [List.nil_append, List.cons.injEq, true_and] at h2; simpa [h2] using h1
    | [x], h1, h2 =>
      simp only [List.cons_append, List.cons.injEq] at h2
      exact absurd (h2.1 ▸ h1) (ha' b)
    | x :: y :: e, h1, h2 =>
      simp only [List.cons_append, List.cons.injEq] at h2
      exact absurd ⟨b, e, by rw [h1, ← h2.1, ← h2.2.1]⟩ ha

theorem usual_split {a b : String} {c d : List Char} (ha : Usual a) (hb : Usual b)
    (h : a.toList ++ '_' :: '_' :: c = b.toList ++ '_' :: '_' :: d) : a = b ∧ c = d := by
  obtain ⟨h1, h2⟩ := split_at_double h ha.inside ha.last hb.inside hb.last
  exact ⟨String.toList_inj.1 h1, h2⟩

theorem not_double_cons {x : Char} {s : List Char} (hx : x ≠ '_') (h : ¬ ∃ a b, s = a ++ '_' :: '_' :: b) :
    ¬ ∃ a b, x :: s = a ++ '_' :: '_' :: b := by
  rintro ⟨a, b, he⟩
  cases a with
  | nil => simp only [List.nil_append, List.cons.injEq] at he; exact hx he.1
  | cons y a => simp only [List.cons_append, List.cons.injEq] at he; exact h ⟨a, b, he.2⟩

theorem not_double_bar {s : List Char} (hs : ∀ r, s ≠ '_' :: r) (h : ¬ ∃ a b, s = a ++ '_' :: '_' :: b) :
    ¬ ∃ a b, '_' :: s = a ++ '_' :: '_' :: b := by
  rintro ⟨a, b, he⟩
  cases a with
  | nil => simp only [List.nil_append, List.cons.injEq, true_and] at he; exact hs _ he
  | cons y a => simp only [List.cons_append, List.cons.injEq] at he; exact h ⟨a, b, he.2⟩

theorem op_not_double {o : String} {s : Ident} (ho : o ∈ ops) (hs : Usual s) :
    ¬ ∃ a b, "operator_".toList ++ (o.toList ++ ('_' :: s.toList)) = a ++ '_' :: '_' :: b := by
  have base := not_double_bar hs.start hs.inside
  have bar : ∀ {x : Char} {s : List Char}, x ≠ '_' → (¬ ∃ a b, (x :: s) = a ++ '_' :: '_' :: b) →
      ¬ ∃ a b, '_' :: x :: s = a ++ '_' :: '_' :: b := fun hx h =>
    not_double_bar (fun r he => hx (List.cons.inj he).1) h
  have pre : ∀ {x : Char} {s : List Char}, x ≠ '_' → (¬ ∃ a b, (x :: s) = a ++ '_' :: '_' :: b) →
      ¬ ∃ a b, "operator_".toList ++ (x :: s) = a ++ '_' :: '_' :: b := fun hx h => by
    show ¬ ∃ a b, 'o' :: 'p' :: 'e' :: 'r' :: 'a' :: 't' :: 'o' :: 'r' :: '_' :: (_ :: _) = a ++ '_' :: '_' :: b
    iterate 8 refine not_double_cons (by decide) ?_
    exact bar hx h
  simp only [ops, List.mem_cons, List.not_mem_nil, or_false] at ho
  rcases ho with rfl | rfl | rfl | rfl | rfl | rfl | rfl
  all_goals
    refine pre (by decide) ?_
    first
    | exact not_double_cons (by decide) (not_double_cons (by decide) base)
    | exact not_double_cons (by decide) (not_double_cons (by decide) (not_double_cons (by decide) (not_double_cons (by decide) base)))

theorem op_inj {o o' : String} {s s' : List Char} (ho : o ∈ ops) (ho' : o' ∈ ops)
    (h : o.toList ++ '_' :: s = o'.toList ++ '_' :: s') : o = o' ∧ s = s' := by
  simp only [ops, List.mem_cons, List.not_mem_nil, or_false] at ho ho'
  rcases ho with rfl | rfl | rfl | rfl | rfl | rfl | rfl <;>
    rcases ho' with rfl | rfl | rfl | rfl | rfl | rfl | rfl <;> simp_all

theorem usual_head {s : String} (h : Usual s) (t : List Char) (r : List Char) : s.toList ++ t ≠ '_' :: r := by
  intro he
  cases hs : s.toList with
  | nil => exact h.nonempty (String.toList_inj.1 (by simp [hs]))
  | cons x l =>
    rw [hs, List.cons_append] at he
    exact h.start l (by rw [hs, (List.cons.inj he).1])

/-- The characters of a name. -/
def Tag.chars : Tag → List Char
  | .op o s => '_' :: '_' :: ("operator_".toList ++ (o.toList ++ '_' :: s.toList))
  | .free f => '_' :: '_' :: f.toList
  | .method t m => '_' :: '_' :: (t.toList ++ '_' :: '_' :: m.toList)
  | .box n f => n.toList ++ '_' :: '_' :: ("box_".toList ++ f.toList)
  | .vec n f => n.toList ++ '_' :: '_' :: ("vec_".toList ++ f.toList)

theorem render_chars (t : Tag) : t.render.toList = t.chars := by
  cases t <;> simp [Tag.render, Tag.chars]

theorem tail2 {a b : Char} {s t : List Char} (h : a :: b :: s = a :: b :: t) : s = t := by simpa using h

theorem render_inj {t u : Tag} (ht : t.Good) (hu : u.Good) (h : t.render = u.render) : t = u := by
  have h : t.chars = u.chars := by rw [← render_chars, ← render_chars, h]
  cases t with
  | op o s =>
    cases u with
    | op o' s' =>
      have h := List.append_cancel_left (tail2 h)
      obtain ⟨rfl, h2⟩ := op_inj ht.1 hu.1 h
      rw [String.toList_inj.1 h2]
    | free f => exact absurd (tail2 h).symm (hu.2 _)
    | method t m => exact absurd ⟨_, _, tail2 h⟩ (op_not_double ht.1 ht.2)
    | box n f => exact absurd h.symm (usual_head hu.1 _ _)
    | vec n f => exact absurd h.symm (usual_head hu.1 _ _)
  | free f =>
    cases u with
    | op o' s' => exact absurd (tail2 h) (ht.2 _)
    | free f' => rw [String.toList_inj.1 (tail2 h)]
    | method t m => exact absurd ⟨_, _, tail2 h⟩ ht.1
    | box n f => exact absurd h.symm (usual_head hu.1 _ _)
    | vec n f => exact absurd h.symm (usual_head hu.1 _ _)
  | method t m =>
    cases u with
    | op o' s' => exact absurd ⟨_, _, (tail2 h).symm⟩ (op_not_double hu.1 hu.2)
    | free f' => exact absurd ⟨_, _, (tail2 h).symm⟩ hu.1
    | method t' m' =>
      obtain ⟨rfl, h2⟩ := usual_split ht hu (tail2 h)
      rw [String.toList_inj.1 h2]
    | box n f => exact absurd h.symm (usual_head hu.1 _ _)
    | vec n f => exact absurd h.symm (usual_head hu.1 _ _)
  | box n f =>
    cases u with
    | op o' s' => exact absurd h (usual_head ht.1 _ _)
    | free f' => exact absurd h (usual_head ht.1 _ _)
    | method t' m' => exact absurd h (usual_head ht.1 _ _)
    | box n' f' =>
      obtain ⟨rfl, h2⟩ := usual_split ht.1 hu.1 h
      rw [String.toList_inj.1 (List.append_cancel_left h2)]
    | vec n f => obtain ⟨rfl, h2⟩ := usual_split ht.1 hu.1 h; simp at h2
  | vec n f =>
    cases u with
    | op o' s' => exact absurd h (usual_head ht.1 _ _)
    | free f' => exact absurd h (usual_head ht.1 _ _)
    | method t' m' => exact absurd h (usual_head ht.1 _ _)
    | box n f => obtain ⟨rfl, h2⟩ := usual_split ht.1 hu.1 h; simp at h2
    | vec n' f' =>
      obtain ⟨rfl, h2⟩ := usual_split ht.1 hu.1 h
      rw [String.toList_inj.1 (List.append_cancel_left h2)]

/-! ### Lists -/

/-- The names of the hidden block, as tags. -/
def hiddenTags : Api → List Tag
  | .struct s => (s.derives.flatMap (operatorsOf s.derives)).map (fun op => .op op s.name.rust)
  | .rustFunction f =>
    match f.sig.receiver with
    | none => [.free f.name.rust]
    | some r => [.method r.ty.rust f.name.rust]
  | _ => []

def implTags : ImplKey → List Tag
  | .rustBox n => boxNames.map (.box n)
  | .rustVec n => vecNames.map (.vec n)
  | _ => []

def Tag.item (t : Tag) : Item := ⟨.hidden, .value, t.render⟩

theorem hiddenItems_eq (a : Api) : hiddenItems a = (hiddenTags a).map Tag.item := by
  cases a with
  | struct s => simp [hiddenItems, hiddenTags, Tag.item, Tag.render, Function.comp_def]
  | rustFunction f =>
    simp only [hiddenItems, hiddenTags, shimName]
    cases f.sig.receiver <;> rfl
  | _ => rfl

theorem implItems_eq (k : ImplKey) : implItems k = (implTags k).map Tag.item := by
  cases k <;> simp [implItems, implTags, Tag.item, Tag.render, Function.comp_def]

/-- Two definitions of a name. -/
theorem definitions_pair {apis : List Api} {a b : Api} {n : Ident} {k l : Kind} (h : [a, b].Sublist apis)
    (ha : defines a = some (n, k)) (hb : defines b = some (n, l)) : [k, l].Sublist (definitions apis n) := by
  have := ((h.filterMap defines).filter (fun d => decide (d.1 = n))).map (·.2)
  simpa [ha, hb, definitions] using this

theorem mem_definitions {apis : List Api} {a : Api} {n : Ident} {k : Kind} (h : a ∈ apis)
    (ha : defines a = some (n, k)) : k ∈ definitions apis n := by
  simp only [definitions, List.mem_map, List.mem_filter, List.mem_filterMap]
  exact ⟨(n, k), ⟨⟨a, h, ha⟩, by simp⟩, rfl⟩

theorem once_of_nodup {α : Type} {f : Api → Option α} {apis : List Api} (h : (apis.filterMap f).Nodup) :
    apis.Pairwise (fun a b => ∀ x y, f a = some x → f b = some y → x ≠ y) := by
  rw [List.pairwise_iff_forall_sublist]
  intro a b hs x y hx hy
  have := h.sublist (hs.filterMap f)
  simpa [hx, hy] using this

theorem impls_nodup_insert {m : List (ImplKey × Bool)} (h : (m.map (·.1)).Nodup) (k : ImplKey) (v : Bool) :
    ((implsInsert m k v).map (·.1)).Nodup := by
  unfold implsInsert
  split
  · have : (m.map (fun e => if e.1 = k then (e.1, v) else e)).map (·.1) = m.map (·.1) := by
      rw [List.map_map]
      apply List.map_congr_left
      intro e _
      simp only [Function.comp]
      split <;> rfl
    rw [this]; exact h
  · next hn =>
    rw [List.map_append, List.nodup_append]
    refine ⟨h, by simp, ?_⟩
    intro a ha b hb
    simp only [List.map_cons, List.map_nil, List.mem_singleton] at hb
    subst hb
    rintro rfl
    apply hn
    simp only [List.mem_map] at ha
    obtain ⟨e, he, rfl⟩ := ha
    simp only [List.any_eq_true]
    exact ⟨e, he, by simp⟩

theorem visitAll_impls (st : Types) (ts : List Ty) : (st.visitAll ts).impls = st.impls := by
  unfold Types.visitAll
  induction ts generalizing st with
  | nil => rfl
  | cons t ts ih => rw [List.foldl_cons, ih]; rfl

theorem collectApi_impls {st : Types} (h : (st.impls.map (·.1)).Nodup) (a : Api) :
    ((collectApi st a).impls.map (·.1)).Nodup := by
  cases a with
  | «include» p => exact h
  | struct s => simpa [collectApi, Types.addResolution, visitAll_impls, Types.declare] using h
  | enum e => simp only [collectApi, Types.addResolution]; split <;> simpa [Types.declare] using h
  | cxxType t => simp only [collectApi, Types.addResolution]; split <;> simpa [Types.declare] using h
  | rustType t => simpa [collectApi, Types.addResolution, Types.declare] using h
  | cxxFunction f => simp only [collectApi]; split <;> simpa [Types.visit, visitAll_impls] using h
  | rustFunction f => simp only [collectApi]; split <;> simpa [Types.visit, visitAll_impls] using h
  | typeAlias a => simpa [collectApi, Types.addResolution, Types.declare] using h
  | impl i =>
    simp only [collectApi]
    split
    · exact impls_nodup_insert (by simpa [Types.visit] using h) _ _
    · simpa [Types.visit] using h

/-- Every instantiation is made once. -/
theorem impls_nodup (apis : List Api) : ((collect apis).impls.map (·.1)).Nodup := by
  unfold collect
  have h1 : ((scan apis).impls.map (·.1)).Nodup := by
    unfold scan
    have : ∀ (l : List Api) (st : Types), (st.impls.map (·.1)).Nodup → ((l.foldl collectApi st).impls.map (·.1)).Nodup := by
      intro l
      induction l with
      | nil => exact fun _ h => h
      | cons a l ih => exact fun st h => ih _ (collectApi_impls h a)
    exact this _ _ (by simp)
  have h2 : ∀ (l : List Ty) (st : Types), (st.impls.map (·.1)).Nodup → ((l.foldl implicitImpl st).impls.map (·.1)).Nodup := by
    intro l
    induction l with
    | nil => exact fun _ h => h
    | cons t l ih =>
      intro st h
      apply ih
      unfold implicitImpl
      split
      · exact h
      · split
        · exact impls_nodup_insert h _ _
        · exact h
  exact h2 _ _ h1

theorem key_declared {g : Generator} {apis : List Api} (h : Accepted g apis) {k : ImplKey}
    (hk : k ∈ (collect apis).impls.map (·.1)) : Declared apis k.rust := by
  obtain ⟨hn, _, hi⟩ := names_resolve h
  have ha := (hi k hk).1
  have : ∃ t, Occurs apis t ∧ implKey t = some k := by
    rcases (impls_exact apis k).1 hk with ⟨i, hi, he⟩ | ⟨_, _, t, ht, he⟩
    · exact ⟨i.ty, ⟨_, hi, i.ty, by simp [writtenTypes], .self _⟩, he⟩
    · exact ⟨t, ht, he⟩
  obtain ⟨t, ht, he⟩ := this
  obtain ⟨n, hr, hw⟩ := implKey_arg he
  have := (hn n (occurs_trans ht hw) (hr ▸ ha)).1
  rwa [hr] at this

/-! ### The theorem -/

section Main

variable {outer : Ident → Bool} {apis : List Api}

theorem operators_mem {ds : List Trait} {d : Trait} {o : String} (h : o ∈ operatorsOf ds d) : o ∈ ops := by
  cases d <;> simp only [operatorsOf] at h <;> (try split at h) <;> revert h <;> simp [ops] <;> grind

theorem operators_nodup {ds : List Trait} (h : ds.Nodup) : (ds.flatMap (operatorsOf ds)).Nodup := by
  rw [List.Nodup, List.pairwise_flatMap]
  constructor
  · intro d _
    cases d <;> simp only [operatorsOf] <;> (try split) <;> decide
  · refine h.imp ?_
    intro a b hab x hx y hy
    cases a <;> cases b <;> first | exact absurd rfl hab | skip
    all_goals
      simp only [operatorsOf] at hx hy
      (try split at hx) <;> (try split at hy) <;> revert hx hy <;> simp <;> grind

theorem hidden_good (h : Accepted .macro apis) (hd : Distinct outer apis) {a : Api} (ha : a ∈ apis) {t : Tag}
    (ht : t ∈ hiddenTags a) : t.Good := by
  have hf := (accepted_exact _ _).1 h
  cases a with
  | struct s =>
    simp only [hiddenTags, List.mem_map, List.mem_flatMap] at ht
    obtain ⟨o, ⟨d, _, ho⟩, rfl⟩ := ht
    exact ⟨operators_mem ho, hd.types _ (List.ne_nil_of_mem (mem_definitions ha rfl))⟩
  | rustFunction f =>
    simp only [hiddenTags] at ht
    cases hr : f.sig.receiver with
    | none =>
      rw [hr] at ht
      simp only [List.mem_singleton] at ht
      subst ht
      exact hd.functions _ ⟨f, ha, hr, rfl⟩
    | some r =>
      rw [hr] at ht
      simp only [List.mem_singleton] at ht
      subst ht
      exact hd.types _ ((hf.items _ ha).receiver r hr).2.1
  | _ => cases ht

theorem impl_good (h : Accepted .macro apis) (hd : Distinct outer apis) {k : ImplKey}
    (hk : k ∈ (collect apis).impls.map (·.1)) {t : Tag} (ht : t ∈ implTags k) : t.Good := by
  have hu := hd.types _ (key_declared h hk)
  cases k <;> simp only [implTags, List.mem_map] at ht
  · obtain ⟨f, hf, rfl⟩ := ht; exact ⟨hu, hf⟩
  · obtain ⟨f, hf, rfl⟩ := ht; exact ⟨hu, hf⟩
  all_goals cases ht

theorem implTags_nodup (k : ImplKey) : (implTags k).Nodup := by
  cases k <;> simp [implTags, boxNames, vecNames]

theorem implTags_apart {k l : ImplKey} (h : k ≠ l) {t u : Tag} (ht : t ∈ implTags k) (hu : u ∈ implTags l) : t ≠ u := by
  rintro rfl
  cases k <;> cases l <;> simp only [implTags, List.mem_map, List.not_mem_nil] at ht hu
  all_goals
    obtain ⟨f, hf, rfl⟩ := ht
    obtain ⟨f', hf', he⟩ := hu
    simp_all

theorem tags_apart {a b : Api} (hdef : ∀ n k l, defines a = some (n, k) → defines b = some (n, l) → k = .shared → l ≠ .shared)
    (hfn : ∀ x y, signatureOf a = some x → signatureOf b = some y → x ≠ y)
    (hm : ∀ x y, methodOf a = some x → methodOf b = some y → x ≠ y) {t u : Tag} (ht : t ∈ hiddenTags a) (hu : u ∈ hiddenTags b) :
    t ≠ u := by
  rintro rfl
  cases a with
  | struct s =>
    simp only [hiddenTags, List.mem_map] at ht
    obtain ⟨o, _, rfl⟩ := ht
    cases b with
    | struct s' =>
      simp only [hiddenTags, List.mem_map] at hu
      obtain ⟨o', _, he⟩ := hu
      exact hdef s.name.rust _ _ rfl (by simp only [defines]; rw [(Tag.op.inj he).2]) rfl rfl
    | rustFunction f =>
      simp only [hiddenTags] at hu
      split at hu <;> simp at hu
    | _ => cases hu
  | rustFunction f =>
    cases b with
    | struct s' =>
      simp only [hiddenTags, List.mem_map] at hu
      obtain ⟨o', _, rfl⟩ := hu
      simp only [hiddenTags] at ht
      split at ht <;> simp at ht
    | rustFunction f' =>
      simp only [hiddenTags] at ht hu
      cases hr : f.sig.receiver with
      | none =>
        cases hr' : f'.sig.receiver with
        | none =>
          rw [hr] at ht; rw [hr'] at hu
          simp only [List.mem_singleton] at ht hu
          subst ht
          refine hfn _ _ rfl rfl ?_
          simp only [hr, hr', Option.map_none, Prod.mk.injEq, true_and]
          exact Tag.free.inj hu
        | some r' =>
          rw [hr] at ht; rw [hr'] at hu
          simp only [List.mem_singleton] at ht hu
          subst ht; cases hu
      | some r =>
        cases hr' : f'.sig.receiver with
        | none =>
          rw [hr] at ht; rw [hr'] at hu
          simp only [List.mem_singleton] at ht hu
          subst ht; cases hu
        | some r' =>
          rw [hr] at ht; rw [hr'] at hu
          simp only [List.mem_singleton] at ht hu
          subst ht
          obtain ⟨h1, h2⟩ := Tag.method.inj hu
          exact hm (.rust, r.ty.rust, f.name.rust) (.rust, r'.ty.rust, f'.name.rust) (by simp [methodOf, hr]) (by simp [methodOf, hr'])
            (by rw [h1, h2])
    | _ => cases hu
  | _ => cases ht

theorem hidden_impl_apart {a : Api} {k : ImplKey} {t u : Tag} (ht : t ∈ hiddenTags a) (hu : u ∈ implTags k) : t ≠ u := by
  rintro rfl
  cases k <;> simp only [implTags, List.mem_map] at hu <;> (try cases hu)
  all_goals
    rename_i hx
    obtain ⟨_, rfl⟩ := hx
    cases a with
    | struct s => simp [hiddenTags] at ht
    | rustFunction f => simp only [hiddenTags] at ht; split at ht <;> simp at ht
    | _ => cases ht

/-- The ways in which two items may have one name. -/
theorem pair_kinds (hf : Follows .macro apis) (hd : Distinct outer apis) :
    apis.Pairwise (fun a b => ∀ n k l, defines a = some (n, k) → defines b = some (n, l) →
      (k = .shared ∧ l = .cxx) ∨ (k = .cxx ∧ l = .shared) ∨ (k = .cxx ∧ l = .headerEnum)) := by
  rw [List.pairwise_iff_forall_sublist]
  intro a b hs n k l ha hb
  have hp := definitions_pair hs ha hb
  have len := hp.length_le
  rcases hf.definedOnce n with (h | h | h) | (h | h | h)
  · simp at len; omega
  all_goals
    rw [h] at hp
    have := hp.eq_of_length (by simp)
    simp only [List.cons.injEq, and_true] at this
  · exact .inl this
  · exact .inr (.inl this)
  · exact absurd ⟨by simp [Alias, h], ⟨_, by rw [h]; exact List.mem_cons_of_mem _ (List.mem_singleton.2 rfl), .inl rfl⟩⟩ (hd.aliases n)
  · exact .inr (.inr this)
  · exact absurd ⟨by simp [Alias, h], ⟨_, by rw [h]; exact List.mem_cons_of_mem _ (List.mem_singleton.2 rfl), .inr rfl⟩⟩ (hd.aliases n)

theorem hidden_nodup (h : Accepted .macro apis) (hd : Distinct outer apis) :
    (apis.flatMap hiddenTags ++ ((collect apis).impls.map (·.1)).flatMap implTags).Pairwise (fun t u => t.item ≠ u.item) := by
  have hf := (accepted_exact _ _).1 h
  have inj : ∀ {t u : Tag}, t.Good → u.Good → t ≠ u → t.item ≠ u.item := fun ht hu hn he => hn (render_inj ht hu (by
    simpa [Tag.item] using he))
  rw [List.pairwise_append, List.pairwise_flatMap, List.pairwise_flatMap]
  refine ⟨⟨?_, ?_⟩, ⟨?_, ?_⟩, ?_⟩
  · intro a ha
    have good := fun {t} => hidden_good h hd ha (t := t)
    have : (hiddenTags a).Nodup := by
      cases a with
      | struct s =>
        have := operators_nodup (hd.derives s ha)
        simp only [hiddenTags, List.Nodup, List.pairwise_map]
        exact this.imp (fun hn he => hn (Tag.op.inj he).1)
      | rustFunction f => simp only [hiddenTags]; split <;> simp
      | _ => exact List.Pairwise.nil
    exact this.imp_of_mem (fun ht hu hn => inj (good ht) (good hu) hn)
  · have h1 := pair_kinds hf hd
    have h2 := once_of_nodup hf.functionsOnce
    have h3 := once_of_nodup hd.methods
    refine ((h1.and h2).and h3).imp_of_mem ?_
    rintro a b ha hb ⟨⟨h1, h2⟩, h3⟩ t ht u hu
    refine inj (hidden_good h hd ha ht) (hidden_good h hd hb hu) (tags_apart ?_ h2 h3 ht hu)
    rintro n k l hk hl rfl rfl
    have := h1 n _ _ hk hl
    simp at this
  · intro k hk
    exact (implTags_nodup k).imp_of_mem (fun ht hu hn => inj (impl_good h hd hk ht) (impl_good h hd hk hu) hn)
  · exact (impls_nodup apis).imp_of_mem
      (fun hk hl hn t ht u hu => inj (impl_good h hd hk ht) (impl_good h hd hl hu) (implTags_apart hn ht hu))
  · intro t ht u hu
    rw [List.mem_flatMap] at ht hu
    obtain ⟨a, ha, ht⟩ := ht
    obtain ⟨k, hk, hu⟩ := hu
    exact inj (hidden_good h hd ha ht) (impl_good h hd hk hu) (hidden_impl_apart ht hu)

/-! #### The module -/

theorem mem_import {a : Api} {x : Item} (h : x ∈ importItems outer a) :
    ∃ t, a = .rustType t ∧ x.scope = .module ∧ x.name = t.name.rust ∧ (x.ns = .value → outer t.name.rust = true) := by
  cases a with
  | rustType t =>
    refine ⟨t, rfl, ?_⟩
    simp only [importItems, List.mem_cons] at h
    rcases h with rfl | h
    · simp
    · split at h
      · simp only [List.mem_singleton] at h; subst h; simp [*]
      · cases h
  | _ => cases h

/-- What stands behind a name of the module. -/
inductive Behind (apis : List Api) (a : Api) : Item → Prop
  | type {n k} : defines a = some (n, k) → k ≠ .rust → (k = .cxx → ¬ Shared apis n) → Behind apis a ⟨.module, .type, n⟩
  | variant {e v} : a = .enum e → v ∈ e.variants → Behind apis a ⟨.inherent e.name.rust, .value, v.rust⟩
  | free {f} : a = .cxxFunction f → f.sig.receiver = none → Behind apis a ⟨.module, .value, f.name.rust⟩
  | method {f r} : a = .cxxFunction f → f.sig.receiver = some r → Behind apis a ⟨.inherent r.ty.rust, .value, f.name.rust⟩

theorem mem_module {a : Api} {x : Item} (h : x ∈ moduleItems (collect apis) a) : Behind apis a x := by
  cases a with
  | struct s => simp only [moduleItems, List.mem_singleton] at h; subst h; exact .type rfl (by simp) (by simp)
  | enum e =>
    simp only [moduleItems, List.mem_cons, List.mem_map] at h
    rcases h with rfl | ⟨v, hv, rfl⟩
    · refine .type rfl ?_ ?_ <;> split <;> simp
    · exact .variant rfl hv
  | cxxType t =>
    simp only [moduleItems] at h
    split at h
    · next hc =>
      simp only [List.mem_singleton] at h; subst h
      refine .type rfl (by simp) (fun _ => ?_)
      simp only [Bool.and_eq_true, Bool.not_eq_true'] at hc
      exact (no_shared (g := .macro) _).1 hc
    · cases h
  | cxxFunction f =>
    simp only [moduleItems] at h
    split at h <;> (simp only [List.mem_singleton] at h; subst h)
    · next hr => exact .free rfl hr
    · next r hr => exact .method rfl hr
  | typeAlias t => simp only [moduleItems, List.mem_singleton] at h; subst h; exact .type rfl (by simp) (by simp)
  | _ => cases h

theorem module_nodup (h : Accepted .macro apis) (hd : Distinct outer apis) :
    (apis.flatMap (moduleItems (collect apis))).Nodup := by
  have hf := (accepted_exact _ _).1 h
  have recv : ∀ {f r e}, .cxxFunction f ∈ apis → f.sig.receiver = some r → .enum e ∈ apis → r.ty.rust ≠ e.name.rust :=
    fun hfm hr he hn => ((hf.items _ hfm).receiver _ hr).2.2.1 _ he hn.symm
  rw [List.Nodup, List.pairwise_flatMap]
  constructor
  · intro a ha
    cases a with
    | enum e =>
      simp only [moduleItems, List.pairwise_cons, List.mem_map]
      constructor
      · rintro x ⟨v, _, rfl⟩ he; cases he
      · have := hd.variants e ha
        rw [List.Nodup, List.pairwise_map] at this
        rw [List.pairwise_map]
        exact this.imp (fun hn he => hn (by simpa using he))
    | cxxType t => simp only [moduleItems]; split <;> simp
    | cxxFunction f => simp only [moduleItems]; split <;> simp
    | _ => simp [moduleItems]
  · refine (((pair_kinds hf hd).and (once_of_nodup hf.functionsOnce)).and (once_of_nodup hd.methods)).imp_of_mem ?_
    rintro a b ha hb ⟨⟨h1, h2⟩, h3⟩ x hx y hy rfl
    have hx := mem_module hx
    have hy := mem_module hy
    cases hx with
    | type hn _ hk =>
      cases hy with
      | type hn' _ hk' =>
        rcases h1 _ _ _ hn hn' with ⟨rfl, rfl⟩ | ⟨rfl, rfl⟩ | ⟨rfl, rfl⟩
        · exact hk' rfl ⟨_, mem_definitions ha hn, .inl rfl⟩
        · exact hk rfl ⟨_, mem_definitions hb hn', .inl rfl⟩
        · exact hk rfl ⟨_, mem_definitions hb hn', .inr rfl⟩
    | @variant e v he hv =>
      subst he
      generalize hz : (⟨.inherent e.name.rust, .value, v.rust⟩ : Item) = z at hy
      cases hy with
      | type => cases hz
      | free => cases hz
      | @variant e' v' he' hv' =>
        subst he'
        have hn : e.name.rust = e'.name.rust := by simpa using congrArg Item.scope hz
        have := h1 e.name.rust _ _ rfl (by simp only [defines]; rw [hn])
        rcases this with ⟨_, h⟩ | ⟨h, _⟩ | ⟨h, _⟩ <;> split at h <;> cases h
      | method hb' hr => subst hb'; exact recv hb hr ha (by simpa using (congrArg Item.scope hz).symm)
    | @free f he hr =>
      generalize hz : (⟨.module, .value, f.name.rust⟩ : Item) = z at hy
      cases hy with
      | type => cases hz
      | variant => cases hz
      | @free f' he' hr' =>
        subst he he'
        refine h2 _ _ rfl rfl ?_
        simp only [hr, hr', Option.map_none, Prod.mk.injEq, true_and]
        simpa using congrArg Item.name hz
      | method => cases hz
    | @method f r he hr =>
      generalize hz : (⟨.inherent r.ty.rust, .value, f.name.rust⟩ : Item) = z at hy
      cases hy with
      | type => cases hz
      | variant hb' hr' => subst hb' he; exact recv ha hr hb (by simpa using congrArg Item.scope hz)
      | free => cases hz
      | @method f' r' he' hr' =>
        subst he he'
        have e1 : r.ty.rust = r'.ty.rust := by simpa using congrArg Item.scope hz
        have e2 : f.name.rust = f'.name.rust := by simpa using congrArg Item.name hz
        exact h3 (.cxx, r.ty.rust, f.name.rust) (.cxx, r'.ty.rust, f'.name.rust) (by simp [methodOf, hr]) (by simp [methodOf, hr'])
          (by rw [e1, e2])

theorem rust_alone (hf : Follows .macro apis) {n : Ident} (h : Kind.rust ∈ definitions apis n) {k : Kind}
    (hk : k ∈ definitions apis n) : k = .rust := by
  rcases hf.definedOnce n with (h' | h' | h') | (h' | h' | h')
  · match hl : definitions apis n with
    | [] => rw [hl] at h; cases h
    | [x] => rw [hl] at h hk; simp at h hk; rw [hk, h]
    | x :: y :: l => rw [hl] at h'; simp at h'
  all_goals rw [h'] at h; simp at h

theorem import_nodup (h : Accepted .macro apis) (hd : Distinct outer apis) : (apis.flatMap (importItems outer)).Nodup := by
  have hf := (accepted_exact _ _).1 h
  rw [List.Nodup, List.pairwise_flatMap]
  constructor
  · intro a _
    cases a with
    | rustType t => simp only [importItems]; split <;> simp
    | _ => simp [importItems]
  · refine (pair_kinds hf hd).imp ?_
    rintro a b h1 x hx y hy rfl
    obtain ⟨t, rfl, _, ht, _⟩ := mem_import hx
    obtain ⟨t', rfl, _, ht', _⟩ := mem_import hy
    have := h1 t.name.rust _ _ rfl (by simp only [defines]; rw [← ht, ht'])
    simp at this

/-- **C90**.  In the Rust module that an accepted bridge becomes, no name is defined twice, if the author has kept the names
apart: in the module, in the block at its end and in the `impl` blocks of each type. -/
theorem names_once_partial (h : Accepted .macro apis) (hd : Distinct outer apis) : (items outer apis).Nodup := by
  have hf := (accepted_exact _ _).1 h
  have hid : (apis.flatMap hiddenItems ++ ((collect apis).impls.map (·.1)).flatMap implItems) =
      (apis.flatMap hiddenTags ++ ((collect apis).impls.map (·.1)).flatMap implTags).map Tag.item := by
    rw [List.map_append, List.map_flatMap, List.map_flatMap]
    have h1 : hiddenItems = fun a => (hiddenTags a).map Tag.item := funext hiddenItems_eq
    have h2 : implItems = fun a => (implTags a).map Tag.item := funext implItems_eq
    rw [h1, h2]
  unfold items
  show (_ ++ (_ ++ forbidItems apis)).Nodup
  rw [hid]
  have hforbid : ∀ x ∈ forbidItems apis, x = ⟨.hidden, .type, "forbid"⟩ := by
    intro x hx
    unfold forbidItems at hx
    split at hx
    · simpa using hx
    · cases hx
  have htag : ∀ {l : List Tag} {x : Item}, x ∈ l.map Tag.item → x.scope = .hidden ∧ x.ns = .value := by
    intro l x hx
    rw [List.mem_map] at hx
    obtain ⟨t, _, rfl⟩ := hx
    exact ⟨rfl, rfl⟩
  rw [List.nodup_append, List.nodup_append, List.nodup_append]
  refine ⟨⟨import_nodup h hd, module_nodup h hd, ?_⟩, ⟨?_, ?_, ?_⟩, ?_⟩
  · intro x hx y hy he
    subst he
    rw [List.mem_flatMap] at hx hy
    obtain ⟨a, ha, hx⟩ := hx
    obtain ⟨b, hb, hy⟩ := hy
    obtain ⟨t, rfl, hs, hn, hv⟩ := mem_import hx
    have hy := mem_module hy
    cases hy with
    | type hd' hk _ =>
      exact hk (rust_alone hf (mem_definitions ha rfl) (hn ▸ mem_definitions hb hd'))
    | variant => cases hs
    | free he hr => subst he; exact hd.imported _ _ hb hr ha (hv rfl) hn
    | method => cases hs
  · have := hidden_nodup h hd
    rwa [List.Nodup, List.pairwise_map]
  · unfold forbidItems; split <;> simp
  · intro x hx y hy he
    have := (htag hx).2
    rw [he, hforbid y hy] at this
    cases this
  · intro x hx y hy he
    subst he
    have hsc : x.scope = .hidden := by
      rcases List.mem_append.1 hy with hy | hy
      · exact (htag hy).1
      · rw [hforbid x hy]
    rcases List.mem_append.1 hx with hx | hx
    · rw [List.mem_flatMap] at hx
      obtain ⟨a, _, hx⟩ := hx
      obtain ⟨t, _, hs, _⟩ := mem_import hx
      rw [hs] at hsc; cases hsc
    · rw [List.mem_flatMap] at hx
      obtain ⟨a, _, hx⟩ := hx
      cases mem_module hx <;> cases hsc

/-- The types that a bridge declares are defined in the module. -/
theorem mem_types (h : Accepted .macro apis) {n : Ident} :
    ⟨.module, .type, n⟩ ∈ items outer apis ↔ Declared apis n := by
  have hf := (accepted_exact _ _).1 h
  constructor
  · intro hm
    unfold items at hm
    simp only [List.mem_append, List.mem_flatMap] at hm
    rcases hm with (⟨a, ha, hm⟩ | ⟨a, ha, hm⟩) | (⟨a, ha, hm⟩ | ⟨k, hk, hm⟩) | hm
    · obtain ⟨t, rfl, _, hn, _⟩ := mem_import hm
      have hn : n = t.name.rust := hn
      rw [hn]; exact List.ne_nil_of_mem (mem_definitions ha rfl)
    · cases mem_module hm with
      | type hd _ _ => exact List.ne_nil_of_mem (mem_definitions ha hd)
    · rw [hiddenItems_eq, List.mem_map] at hm
      obtain ⟨t, _, ht⟩ := hm
      cases ht
    · rw [implItems_eq, List.mem_map] at hm
      obtain ⟨t, _, ht⟩ := hm
      cases ht
    · unfold forbidItems at hm
      split at hm
      · simp at hm
      · cases hm
  · intro hd
    have mem : ∀ {a : Api}, a ∈ apis → ⟨.module, .type, n⟩ ∈ importItems outer a ++ moduleItems (collect apis) a →
        ⟨.module, .type, n⟩ ∈ items outer apis := by
      intro a ha hm
      unfold items
      simp only [List.mem_append, List.mem_flatMap] at hm ⊢
      rcases hm with hm | hm
      · exact .inl (.inl ⟨a, ha, hm⟩)
      · exact .inl (.inr ⟨a, ha, hm⟩)
    have shared : Shared apis n → ⟨.module, .type, n⟩ ∈ items outer apis := by
      rintro ⟨k, hk, hs⟩
      simp only [definitions, List.mem_map, List.mem_filter, List.mem_filterMap, decide_eq_true_eq] at hk
      obtain ⟨⟨m, _⟩, ⟨⟨a, ha, hda⟩, rfl⟩, rfl⟩ := hk
      cases a with
      | struct s => cases hda; exact mem ha (by simp [importItems, moduleItems])
      | enum e => cases hda; exact mem ha (by simp [importItems, moduleItems])
      | cxxType t => cases hda; simp at hs
      | rustType t => cases hda; simp at hs
      | typeAlias t => cases hda; simp at hs
      | _ => cases hda
    obtain ⟨k, hk⟩ := List.exists_mem_of_ne_nil _ hd
    by_cases hs : Shared apis n
    · exact shared hs
    · have hk' := hk
      simp only [definitions, List.mem_map, List.mem_filter, List.mem_filterMap, decide_eq_true_eq] at hk'
      obtain ⟨⟨m, _⟩, ⟨⟨a, ha, hda⟩, rfl⟩, rfl⟩ := hk'
      cases a with
      | struct s => cases hda; exact mem ha (by simp [importItems, moduleItems])
      | enum e => cases hda; exact mem ha (by simp [importItems, moduleItems])
      | cxxType t =>
        cases hda
        obtain ⟨h1, h2⟩ := (no_shared (g := .macro) t.name.rust).2 hs
        have h1 : mapHas (collect apis).structs t.name.rust = false := h1
        have h2 : mapHas (collect apis).enums t.name.rust = false := h2
        exact mem ha (by simp [importItems, moduleItems, h1, h2])
      | rustType t => cases hda; exact mem ha (by simp [importItems])
      | typeAlias t => cases hda; exact mem ha (by simp [importItems, moduleItems])
      | _ => cases hda

/-- The only name of a type that the hidden block defines. -/
theorem hidden_types {n : Ident} : ⟨.hidden, .type, n⟩ ∈ items outer apis ↔ n = "forbid" ∧ ∃ s, .struct s ∈ apis := by
  have key : ⟨.hidden, .type, n⟩ ∈ items outer apis ↔ ⟨.hidden, .type, n⟩ ∈ forbidItems apis := by
    unfold items
    simp only [List.mem_append, List.mem_flatMap]
    constructor
    · rintro ((⟨a, ha, hm⟩ | ⟨a, ha, hm⟩) | (⟨a, ha, hm⟩ | ⟨k, hk, hm⟩) | hm)
      · obtain ⟨_, _, hs, _⟩ := mem_import hm; cases hs
      · cases mem_module hm
      · rw [hiddenItems_eq, List.mem_map] at hm
        obtain ⟨t, _, ht⟩ := hm
        cases ht
      · rw [implItems_eq, List.mem_map] at hm
        obtain ⟨t, _, ht⟩ := hm
        cases ht
      · exact hm
    · exact fun h => .inr (.inr h)
  rw [key]
  unfold forbidItems
  split
  · next hc =>
    rw [List.any_eq_true] at hc
    obtain ⟨a, ha, hs⟩ := hc
    constructor
    · intro hm
      refine ⟨by simpa using hm, ?_⟩
      cases a <;> first | exact ⟨_, ha⟩ | cases hs
    · rintro ⟨rfl, _⟩; simp
  · next hc =>
    constructor
    · intro hm; cases hm
    · rintro ⟨_, s, hs⟩
      exact absurd (List.any_eq_true.2 ⟨_, hs, rfl⟩) hc

/-- What the name of a type refers to in generated code, in the module or (`scopes` has both) in the block at its end. -/
def typeNamed (outer : Ident → Bool) (apis : List Api) (scopes : List Scope) (n : Ident) : Option Scope :=
  lookup (fun s n => (⟨s, .type, n⟩ : Item) ∈ items outer apis) scopes n

/-- **C90**.  The name of a type of the bridge refers to that type, everywhere in the module. -/
theorem type_found_partial (h : Accepted .macro apis) {n : Ident} (hn : Declared apis n)
    (hfb : n = "forbid" → ∀ s, .struct s ∉ apis) :
    typeNamed outer apis [.module] n = some .module ∧ typeNamed outer apis [.hidden, .module] n = some .module := by
  have h1 := (mem_types (outer := outer) h).2 hn
  have h2 : ⟨.hidden, .type, n⟩ ∉ items outer apis := by
    rw [hidden_types]
    rintro ⟨h, s, hs⟩
    exact hfb h s hs
  simp [typeNamed, lookup, h1, h2]

/-- **C90**.  The names of primitive types that generated code uses refer to nothing in the module, so to the primitive types. -/
theorem primitive_found_partial (h : Accepted .macro apis) {n : Ident} (hn : n ∈ bare) (ha : ¬ Alias apis n) :
    typeNamed outer apis [.module] n = none ∧ typeNamed outer apis [.hidden, .module] n = none := by
  have hf := (accepted_exact _ _).1 h
  have hr : n ∈ reserved := by
    have : ∀ n ∈ bare, n ∈ reserved := by decide
    exact this n hn
  have h1 : ⟨.module, .type, n⟩ ∉ items outer apis := by
    rw [mem_types h]
    intro hd
    obtain ⟨k, hk⟩ := List.exists_mem_of_ne_nil _ hd
    have hk' := hk
    simp only [definitions, List.mem_map, List.mem_filter, List.mem_filterMap, decide_eq_true_eq] at hk'
    obtain ⟨⟨m, _⟩, ⟨⟨a, hma, hda⟩, rfl⟩, rfl⟩ := hk'
    cases a with
    | struct s => cases hda; exact (hf.items _ hma).name hr
    | enum s => cases hda; exact (hf.items _ hma).name hr
    | cxxType s => cases hda; exact (hf.items _ hma).name hr
    | rustType s => cases hda; exact (hf.items _ hma).name hr
    | typeAlias t => cases hda; exact ha hk
    | _ => cases hda
  have h2 : ⟨.hidden, .type, n⟩ ∉ items outer apis := by
    rw [hidden_types]
    rintro ⟨rfl, _⟩
    revert hn; decide
  simp [typeNamed, lookup, h1, h2]

end Main

/-! ### Examples -/

section Examples

def nm (s : Ident) : Pair := ⟨[], s, s⟩
def named (c r : Ident) : Pair := ⟨[], c, r⟩
def recv (n : Ident) (m : Bool := false) : Option Receiver := some ⟨false, none, m, ⟨n, []⟩, false⟩
def rfn (p : Pair) (r : Option Receiver := none) (args : List Var := []) : Api := .rustFunction ⟨.rust, p, ⟨false, [], r, args, none, false⟩, true⟩
def cfn (p : Pair) (r : Option Receiver := none) (args : List Var := []) : Api := .cxxFunction ⟨.cxx, p, ⟨false, [], r, args, none, false⟩, true⟩
def rty (s : Ident) : Api := .rustType ⟨.rust, [], nm s, [], [], true⟩
def cty (s : Ident) : Api := .cxxType ⟨.cxx, [], nm s, [], [], true⟩
def strct (s : Ident) (ds : List Trait := []) : Api := .struct ⟨ds, nm s, [], [⟨nm "x", .named "u8"⟩]⟩
def ali (p : Pair) : Api := .typeAlias ⟨[], p, []⟩
def no : Ident → Bool := fun _ => false

/-- A bridge with all kinds of items. -/
def tour : List Api :=
  [rty "R", cty "C", strct "S" [.partialEq, .eq, .hash], ali (nm "A"),
   .enum ⟨[], nm "E", [], [nm "One", nm "Two"], false, .u8, false⟩, cty "E",
   rfn (nm "f"), rfn (nm "g") (recv "R"), rfn (nm "g") (recv "S"), cfn (nm "f") (recv "C") [⟨nm "b", .rustBox (.named "R")⟩],
   cfn (nm "One") none [⟨nm "v", .rustVec (.named "S")⟩]]

theorem usual_of {s : String} (h : s ≠ "" ∧ hasDouble s.toList = false ∧ s.toList.head? ≠ some '_' ∧ s.toList.getLast? ≠ some '_') :
    Usual s := by
  obtain ⟨h0, h1, h2, h3⟩ := h
  refine ⟨h0, ?_, ?_, ?_⟩
  · rw [Doubled, ← double_iff, h1]; simp
  · rintro r hr; rw [hr] at h2; exact h2 rfl
  · rintro r hr; rw [hr] at h3; simp at h3

theorem tour_accepted : Accepted .macro tour := by decide +kernel

theorem declared_mem {apis : List Api} {n : Ident} (h : Declared apis n) : n ∈ (apis.filterMap defines).map (·.1) := by
  obtain ⟨k, hk⟩ := List.exists_mem_of_ne_nil _ h
  simp only [definitions, List.mem_map, List.mem_filter, decide_eq_true_eq] at hk
  obtain ⟨d, ⟨hd, rfl⟩, _⟩ := hk
  exact List.mem_map.2 ⟨d, hd, rfl⟩

/-- The hypotheses are met by the bridge above, even if `R` is a value as well. -/
theorem tour_distinct : Distinct (fun n => n == "R") tour where
  derives s hs := by
    simp [tour, rty, cty, strct, ali, rfn, cfn] at hs
    subst hs; decide
  variants e he := by
    simp [tour, rty, cty, strct, ali, rfn, cfn] at he
    subst he; decide
  aliases n := by
    rintro ⟨ha, k, hk, hs⟩
    have hn : n = "A" := by
      simp only [Alias, definitions, List.mem_map, List.mem_filter, decide_eq_true_eq] at ha
      obtain ⟨d, ⟨hd, rfl⟩, hka⟩ := ha
      simp [tour, rty, cty, strct, ali, rfn, cfn, defines, nm] at hd
      rcases hd with rfl | rfl | rfl | rfl | rfl | rfl <;> first | rfl | simp at hka
    subst hn
    have : definitions tour "A" = [.alias] := by decide +kernel
    rw [this] at hk
    simp at hk
    subst hk
    simp at hs
  methods := by decide +kernel
  imported f t hf hr ht ho := by
    simp [tour, rty, cty, strct, ali, rfn, cfn] at hf ht
    subst ht
    rcases hf with rfl | rfl <;> decide
  types n hn := by
    have hm := declared_mem hn
    simp [tour, rty, cty, strct, ali, rfn, cfn, defines, nm] at hm
    rcases hm with rfl | rfl | rfl | rfl | rfl | rfl <;> exact usual_of (by decide +kernel)
  functions n := by
    rintro ⟨f, hf, hr, rfl⟩
    simp [tour, rty, cty, strct, ali, rfn, cfn] at hf
    rcases hf with rfl | rfl | rfl
    · refine ⟨?_, ?_⟩
      · rw [Doubled, ← double_iff]; decide +kernel
      · intro r hr'; simp [nm] at hr'
    · cases hr
    · cases hr

example : (items (fun n => n == "R") tour).Nodup := names_once_partial tour_accepted tour_distinct
example : (items (fun n => n == "R") tour).length = 27 := by decide +kernel

/-! ### Clashes in accepted bridges -/

/-- A method and a function with the name of the method's shim (the function needs a `#[cxx_name]`). -/
theorem method_like_function : Accepted .macro [rty "R", rfn (nm "f") (recv "R"), rfn (named "g" "R__f")] ∧
    ¬ (items no [rty "R", rfn (nm "f") (recv "R"), rfn (named "g" "R__f")]).Nodup := by decide +kernel

/-- Two methods of two types. -/
theorem methods_alike : Accepted .macro [rty "R_", rty "R", rfn (nm "f") (recv "R_"), rfn (nm "_f") (recv "R")] ∧
    ¬ (items no [rty "R_", rty "R", rfn (nm "f") (recv "R_"), rfn (nm "_f") (recv "R")]).Nodup := by decide +kernel

/-- A function with the name of a comparison operator. -/
theorem function_like_operator : Accepted .macro [strct "S" [.partialEq], rfn (nm "operator_eq_S")] ∧
    ¬ (items no [strct "S" [.partialEq], rfn (nm "operator_eq_S")]).Nodup := by decide +kernel

/-- A method for shared and one for mutable borrows. -/
theorem methods_by_mutability : Accepted .macro [strct "S", cfn (nm "f") (recv "S"), cfn (nm "f") (recv "S" true)] ∧
    ¬ (items no [strct "S", cfn (nm "f") (recv "S"), cfn (nm "f") (recv "S" true)]).Nodup := by decide +kernel

/-- A variant twice. -/
theorem variants_alike : Accepted .macro [.enum ⟨[], nm "E", [], [nm "A", nm "A"], false, .u8, false⟩] ∧
    ¬ (items no [.enum ⟨[], nm "E", [], [nm "A", nm "A"], false, .u8, false⟩]).Nodup := by decide +kernel

/-- A trait derived twice. -/
theorem derived_twice : Accepted .macro [strct "S" [.hash, .hash]] ∧ ¬ (items no [strct "S" [.hash, .hash]]).Nodup := by
  decide +kernel

/-- A struct after an alias of the same name (see C37). -/
theorem alias_then_struct : Accepted .macro [ali (nm "S"), strct "S"] ∧ ¬ (items no [ali (nm "S"), strct "S"]).Nodup := by
  decide +kernel

/-- A C++ function with the name of a Rust type that is a tuple struct. -/
theorem function_like_type : Accepted .macro [rty "R", cfn (nm "R")] ∧
    ¬ (items (fun _ => true) [rty "R", cfn (nm "R")]).Nodup ∧ (items no [rty "R", cfn (nm "R")]).Nodup := by decide +kernel

/-- A type `forbid` is not found from the block at the end, where `forbid` is a module. -/
theorem forbid_hidden : Accepted .macro [strct "forbid" [.hash]] ∧
    typeNamed no [strct "forbid" [.hash]] [.hidden, .module] "forbid" = some .hidden := by decide +kernel

/-- Aliases may have the names of primitive types.  In generated Rust code `bool` is then the alias, while in the signatures of
generated C++ code it stays the primitive type (gen/src/write.rs:1252-1257, 1341-1343). -/
theorem primitive_captured : Accepted .macro [ali (named "Flag" "bool"), cfn (nm "f") none [⟨nm "x", .named "bool"⟩]] ∧
    Accepted .build [ali (named "Flag" "bool"), cfn (nm "f") none [⟨nm "x", .named "bool"⟩]] ∧
    typeNamed no [ali (named "Flag" "bool"), cfn (nm "f") none [⟨nm "x", .named "bool"⟩]] [.module] "bool" = some .module := by
  decide +kernel

end Examples

end Verif.Names
