import Verif.Sizes.Spec
import Verif.Layout.Props
import Verif.Unit.Props
import Verif.Check.Exact
import Verif.Slice.Props
/-!
# C++ steps through Rust arrays as Rust does
-/
namespace Verif.Sizes
open Verif.Syntax Verif.Types Verif.Mangle Verif.Layout Verif.Check Verif.Check.Rules
open Verif.Abi (CTok Names writeType occurs_part names_of_resolve write_agrees)

variable {g : Generator} {apis : List Api} {sorted : List Struct} {ds : List CDef}

/-! ### Lists -/

theorem filter_one {α : Type} {p : α → Bool} {l : List α} {x : α} (hx : x ∈ l) (hp : p x = true)
    (h : l.Pairwise (fun a b => ¬ (p a = true ∧ p b = true))) : l.filter p = [x] := by
  induction l with
  | nil => cases hx
  | cons a l ih =>
    rw [List.pairwise_cons] at h
    rcases List.mem_cons.1 hx with rfl | hx
    · rw [List.filter_cons_of_pos hp]
      congr 1
      rw [List.filter_eq_nil_iff]
      intro b hb hpb
      exact h.1 b hb ⟨hp, hpb⟩
    · have : ¬ p a = true := fun hpa => h.1 x hx ⟨hpa, hp⟩
      rw [List.filter_cons_of_neg this]
      exact ih hx h.2

theorem filterMap_one {α β : Type} {f : α → Option β} {l : List α} {x : α} {y : β} (hx : x ∈ l) (hp : f x = some y)
    (h : l.Pairwise (fun a b => ¬ ((f a).isSome = true ∧ (f b).isSome = true))) : l.filterMap f = [y] := by
  induction l with
  | nil => cases hx
  | cons a l ih =>
    rw [List.pairwise_cons] at h
    rcases List.mem_cons.1 hx with rfl | hx
    · rw [List.filterMap_cons_some hp]
      congr 1
      rw [List.filterMap_eq_nil_iff]
      intro b hb
      cases hfb : f b with
      | none => rfl
      | some z => exact absurd ⟨by rw [hp]; rfl, by rw [hfb]; rfl⟩ (h.1 b hb)
    · have : f a = none := by
        cases hfa : f a with
        | none => rfl
        | some z => exact absurd ⟨by rw [hfa]; rfl, by rw [hp]; rfl⟩ (h.1 x hx)
      rw [List.filterMap_cons_none this]
      exact ih hx h.2

/-! ### Opaque Rust types are declared once -/

/-- Two items that are Rust types with one name. -/
def Twice (a b : Api) : Prop := ∃ t u, a = .rustType t ∧ b = .rustType u ∧ t.name.rust = u.name.rust

theorem rust_only (hd : (collect apis).dups = []) {n : Ident} (hk : Kind.rust ∈ definitions apis n) : Only apis n := by
  unfold Only
  rcases ((duplicates_exact _).1 hd).1 n with (hc | hc | hc) | (hc | hc | hc)
  · exact hc
  all_goals (rw [hc] at hk; simp at hk)

theorem no_twice (hd : (collect apis).dups = []) : apis.Pairwise (fun a b => ¬ Twice a b) := by
  have hc : ∀ n, (definitions apis n).count .rust ≤ 1 := by
    intro n
    rcases ((duplicates_exact _).1 hd).1 n with (hc | hc | hc) | (hc | hc | hc)
    · exact Nat.le_trans List.count_le_length hc
    all_goals (rw [hc]; decide)
  clear hd
  induction apis with
  | nil => exact .nil
  | cons a l ih =>
    refine List.pairwise_cons.2 ⟨?_, ih fun n => ?_⟩
    · rintro b hb ⟨t, u, rfl, rfl, hn⟩
      have h1 : Kind.rust ∈ definitions l t.name.rust := def_mem hb (by simp [defines, hn])
      have h2 := List.count_pos_iff.2 h1
      have := hc t.name.rust
      rw [show Api.rustType t :: l = [.rustType t] ++ l from rfl, Improper.definitions_append, List.count_append] at this
      have h3 : (definitions [.rustType t] t.name.rust).count .rust = 1 := by simp [definitions, defines]
      omega
    · have := hc n
      rw [show a :: l = [a] ++ l from rfl, Improper.definitions_append, List.count_append] at this
      omega

theorem same_rust (hdist : CxxNamesDistinct apis) {t u : ExternType} (ht : Api.rustType t ∈ apis) (hu : Api.rustType u ∈ apis)
    (h : t.name.ns = u.name.ns ∧ t.name.cxx = u.name.cxx) : t.name.rust = u.name.rust :=
  hdist _ ht _ hu _ _ _ _ rfl rfl h

/-! ### Linking -/

/-- The function of Rust for a query. -/
def opOf : Query → Op
  | .size => .sizeof
  | .align => .alignof

/-- What a symbol belongs to. -/
theorem item_entity {a : Api} (ha : a ∈ apis) {x : Option Symbol × Code} (hx : x ∈ itemSymbols (collect apis) a) :
    ∃ e : Entity, e.In apis ∧ symbolOf (collect apis) e = x.1 ∧
      ∀ p q, e = .op p (opOf q) → ∃ t, a = .rustType t ∧ p = t.name ∧ x.2 = .layout t.name.rust q := by
  cases a with
  | struct s =>
    obtain ⟨op, hop, rfl⟩ := List.mem_map.1 hx
    have hd : DeclaresType apis s.name := ⟨_, ha, s.generics, rfl⟩
    obtain ⟨d, _, hd'⟩ := List.mem_flatMap.1 hop
    have key : ∃ o : Op, o.text = op ∧ o ≠ .sizeof ∧ o ≠ .alignof := by
      cases d <;> simp only [Names.operatorsOf, List.mem_cons, List.not_mem_nil] at hd'
      case hash => exact ⟨.hash, by simp_all [Op.text], by decide, by decide⟩
      case partialEq =>
        rcases hd' with rfl | hd'
        · exact ⟨.eq, rfl, by decide, by decide⟩
        · split at hd' <;> simp at hd'; subst hd'; exact ⟨.ne, rfl, by decide, by decide⟩
      case partialOrd =>
        rcases hd' with rfl | rfl | hd'
        · exact ⟨.lt, rfl, by decide, by decide⟩
        · exact ⟨.le, rfl, by decide, by decide⟩
        · split at hd' <;> simp at hd'
          rcases hd' with rfl | rfl
          · exact ⟨.gt, rfl, by decide, by decide⟩
          · exact ⟨.ge, rfl, by decide, by decide⟩
      all_goals simp at hd'
    obtain ⟨o, rfl, h1, h2⟩ := key
    refine ⟨.op s.name o, hd, rfl, ?_⟩
    intro p q he
    cases he
    cases q
    · exact absurd rfl h1
    · exact absurd rfl h2
  | rustType t =>
    have hd : DeclaresType apis t.name := ⟨_, ha, t.generics, rfl⟩
    simp only [itemSymbols, expandRustTypeLayout, List.mem_cons, List.not_mem_nil, or_false] at hx
    rcases hx with rfl | rfl
    · refine ⟨.op t.name .sizeof, hd, rfl, ?_⟩
      intro p q he
      cases q <;> simp [opOf] at he
      exact ⟨t, rfl, he.symm, rfl⟩
    · refine ⟨.op t.name .alignof, hd, rfl, ?_⟩
      intro p q he
      cases q <;> simp [opOf] at he
      exact ⟨t, rfl, he.symm, rfl⟩
  | rustFunction f =>
    simp only [itemSymbols, List.mem_cons, List.not_mem_nil, or_false] at hx
    subst hx
    exact ⟨.fn f, .inr ha, rfl, fun p q he => by cases he⟩
  | cxxFunction f =>
    simp only [itemSymbols, List.mem_cons, List.mem_flatMap] at hx
    rcases hx with rfl | ⟨v, hv, hx⟩
    · exact ⟨.fn f, .inl ha, rfl, fun p q he => by cases he⟩
    · split at hx
      · simp only [List.mem_cons, List.not_mem_nil, or_false] at hx
        rcases hx with rfl | rfl
        · exact ⟨.trampoline f v.name .c, ⟨.inl ha, v, hv, rfl⟩, rfl, fun p q he => by cases he⟩
        · exact ⟨.trampoline f v.name .rust, ⟨.inl ha, v, hv, rfl⟩, rfl, fun p q he => by cases he⟩
      · cases hx
  | _ => cases hx

theorem instance_entity (ha : Accepted g apis) (hl : LexicalBridge apis) {x : Option Symbol × Code}
    (hx : x ∈ instanceSymbols (collect apis)) :
    ∃ w p m, (Entity.member w p m).In apis ∧ symbolOf (collect apis) (.member w p m) = x.1 := by
  simp only [instanceSymbols, List.mem_flatMap, List.mem_map] at hx
  obtain ⟨e, he, s, hs, rfl⟩ := hx
  obtain ⟨l, h1, _, h3⟩ := instantiation_members ha hl (List.mem_map.2 ⟨e, he, rfl⟩)
  rw [h1] at hs
  obtain ⟨w, _, p, m, _, h5, h6⟩ := h3 s hs
  exact ⟨w, p, m, h5, h6⟩

/-- The symbols of the layout functions lead to them. -/
theorem link_layout (ha : Accepted g apis) (hl : LexicalBridge apis) (hv : ∀ p, DeclaresType apis p → ¬ InsideStdVector p)
    (hdist : CxxNamesDistinct apis) {t : ExternType} (ht : Api.rustType t ∈ apis) {q : Query} {s : Symbol}
    (hs : operator t.name (opOf q).text = some s) :
    link (symbols (collect apis) apis) s = some (.layout t.name.rust q) := by
  have hin : (Entity.op t.name (opOf q)).In apis := ⟨_, ht, t.generics, rfl⟩
  -- an entity with the symbol is the same
  have key : ∀ {e : Entity}, e.In apis → symbolOf (collect apis) e = some s →
      ∃ p, e = .op p (opOf q) ∧ SameType t.name p := by
    intro e he hes
    have := symbol_determines_entity ha hl hv hin he hs hes
    cases e <;> simp only [SameEntity] at this
    obtain ⟨h1, rfl⟩ := this
    exact ⟨_, rfl, h1⟩
  have hfilter : (symbols (collect apis) apis).filter (fun x => x.1 = some s) = [(some s, .layout t.name.rust q)] := by
    apply filter_one
    · refine List.mem_append_left _ (List.mem_flatMap.2 ⟨_, ht, ?_⟩)
      cases q <;> simp only [opOf, Op.text] at hs <;> simp [itemSymbols, expandRustTypeLayout, hs]
    · simp
    · unfold symbols
      rw [List.pairwise_append]
      have hinst : ∀ x ∈ instanceSymbols (collect apis), x.1 ≠ some s := by
        intro x hx hxs
        obtain ⟨w, p, m, h1, h2⟩ := instance_entity ha hl hx
        obtain ⟨_, h, _⟩ := key h1 (h2.trans hxs)
        cases h
      have hitem : ∀ a ∈ apis, ∀ x ∈ itemSymbols (collect apis) a, x.1 = some s →
          ∃ u, a = .rustType u ∧ u.name.rust = t.name.rust ∧ x.2 = .layout u.name.rust q := by
        intro a haa x hx hxs
        obtain ⟨e, h1, h2, h3⟩ := item_entity haa hx
        obtain ⟨p, rfl, hsame⟩ := key h1 (h2.trans hxs)
        obtain ⟨u, rfl, rfl, h4⟩ := h3 _ _ rfl
        exact ⟨u, rfl, (same_rust hdist ht haa hsame).symm, h4⟩
      refine ⟨?_, ?_, ?_⟩
      · rw [List.pairwise_flatMap]
        refine ⟨fun a haa => ?_, ?_⟩
        · rw [List.pairwise_iff_forall_sublist]
          intro x y hsub hxy
          simp only [decide_eq_true_eq] at hxy
          obtain ⟨u, rfl, _, hx2⟩ := hitem a haa x (hsub.subset (by simp)) hxy.1
          obtain ⟨u', hu', _, hy2⟩ := hitem _ haa y (hsub.subset (by simp)) hxy.2
          cases hu'
          have hc : [x, y].map (·.2) = [.layout u.name.rust .size, .layout u.name.rust .align] := by
            have := (hsub.map (·.2)).eq_of_length (by simp [itemSymbols, expandRustTypeLayout])
            rw [this]; rfl
          simp only [List.map_cons, List.map_nil, hx2, hy2, List.cons.injEq, Code.layout.injEq, true_and, and_true] at hc
          rw [hc.1] at hc
          exact absurd hc.2 (by decide)
        · rw [List.pairwise_iff_forall_sublist]
          intro a b hsub x hx y hy hxy
          simp only [decide_eq_true_eq] at hxy
          obtain ⟨u, rfl, h1, _⟩ := hitem a (hsub.subset (by simp)) x hx hxy.1
          obtain ⟨u', rfl, h2, _⟩ := hitem b (hsub.subset (by simp)) y hy hxy.2
          exact List.pairwise_iff_forall_sublist.1 (no_twice ha.1) hsub ⟨u, u', rfl, rfl, h1.trans h2.symm⟩
      · rw [List.pairwise_iff_forall_sublist]
        intro x y hsub hxy
        simp only [decide_eq_true_eq] at hxy
        exact hinst x (hsub.subset (by simp)) hxy.1
      · intro x _ y hy hxy
        simp only [decide_eq_true_eq] at hxy
        exact hinst y hy hxy.2
  unfold link
  rw [hfilter]

/-! ### The functions of the generated file -/

/-- The symbol an item makes `p::layout::fn` call. -/
def itemCall (p : Pair) (fn : String) : Api → Option Symbol
  | .rustType t =>
    if t.name.ns = p.ns ∧ t.name.cxx = p.cxx then
      if fn = "size" then operator t.name "sizeof" else if fn = "align" then operator t.name "alignof" else none
    else none
  | _ => none

theorem layout_call {p : Pair} {fn : String} {d : Unit.Decl} (h : Unit.isLayout d = false) : layoutCall p fn d = none := by
  cases d <;> first | rfl | cases h

theorem second_call {cx : Abi.Ctx} {a : Api} {l : List Unit.Decl} (h : Unit.secondLoop false cx a = some l) (p : Pair)
    (fn : String) : l.filterMap (layoutCall p fn) = (itemCall p fn a).toList := by
  cases a with
  | rustType t =>
    simp only [Unit.secondLoop, Bool.false_eq_true, if_false, Unit.layoutDefs, Unit.all] at h
    cases h1 : operator t.name "sizeof" with
    | none => simp [h1] at h
    | some s1 =>
      cases h2 : operator t.name "alignof" with
      | none => simp [h1, h2] at h
      | some s2 =>
        simp only [h1, h2, Option.map_some, Option.some.injEq] at h
        subst h
        simp only [itemCall]
        by_cases hp : t.name.ns = p.ns ∧ t.name.cxx = p.cxx
        · by_cases hf : fn = "size"
          · subst hf; simp [layoutCall, hp, h1]
          · by_cases hf' : fn = "align"
            · subst hf'; simp [layoutCall, hp, h2]
            · simp [layoutCall, hp, hf, hf', Ne.symm hf, Ne.symm hf']
        · have : ∀ (f : String) (s : Symbol), layoutCall p fn (.layout t.name.ns t.name.cxx f [s]) = none := by
            intro f s
            simp only [layoutCall]
            rw [if_neg fun h => hp ⟨h.1, h.2.1⟩]
          simp [this, hp]
  | _ =>
    rw [List.filterMap_eq_nil_iff.2]
    · rfl
    · intro d hd
      apply layout_call
      rcases Unit.second_cases h hd with ⟨s, op, cs, h', _, rfl, _⟩ | ⟨t', fn, cs, h', _, rfl⟩ |
        ⟨f, sym, s, h', _, hs, ⟨_, rfl⟩ | ⟨r, q, _, _, _, rfl⟩⟩
      · rfl
      · cases h'
      · rfl
      · rfl

theorem seconds_call {cx : Abi.Ctx} {snd : List (List Unit.Decl)} (h : Unit.all (Unit.secondLoop false cx) apis = some snd)
    (p : Pair) (fn : String) : snd.flatten.filterMap (layoutCall p fn) = apis.filterMap (itemCall p fn) := by
  induction apis generalizing snd with
  | nil => simp only [Unit.all, Option.some.injEq] at h; subst h; rfl
  | cons a l ih =>
    simp only [Unit.all] at h
    split at h
    · next b bs h1 h2 =>
      cases h
      rw [List.flatten_cons, List.filterMap_append, second_call h1, ih h2, List.filterMap_cons]
      cases itemCall p fn a <;> rfl
    · cases h

/-- The layout functions of an opaque type call its symbols. -/
theorem layout_fn (hd : (collect apis).dups = []) (hdist : CxxNamesDistinct apis) {cx : Abi.Ctx} {fs : List Unit.Decl}
    (h : Unit.file false cx sorted apis = some fs) {t : ExternType} (ht : Api.rustType t ∈ apis) {fn : String} {s : Symbol}
    (hs : itemCall t.name fn (.rustType t) = some s) : layoutFn fs t.name fn = some s := by
  obtain ⟨data, fst, spec, snd, inst, P, rfl⟩ := Unit.file_parts h
  obtain ⟨K1, K2, K3, K4, _⟩ := Unit.kinds P
  unfold layoutFn
  simp only [List.filterMap_append]
  rw [Unit.filterMap_none fun d hd => layout_call (K1 d hd).2.2.2, Unit.filterMap_none (l := data) fun d hd => layout_call (K2 d hd).2.2,
    Unit.filterMap_none (l := fst.flatten) fun d hd => layout_call (K3 d hd).2.2,
    Unit.filterMap_none (l := spec.flatten) fun d hd => layout_call (K4 d (.inl hd)).2.2.2,
    Unit.filterMap_none (l := inst) fun d hd => layout_call (K4 d (.inr hd)).2.2.2, seconds_call P.snd]
  rw [filterMap_one ht hs]
  · rfl
  · refine List.pairwise_iff_forall_sublist.2 fun {a b} hsub hab => ?_
    have key : ∀ {a : Api}, a ∈ apis → (itemCall t.name fn a).isSome = true →
        ∃ u, a = .rustType u ∧ u.name.rust = t.name.rust := by
      intro a ha hc
      cases a <;> simp only [itemCall, Option.isSome_none, Bool.false_eq_true] at hc
      split at hc
      · next hn => exact ⟨_, rfl, same_rust hdist ha ht hn⟩
      · cases hc
    obtain ⟨u, rfl, h1⟩ := key (hsub.subset (by simp)) hab.1
    obtain ⟨u', rfl, h2⟩ := key (hsub.subset (by simp)) hab.2
    exact List.pairwise_iff_forall_sublist.1 (no_twice hd) hsub ⟨u, u', rfl, rfl, h1.trans h2.symm⟩

/-! ### Which elements there are -/

theorem element_occurs {ty : Ty} (he : Element apis ty) : Occurs apis ty := by
  rcases he with h | ⟨l, m, h⟩
  · exact occurs_part h (.rustVec _)
  · exact occurs_part h (.sliceRef _ _ _)

/-- Elements are opaque Rust types, or have a size. -/
theorem element_cases (ha : Accepted g apis) (hfake : NoFakeString apis) {ty : Ty} (he : Element apis ty) :
    isUnsized (cxOf g apis) ty = false ∨ ∃ t, ty = .ident t ∧ Rust apis t.rust := by
  cases hu : isUnsized (cxOf g apis) ty with
  | false => exact .inl rfl
  | true =>
    right
    have hun := (unsized_iff ty).1 hu
    have hok : ∀ t, Occurs apis t → TypeOk apis t := fun t ht => (type_iff t).1 (accepted_type ha ht)
    rcases he with h | ⟨l, m, h⟩
    · have := hok _ h
      cases this with
      | vec h1 h2 =>
        refine ⟨_, rfl, ?_⟩
        cases hun with
        | cxxString => exact absurd rfl h1
        | cxx ho =>
          exact absurd ⟨ho.1, fun hal => ho.2.2 ⟨hal, .vec h⟩, ho.2.1⟩ h2
        | rust hr => exact hr
      | vecOfStr => cases hun
    · have := hok _ h
      cases this with
      | slice hn => exact absurd hun hn
      | sliceOf hr =>
        refine ⟨_, rfl, ?_⟩
        rcases hr with hr | hal
        · exact hr
        · cases hun with
          | cxxString => exact absurd hal hfake
          | cxx ho => exact absurd ⟨hal, .slice h⟩ ho.2.2
          | rust hr => exact hr

/-! ### The two ways to a size -/

theorem written_named {ts : Types} {ty : Ty} {p : Pair} (h : writeType ts ty = some (.named p)) :
    ∃ t, ty = .ident t ∧ Atom.fromStr t.rust = none ∧ resolve ts t.rust = some p := by
  cases ty <;> simp only [writeType, reduceCtorEq] at h
  case ident t =>
    cases hb : Atom.fromStr t.rust with
    | some a => simp [hb] at h
    | none =>
      simp only [hb] at h
      obtain ⟨q, h1, h2⟩ := Option.map_eq_some_iff.1 h
      cases h2
      exact ⟨t, rfl, hb, h1⟩
  case fn => split at h <;> cases h
  all_goals first
    | (obtain ⟨x, _, hx⟩ := Option.map_eq_some_iff.1 h; cases hx; done)
    | (cases h; done)

theorem written_ref {ts : Types} {ty : Ty} {m : Bool} {c : CTok} (h : writeType ts ty = some (.lref m c)) :
    ∃ p l m t, ty = .ref p l m t := by
  cases ty <;> simp only [writeType, reduceCtorEq] at h
  case ref => exact ⟨_, _, _, _, rfl⟩
  case ident t =>
    split at h
    · cases h
    · obtain ⟨x, _, hx⟩ := Option.map_eq_some_iff.1 h; cases hx
  case fn => split at h <;> cases h
  all_goals first
    | (obtain ⟨x, _, hx⟩ := Option.map_eq_some_iff.1 h; cases hx; done)
    | (cases h; done)

theorem rust_body (S : Setting g apis sorted ds) {d : CDef} (hd : d ∈ ds) :
    d.body = .opaque ↔ ∃ t, Api.rustType t ∈ apis ∧ d.name = t.name := by
  obtain ⟨a, ha, ⟨gs, hr⟩, hcase⟩ := origin S hd
  constructor
  · intro hb
    rcases hcase with ⟨s, rfl, _, hw⟩ | ⟨e, rfl, _, hw⟩ | ⟨t, rfl, hw⟩
    · obtain ⟨_, _, h2, _⟩ := writeStruct_fields hw; rw [h2] at hb; cases hb
    · rw [(writeEnum_body hw).1] at hb; cases hb
    · simp only [resolves, Option.some.injEq, Prod.mk.injEq] at hr
      exact ⟨t, ha, hr.1.symm⟩
  · rintro ⟨t, ht, hn⟩
    have hk : Kind.rust ∈ definitions apis d.name.rust := def_mem ht (by simp [defines, hn])
    obtain ⟨k, hdef⟩ := resolves_defines hr
    have := only_eq (rust_only S.accepted.1 hk) ha ht hdef (show defines (.rustType t) = some (d.name.rust, .rust) by simp [defines, hn])
    subst this
    rcases hcase with ⟨s, h, _⟩ | ⟨e, h, _⟩ | ⟨t, h, hw⟩
    · cases h
    · cases h
    · cases h
      unfold writeOpaque at hw
      obtain ⟨_, _, rfl⟩ := Option.map_eq_some_iff.1 hw
      rfl

theorem sized_base (S : Setting g apis sorted ds) {w : World} (hw : HeadersPlain w apis) {ty : Ty}
    (hu : isUnsized (cxOf g apis) ty = false) {c : CTok} (hc : writeType (collect apis) ty = some c) :
    derivesOpaque w.derived ds c = false := by
  cases c with
  | named p =>
    obtain ⟨t, rfl, hb, hp⟩ := written_named hc
    have hN := names_of_resolve hp
    simp only [derivesOpaque]
    cases hf : ds.find? (fun d => decide (d.name.ns = p.ns ∧ d.name.cxx = p.cxx)) with
    | some d =>
      have h1 := List.find?_some hf
      have h2 := List.mem_of_find?_eq_some hf
      simp only [decide_eq_true_eq] at h1
      dsimp only
      split
      · next hbody =>
        obtain ⟨u, hu', hn⟩ := (rust_body S h2).1 hbody
        have h3 := origin_name S h2 hN h1
        exfalso
        have hr : Rust apis t.rust := def_mem hu' (by simp [defines, ← h3, hn])
        have := (unsized_iff (g := g) (.ident t)).2 (.rust hr)
        rw [hu] at this
        cases this
      · rfl
    | none =>
      have hnone := List.find?_eq_none.1 hf
      by_cases hh : FromHeader apis t.rust
      · exact hw _ _ hh hN
      · exfalso
        cases meaning S hu hh hp with
        | struct s hs hsn hpn d hw' hd hu' hrr =>
          obtain ⟨_, _, _, hdn⟩ := writeStruct_fields hw'
          exact hnone d (inEffect_mem hd) (by simp [hdn, hpn])
        | enum e he hen hpn d hw' hd hu' hrr =>
          exact hnone d (inEffect_mem hd) (by simp [(writeEnum_body hw').2, hpn])
  | _ => rfl

theorem rust_base (S : Setting g apis sorted ds) {w : World} {t : ExternType} (ht : Api.rustType t ∈ apis) :
    derivesOpaque w.derived ds (.named t.name) = true := by
  have hd : ∃ d ∈ ds, d.name = t.name := by
    have hl : LexicalPair t.name := S.lexical _ ht _ (by simp [namesOf])
    obtain ⟨⟨gd, hg⟩, _⟩ := guards_distinct hl hl
    have hw : writeOpaque t = some ⟨gd, t.name, .opaque⟩ := by simp [writeOpaque, hg]
    exact ⟨_, (cxxDefs_mem S.accepted.1 S.perm S.defs _).2 (.inr (.inr ⟨t, ht, hw⟩)), rfl⟩
  obtain ⟨d₀, hd₀, hn₀⟩ := hd
  simp only [derivesOpaque]
  cases hf : ds.find? (fun d => decide (d.name.ns = t.name.ns ∧ d.name.cxx = t.name.cxx)) with
  | none =>
    have hnone := List.find?_eq_none.1 hf
    exact absurd (by simp [hn₀]) (hnone d₀ hd₀)
  | some d =>
    have h1 := List.find?_some hf
    have h2 := List.mem_of_find?_eq_some hf
    simp only [decide_eq_true_eq] at h1
    have hN : Names apis t.name.rust t.name := ⟨rfl, _, ht, t.generics, rfl⟩
    have h3 := origin_name S h2 hN h1
    have hname : d.name = t.name := by
      cases hdn : d.name; cases htn : t.name
      simp_all
    have := (rust_body S h2).2 ⟨t, ht, hname⟩
    simp [this]

theorem layout_named {m : Machine} {imported : Ident → Option Layout.Lay} {defs : List RDef} {t u : NamedType} (h : t.rust = u.rust)
    {l : Layout.Lay} (hl : RustLayout m imported defs (.ident t) l) : RustLayout m imported defs (.ident u) l := by
  cases hl with
  | number t a h1 hn => exact .number u a (h ▸ h1) hn
  | string t h1 => exact .string u (h ▸ h1)
  | reprC t hb d hd hn hr ls hl hf => exact .reprC u (h ▸ hb) d hd (h ▸ hn) hr ls hl hf
  | transparent t hb d hd hn hr f hf l h1 => exact .transparent u (h ▸ hb) d hd (h ▸ hn) hr f hf l h1
  | imported t hb hn l h1 => exact .imported u (h ▸ hb) (h ▸ hn) l (h ▸ h1)

/-- The only overload. -/
theorem chosen_base (q : Query) : chosen q false = some (.builtin q) ∧
    ∃ fn, chosen q true = some (.member fn) ∧ ∀ t, itemCall t.name fn (.rustType t) = operator t.name (opOf q).text := by
  cases q
  · exact ⟨rfl, "size", rfl, fun t => by simp [itemCall, opOf, Op.text]⟩
  · exact ⟨rfl, "align", rfl, fun t => by simp [itemCall, opOf, Op.text]⟩

/-- **C115**.  For every type of elements of slices and vectors of an accepted bridge, `rust::size_of` and `rust::align_of` give in C++
the size and the alignment that the type has in Rust.  Elements that are references are left out: `Slice<T &>` is not a type of C++.
Assumed are different C++ names for different types (without it, see `Layout.same_cxx_name_disagrees`), no alias called
`CxxString`, and what the author vouches for: types from headers are as the bridge says. -/
theorem element_sizes_partial (ha : Accepted g apis) (hlex : LexicalBridge apis) (hpar : Parsed apis) (hdist : CxxNamesDistinct apis)
    (hstd : ∀ p, DeclaresType apis p → ¬ InsideStdVector p) (hfake : NoFakeString apis) {errs : Nat}
    (hsort : Toposort.sort (Pod.structsOf apis) = some (sorted, errs)) {w : World}
    (hv : Vouched w.machine w.imported w.header apis) (hplain : HeadersPlain w apis)
    (hds : cxxDefs (collect apis) sorted apis = some ds) {cx : Abi.Ctx} {fs : List Unit.Decl}
    (hfs : Unit.file false cx sorted apis = some fs) {ty : Ty} (he : Element apis ty) (href : ∀ p l m t, ty ≠ .ref p l m t) :
    ∃ c, writeType (collect apis) ty = some c ∧ ∀ q v,
      Gives w apis ds fs (symbols (collect apis) apis) q c v ↔
        ∃ l, RustLayout w.machine w.imported (rustDefs apis) ty l ∧ v = q.of l := by
  have hperm := (Toposort.structs_in_order_partial _ (structs_nodup ha.1) _ _ hsort).1
  have S : Setting g apis sorted ds := ⟨ha, hlex, hpar, hdist, hperm, hds⟩
  have ho := element_occurs he
  rcases element_cases ha hfake he with hu | ⟨t, rfl, hr⟩
  · obtain ⟨c, hc, _⟩ := write_agrees (cx := ⟨collect apis, [], 0⟩) ha ty ho (sized_not_bare hu)
    refine ⟨c, hc, fun q v => ?_⟩
    have hbase := sized_base S hplain hu hc
    have hlref : ∀ m t, c ≠ .lref m t := by
      rintro m t rfl
      obtain ⟨p, l, m, t, rfl⟩ := written_ref hc
      exact href _ _ _ _ rfl
    constructor
    · intro h
      cases h with
      | builtin h1 _ h2 =>
        rw [hbase, (chosen_base q).1] at h1
        cases h1
        exact ⟨_, cxx_to_rust S hv h2 ty ho hu hc, rfl⟩
      | reference => exact absurd rfl (hlref _ _)
      | member h1 =>
        rw [hbase, (chosen_base q).1] at h1
        cases h1
    · rintro ⟨l, h, rfl⟩
      exact .builtin (by rw [hbase]; exact (chosen_base q).1) hlref (rust_to_cxx S hv h ho hu c hc)
  · have hkm := hr
    simp only [Rust, definitions, List.mem_map, List.mem_filter, List.mem_filterMap] at hkm
    obtain ⟨⟨n, k⟩, ⟨⟨a, haa, hdef⟩, hn⟩, rfl⟩ := hkm
    simp only [decide_eq_true_eq] at hn
    subst hn
    have hau : ∃ u, a = .rustType u ∧ u.name.rust = t.rust := by
      cases a <;> simp [defines] at hdef
      case enum e => split at hdef <;> simp at hdef
      case rustType u => exact ⟨u, rfl, hdef⟩
    obtain ⟨u, rfl, hun⟩ := hau
    have hitem := ((accepted_exact g apis).1 ha).items _ haa
    have hname : u.name.rust ∉ reserved := hitem.name
    have hatom : Atom.fromStr t.rust = none := by
      cases hat : Atom.fromStr t.rust with
      | none => rfl
      | some at' =>
        exfalso
        apply hname
        rw [hun, (Atom.fromStr_eq_some_iff _ _).1 hat]
        cases at' <;> decide
    obtain ⟨p, hp⟩ := Abi.resolve_some ha ho hatom
    have hpu : p = u.name := by
      obtain ⟨hpr, b, hb, gs, hbr⟩ := names_of_resolve hp
      obtain ⟨k, hk⟩ := resolves_defines hbr
      rw [hpr] at hk
      have := only_eq (rust_only ha.1 hr) hb haa hk (show defines (.rustType u) = some (t.rust, .rust) by simp [defines, hun])
      subst this
      simp only [resolves, Option.some.injEq, Prod.mk.injEq] at hbr
      exact hbr.1.symm
    subst hpu
    refine ⟨.named u.name, by simp [writeType, hatom, hp], fun q v => ?_⟩
    have hbase := rust_base S (w := w) haa
    obtain ⟨fn, hch, hcall⟩ := (chosen_base q).2
    obtain ⟨s, hs⟩ := symbol_exists (e := .op u.name (opOf q)) ha hlex ⟨_, haa, u.generics, rfl⟩
    have hs : operator u.name (opOf q).text = some s := hs
    have hfn := layout_fn ha.1 hdist hfs haa ((hcall u).trans hs)
    have hlink := link_layout ha hlex hstd hdist haa hs
    constructor
    · intro h
      cases h with
      | builtin h1 =>
        rw [hbase, hch] at h1
        cases h1
      | member h1 h2 h3 h4 =>
        rw [hbase, hch] at h1
        cases h1
        rw [hfn] at h2
        cases h2
        rw [hlink] at h3
        cases h3
        exact ⟨_, layout_named hun h4, rfl⟩
    · rintro ⟨l, h, rfl⟩
      exact .member (by rw [hbase]; exact hch) hfn hlink (layout_named (u := ⟨u.name.rust, []⟩) hun.symm h)

/-- **C115**, addresses.  With that size, C++ finds the elements of slices and vectors where Rust has them, constructs a new last element
behind the others, and empty slices made in C++ are aligned. -/
theorem elements_found_partial (ha : Accepted g apis) (hlex : LexicalBridge apis) (hpar : Parsed apis) (hdist : CxxNamesDistinct apis)
    (hstd : ∀ p, DeclaresType apis p → ¬ InsideStdVector p) (hfake : NoFakeString apis) {errs : Nat}
    (hsort : Toposort.sort (Pod.structsOf apis) = some (sorted, errs)) {w : World}
    (hv : Vouched w.machine w.imported w.header apis) (hplain : HeadersPlain w apis)
    (hds : cxxDefs (collect apis) sorted apis = some ds) {cx : Abi.Ctx} {fs : List Unit.Decl}
    (hfs : Unit.file false cx sorted apis = some fs) {ty : Ty} (he : Element apis ty) (href : ∀ p l m t, ty ≠ .ref p l m t) :
    ∃ c, writeType (collect apis) ty = some c ∧
      (∀ v, Gives w apis ds fs (symbols (collect apis) apis) .size c v →
        ∃ l, RustLayout w.machine w.imported (rustDefs apis) ty l ∧
          ∀ W start count, start + count * l.size < W →
            (∀ n, n < count → Slice.Slice.index W v ⟨start, count⟩ n = some (start + n * l.size) ∧
              vecIndex W start count v n = some (start + n * l.size)) ∧
            vecSlot W start count v = start + count * l.size) ∧
      (∀ v, Gives w apis ds fs (symbols (collect apis) apis) .align c v →
        ∃ l, RustLayout w.machine w.imported (rustDefs apis) ty l ∧ l.align ∣ (Slice.Slice.default v).ptr) := by
  obtain ⟨c, hc, h⟩ := element_sizes_partial ha hlex hpar hdist hstd hfake hsort hv hplain hds hfs he href
  refine ⟨c, hc, fun v hg => ?_, fun v hg => ?_⟩
  · obtain ⟨l, hl, rfl⟩ := (h _ _).1 hg
    refine ⟨l, hl, fun W start count hW => ⟨fun n hn => ?_, ?_⟩⟩
    · have hle : n * l.size ≤ count * l.size := Nat.mul_le_mul_right _ (Nat.le_of_lt hn)
      constructor
      · simp only [Slice.Slice.index, Query.of, if_pos hn]
        rw [Nat.mul_comm l.size n, Nat.mod_eq_of_lt (show n * l.size < W by omega), Nat.mod_eq_of_lt (by omega)]
      · simp only [vecIndex, Query.of, if_pos hn]
        rw [Nat.mod_eq_of_lt (show n * l.size < W by omega), Nat.mod_eq_of_lt (by omega)]
    · simp only [vecSlot, Query.of]
      rw [Nat.mod_eq_of_lt (show count * l.size < W by omega), Nat.mod_eq_of_lt (by omega)]
  · obtain ⟨l, hl, rfl⟩ := (h _ _).1 hg
    exact ⟨l, hl, Nat.dvd_refl _⟩

/-! ### Concrete instances -/

section Demo

private def pr (n : Ident) : Pair := ⟨[], n, n⟩
private def st : Struct := ⟨[], ⟨["org"], "S", "S"⟩, [], [⟨pr "a", .named "u8"⟩, ⟨pr "b", .named "u32"⟩]⟩
private def op : ExternType := ⟨.rust, [], ⟨["org"], "Thing", "R"⟩, [], [], false⟩
private def take : ExternFn :=
  { lang := .rust, name := pr "take", trusted := false
    sig := ⟨false, [], none, [⟨pr "x", .sliceRef none false (.named "R")⟩, ⟨pr "y", .rustVec (.named "S")⟩], none, false⟩ }

/-- An opaque Rust type with another name in C++, whose slices are arguments, and vectors of a struct. -/
private def demo : List Api := [.struct st, .rustType op, .rustFunction take]

private def x64 : Machine where
  word := ⟨8, 8⟩
  atom
    | .bool | .char | .u8 | .i8 => ⟨1, 1⟩
    | .u16 | .i16 => ⟨2, 2⟩
    | .u32 | .i32 | .f32 => ⟨4, 4⟩
    | _ => ⟨8, 8⟩

private def world : World := ⟨x64, fun n => if n = "R" then some ⟨48, 16⟩ else none, fun _ => none, fun _ => false⟩

private theorem demo_ok : Accepted .build demo ∧ Accepted .macro demo ∧ LexicalBridge demo ∧
    (Toposort.sort (Pod.structsOf demo)).isSome = true := by decide +kernel

private theorem demo_header (n : Ident) : ¬ FromHeader demo n := by
  have key : ∀ k ∈ definitions demo n, k = .shared ∨ k = .rust := by
    intro k hk
    simp only [definitions, demo, defines, List.filterMap_cons, List.filterMap_nil, List.mem_map, List.mem_filter, List.mem_cons,
      List.not_mem_nil, or_false] at hk
    obtain ⟨x, ⟨rfl | rfl, _⟩, rfl⟩ := hk
    · exact .inl rfl
    · exact .inr rfl
  rintro (h | h | ⟨_, h⟩) <;> simpa using key _ h

private theorem demo_parsed : Parsed demo := by
  constructor
  · rintro t n ⟨a, ha, w, hw, hin⟩
    have := (within_iff_visit _ _).2 hin
    simp only [demo, List.mem_cons, List.not_mem_nil, or_false] at ha
    rcases ha with rfl | rfl | rfl <;> simp [writtenTypes, st, take] at hw
    · rcases hw with rfl | rfl <;> simp [visitTypes, Ty.named] at this
    · rcases hw with rfl | rfl <;> simp [visitTypes, Ty.named] at this
  · intro e he
    simp [demo] at he

private theorem demo_distinct : CxxNamesDistinct demo := by
  intro a ha b hb p gs q hs h1 h2 hn
  simp only [demo, List.mem_cons, List.not_mem_nil, or_false] at ha hb
  rcases ha with rfl | rfl | rfl <;> rcases hb with rfl | rfl | rfl <;>
    simp [resolves] at h1 h2 <;>
    (obtain ⟨rfl, rfl⟩ := h1; obtain ⟨rfl, rfl⟩ := h2; revert hn; simp [SameName, st, op])

private theorem demo_element : Element demo (.named "R") :=
  .inr ⟨none, false, .rustFunction take, by simp [demo], .sliceRef none false (.named "R"), by simp [writtenTypes, take], .self _⟩

/-- The demo meets the hypotheses, and C++ steps through the slice of `R` in steps of 48 bytes. -/
example : ∃ sorted ds fs, cxxDefs (collect demo) sorted demo = some ds ∧
    Unit.file false ⟨collect demo, [], 0⟩ sorted demo = some fs ∧
    Gives world demo ds fs (symbols (collect demo) demo) .size (.named op.name) 48 := by
  obtain ⟨⟨sorted, errs⟩, hs⟩ := Option.isSome_iff_exists.1 demo_ok.2.2.2
  have hv : Vouched world.machine world.imported world.header demo := fun t h => absurd h (demo_header _)
  obtain ⟨ds, hd, _⟩ := struct_layout_partial demo_ok.1 demo_ok.2.2.1 demo_parsed demo_distinct hs hv
  have hsorted : sorted = [st] := by
    have := (Toposort.structs_in_order_partial _ (structs_nodup demo_ok.1.1) _ _ hs).1
    exact List.perm_singleton.1 this
  subst hsorted
  have hfile : ∃ fs, Unit.file false ⟨collect demo, [], 0⟩ [st] demo = some fs :=
    Option.isSome_iff_exists.1 (by decide +kernel)
  obtain ⟨fs, hfs⟩ := hfile
  refine ⟨[st], ds, fs, hd, hfs, ?_⟩
  obtain ⟨c, hc, h⟩ := element_sizes_partial demo_ok.1 demo_ok.2.2.1 demo_parsed demo_distinct (by
      rintro p ⟨a, ha, gs, hr⟩ ⟨rest, h⟩
      simp only [demo, List.mem_cons, List.not_mem_nil, or_false] at ha
      rcases ha with rfl | rfl | rfl <;> simp [resolves] at hr <;> (obtain ⟨rfl, rfl⟩ := hr; simp [st, op] at h))
    (fun h => demo_header _ (.inl h)) hs hv (fun n p h => absurd h (demo_header _)) hd hfs demo_element (by simp [Ty.named])
  have hc' : c = .named op.name := by
    have : writeType (collect demo) (.named "R") = some (.named op.name) := by
      obtain ⟨p, hp, rfl⟩ := writeType_named (t := ⟨"R", []⟩) (by decide) hc
      have hN := names_of_resolve hp
      obtain ⟨h1, a, ha, gs, hr⟩ := hN
      rw [hc]
      simp only [demo, List.mem_cons, List.not_mem_nil, or_false] at ha
      rcases ha with rfl | rfl | rfl <;> simp [resolves] at hr
      · obtain ⟨rfl, rfl⟩ := hr; exact absurd h1 (by decide)
      · obtain ⟨rfl, rfl⟩ := hr; rfl
    rw [hc] at this
    exact Option.some.inj this
  subst hc'
  refine (h .size 48).2 ⟨⟨48, 16⟩, .imported _ (by decide) ?_ _ rfl, rfl⟩
  intro d hd
  simp [rustDefs, demo] at hd
  subst hd
  decide

end Demo

end Verif.Sizes
