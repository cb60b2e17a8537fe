import Verif.Lifetimes.Spec
import Verif.RustSig.Props
import Verif.Abi.Props
/-!
# Generated items have the lifetimes that Rust demands
-/
namespace Verif.Lifetimes
open Verif.Syntax Verif.Parse Verif.Abi Verif.Types Verif.RustSig Verif.Check

variable {arity : Ident → Nat}

/-! ### Types -/

theorem known_mono {p : Place} {scope : List Ident} {l : Ident} (h : Known .exact scope l) : Known p scope l := by
  rcases h with h | h | ⟨-, h⟩
  · exact .inl h
  · exact .inr (.inl h)
  · exact absurd rfl h

theorem known_free {p : Place} {scope : List Ident} {l : Ident} (h : Known p scope l) : Known .free scope l := by
  rcases h with h | h | ⟨h, -⟩
  · exact .inl h
  · exact .inr (.inl h)
  · exact .inr (.inr ⟨h, nofun⟩)

theorem known_header {scope : List Ident} {l : Ident} (h : Known .free scope l) : Known .header scope l := by
  rcases h with h | h | ⟨h, -⟩
  · exact .inl h
  · exact .inr (.inl h)
  · exact .inr (.inr ⟨h, nofun⟩)

theorem borrow_mono {p : Place} {scope : List Ident} {l : Option Ident} (h : Borrow .exact scope l) : Borrow p scope l := by
  cases l with
  | none => exact absurd rfl h
  | some l => exact known_mono h

theorem count_mono {p : Place} {n k : Nat} (h : Count .exact n k) : Count p n k := by
  rcases h with h | ⟨-, h⟩
  · exact .inl h
  · cases h

/-- What is right where all lifetimes have to be written is right everywhere. -/
theorem Right.mono {scope : List Ident} {t : Ty} {q : Place} (h : Right arity q scope t) :
    q = .exact → ∀ p, Right arity p scope t := by
  induction h with
  | ident hc hk => rintro rfl p; exact .ident (count_mono hc) (fun l hl => known_mono (hk l hl))
  | rustBox _ ih => exact fun hq p => .rustBox (ih hq p)
  | rustVec _ ih => exact fun hq p => .rustVec (ih hq p)
  | uniquePtr _ ih => exact fun hq p => .uniquePtr (ih hq p)
  | sharedPtr _ ih => exact fun hq p => .sharedPtr (ih hq p)
  | weakPtr _ ih => exact fun hq p => .weakPtr (ih hq p)
  | cxxVector _ ih => exact fun hq p => .cxxVector (ih hq p)
  | ref hb _ ih => rintro rfl p; exact .ref (borrow_mono hb) (ih rfl p)
  | str hb _ ih => rintro rfl p; exact .str (borrow_mono hb) (ih rfl p)
  | sliceRef hb _ ih => rintro rfl p; exact .sliceRef (borrow_mono hb) (ih rfl p)
  | ptr _ ih => exact fun hq p => .ptr (ih hq p)
  | array _ ih => exact fun hq p => .array (ih hq p)
  | fn ha hr _ _ => exact fun _ _ => .fn ha hr
  | void => exact fun _ _ => .void

theorem behind_args (ls : List Ident) : Behind (lifetimeArgs ls) ls := by
  cases ls with
  | nil => exact .inl ⟨rfl, rfl⟩
  | cons l ls => exact .inr rfl

theorem nameOf_fine {p : Place} {scope : List Ident} {n : NamedType} (h : Right arity p scope (.ident n)) :
    Fine arity p scope (nameOf n) := by
  cases h with
  | ident hc hk => exact .name (behind_args _) hc hk

theorem one {p : Place} {scope : List Ident} {colon : Bool} {before : List Ident} {n : Ident} {t : RTy}
    (h : Fine arity p scope t) : Fine arity p scope (.path false colon before n (.angle [.type t])) :=
  .generic (ts := [t]) (by simp) (by simpa using h)

theorem of_fine {p : Place} {scope : List Ident} {before : List Ident} {n : Ident} {t : RTy}
    (h : Fine arity p scope t) : Fine arity p scope (of before n t) := one h

/-- The builtin types have no lifetimes. -/
def Builtins (arity : Ident → Nat) : Prop := ∀ n, Atom.fromStr n ≠ none → arity n = 0

theorem printNamed_fine (hb : Builtins arity) {p : Place} {scope : List Ident} {n : NamedType}
    (h : Right arity p scope (.ident n)) : Fine arity p scope (printNamed n) := by
  have library : Atom.fromStr n.rust ≠ none → ∀ before, Fine arity p scope (cxxPath before n.rust (lifetimeArgs n.generics)) := by
    intro hat before
    cases h with
    | ident hc hk =>
      have : n.generics.length = 0 := by
        rcases hc with hc | ⟨hc, -⟩
        · rw [hc, hb _ hat]
        · exact hc
      rw [List.length_eq_zero_iff.1 this]
      exact .library
  unfold printNamed
  split
  · next h1 => exact library (by rw [h1]; decide) _
  · split
    · next h1 => exact library (by rw [h1]; decide) _
    · split
      · next h1 => exact library (by rw [h1]; decide) _
      · exact nameOf_fine h

theorem mem_printArgs {args : List Ty} {a : Option Ident × RTy} (h : a ∈ printArgs args) : ∃ t ∈ args, a.2 = printType t := by
  induction args with
  | nil => simp [printArgs] at h
  | cons t args ih =>
    simp only [printArgs, List.mem_cons] at h
    rcases h with rfl | h
    · exact ⟨t, by simp, rfl⟩
    · obtain ⟨t', ht', he⟩ := ih h
      exact ⟨t', by simp [ht'], he⟩

theorem print_fine (hb : Builtins arity) {p : Place} {scope : List Ident} {t : Ty} (h : Right arity p scope t) :
    Fine arity p scope (printType t) := by
  induction h with
  | ident hc hk => simp only [printType]; exact printNamed_fine hb (.ident hc hk)
  | rustBox _ ih | rustVec _ ih | uniquePtr _ ih | sharedPtr _ ih | weakPtr _ ih | cxxVector _ ih =>
    simp only [printType]; exact one ih
  | ref hb _ ih | str hb _ ih =>
    simp only [printType]
    split
    · exact one (.reference hb ih)
    · exact .reference hb ih
  | sliceRef hb _ ih => simp only [printType]; exact .reference hb (.slice ih)
  | ptr _ ih => simp only [printType]; exact .ptr ih
  | array _ ih => simp only [printType]; exact .array ih
  | void => simp only [printType]; exact .unit
  | @fn _ _ _ args ret throws _ _ iha ihr =>
    simp only [printType]
    refine .fn ?_ ?_
    · intro a ha
      obtain ⟨t, ht, he⟩ := mem_printArgs ha
      rw [he]
      exact iha t ht
    · intro t ht
      cases ret with
      | none =>
        cases throws <;> simp only [printReturn, Option.some.injEq, reduceCtorEq] at ht
        rw [← ht]; exact one .unit
      | some r =>
        cases throws <;> simp only [printReturn, Option.some.injEq] at ht <;> rw [← ht]
        · exact ihr r rfl
        · exact one (ihr r rfl)

theorem cVoid_fine {p : Place} {scope : List Ident} : Fine arity p scope cVoid := .library

theorem ref_right {p : Place} {scope : List Ident} {pin : Bool} {l : Option Ident} {m : Bool} {t : Ty}
    (h : Right arity p scope (.ref pin l m t)) : Borrow p scope l ∧ Right arity p scope t := by
  cases h with
  | ref h1 h2 => exact ⟨h1, h2⟩

theorem extern_fine (hb : Builtins arity) (cx : Ctx) (proper : Bool) {p : Place} {scope : List Ident} (t : Ty) :
    (Right arity p scope t → Fine arity p scope (externTy cx proper t)) ∧
    ∀ v, t = .rustVec v → Right arity p scope v → Fine arity p scope (externTy cx proper v) := by
  induction t using Ty.induct with
  | ident n =>
    refine ⟨fun h => ?_, nofun⟩
    simp only [externTy]
    split
    · exact .library
    · exact print_fine hb h
  | rustBox t ih =>
    refine ⟨fun h => ?_, nofun⟩
    simp only [externTy]
    split
    · exact .ptr cVoid_fine
    · cases h with
      | rustBox h => exact .ptr (ih.1 h)
  | uniquePtr t ih =>
    refine ⟨fun h => ?_, nofun⟩
    simp only [externTy]
    split
    · exact .ptr cVoid_fine
    · cases h with
      | uniquePtr h => exact .ptr (ih.1 h)
  | rustVec t ih =>
    refine ⟨fun h => ?_, fun v hv hr => by cases hv; exact ih.1 hr⟩
    simp only [externTy]
    cases h with
    | rustVec h => exact one (ih.1 h)
  | ref pin l m t ih =>
    refine ⟨fun h => ?_, nofun⟩
    obtain ⟨h1, h2⟩ := ref_right h
    unfold externTy
    split
    · next n =>
      split
      · exact .reference h1 .library
      · split
        · exact .ptr cVoid_fine
        · exact print_fine hb h
    · next v =>
      cases h2 with
      | rustVec h2 => exact .reference h1 (one (ih.2 v rfl h2))
    · split
      · exact .ptr cVoid_fine
      · exact print_fine hb h
  | ptr m t ih =>
    refine ⟨fun h => ?_, nofun⟩
    simp only [externTy]
    split
    · exact .ptr cVoid_fine
    · exact print_fine hb h
  | str => exact ⟨fun _ => by simp only [externTy]; exact .library, nofun⟩
  | sliceRef => exact ⟨fun _ => by simp only [externTy]; exact .library, nofun⟩
  | sharedPtr | weakPtr | cxxVector | array | fn =>
    exact ⟨fun h => by simp only [externTy]; exact print_fine hb h, nofun⟩
  | void =>
    exact ⟨fun h => by simp only [externTy]; exact print_fine hb h, nofun⟩

theorem declArg_fine (hb : Builtins arity) (cx : Ctx) {p : Place} {scope : List Ident} {t : Ty} (h : Right arity p scope t) :
    Fine arity p scope (declArgTy cx t) := by
  have he := (extern_fine hb cx true t).1 h
  unfold declArgTy
  split
  · exact .ptr he
  · split
    · exact .ptr he
    · exact .library
    · split
      · exact .ptr he
      · exact he

theorem rustArg_fine (hb : Builtins arity) (cx : Ctx) {p : Place} {scope : List Ident} {t : Ty} (h : Right arity p scope t) :
    Fine arity p scope (rustArgTy cx t) := by
  have he := (extern_fine hb cx false t).1 h
  unfold rustArgTy
  split
  · exact .ptr he
  · exact he

theorem outArg_fine (hb : Builtins arity) (cx : Ctx) {proper : Bool} {p : Place} {scope : List Ident} {ret : Option Ty}
    {throws : Bool} (h : ∀ t, ret = some t → Right arity p scope t) :
    ∀ i ∈ outArg cx proper ret throws, Fine arity p scope i.2 := by
  intro i hi
  unfold outArg at hi
  split at hi
  · next t =>
    split at hi
    · rw [List.mem_singleton.1 hi]; exact .ptr ((extern_fine hb cx proper t).1 (h t rfl))
    · cases hi
  · cases hi

theorem externReturn_fine (hb : Builtins arity) (cx : Ctx) {proper : Bool} {p : Place} {scope : List Ident} {ret : Option Ty}
    {throws : Bool} (h : ∀ t, ret = some t → Right arity p scope t) {r : RTy}
    (hr : externReturn cx proper ret throws = some r) : Fine arity p scope r := by
  unfold externReturn at hr
  split at hr
  · cases hr; exact .library
  · split at hr
    · next t =>
      split at hr
      · cases hr
      · cases hr; exact (extern_fine hb cx proper t).1 (h t rfl)
    · cases hr

theorem receiverOf_fine {p : Place} {scope : List Ident} {r : Receiver} {ty : RTy} (hl : Borrow p scope r.lifetime)
    (h : Fine arity p scope ty) : Fine arity p scope (receiverOf r ty) := by
  unfold receiverOf
  split
  · exact one (.reference hl h)
  · exact .reference hl h

theorem okTy_fine (hb : Builtins arity) {p : Place} {scope : List Ident} {ret : Option Ty}
    (h : ∀ t, ret = some t → Right arity p scope t) : Fine arity p scope (okTy ret) := by
  cases ret with
  | none => exact .unit
  | some t => exact print_fine hb (h t rfl)

theorem two {p : Place} {scope : List Ident} {colon : Bool} {before : List Ident} {n : Ident} {t u : RTy}
    (h : Fine arity p scope t) (h' : Fine arity p scope u) :
    Fine arity p scope (.path false colon before n (.angle [.type t, .type u])) :=
  .generic (ts := [t, u]) (by simp) (by simpa using ⟨h, h'⟩)

/-! ### Items -/

theorem implFor_fine {n : Ident} {ls : List Ident} (hl : ls.length = arity n) (hp : Parameters ls) :
    (implFor n ls).Fine arity := by
  refine ⟨hp, ?_⟩
  simp only [implFor, List.mem_singleton, forall_eq]
  exact nameOf_fine (.ident (.inl hl) (fun l hl => .inr (.inl hl)))

theorem struct_fine (hb : Builtins arity) {s : Struct} (hl : s.generics.length = arity s.name.rust)
    (hw : Written arity (.struct s)) : ∀ item ∈ structItems s, item.Fine arity := by
  obtain ⟨hp, hf⟩ := hw
  have hi := implFor_fine hl hp
  have hown : ∀ p, Fine arity p s.generics (nameOf ⟨s.name.rust, s.generics⟩) := fun p =>
    nameOf_fine (.ident (.inl hl) (fun l hl => .inr (.inl hl)))
  have hop : ∀ n, (operatorItem s n).Fine arity := by
    intro n
    refine ⟨hp, ?_⟩
    intro u hu
    rw [(List.mem_replicate.1 hu).2]
    exact .reference nofun (hown _)
  intro item hitem
  simp only [structItems, List.mem_append, List.mem_cons, List.not_mem_nil, or_false] at hitem
  rcases hitem with (((rfl | rfl) | h) | h) | rfl
  · refine ⟨hp, ?_⟩
    intro u hu
    obtain ⟨f, hf', rfl⟩ := List.mem_map.1 hu
    exact print_fine hb (hf f hf')
  · exact hi
  · obtain ⟨d, -, hd⟩ := List.mem_flatMap.1 h
    cases d <;> simp at hd <;> rw [hd] <;> exact hi
  · obtain ⟨d, -, hd⟩ := List.mem_flatMap.1 h
    cases d <;> simp only [List.not_mem_nil, List.mem_cons, List.mem_append, or_false] at hd
    · rw [hd]; exact hop _
    · rcases hd with rfl | hd
      · exact hop _
      · split at hd
        · cases hd
        · rw [List.mem_singleton.1 hd]; exact hop _
    · rcases hd with (rfl | rfl) | hd
      · exact hop _
      · exact hop _
      · split at hd
        · cases hd
        · simp only [List.mem_cons, List.not_mem_nil, or_false, or_self] at hd
          rw [hd]; exact hop _
  · refine ⟨hp, ?_⟩
    simp only [List.mem_singleton, forall_eq]
    exact .name (behind_args _) (.inl hl) (fun l hl => .inr (.inl hl))

theorem none_parameters : Parameters [] := ⟨List.nodup_nil, nofun, nofun⟩

theorem enum_fine (hb : Builtins arity) {e : Enum} (hl : e.generics.length = arity e.name.rust)
    (hw : Written arity (.enum e)) : ∀ item ∈ enumItems e, item.Fine arity := by
  have hg : e.generics = [] := hw
  rw [hg] at hl
  have hi := implFor_fine hl none_parameters
  intro item hitem
  simp only [enumItems, List.mem_cons, List.not_mem_nil, or_false] at hitem
  rcases hitem with rfl | rfl | rfl | rfl
  · refine ⟨none_parameters, ?_⟩
    simp only [List.mem_singleton, forall_eq]
    refine print_fine hb (.ident (.inl ?_) nofun)
    have : Atom.fromStr e.repr.asRef ≠ none := by cases e.repr <;> decide
    exact (hb _ this).symm
  · exact hi
  · exact hi
  · exact hi

theorem cxxType_fine {t : ExternType} (hl : t.generics.length = arity t.name.rust) (hp : Parameters t.generics) :
    ∀ item ∈ cxxTypeItems t, item.Fine arity := by
  intro item hitem
  simp only [cxxTypeItems, List.mem_cons, List.not_mem_nil, or_false] at hitem
  rcases hitem with rfl | rfl
  · refine ⟨hp, ?_⟩
    intro u hu
    obtain ⟨l, hl', rfl⟩ := List.mem_map.1 hu
    exact one (.reference (.inr (.inl hl')) .unit)
  · exact implFor_fine hl hp

theorem rustType_fine {t : ExternType} (hl : t.generics.length = arity t.name.rust) (hp : Parameters t.generics) :
    ∀ item ∈ rustTypeItems t, item.Fine arity := by
  have hi := implFor_fine hl hp
  intro item hitem
  simp only [rustTypeItems, List.mem_cons] at hitem
  rcases hitem with rfl | h
  · exact hi
  · obtain ⟨d, -, hd⟩ := List.mem_flatMap.1 h
    cases d <;> simp at hd
    rw [hd]; exact hi

theorem assert_fine {n : Ident} {ls : List Ident} (hl : ls.length = arity n) :
    Item.Fine arity ⟨[], [(.free, nameOf ⟨n, ls.map (fun _ => "_")⟩)]⟩ := by
  refine ⟨none_parameters, ?_⟩
  simp only [List.mem_singleton, forall_eq]
  refine nameOf_fine (.ident (.inl (by simpa using hl)) ?_)
  intro l hl
  obtain ⟨_, -, rfl⟩ := List.mem_map.1 hl
  exact .inr (.inr ⟨rfl, nofun⟩)

theorem alias_fine (a : TypeAlias) : ∀ item ∈ aliasItems a, item.Fine arity := by
  simp only [aliasItems, List.mem_singleton, forall_eq]
  refine ⟨none_parameters, ?_⟩
  simp only [List.mem_singleton, forall_eq]
  exact nameOf_fine (.ident (.inr ⟨rfl, rfl⟩) nofun)

theorem sliceUses_fine (hb : Builtins arity) {scope : List Ident} {t : Ty} (h : Right arity .free scope t) :
    ∀ u ∈ sliceUses t, Fine arity u.1 scope u.2 := by
  intro u hu
  unfold sliceUses at hu
  split at hu
  · rw [List.mem_singleton.1 hu]
    cases h with
    | sliceRef _ h => exact print_fine hb h
  · cases hu

theorem returnUses_fine (hb : Builtins arity) (cx : Ctx) {s : Sig} (h : SigRight arity s) :
    ∀ u ∈ returnUses cx s, Fine arity u.1 s.generics u.2 := by
  intro u hu
  unfold returnUses at hu
  split at hu
  · next t ht =>
    split at hu
    · rw [List.mem_singleton.1 hu]; exact (extern_fine hb cx true t).1 (h.2.2.2 t ht)
    · cases hu
  · cases hu

theorem retSlice_fine (hb : Builtins arity) {s : Sig} (h : SigRight arity s) :
    ∀ u ∈ s.ret.toList.flatMap sliceUses, Fine arity u.1 s.generics u.2 := by
  intro u hu
  obtain ⟨t, ht, hu⟩ := List.mem_flatMap.1 hu
  exact sliceUses_fine hb (h.2.2.2 t (by simpa using ht)) u hu

theorem trampoline_fine (hb : Builtins arity) (cx : Ctx) {scope : List Ident} (hp : Parameters scope) {u : Bool}
    {args : List Ty} {ret : Option Ty} {throws : Bool} (h : Right arity .free scope (.fn u args ret throws)) :
    (trampolineItem cx scope u args ret throws).Fine arity := by
  refine ⟨hp, ?_⟩
  have hfn := print_fine hb h
  cases h with
  | fn ha hr =>
    intro w hw
    simp only [trampolineItem, List.mem_append, List.mem_cons] at hw
    rcases hw with ((hw | hw) | hw) | rfl | hw
    · obtain ⟨a, ha', rfl⟩ := List.mem_map.1 hw
      exact rustArg_fine hb cx (ha a ha')
    · obtain ⟨i, hi, rfl⟩ := List.mem_map.1 hw
      exact outArg_fine hb cx hr i hi
    · obtain ⟨t, ht, rfl⟩ := List.mem_map.1 hw
      exact externReturn_fine hb cx hr (by simpa using ht)
    · exact hfn
    · obtain ⟨a, ha', hw⟩ := List.mem_flatMap.1 hw
      exact sliceUses_fine hb (ha a ha') w hw

/-- The types in a signature, one by one. -/
theorem sigUses_fine {scope : List Ident} {f : RFn}
    (h1 : ∀ r, f.receiver = some r → (∀ l m, r = .ref l m → Borrow .free scope l) ∧ ∀ ty, r = .typed ty → Fine arity .free scope ty)
    (h2 : ∀ i ∈ f.inputs, Fine arity .free scope i.2) (h3 : ∀ t, f.output = some t → Fine arity .free scope t) :
    ∀ u ∈ sigUses f, Fine arity u.1 scope u.2 := by
  intro u hu
  simp only [sigUses, List.mem_append] at hu
  rcases hu with (hu | hu) | hu
  · split at hu
    · next l m hr => rw [List.mem_singleton.1 hu]; exact .reference ((h1 _ hr).1 l m rfl) .self
    · next ty hr => rw [List.mem_singleton.1 hu]; exact (h1 _ hr).2 ty rfl
    · cases hu
    · cases hu
  · obtain ⟨i, hi, rfl⟩ := List.mem_map.1 hu
    exact h2 i hi
  · obtain ⟨t, ht, rfl⟩ := List.mem_map.1 hu
    exact h3 t (by simpa using ht)

theorem cxxDecl_fine (hb : Builtins arity) (cx : Ctx) {f : ExternFn} (h : SigRight arity f.sig) :
    Item.Fine arity ⟨(cxxDecl cx f).generics, sigUses (cxxDecl cx f)⟩ := by
  obtain ⟨hp, hr, ha, ht⟩ := h
  refine ⟨hp, sigUses_fine (f := cxxDecl cx f) (fun _ h => by cases h) ?_ (fun t h => externReturn_fine hb cx ht h)⟩
  intro i hi
  simp only [cxxDecl, List.mem_append] at hi
  rcases hi with (hi | hi) | hi
  · obtain ⟨r, hr', rfl⟩ := List.mem_map.1 hi
    have := hr r (by simpa using hr')
    exact receiverOf_fine this.1 (nameOf_fine this.2)
  · obtain ⟨a, ha', rfl⟩ := List.mem_map.1 hi
    exact declArg_fine hb cx (ha a ha')
  · exact outArg_fine hb cx ht i hi

theorem shimArgs_fine (hb : Builtins arity) {s : Sig} (h : SigRight arity s) :
    ∀ i ∈ s.args.map shimArg, Fine arity .free s.generics i.2 := by
  intro i hi
  obtain ⟨a, ha, rfl⟩ := List.mem_map.1 hi
  exact print_fine hb (h.2.2.1 a ha)

theorem shimReturn_fine (hb : Builtins arity) {s : Sig} (h : SigRight arity s) :
    ∀ t, shimReturn s.ret s.throws = some t → Fine arity .free s.generics t := by
  intro t ht
  unfold shimReturn at ht
  split at ht
  · cases ht
    exact two (okTy_fine hb h.2.2.2) .library
  · obtain ⟨r, hr, rfl⟩ := Option.map_eq_some_iff.1 ht
    exact print_fine hb (h.2.2.2 r hr)

theorem cxxFn_fine (hb : Builtins arity) (cx : Ctx) {f : ExternFn} (h : SigRight arity f.sig)
    (hk : ∀ r, f.sig.receiver = some r → lifetimesIn cx.types r.ty.rust = some (arity r.ty.rust)) :
    ∃ items, cxxFnItems cx f = some items ∧ ∀ item ∈ items, item.Fine arity := by
  have hshim : ∃ item, cxxShim cx.types f = some item ∧ Item.Fine arity (
      (match item with
      | .fn sig => ⟨sig.generics, sigUses sig ++ (returnUses cx f.sig ++ f.sig.ret.toList.flatMap sliceUses)⟩
      | .method generics ty sig => ⟨generics ++ sig.generics,
          (.header, ty) :: sigUses sig ++ (returnUses cx f.sig ++ f.sig.ret.toList.flatMap sliceUses)⟩)) := by
    have hbody : ∀ u ∈ returnUses cx f.sig ++ f.sig.ret.toList.flatMap sliceUses, Fine arity u.1 f.sig.generics u.2 := by
      intro u hu
      rcases List.mem_append.1 hu with hu | hu
      · exact returnUses_fine hb cx h u hu
      · exact retSlice_fine hb h u hu
    unfold cxxShim
    cases hr : f.sig.receiver with
    | none =>
      refine ⟨_, rfl, h.1, ?_⟩
      intro u hu
      rcases List.mem_append.1 hu with hu | hu
      · exact sigUses_fine (fun _ h => by cases h) (shimArgs_fine hb h) (shimReturn_fine hb h) u hu
      · exact hbody u hu
    | some r =>
      obtain ⟨hrl, hrt⟩ := h.2.1 r hr
      have hhead : ∃ ls, implLifetimes cx.types r.ty = some ls ∧
          Fine arity .header f.sig.generics (.path false false [] r.ty.rust (lifetimeArgs ls)) := by
        unfold implLifetimes
        split
        · rw [hk r hr]
          refine ⟨_, rfl, .name (behind_args _) (.inl (by simp)) ?_⟩
          intro l hl
          rw [(List.mem_replicate.1 hl).2]
          exact .inr (.inr ⟨rfl, nofun⟩)
        · next hne =>
          refine ⟨_, rfl, .name (behind_args _) ?_ ?_⟩
          · cases hrt with
            | ident hc _ =>
              rcases hc with hc | ⟨hc, -⟩
              · exact .inl hc
              · exact absurd (List.length_eq_zero_iff.1 hc) hne
          · cases hrt with
            | ident _ hkn => exact fun l hl => known_header (hkn l hl)
      obtain ⟨ls, hls, hfine⟩ := hhead
      simp only [hls, Option.map_some]
      refine ⟨_, rfl, by simpa using h.1, ?_⟩
      intro u hu
      simp only [List.append_nil]
      rcases List.mem_append.1 hu with hu | hu
      · rcases List.mem_cons.1 hu with rfl | hu
        · exact hfine
        · refine sigUses_fine ?_ (shimArgs_fine hb h) (shimReturn_fine hb h) u hu
          intro r' hr'
          cases hr'
          unfold shimReceiver
          split
          · refine ⟨nofun, fun ty hty => ?_⟩
            cases hty
            exact receiverOf_fine hrl .self
          · refine ⟨fun l m hlm => ?_, nofun⟩
            cases hlm
            exact hrl
      · exact hbody u hu
  obtain ⟨item, hitem, hfine⟩ := hshim
  refine ⟨_, by unfold cxxFnItems; rw [hitem]; rfl, ?_⟩
  intro it hit
  simp only [List.mem_cons] at hit
  rcases hit with rfl | rfl | hit
  · exact hfine
  · exact cxxDecl_fine hb cx h
  · obtain ⟨a, ha, hit⟩ := List.mem_flatMap.1 hit
    split at hit
    · next hty =>
      rw [List.mem_singleton.1 hit]
      exact trampoline_fine hb cx h.1 (hty ▸ h.2.2.1 a ha)
    · cases hit

theorem rustFn_fine (hb : Builtins arity) (cx : Ctx) {f : ExternFn} (h : SigRight arity f.sig) :
    ∀ item ∈ rustFnItems cx f, item.Fine arity := by
  have hself : ∀ i ∈ f.sig.receiver.toList.map (fun r => (some "__self", receiverTy r)), Fine arity .free f.sig.generics i.2 := by
    intro i hi
    obtain ⟨r, hr', rfl⟩ := List.mem_map.1 hi
    have := h.2.1 r (by simpa using hr')
    exact receiverOf_fine this.1 (nameOf_fine this.2)
  intro item hitem
  simp only [rustFnItems, List.mem_cons, List.not_mem_nil, or_false] at hitem
  rcases hitem with rfl | rfl
  · refine ⟨h.1, ?_⟩
    intro u hu
    rcases List.mem_append.1 hu with hu | hu
    · refine sigUses_fine (fun _ h => by cases h) ?_ (fun t h' => externReturn_fine hb cx h.2.2.2 h') u hu
      intro i hi
      simp only [rustExport, List.mem_append] at hi
      rcases hi with (hi | hi) | hi
      · exact hself i hi
      · obtain ⟨a, ha', rfl⟩ := List.mem_map.1 hi
        exact rustArg_fine hb cx (h.2.2.1 a ha')
      · exact outArg_fine hb cx h.2.2.2 i hi
    · obtain ⟨a, ha', hu⟩ := List.mem_flatMap.1 hu
      exact sliceUses_fine hb (h.2.2.1 a ha') u hu
  · refine ⟨h.1, sigUses_fine (f := (rustInside f).sig) (fun _ h => by cases h) ?_ ?_⟩
    · intro i hi
      simp only [rustInside, List.mem_append] at hi
      rcases hi with hi | hi
      · exact hself i hi
      · exact shimArgs_fine hb h i hi
    · intro t ht
      simp only [rustInside, insideReturn] at ht
      split at ht
      · cases ht
        exact two (okTy_fine hb h.2.2.2) .other
      · obtain ⟨r, hr, rfl⟩ := Option.map_eq_some_iff.1 ht
        exact print_fine hb (h.2.2.2 r hr)

/-! ### Instantiations -/

theorem instance_fine {ps : List Ident} {own : RTy} (hp : Parameters ps) (h : ∀ p, Fine arity p ps own) (trivial : Bool)
    {items : List Item} (hi : items = boxItems ps own ∨ items = vecItems ps own ∨ items = pointerItems trivial ps own ∨
      items = [⟨ps, [(.header, own)]⟩] ∨ items = vectorItems trivial ps own) : ∀ item ∈ items, item.Fine arity := by
  have single : ∀ p t, Fine arity p ps t → Item.Fine arity ⟨ps, [(p, t)]⟩ := fun p t ht => ⟨hp, by simpa using ht⟩
  have hm : ∀ p m before n, Fine arity p ps (.ptr m (of before n own)) := fun p m before n => .ptr (of_fine (h p))
  rcases hi with rfl | rfl | rfl | rfl | rfl
  · simp only [boxItems, List.mem_cons, List.not_mem_nil, or_false]
    rintro item (rfl | rfl | rfl | rfl)
    · exact single _ _ (h _)
    · exact single _ _ (hm ..)
    · exact single _ _ (hm ..)
    · exact single _ _ (hm ..)
  · simp only [vecItems, List.mem_cons, List.not_mem_nil, or_false]
    rintro item (rfl | rfl | rfl | rfl | rfl | rfl | rfl | rfl | rfl)
    · exact single _ _ (h _)
    · exact single _ _ (hm ..)
    · exact single _ _ (hm ..)
    · exact single _ _ (hm ..)
    · exact single _ _ (hm ..)
    · refine ⟨hp, ?_⟩
      simp only [List.mem_cons, List.not_mem_nil, or_false]
      rintro u (rfl | rfl)
      · exact hm ..
      · exact .ptr (h _)
    · exact single _ _ (hm ..)
    · exact single _ _ (hm ..)
    · exact single _ _ (hm ..)
  · simp only [pointerItems, List.mem_singleton, forall_eq]
    refine ⟨hp, ?_⟩
    intro u hu
    rcases List.mem_cons.1 hu with rfl | hu
    · exact h _
    · split at hu
      · rw [List.mem_singleton.1 hu]; exact h _
      · cases hu
  · simp only [List.mem_singleton, forall_eq]
    exact single _ _ (h _)
  · have hpin : Item.Fine arity ⟨ps, [(.free, of ["core", "pin"] "Pin" (.reference none true (of [] "CxxVector" own)))]⟩ :=
      single _ _ (of_fine (.reference nofun (of_fine (h _))))
    intro item hitem
    simp only [vectorItems, List.mem_append, List.mem_cons, List.not_mem_nil, or_false] at hitem
    rcases hitem with ((rfl | rfl | rfl | rfl) | hitem) | rfl | rfl | rfl
    · exact single _ _ (h _)
    · exact single _ _ (hm ..)
    · exact single _ _ (.reference nofun (of_fine (h _)))
    · exact single _ _ (hm ..)
    · split at hitem
      · simp only [List.mem_cons, List.not_mem_nil, or_false, or_self] at hitem
        rw [hitem]; exact hpin
      · cases hitem
    · exact single _ _ (hm ..)
    · exact single _ _ (hm ..)
    · exact single _ _ (hm ..)

theorem explicit_mem {apis : List Api} {k : ImplKey} {i : Impl} (h : explicitImpl apis k = some i) :
    .impl i ∈ apis ∧ implKey i.ty = some k := by
  have := List.mem_of_getLast? h
  rw [List.mem_filterMap] at this
  obtain ⟨a, ha, hi⟩ := this
  split at hi
  · split at hi
    · next hk => cases hi; exact ⟨ha, hk⟩
    · cases hi
  · cases hi

theorem own_of_key {t : Ty} {k : ImplKey} {scope : List Ident} (hk : implKey t = some k) (h : Right arity .exact scope t) :
    Right arity .exact scope (.ident ⟨k.rust, tyGenerics t⟩) := by
  unfold implKey at hk
  split at hk <;> cases hk <;> cases h <;> assumption

/-! ### The expansion -/

theorem lifetimesOf_right {apis : List Api} (ha : Arities apis arity) (hw : ∀ a ∈ apis, Written arity a) {n : Ident}
    {ls : List Ident} (h : lifetimesOf (collect apis) n = some ls) : ls.length = arity n ∧ Parameters ls := by
  unfold lifetimesOf at h
  rw [(gathers apis).resolutions] at h
  obtain ⟨⟨p, g⟩, hf, rfl⟩ := Option.map_eq_some_iff.1 h
  have h2 := List.mem_of_find?_eq_some hf
  have h3 := List.find?_some hf
  obtain ⟨a, ham, hx⟩ := List.mem_filterMap.1 (List.mem_reverse.1 h2)
  have hn : p.rust = n := by simpa using h3
  subst hn
  refine ⟨ha.1 a ham _ hx, ?_⟩
  have hwa := hw a ham
  cases a <;> simp only [resolves, Option.some.injEq, Prod.mk.injEq, reduceCtorEq] at hx
  · rw [← hx.2]; exact hwa.1
  · rw [← hx.2, show _ = [] from hwa]; exact none_parameters
  · rw [← hx.2]; exact hwa
  · rw [← hx.2]; exact hwa
  · rw [← hx.2]; exact hwa

theorem lifetimesOf_some {apis : List Api} {n : Ident} (h : mapGet (collect apis).resolutions n ≠ none) :
    ∃ ls, lifetimesOf (collect apis) n = some ls := by
  unfold lifetimesOf
  cases hm : mapGet (collect apis).resolutions n with
  | none => exact absurd hm h
  | some d => exact ⟨_, rfl⟩

theorem collectItems_some {α : Type} {f : α → Option (List Item)} {P : Item → Prop} {l : List α}
    (h : ∀ a ∈ l, ∃ items, f a = some items ∧ ∀ i ∈ items, P i) :
    ∃ items, collectItems f l = some items ∧ ∀ i ∈ items, P i := by
  induction l with
  | nil => exact ⟨[], rfl, nofun⟩
  | cons a l ih =>
    obtain ⟨x, hx, hx'⟩ := h a (by simp)
    obtain ⟨y, hy, hy'⟩ := ih (fun b hb => h b (by simp [hb]))
    refine ⟨x ++ y, by simp [collectItems, hx, hy], ?_⟩
    intro i hi
    rcases List.mem_append.1 hi with hi | hi
    · exact hx' i hi
    · exact hy' i hi

theorem collectItems_mem {α : Type} {f : α → Option (List Item)} {l : List α} {items : List Item}
    (h : collectItems f l = some items) {a : α} (ha : a ∈ l) : ∃ x, f a = some x ∧ ∀ i ∈ x, i ∈ items := by
  induction l generalizing items with
  | nil => cases ha
  | cons b l ih =>
    unfold collectItems at h
    split at h
    · next x y hx hy =>
      cases h
      rcases List.mem_cons.1 ha with rfl | ha
      · exact ⟨x, hx, fun i hi => List.mem_append_left _ hi⟩
      · obtain ⟨z, hz, hz'⟩ := ih hy ha
        exact ⟨z, hz, fun i hi => List.mem_append_right _ (hz' i hi)⟩
    · cases h

theorem resolution_of {apis : List Api} {a : Api} (ha : a ∈ apis) {p : Pair} {g : List Ident} (h : resolves a = some (p, g)) :
    mapGet (collect apis).resolutions p.rust ≠ none := by
  rw [(gathers apis).resolutions, Ne, List.find?_eq_none]
  intro hall
  have := hall (p, g) (by rw [List.mem_reverse, List.mem_filterMap]; exact ⟨a, ha, h⟩)
  simp at this

/-- **C97**.  If the lifetimes that the user writes in a bridge are as Rust demands, then so are those in all generated
code: every item declares the lifetimes that are used in it, no lifetime is left out where it must not be, and every type
has as many as its declaration. -/
theorem lifetimes_fine {g : Generator} {apis : List Api} (hacc : Accepted g apis) (ha : Arities apis arity)
    (hw : ∀ a ∈ apis, Written arity a) (cx : Ctx) (hcx : cx.types = collect apis) :
    ∃ items, expand cx apis = some items ∧ ∀ item ∈ items, item.Fine arity := by
  have hb : Builtins arity := ha.2
  have hassert : ∀ a ∈ apis, ∀ p gs, resolves a = some (p, gs) →
      ∃ i, assertItem cx.types p.rust = some i ∧ i.Fine arity := by
    intro a ham p gs hr
    rw [hcx]
    obtain ⟨ls, hls⟩ := lifetimesOf_some (resolution_of ham hr)
    refine ⟨_, by rw [assertItem, hls]; rfl, assert_fine (lifetimesOf_right ha hw hls).1⟩
  have hapi : ∀ a ∈ apis, ∃ items, apiItems cx a = some items ∧ ∀ i ∈ items, i.Fine arity := by
    intro a ham
    have hwa := hw a ham
    cases a with
    | «include» => exact ⟨[], rfl, nofun⟩
    | impl => exact ⟨[], rfl, nofun⟩
    | struct s => exact ⟨_, rfl, struct_fine hb (ha.1 _ ham _ rfl) hwa⟩
    | enum e => exact ⟨_, rfl, enum_fine hb (ha.1 _ ham _ rfl) hwa⟩
    | cxxType t =>
      rw [apiItems]
      split
      · obtain ⟨i, hi, hif⟩ := hassert _ ham _ _ rfl
        rw [hi]
        refine ⟨_, rfl, ?_⟩
        intro it hit
        rcases List.mem_append.1 hit with hit | hit
        · exact cxxType_fine (ha.1 _ ham _ rfl) hwa it hit
        · rw [List.mem_singleton.1 hit]; exact hif
      · exact ⟨[], rfl, nofun⟩
    | rustType t =>
      obtain ⟨i, hi, hif⟩ := hassert _ ham _ _ rfl
      refine ⟨_, by rw [apiItems, hi]; rfl, ?_⟩
      intro it hit
      rcases List.mem_append.1 hit with hit | hit
      · exact rustType_fine (ha.1 _ ham _ rfl) hwa it hit
      · simp only [List.mem_cons, List.not_mem_nil, or_false, or_self] at hit
        rw [hit]; exact hif
    | cxxFunction f =>
      refine cxxFn_fine hb cx hwa ?_
      intro r hr
      have := ((names_resolve hacc).2.1 f (.inl ham) r hr).2
      obtain ⟨ls, hls⟩ := lifetimesOf_some this
      have hl := (lifetimesOf_right ha hw hls).1
      rw [hcx, RustSig.lifetimesIn]
      unfold lifetimesOf at hls
      cases hm : mapGet (collect apis).resolutions r.ty.rust with
      | none => rw [hm] at hls; cases hls
      | some d => rw [hm] at hls; cases hls; simp [hl]
    | rustFunction f => exact ⟨_, rfl, rustFn_fine hb cx hwa⟩
    | typeAlias a => exact ⟨_, rfl, alias_fine a⟩
  have hinst : ∀ k ∈ cx.types.impls.map (·.1), ∃ items, instanceItems cx.types apis k = some items ∧
      ∀ i ∈ items, i.Fine arity := by
    intro k hk
    rw [hcx] at hk
    obtain ⟨ls, hls⟩ := lifetimesOf_some ((names_resolve hacc).2.2 k hk).2
    obtain ⟨hlen, hpar⟩ := lifetimesOf_right ha hw hls
    have hsplit : Parameters (splitForImpl (explicitImpl apis k) ls).1 ∧
        ∀ p, Fine arity p (splitForImpl (explicitImpl apis k) ls).1 (nameOf ⟨k.rust, (splitForImpl (explicitImpl apis k) ls).2⟩) := by
      cases hx : explicitImpl apis k with
      | none => exact ⟨hpar, fun p => nameOf_fine (.ident (.inl hlen) (fun l hl => .inr (.inl hl)))⟩
      | some i =>
        obtain ⟨him, hik⟩ := explicit_mem hx
        obtain ⟨h1, h2⟩ := hw _ him
        exact ⟨h1, fun p => nameOf_fine ((own_of_key hik h2).mono rfl p)⟩
    obtain ⟨h1, h2⟩ := hsplit
    rw [hcx, instanceItems, hls]
    refine ⟨_, rfl, ?_⟩
    cases k with
    | rustBox r => exact instance_fine h1 h2 true (.inl rfl)
    | rustVec r => exact instance_fine h1 h2 true (.inr (.inl rfl))
    | uniquePtr r => exact instance_fine h1 h2 _ (.inr (.inr (.inl rfl)))
    | sharedPtr r => exact instance_fine h1 h2 _ (.inr (.inr (.inl rfl)))
    | weakPtr r => exact instance_fine h1 h2 true (.inr (.inr (.inr (.inl rfl))))
    | cxxVector r => exact instance_fine h1 h2 _ (.inr (.inr (.inr (.inr rfl))))
  obtain ⟨x, hx, hx'⟩ := collectItems_some hapi
  obtain ⟨y, hy, hy'⟩ := collectItems_some hinst
  refine ⟨x ++ y, by rw [expand, hx, hy], ?_⟩
  intro i hi
  rcases List.mem_append.1 hi with hi | hi
  · exact hx' i hi
  · exact hy' i hi

theorem expand_parts {cx : Ctx} {apis : List Api} {items : List Item} (h : expand cx apis = some items) :
    ∃ x y, collectItems (apiItems cx) apis = some x ∧
      collectItems (instanceItems cx.types apis) (cx.types.impls.map (·.1)) = some y ∧ items = x ++ y := by
  unfold expand at h
  split at h
  · next x y hx hy => cases h; exact ⟨x, y, hx, hy, rfl⟩
  · cases h

/-- An instantiation that the user did not write an `impl` for is there for every choice of the type's lifetimes. -/
theorem instance_general {apis : List Api} (ha : Arities apis arity)
    (hw : ∀ a ∈ apis, Written arity a) {cx : Ctx} (hcx : cx.types = collect apis) {items : List Item}
    (he : expand cx apis = some items) {k : ImplKey} (hk : k ∈ (collect apis).impls.map (·.1))
    (himp : ∀ i, .impl i ∈ apis → implKey i.ty ≠ some k) :
    ∃ item ∈ items, ∃ ls args, item.params = ls ∧ ls.length = arity k.rust ∧ ls.Nodup ∧ Behind args ls ∧
      (.header, .path false false [] k.rust args) ∈ item.uses := by
  obtain ⟨x, y, hx, hy, rfl⟩ := expand_parts he
  rw [hcx] at hy
  obtain ⟨z, hz, hz'⟩ := collectItems_mem hy hk
  have hx : explicitImpl apis k = none := by
    cases hx : explicitImpl apis k with
    | none => rfl
    | some i => exact absurd (explicit_mem hx).2 (himp i (explicit_mem hx).1)
  unfold instanceItems at hz
  obtain ⟨ls, hls, rfl⟩ := Option.map_eq_some_iff.1 hz
  obtain ⟨hlen, hpar⟩ := lifetimesOf_right ha hw hls
  simp only [hx, splitForImpl] at hz'
  have : ∃ item ∈ x ++ y, item.params = ls ∧ (.header, nameOf ⟨k.rust, ls⟩) ∈ item.uses := by
    cases k with
    | rustBox r => exact ⟨_, List.mem_append_right _ (hz' _ (.head _)), rfl, .head _⟩
    | rustVec r => exact ⟨_, List.mem_append_right _ (hz' _ (.head _)), rfl, .head _⟩
    | uniquePtr r => exact ⟨_, List.mem_append_right _ (hz' _ (.head _)), rfl, .head _⟩
    | sharedPtr r => exact ⟨_, List.mem_append_right _ (hz' _ (.head _)), rfl, .head _⟩
    | weakPtr r => exact ⟨_, List.mem_append_right _ (hz' _ (.head _)), rfl, .head _⟩
    | cxxVector r => exact ⟨_, List.mem_append_right _ (hz' _ (.head _)), rfl, .head _⟩
  obtain ⟨item, hm, h1, h2⟩ := this
  exact ⟨item, hm, ls, _, h1, hlen, hpar.1, behind_args _, h2⟩

/-- The types of the bridge that the macro implements its own trait for. -/
def Declares (apis : List Api) (n : Ident) (ls : List Ident) : Prop :=
  (∃ s, .struct s ∈ apis ∧ s.name.rust = n ∧ s.generics = ls) ∨
  (∃ t, .rustType t ∈ apis ∧ t.name.rust = n ∧ t.generics = ls) ∨
  (∃ t, .cxxType t ∈ apis ∧ t.name.rust = n ∧ t.generics = ls ∧ (∀ s, .struct s ∈ apis → s.name.rust ≠ n) ∧
    ∀ e, .enum e ∈ apis → e.name.rust ≠ n)

/-- The trait of a type of the bridge is there for every choice of its lifetimes. -/
theorem type_general {apis : List Api} {cx : Ctx} (hcx : cx.types = collect apis) {items : List Item}
    (he : expand cx apis = some items) {n : Ident} {ls : List Ident} (h : Declares apis n ls) :
    ∃ args, Behind args ls ∧ ⟨ls, [(.header, .path false false [] n args)]⟩ ∈ items := by
  obtain ⟨x, y, hx, hy, rfl⟩ := expand_parts he
  refine ⟨_, behind_args _, List.mem_append_left _ ?_⟩
  rcases h with ⟨s, hs, rfl, rfl⟩ | ⟨t, ht, rfl, rfl⟩ | ⟨t, ht, rfl, rfl, hns, hne⟩
  · obtain ⟨z, hz, hz'⟩ := collectItems_mem hx hs
    cases hz
    exact hz' _ (by simp [structItems, implFor, nameOf])
  · obtain ⟨z, hz, hz'⟩ := collectItems_mem hx ht
    obtain ⟨i, -, rfl⟩ := Option.map_eq_some_iff.1 hz
    exact hz' _ (by simp [rustTypeItems, implFor, nameOf])
  · obtain ⟨z, hz, hz'⟩ := collectItems_mem hx ht
    have hno : ∀ k ∈ definitions apis t.name.rust, k ≠ .shared ∧ k ≠ .headerEnum := by
      intro k hk
      simp only [definitions, List.mem_map, List.mem_filter, List.mem_filterMap, decide_eq_true_eq] at hk
      obtain ⟨⟨m, _⟩, ⟨⟨a, ha, hda⟩, hm⟩, rfl⟩ := hk
      simp only at hm
      cases a with
      | struct s => cases hda; exact absurd hm (hns s ha)
      | enum e => cases hda; exact absurd hm (hne e ha)
      | _ => cases hda <;> exact ⟨nofun, nofun⟩
    obtain ⟨h1, h2⟩ := not_shared (fun h => (hno _ h).1 rfl) (fun h => (hno _ h).2 rfl)
    rw [← hcx] at h1 h2
    simp only [apiItems, h1, h2] at hz
    obtain ⟨i, -, rfl⟩ := Option.map_eq_some_iff.1 hz
    exact hz' _ (by simp [cxxTypeItems, implFor, nameOf])

/-! ### An example -/

private def nm (n : Ident) : Pair := ⟨[], n, n⟩

/-- ```
#[derive(Clone)] struct S<'a> { r: &'a R<'a>, n: usize }
unsafe extern "C++" { type C<'a>; fn get<'a>(self: &'a C<'a>, f: fn(&S) -> u8) -> UniquePtr<C<'a>>; fn clear(self: &C); }
extern "Rust" { type R<'x>; unsafe fn make<'a>(s: &'a str) -> Box<R<'a>>; }
impl<'y> Vec<R<'y>> {}
``` -/
def sample : List Api :=
  [.struct ⟨[.clone], nm "S", ["a"], [⟨nm "r", .ref false (some "a") false (.ident ⟨"R", ["a"]⟩)⟩, ⟨nm "n", .named "usize"⟩]⟩,
   .cxxType ⟨.cxx, [], nm "C", ["a"], [], true⟩,
   .cxxFunction ⟨.cxx, nm "get", ⟨false, ["a"], some ⟨false, some "a", false, ⟨"C", ["a"]⟩, false⟩,
     [⟨nm "f", .fn false [.ref false none false (.named "S")] (some (.named "u8")) false⟩],
     some (.uniquePtr (.ident ⟨"C", ["a"]⟩)), false⟩, true⟩,
   .cxxFunction ⟨.cxx, nm "clear", ⟨false, [], some ⟨false, none, false, ⟨"C", []⟩, false⟩, [], none, false⟩, true⟩,
   .rustType ⟨.rust, [], nm "R", ["x"], [], true⟩,
   .rustFunction ⟨.rust, nm "make", ⟨true, ["a"], none, [⟨nm "s", .str false (some "a") false (.named "str")⟩],
     some (.rustBox (.ident ⟨"R", ["a"]⟩)), false⟩, true⟩,
   .impl ⟨["y"], false, .rustVec (.ident ⟨"R", ["y"]⟩)⟩]

/-- The lifetimes of the types of the example. -/
def sampleArity : Ident → Nat
  | "S" | "C" | "R" => 1
  | _ => 0

/-- The hypotheses hold in the example. -/
example : Accepted .macro sample ∧ Arities sample sampleArity ∧ (∀ a ∈ sample, Written sampleArity a) ∧
    (context sample 3).types = collect sample := by
  refine ⟨by decide +kernel, ⟨?_, ?_⟩, ?_, rfl⟩
  · have : ∀ d ∈ sample.filterMap resolves, d.2.length = sampleArity d.1.rust := by decide +kernel
    exact fun a ha d hd => this d (List.mem_filterMap.2 ⟨a, ha, hd⟩)
  · intro n hn
    have : n ≠ "S" ∧ n ≠ "C" ∧ n ≠ "R" := by
      refine ⟨?_, ?_, ?_⟩ <;> rintro rfl <;> exact hn (by decide)
    unfold sampleArity
    split <;> simp_all
  · intro a ha
    have par : ∀ l, l ≠ "static" → l ≠ "_" → Parameters [l] := fun l h1 h2 =>
      ⟨by simp, by simpa using h1.symm, by simpa using h2.symm⟩
    have one : ∀ p n l scope, sampleArity n = 1 → l ∈ scope → Right sampleArity p scope (.ident ⟨n, [l]⟩) := fun p n l scope h1 h2 =>
      .ident (.inl h1.symm) (by simpa using .inr (.inl h2))
    have atom : ∀ p n scope, sampleArity n = 0 → Right sampleArity p scope (.named n) := fun p n scope h =>
      .ident (.inl h.symm) nofun
    simp only [sample, List.mem_cons, List.not_mem_nil, or_false] at ha
    rcases ha with rfl | rfl | rfl | rfl | rfl | rfl | rfl
    · refine ⟨par _ (by decide) (by decide), ?_⟩
      simp only [List.mem_cons, List.not_mem_nil, or_false, forall_eq_or_imp, forall_eq]
      exact ⟨.ref (.inr (.inl (.head _))) (one _ _ _ _ rfl (.head _)), atom _ _ _ rfl⟩
    · exact par _ (by decide) (by decide)
    · refine ⟨par _ (by decide) (by decide), ?_, ?_, ?_⟩
      · rintro r ⟨⟩
        exact ⟨.inr (.inl (.head _)), one _ _ _ _ rfl (.head _)⟩
      · simp only [List.mem_singleton, forall_eq]
        refine .fn ?_ ?_
        · simp only [List.mem_singleton, forall_eq]
          exact .ref nofun (.ident (.inr ⟨rfl, rfl⟩) nofun)
        · rintro t ⟨⟩
          exact atom _ _ _ rfl
      · rintro t ⟨⟩
        exact .uniquePtr (one _ _ _ _ rfl (.head _))
    · refine ⟨none_parameters, ?_, nofun, nofun⟩
      rintro r ⟨⟩
      exact ⟨nofun, .ident (.inr ⟨rfl, rfl⟩) nofun⟩
    · exact par _ (by decide) (by decide)
    · refine ⟨par _ (by decide) (by decide), nofun, ?_, ?_⟩
      · simp only [List.mem_singleton, forall_eq]
        exact .str (.inr (.inl (.head _))) (atom _ _ _ rfl)
      · rintro t ⟨⟩
        exact .rustBox (one _ _ _ _ rfl (.head _))
    · exact ⟨par _ (by decide) (by decide), .rustVec (one _ _ _ _ rfl (.head _))⟩

/-- In the example `UniquePtr<C<'a>>` is implemented although nobody wrote an `impl` for it. -/
example : .uniquePtr "C" ∈ (collect sample).impls.map (·.1) ∧ ∀ i, .impl i ∈ sample → implKey i.ty ≠ some (.uniquePtr "C") := by
  refine ⟨by decide +kernel, fun i hi => ?_⟩
  simp only [sample, List.mem_cons, List.not_mem_nil, or_false, reduceCtorEq, false_or, Api.impl.injEq] at hi
  subst hi
  decide

/-- And `C` is no shared type. -/
example : Declares sample "C" ["a"] := by
  refine .inr (.inr ⟨_, .tail _ (.head _), rfl, rfl, ?_, ?_⟩) <;> intro x hx <;> simp [sample] at hx
  subst hx
  decide

/-! ### What does not hold -/

/-- `unsafe extern "C++" { type C<'a>; }  impl UniquePtr<C> {}` -/
def bare : List Api := [.cxxType ⟨.cxx, [], nm "C", ["a"], [], true⟩, .impl ⟨[], false, .uniquePtr (.named "C")⟩]

/-- C97.  Nothing checks the lifetimes that the user writes: `impl UniquePtr<C> {}` is accepted for a type with a lifetime,
and Rust rejects the code that is generated for it. -/
theorem bare_rejected : Accepted .macro bare ∧ ∃ items, expand (context bare 1) bare = some items ∧
    ∃ item ∈ items, ¬ item.Fine (fun n => if n = "C" then 1 else 0) := by
  refine ⟨by decide +kernel, _, rfl, ⟨[], [(.header, nameOf ⟨"C", []⟩)]⟩, .tail _ (.tail _ (.tail _ (.head _))), ?_⟩
  · rintro ⟨-, h⟩
    have h := h _ (.head _)
    revert h
    generalize hn : nameOf ⟨"C", []⟩ = t
    intro h
    cases h <;> simp [nameOf, lifetimeArgs] at hn
    next hb hc hk =>
      obtain ⟨-, rfl, rfl⟩ := hn
      rcases hb with ⟨-, rfl⟩ | hb
      · rcases hc with hc | ⟨-, hc⟩
        · simp at hc
        · cases hc
      · cases hb

end Verif.Lifetimes
