import Verif.Check.Model
import Verif.Check.Spec
import Verif.Types.Collect
/-!
# C34, C35, C36: what the checker guarantees
-/
namespace Verif.Check
open Verif.Syntax Verif.Types

/-- The context in which `apis` is checked. -/
def cxOf (g : Generator) (apis : List Api) : Cx := ⟨apis, collect apis, g⟩

theorem accepted_api {g : Generator} {apis : List Api} (h : Accepted g apis) {a : Api} (ha : a ∈ apis) :
    checkApi (cxOf g apis) a = [] := by
  have := h.2
  simp only [typecheck, List.append_eq_nil_iff, List.flatMap_eq_nil_iff] at this
  exact this.2 a ha

theorem accepted_type {g : Generator} {apis : List Api} (h : Accepted g apis) {t : Ty}
    (ht : Occurs apis t) : checkType (cxOf g apis) t = [] := by
  have := h.2
  simp only [typecheck, List.append_eq_nil_iff, List.flatMap_eq_nil_iff] at this
  exact this.1.2 t (((gathers apis).all t).2 ht)

theorem accepted_ident {g : Generator} {apis : List Api} (h : Accepted g apis) {a : Api} (ha : a ∈ apis) :
    checkIdents a = [] := by
  have := h.2
  simp only [typecheck, List.append_eq_nil_iff, List.flatMap_eq_nil_iff] at this
  exact this.1.1 a ha

theorem not_shared {apis : List Api} {t : Ident} (h1 : Kind.shared ∉ definitions apis t)
    (h2 : Kind.headerEnum ∉ definitions apis t) :
    mapHas (collect apis).structs t = false ∧ mapHas (collect apis).enums t = false := by
  have h := (knows apis).shared t
  have : ¬ ∃ k ∈ definitions apis t, k = .shared ∨ k = .headerEnum := by
    rintro ⟨k, hk, rfl | rfl⟩
    · exact h1 hk
    · exact h2 hk
  rw [← h, not_or] at this
  simpa using this

/-- An opaque C++ type with no other definition than `type t;` (in an accepted bridge) is opaque to
the checker. -/
theorem opaque_seen {g : Generator} {apis : List Api} (hd : (collect apis).dups = []) {t : Ident}
    (h : OpaqueCxx apis t) : isOpaqueCxx (cxOf g apis) t = true := by
  obtain ⟨h1, h2, h3⟩ := h
  have hns := not_shared h2 h3
  have hcxx : t ∈ (collect apis).cxx := ((knows apis).cxx t).2 ⟨_, h1, .inl rfl⟩
  have hal : mapHas (collect apis).aliases t = false := by
    rw [← Bool.not_eq_true, (gathers apis).aliases]
    intro ha
    rcases ((duplicates_exact apis).1 hd).1 t with hc | ht
    · rcases hc with hc | hc | hc
      · match hk : definitions apis t, hc with
        | [], _ => rw [hk] at h1; cases h1
        | [k], _ =>
          rw [hk, List.mem_singleton] at h1 ha
          rw [← h1] at ha; cases ha
      · rw [hc] at ha; simp at ha
      · rw [hc] at ha; simp at ha
    · rcases ht with ht | ht | ht <;> rw [ht] at h1 h2 h3 <;> simp at h1 h2 h3
  simp [isOpaqueCxx, cxOf, hcxx, hns.1, hns.2, hal]

theorem unsized_seen {g : Generator} {apis : List Api} (hd : (collect apis).dups = []) {t v : Ty}
    (hh : Holds t v) (hv : NotByValue apis v) : isUnsized (cxOf g apis) t = true := by
  induction hh with
  | self t =>
    cases hv with
    | cxxString => simp [isUnsized]
    | opaqueCxx t h => simp [isUnsized, opaque_seen hd h]
    | opaqueRust t h => simp [isUnsized, cxOf, ((gathers apis).rust _).2 h]
    | _ => rfl
  | elem n h ih => exact ih hv

theorem not_by_value_of_sized {g : Generator} {apis : List Api} (hd : (collect apis).dups = []) {t : Ty}
    (hu : isUnsized (cxOf g apis) t = false) : ∀ v, Holds t v → ¬ NotByValue apis v := by
  intro v hh hv
  rw [unsized_seen hd hh hv] at hu; cases hu

theorem isFn_unsized (cx : Cx) {t : Ty} (h : isFn t = true) : isUnsized cx t = true := by
  cases t <;> simp_all [isFn, isUnsized]

theorem isPtr_sized (cx : Cx) {t : Ty} (h : isPtr t = true) : isUnsized cx t = false := by
  cases t <;> simp_all [isPtr, isUnsized]

theorem accepted_fn {g : Generator} {apis : List Api} (h : Accepted g apis) {f : ExternFn}
    (hf : HasFn apis f) : checkApiFn (cxOf g apis) f = [] := by
  rcases hf with hf | hf <;> exact accepted_api h hf

/-- **C34**, except inside function pointers.  In an accepted bridge no field, argument, return value
or array element is, or contains, an opaque C++ type, an opaque Rust type, a C++ string or vector, or
`void` by value; the only bare function types are function-pointer arguments of C++ functions.
Missing from the full statement: the arguments and return value of function pointers, where
`opaque_by_value_in_fn_pointer` shows it is false of the code. -/
theorem no_opaque_by_value_partial {g : Generator} {apis : List Api} (h : Accepted g apis) :
    (∀ s, Api.struct s ∈ apis → ∀ fl ∈ s.fields, ∀ v, Holds fl.ty v → ¬ NotByValue apis v) ∧
    (∀ f, HasFn apis f → ∀ a ∈ f.sig.args,
      (∀ v, Holds a.ty v → ¬ NotByValue apis v) ∨
        (f.lang = .cxx ∧ ∃ u as r th, a.ty = .fn u as r th)) ∧
    (∀ f, HasFn apis f → ∀ r, f.sig.ret = some r → ∀ v, Holds r v → ¬ NotByValue apis v) ∧
    (∀ t n, Occurs apis (.array t n) → ∀ v, Holds t v → ¬ NotByValue apis v) := by
  refine ⟨?_, ?_, ?_, ?_⟩
  · intro s hs fl hfl
    have hc : checkApiStruct (cxOf g apis) s = [] := accepted_api h hs
    simp only [checkApiStruct, List.append_eq_nil_iff, List.flatMap_eq_nil_iff] at hc
    have := hc.2 fl hfl
    by_cases h1 : isFn fl.ty = true
    · simp [h1] at this
    · by_cases h2 : isUnsized (cxOf g apis) fl.ty = true
      · simp [h1, h2] at this
      · exact not_by_value_of_sized h.1 (by simpa using h2)
  · intro f hf a ha
    have hc := accepted_fn h hf
    simp only [checkApiFn, List.append_eq_nil_iff, List.flatMap_eq_nil_iff] at hc
    have := hc.1.1.2 a ha
    unfold checkArg at this
    by_cases h1 : isFn a.ty = true
    · right
      rw [if_pos h1] at this
      refine ⟨?_, ?_⟩
      · cases hl : f.lang with
        | cxx => rfl
        | rust => simp [hl] at this
      · cases hty : a.ty <;> simp [hty, isFn] at h1
        exact ⟨_, _, _, _, rfl⟩
    · left
      rw [if_neg h1] at this
      apply not_by_value_of_sized h.1 (g := g)
      by_cases h2 : isPtr a.ty = true
      · exact isPtr_sized _ h2
      · rw [if_neg h2] at this
        by_cases h3 : isUnsized (cxOf g apis) a.ty = true
        · simp [h3] at this
        · simpa using h3
  · intro f hf r hr
    have hc := accepted_fn h hf
    simp only [checkApiFn, List.append_eq_nil_iff, List.flatMap_eq_nil_iff] at hc
    have := hc.1.2
    rw [hr] at this
    simp only [checkRet] at this
    by_cases h1 : isFn r = true
    · simp [h1] at this
    · by_cases h2 : isUnsized (cxOf g apis) r = true
      · simp [h1, h2] at this
      · exact not_by_value_of_sized h.1 (by simpa using h2)
  · intro t n ho
    have hc : checkTypeArray (cxOf g apis) t = [] := accepted_type h ho
    unfold checkTypeArray at hc
    by_cases h2 : isUnsized (cxOf g apis) t = true
    · simp [h2] at hc
    · exact not_by_value_of_sized h.1 (by simpa using h2)

/-- A type reached directly by value in an accepted bridge that is an alias of an extern type is
recorded as needing to be trivial. -/
theorem alias_sized {g : Generator} {apis : List Api} {t : Ty} {n : NamedType}
    (hh : Holds t (.ident n)) (ha : Aliased apis n.rust) (hu : isUnsized (cxOf g apis) t = false) :
    (cxOf g apis).requiresTrivial n.rust = true := by
  generalize hv : Ty.ident n = v at hh
  induction hh with
  | elem m hh ih => exact ih hu hv
  | self t =>
    subst hv
    obtain ⟨h1, h2, h3⟩ := ha
    have hns := not_shared h2 h3
    have hcxx : n.rust ∈ (collect apis).cxx := ((knows apis).cxx _).2 ⟨_, h1, .inr (.inl rfl)⟩
    have hal := ((gathers apis).aliases n.rust).2 h1
    simp only [isUnsized, Bool.or_eq_false_iff] at hu
    have := hu.1.2
    simpa [isOpaqueCxx, cxOf, hcxx, hns.1, hns.2, hal] using this

/-- **C34** (aliases).  Wherever an accepted bridge holds an aliased extern type by value in a field,
an argument, a return value or an array, the type is recorded as needing to be trivially movable. -/
theorem alias_by_value_recorded {g : Generator} {apis : List Api} (h : Accepted g apis) {n : NamedType}
    (hn : Aliased apis n.rust) :
    (∀ s, Api.struct s ∈ apis → ∀ fl ∈ s.fields, Holds fl.ty (.ident n) →
      (cxOf g apis).requiresTrivial n.rust = true) ∧
    (∀ f, HasFn apis f → ∀ a ∈ f.sig.args, Holds a.ty (.ident n) →
      (cxOf g apis).requiresTrivial n.rust = true) ∧
    (∀ f, HasFn apis f → ∀ r, f.sig.ret = some r → Holds r (.ident n) →
      (cxOf g apis).requiresTrivial n.rust = true) ∧
    (∀ t k, Occurs apis (.array t k) → Holds t (.ident n) →
      (cxOf g apis).requiresTrivial n.rust = true) := by
  have notfn : ∀ {t : Ty}, Holds t (.ident n) → isFn t = false := by
    intro t hh; cases t <;> first | rfl | cases hh
  refine ⟨?_, ?_, ?_, ?_⟩
  · intro s hs fl hfl hh
    have hc : checkApiStruct (cxOf g apis) s = [] := accepted_api h hs
    simp only [checkApiStruct, List.append_eq_nil_iff, List.flatMap_eq_nil_iff] at hc
    have := hc.2 fl hfl
    rw [if_neg (by simp [notfn hh])] at this
    refine alias_sized hh hn ?_
    by_cases h2 : isUnsized (cxOf g apis) fl.ty = true
    · simp [h2] at this
    · simpa using h2
  · intro f hf a ha hh
    have hc := accepted_fn h hf
    simp only [checkApiFn, List.append_eq_nil_iff, List.flatMap_eq_nil_iff] at hc
    have := hc.1.1.2 a ha
    unfold checkArg at this
    rw [if_neg (by simp [notfn hh])] at this
    refine alias_sized hh hn ?_
    by_cases h2 : isPtr a.ty = true
    · exact isPtr_sized _ h2
    · rw [if_neg h2] at this
      by_cases h3 : isUnsized (cxOf g apis) a.ty = true
      · simp [h3] at this
      · simpa using h3
  · intro f hf r hr hh
    have hc := accepted_fn h hf
    simp only [checkApiFn, List.append_eq_nil_iff, List.flatMap_eq_nil_iff] at hc
    have := hc.1.2
    rw [hr] at this
    simp only [checkRet] at this
    rw [if_neg (by simp [notfn hh])] at this
    refine alias_sized hh hn ?_
    by_cases h2 : isUnsized (cxOf g apis) r = true
    · simp [h2] at this
    · simpa using h2
  · intro t k ho hh
    have hc : checkTypeArray (cxOf g apis) t = [] := accepted_type h ho
    unfold checkTypeArray at hc
    refine alias_sized hh hn ?_
    by_cases h2 : isUnsized (cxOf g apis) t = true
    · simp [h2] at hc
    · simpa using h2

/-! ### Pin -/

theorem pinTarget_of {g : Generator} {apis : List Api} (hd : (collect apis).dups = []) {t : Ty}
    (h : NeedsPin apis t) : pinTarget (cxOf g apis) t = true := by
  cases t <;> simp only [NeedsPin] at h
  · rcases h with h | h
    · simp [pinTarget, h]
    · simp [pinTarget, opaque_seen hd h]
  · rfl

/-- **C35**.  In an accepted bridge every mutable reference to a C++ string, a C++ vector or an opaque
C++ type, at any depth of any type written in the bridge, and every mutable receiver of an opaque C++
type, is pinned. -/
theorem mutable_cxx_is_pinned {g : Generator} {apis : List Api} (h : Accepted g apis) :
    (∀ pinned l inner, Occurs apis (.ref pinned l true inner) → NeedsPin apis inner → pinned = true) ∧
    (∀ f, HasFn apis f → ∀ r, f.sig.receiver = some r → r.mutable = true →
      OpaqueCxx apis r.ty.rust → r.pinned = true) := by
  constructor
  · intro pinned l inner ho hn
    have hc : checkTypeRef (cxOf g apis) pinned true inner = [] := accepted_type h ho
    simp only [checkTypeRef, List.append_eq_nil_iff, pinTarget_of h.1 hn] at hc
    cases pinned with
    | true => rfl
    | false => simp at hc
  · intro f hf r hr hm ho
    have hc := accepted_fn h hf
    simp only [checkApiFn, List.append_eq_nil_iff] at hc
    have := hc.1.1.1.2
    rw [hr] at this
    simp only [checkReceiver, opaque_seen h.1 ho, hm, true_and] at this
    cases hp : r.pinned with
    | true => rfl
    | false =>
      rw [hp] at this
      simp at this
      grind

/-- **C35** (aliases).  An aliased extern type behind an unpinned mutable reference or receiver is
recorded as needing to be trivially movable. -/
theorem mutable_alias_recorded {g : Generator} {apis : List Api} (h : Accepted g apis) {n : NamedType}
    (hn : Aliased apis n.rust) :
    (∀ l, Occurs apis (.ref false l true (.ident n)) → (cxOf g apis).requiresTrivial n.rust = true) ∧
    (∀ f, HasFn apis f → ∀ r, f.sig.receiver = some r → r.mutable = true → r.pinned = false →
      r.ty.rust = n.rust → (cxOf g apis).requiresTrivial n.rust = true) := by
  obtain ⟨h1, h2, h3⟩ := hn
  have hns := not_shared h2 h3
  have hcxx : n.rust ∈ (collect apis).cxx := ((knows apis).cxx _).2 ⟨_, h1, .inr (.inl rfl)⟩
  have hal := ((gathers apis).aliases n.rust).2 h1
  have hop : isOpaqueCxx (cxOf g apis) n.rust = false → (cxOf g apis).requiresTrivial n.rust = true := by
    intro ho
    simpa [isOpaqueCxx, cxOf, hcxx, hns.1, hns.2, hal] using ho
  constructor
  · intro l ho
    have hc : checkTypeRef (cxOf g apis) false true (.ident n) = [] := accepted_type h ho
    simp only [checkTypeRef, List.append_eq_nil_iff, pinTarget] at hc
    apply hop
    have := hc.1
    by_cases hx : isOpaqueCxx (cxOf g apis) n.rust = true
    · simp [hx] at this
    · simpa using hx
  · intro f hf r hr hm hp hrn
    have hc := accepted_fn h hf
    simp only [checkApiFn, List.append_eq_nil_iff] at hc
    have := hc.1.1.1.2
    rw [hr] at this
    apply hop
    by_cases hx : isOpaqueCxx (cxOf g apis) n.rust = true
    · simp only [checkReceiver, hrn, hx, hm, hp] at this
      simp only [cxOf, hcxx] at this
      simp at this
      grind
    · simpa using hx

/-! ### Mutable returns -/

theorem has_lifetimes {apis : List Api} {t : Ident} {p : Pair} {gs : List Ident}
    (h : mapGet (collect apis).resolutions t = some (p, gs)) (hg : gs ≠ []) : HasLifetimes apis t := by
  rw [(gathers apis).resolutions] at h
  have hm := List.mem_of_find?_eq_some h
  have hp := List.find?_some h
  rw [List.mem_reverse, List.mem_filterMap] at hm
  obtain ⟨a, ha, hr⟩ := hm
  exact ⟨a, ha, p, gs, hr, by simpa using hp, hg⟩

/-- Every name that the checker recognises as a type of the bridge has a resolution. -/
theorem resolved {apis : List Api} {t : Ident} (h : definitions apis t ≠ []) :
    mapGet (collect apis).resolutions t ≠ none := by
  rw [(gathers apis).resolutions, Ne, List.find?_eq_none]
  obtain ⟨k, hk⟩ := List.exists_mem_of_ne_nil _ h
  unfold definitions at hk
  rw [List.mem_map] at hk
  obtain ⟨⟨m, k'⟩, hd, rfl⟩ := hk
  rw [List.mem_filter, List.mem_filterMap] at hd
  obtain ⟨⟨a, ha, hda⟩, hm⟩ := hd
  simp only [decide_eq_true_eq] at hm
  subst hm
  intro hall
  have key : ∃ r, resolves a = some r ∧ r.1.rust = m := by
    cases a <;> simp [defines] at hda <;> simp [resolves, hda.1]
  obtain ⟨r, hr, hrm⟩ := key
  have := hall r (by rw [List.mem_reverse, List.mem_filterMap]; exact ⟨a, ha, hr⟩)
  simp [hrm] at this

theorem defined_of_known {apis : List Api} {t : Ident}
    (h : mapHas (collect apis).structs t = true ∨ mapHas (collect apis).enums t = true ∨
      t ∈ (collect apis).cxx ∨ t ∈ (collect apis).rust) : definitions apis t ≠ [] := by
  intro he
  rcases h with h | h | h | h
  · obtain ⟨k, hk, _⟩ := ((knows apis).shared t).1 (.inl h); rw [he] at hk; cases hk
  · obtain ⟨k, hk, _⟩ := ((knows apis).shared t).1 (.inr h); rw [he] at hk; cases hk
  · obtain ⟨k, hk, _⟩ := ((knows apis).cxx t).1 h; rw [he] at hk; cases hk
  · have := ((gathers apis).rust t).1 h; rw [he] at this; cases this

/-- **C36**.  In an accepted bridge, a C++ function that returns a mutable reference or a mutable slice
and is not `unsafe` has a mutable receiver, a receiver whose type has lifetime parameters, or an argument
that carries a mutable borrow or a lifetime. -/
theorem mut_return_justified {g : Generator} {apis : List Api} (h : Accepted g apis)
    {f : ExternFn} (hf : HasFn apis f) (hl : f.lang = .cxx) (hs : f.sig.unsafety = false)
    (hr : (∃ p l i, f.sig.ret = some (.ref p l true i)) ∨ (∃ l i, f.sig.ret = some (.sliceRef l true i))) :
    (∃ r, f.sig.receiver = some r ∧ (r.mutable = true ∨ HasLifetimes apis r.ty.rust)) ∨
    (∃ a ∈ f.sig.args, CarriesBorrow apis a.ty) := by
  have hc := accepted_fn h hf
  simp only [checkApiFn, List.append_eq_nil_iff] at hc
  have hm := hc.2
  have hrecv := hc.1.1.1.2
  rw [if_pos hl] at hm
  unfold checkMutReturn at hm
  rw [hs] at hm
  have hm' : receiverJustifies (cxOf g apis) f.sig.receiver = true ∨
      f.sig.args.any (fun a => (visitTypes a.ty).any (carriesMut (cxOf g apis))) = true := by
    by_cases k1 : receiverJustifies (cxOf g apis) f.sig.receiver = true
    · exact .inl k1
    · by_cases k2 : f.sig.args.any (fun a => (visitTypes a.ty).any (carriesMut (cxOf g apis))) = true
      · exact .inr k2
      · rcases hr with ⟨p, l, i, hr⟩ | ⟨l, i, hr⟩ <;> simp [hr, k1, k2] at hm
  clear hm
  rcases hm' with hm | hm
  · left
    cases hrc : f.sig.receiver with
    | none => rw [hrc] at hm; simp [receiverJustifies] at hm
    | some r =>
      refine ⟨r, rfl, ?_⟩
      rw [hrc] at hm hrecv
      simp only [receiverJustifies, Bool.or_eq_true] at hm
      rcases hm with hm | hm
      · exact .inl hm
      · right
        cases hg : mapGet (cxOf g apis).types.resolutions r.ty.rust with
        | some v =>
          obtain ⟨p, gs⟩ := v
          rw [hg] at hm
          exact has_lifetimes hg (by intro e; simp [e] at hm)
        | none =>
          exfalso
          refine resolved (apis := apis) (t := r.ty.rust) ?_ hg
          apply defined_of_known
          simp only [checkReceiver] at hrecv
          split at hrecv
          · cases hrecv
          · split at hrecv
            · cases hrecv
            · split at hrecv
              · cases hrecv
              · next hk =>
                simp only [cxOf] at hk
                cases hst : mapHas (collect apis).structs r.ty.rust with
                | true => exact .inl rfl
                | false =>
                  rw [hst] at hk
                  by_cases h3 : r.ty.rust ∈ (collect apis).cxx
                  · exact .inr (.inr (.inl h3))
                  · by_cases h4 : r.ty.rust ∈ (collect apis).rust
                    · exact .inr (.inr (.inr h4))
                    · exact absurd ⟨rfl, h3, h4⟩ hk
  · right
    rw [List.any_eq_true] at hm
    obtain ⟨a, ha, hm⟩ := hm
    rw [List.any_eq_true] at hm
    obtain ⟨t, ht, hm⟩ := hm
    rw [within_iff_visit] at ht
    refine ⟨a, ha, t, ht, ?_⟩
    cases t <;> simp only [carriesMut] at hm <;> try (cases hm)
    · next n =>
      right; right
      refine ⟨n, rfl, ?_⟩
      split at hm
      · next hat =>
        cases hg : mapGet (cxOf g apis).types.resolutions n.rust with
        | some v =>
          obtain ⟨p, gs⟩ := v
          rw [hg] at hm
          exact has_lifetimes hg (by intro e; simp [e] at hm)
        | none =>
          exfalso
          have hocc : Occurs apis (.ident n) := by
            rcases hf with hf | hf
            · exact ⟨_, hf, a.ty, by simp only [writtenTypes, List.mem_append, List.mem_map]; exact .inl ⟨a, ha, rfl⟩, ht⟩
            · exact ⟨_, hf, a.ty, by simp only [writtenTypes, List.mem_append, List.mem_map]; exact .inl ⟨a, ha, rfl⟩, ht⟩
          have hck : checkTypeIdent (cxOf g apis) n = [] := accepted_type h hocc
          refine resolved (apis := apis) (t := n.rust) ?_ hg
          apply defined_of_known
          unfold checkTypeIdent at hck
          split at hck
          · cases hck
          · next hk =>
            simp only [cxOf] at hk
            cases hst : mapHas (collect apis).structs n.rust with
            | true => exact .inl rfl
            | false =>
              cases hen : mapHas (collect apis).enums n.rust with
              | true => exact .inr (.inl rfl)
              | false =>
                rw [hst, hen] at hk
                by_cases h3 : n.rust ∈ (collect apis).cxx
                · exact .inr (.inr (.inl h3))
                · by_cases h4 : n.rust ∈ (collect apis).rust
                  · exact .inr (.inr (.inr h4))
                  · exact absurd ⟨hat, rfl, rfl, h3, h4⟩ hk
      · cases hm
    · exact .inl ⟨_, _, _, rfl⟩
    · exact .inr (.inl ⟨_, _, rfl⟩)

/-! ### Witnesses -/
section Witness

instance (g : Generator) (apis : List Api) : Decidable (Accepted g apis) :=
  inferInstanceAs (Decidable (_ ∧ _))

def nm (s : Ident) : Pair := ⟨[], s, s⟩
def opaqueT : Api := .cxxType ⟨.cxx, [], nm "T", [], [], true⟩
def rustR : Api := .rustType ⟨.rust, [], nm "R", [], [], true⟩
def aliasA : Api := .typeAlias ⟨[], nm "A", []⟩
def structS (fields : List Ty) : Api := .struct ⟨[], nm "S", [], fields.map (fun t => ⟨nm "x", t⟩)⟩
def cfn (args : List Ty) (ret : Option Ty) (recv : Option Receiver := none) (unsafety := false) : Api :=
  .cxxFunction ⟨.cxx, nm "f", ⟨unsafety, [], recv, args.map (fun t => ⟨nm "a", t⟩), ret, false⟩, true⟩
def mutRef (pinned : Bool) (t : Ty) : Ty := .ref pinned none true t

/-- An accepted bridge with an opaque type, an alias by value and in an array, a pinned receiver, a
function pointer and a mutable return. -/
def sample : List Api :=
  [opaqueT, rustR, aliasA, structS [.named "u8", .named "A", .array (.named "A") 3],
   cfn [mutRef true (.named "T"), .rustBox (.named "R"), .named "A", .fn false [.named "S"] none false]
     (some (mutRef true (.named "T"))) (some ⟨true, none, true, ⟨"T", []⟩, false⟩)]

theorem sample_accepted : Accepted .build sample ∧ Accepted .macro sample := by decide +kernel

example : OpaqueCxx sample "T" ∧ OpaqueRust sample "R" ∧ Aliased sample "A" := by
  simp [OpaqueCxx, OpaqueRust, Aliased, definitions, sample, defines, opaqueT, rustR, aliasA, structS, cfn, nm]

/-- Rejected: an opaque type by value as field, array element, argument, return value. -/
example : ¬ Accepted .build [opaqueT, structS [.named "T"]] ∧
    ¬ Accepted .build [opaqueT, cfn [.array (.named "T") 2] none] ∧
    ¬ Accepted .build [opaqueT, cfn [.ref false none false (.array (.named "T") 2)] none] ∧
    ¬ Accepted .build [rustR, cfn [] (some (.named "R"))] ∧
    ¬ Accepted .build [aliasA, cfn [.array (.named "A") 2] none] := by decide +kernel

/-- Rejected: unpinned mutable references, and a conjured mutable reference. -/
example : ¬ Accepted .build [opaqueT, cfn [mutRef false (.named "T")] none] ∧
    ¬ Accepted .build [opaqueT, cfn [.fn false [mutRef false (.named "T")] none false] none] ∧
    ¬ Accepted .build [cfn [mutRef false (.cxxVector (.named "u8"))] none] ∧
    ¬ Accepted .build [opaqueT, cfn [] none (some ⟨false, none, true, ⟨"T", []⟩, false⟩)] ∧
    ¬ Accepted .build [opaqueT, cfn [.ref false none false (.named "T")] (some (mutRef true (.named "T")))] ∧
    Accepted .build [opaqueT, cfn [.ref false none false (.named "T")] (some (mutRef true (.named "T")))
      none true] := by decide +kernel

/-- The full **C34** is false of the code: an opaque C++ type may be an argument and the return value,
by value, of a function pointer in an accepted bridge (syntax/check.rs:301-316 looks only at `throws`
and at raw pointer arguments). -/
theorem opaque_by_value_in_fn_pointer :
    Accepted .build [opaqueT, cfn [.fn false [.named "T"] (some (.named "T")) false] none] ∧
    OpaqueCxx [opaqueT, cfn [.fn false [.named "T"] (some (.named "T")) false] none] "T" := by
  constructor
  · decide +kernel
  · simp [OpaqueCxx, definitions, defines, opaqueT, cfn, nm]

/-- `Pin` on a type that is not an opaque C++ type is accepted. -/
theorem pin_on_shared_struct_accepted :
    Accepted .build [structS [.named "u8"], cfn [mutRef true (.named "S")] none] := by decide +kernel

end Witness

end Verif.Check
