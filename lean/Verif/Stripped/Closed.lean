import Verif.Stripped.Abi
/-!
# C88: whether what is left makes sense
-/
namespace Verif.Stripped
open Verif.Syntax Verif.Types Verif.Parse Verif.Cfg Verif.Check Verif.Abi

variable {r : Readers} {checks trusted : Bool} {ns : Namespace} {items : List ItemSrc} {outs : List Out}
variable {f : Config} {σ : Evaluator} {apis apis' : List Api}

theorem definition_item {n : Ident} {k : Kind} (h : k ∈ definitions (outs.map (·.api)) n) :
    ∃ o ∈ outs, defines o.api = some (n, k) := by
  obtain ⟨⟨m, k'⟩, hd, rfl⟩ := List.mem_map.1 h
  obtain ⟨hd, hm⟩ := List.mem_filter.1 hd
  obtain ⟨a, ha, hd⟩ := List.mem_filterMap.1 hd
  obtain ⟨o, ho, rfl⟩ := List.mem_map.1 ha
  have hm : m = n := by simpa using hm
  exact ⟨o, ho, hm ▸ hd⟩

theorem item_definition {o : Out} (ho : o ∈ outs) {n : Ident} {k : Kind} (hd : defines o.api = some (n, k)) :
    k ∈ definitions (outs.map (·.api)) n :=
  List.mem_map.2 ⟨(n, k), List.mem_filter.2 ⟨List.mem_filterMap.2 ⟨_, List.mem_map.2 ⟨o, ho, rfl⟩, hd⟩, by simp⟩, rfl⟩

/-- Of the items that define a name, one has a definition of its own in the module. -/
theorem proper_item {o : Out} (ho : o ∈ outs) {n : Ident} {k : Kind} (hd : defines o.api = some (n, k)) :
    ∃ o' ∈ outs, ∃ k', defines o'.api = some (n, k') ∧ (k ≠ .alias → k' ≠ .alias) ∧
      (k' = .cxx → mapHas (collect (outs.map (·.api))).structs n = false ∧
        mapHas (collect (outs.map (·.api))).enums n = false) := by
  by_cases hs : mapHas (collect (outs.map (·.api))).structs n = true ∨ mapHas (collect (outs.map (·.api))).enums n = true
  · obtain ⟨k', hk', hk⟩ := ((knows _).shared n).1 hs
    obtain ⟨o', ho', hd'⟩ := definition_item hk'
    exact ⟨o', ho', k', hd', by rcases hk with rfl | rfl <;> simp, by rcases hk with rfl | rfl <;> simp⟩
  · exact ⟨o, ho, k, hd, id, fun _ => by simpa using hs⟩

theorem defining_item {o : Out} {n : Ident} {k : Kind} (hd : defines o.api = some (n, k)) :
    (∀ p, o.api ≠ .include p) ∧ ∀ i, o.api ≠ .impl i := by
  constructor <;> (intro x hx; rw [hx] at hd; cases hd)

theorem defined_left (hp : ∀ o ∈ outs, Printed r o) (ht : TypesOn f outs) {n : Ident}
    (h : definitions (outs.map (·.api)) n ≠ []) :
    ∃ q, Left r f outs q ∧ (q.what = .defines n ∨ q.what = .imports n) := by
  obtain ⟨k0, hk0⟩ := List.exists_mem_of_ne_nil _ h
  obtain ⟨o0, ho0, hd0⟩ := definition_item hk0
  obtain ⟨o, ho, k, hd, _, hc⟩ := proper_item ho0 hd0
  by_cases hk : k = .rust
  · subst hk
    refine ⟨⟨[], .imports n, []⟩, ⟨mem_pieces.2 (.inl ⟨o, ho, ?_⟩), by intro a ha; cases ha⟩, .inr rfl⟩
    cases ha : o.api with
    | rustType t => rw [ha] at hd; cases hd; simp [importOf, ha]
    | enum e => rw [ha] at hd; simp only [defines, Option.some.injEq, Prod.mk.injEq] at hd; split at hd <;> simp at hd
    | _ => rw [ha] at hd; cases hd
  · refine ⟨_, ⟨mem_pieces.2 (.inr (.inl ⟨o, ho, mem_piecesOf.2 (.define hd hk hc)⟩)), ?_⟩, .inl rfl⟩
    exact ((hp o ho).item (defining_item hd).1 (defining_item hd).2 f).2 (ht o ho ⟨_, hd⟩).1

theorem within_ident {t u : NamedType} (h : Within (.ident t) (.ident u)) : t = u := by
  cases h with
  | self => rfl
  | part hp _ => cases hp

/-- **C88**, where all types and fields are switched on: in an accepted bridge each type that is left in the expanded module is
defined in what is left.  Missing: conditional types, for which this is false (`off_type_breaks`). -/
theorem closed_partial (hp : parseItems r checks trusted ns items = ([], outs)) (ht : TypesOn f outs)
    (hm : Accepted .macro (outs.map (·.api))) : Closed r f outs := by
  have hpr := printed hp
  obtain ⟨n1, n2, n3⟩ := names_resolve hm
  have about {o : Out} (ho : o ∈ outs) {n : Ident} {k : Kind} (hd : defines o.api = some (n, k)) {t : NamedType}
      (h : Within (.ident t) (.named n)) : ∃ q, Left r f outs q ∧ (q.what = .defines t.rust ∨ q.what = .imports t.rust) := by
    rw [within_ident h]
    exact defined_left hpr ht (List.ne_nil_of_mem (item_definition ho hd))
  have written {o : Out} (ho : o ∈ outs) {ty : Ty} (hty : ty ∈ writtenTypes o.api) {t : NamedType}
      (h : Within (.ident t) ty) (hb : Atom.fromStr t.rust = none) :
      ∃ q, Left r f outs q ∧ (q.what = .defines t.rust ∨ q.what = .imports t.rust) :=
    defined_left hpr ht (n1 t ⟨o.api, List.mem_map.2 ⟨o, ho, rfl⟩, ty, hty, h⟩ hb).1
  have receiver {o : Out} (ho : o ∈ outs) {fn : ExternFn} (hf : o.api = .cxxFunction fn ∨ o.api = .rustFunction fn)
      {rc : Receiver} (hr : fn.sig.receiver = some rc) {t : NamedType} (h : Within (.ident t) (.ident rc.ty)) :
      ∃ q, Left r f outs q ∧ (q.what = .defines t.rust ∨ q.what = .imports t.rust) := by
    rw [within_ident h]
    have : HasFn (outs.map (·.api)) fn := hf.imp (fun h => List.mem_map.2 ⟨o, ho, h⟩) (fun h => List.mem_map.2 ⟨o, ho, h⟩)
    exact defined_left hpr ht (n2 fn this rc hr).1
  have signature {o : Out} (ho : o ∈ outs) {fn : ExternFn} (hf : o.api = .cxxFunction fn ∨ o.api = .rustFunction fn)
      {ty : Ty} (hty : ty ∈ signatureTypes fn) {t : NamedType} (h : Within (.ident t) ty) (hb : Atom.fromStr t.rust = none) :
      ∃ q, Left r f outs q ∧ (q.what = .defines t.rust ∨ q.what = .imports t.rust) := by
    simp only [signatureTypes, List.mem_append, List.mem_map, Option.mem_toList] at hty
    rcases hty with (⟨rc, hr, rfl⟩ | ⟨a, ha, rfl⟩) | hret
    · exact receiver ho hf hr h
    · refine written ho (ty := a.ty) ?_ h hb
      rcases hf with hf | hf <;> (rw [hf]; simp only [writtenTypes, List.mem_append, List.mem_map]; exact .inl ⟨a, ha, rfl⟩)
    · refine written ho (ty := ty) ?_ h hb
      rcases hf with hf | hf <;> (rw [hf]; simp [writtenTypes, hret])
  constructor
  · intro p hl ty hty t hin hb
    rcases mem_pieces.1 hl.1 with ⟨o, ho, hi⟩ | ⟨o, ho, hi⟩ | ⟨k, hk, rfl⟩
    · rcases (import_what hi).2 with ⟨u, hu, _, hm⟩ | ⟨u, hu, _, hm⟩
      · rw [hm] at hty; cases hty
      · rw [hm, List.mem_singleton] at hty
        subst hty
        exact about ho (k := .rust) (by rw [hu]; rfl) hin
    · have hi := mem_piecesOf.1 hi
      cases hi with
      | define h _ _ => cases hty
      | @field s m h hm =>
        rw [List.mem_singleton] at hty
        subst hty
        refine written ho (ty := m.2.ty) ?_ hin hb
        rw [h]
        exact List.mem_map.2 ⟨_, (List.of_mem_zip hm).2, rfl⟩
      | @variant e m h hm =>
        rw [List.mem_singleton] at hty
        subst hty
        refine about ho (k := if e.variantsFromHeader then .headerEnum else .shared) ?_ hin
        rw [h]; rfl
      | calls h => exact signature ho (.inl h) hty hin hb
      | exports h => exact signature ho (.inr h) hty hin hb
      | about h _ _ => rw [List.mem_singleton] at hty; subst hty; exact about ho h hin
      | verify h =>
        rw [List.mem_singleton] at hty
        subst hty
        exact about ho (k := .alias) (by rw [h]; rfl) hin
      | method h hr => rw [List.mem_singleton] at hty; subst hty; exact receiver ho (.inl h) hr hin
    · rw [List.mem_singleton] at hty
      subst hty
      have hk : k.1 ∈ (collect (outs.map (·.api))).impls.map (·.1) := List.mem_map.2 ⟨k, hk, rfl⟩
      rw [within_ident hin]
      apply defined_left hpr ht
      rcases (impls_exact _ k.1).1 hk with ⟨i, hi, hik⟩ | ⟨hat, _, u, hu, hku⟩
      · obtain ⟨n, hn, hv⟩ := implKey_arg hik
        have := (n3 k.1 hk).1
        exact hn ▸ (n1 n ⟨_, hi, i.ty, by simp [writtenTypes], hv⟩ (by rw [hn]; exact this)).1
      · obtain ⟨n, hn, hv⟩ := implKey_arg hku
        exact hn ▸ (n1 n (occurs_trans hu hv) (by rw [hn]; exact hat)).1
  · intro p n hl hw
    rcases mem_pieces.1 hl.1 with ⟨o, ho, hi⟩ | ⟨o, ho, hi⟩ | ⟨k, hk, rfl⟩
    · rcases (import_what hi).2 with ⟨u, hu, hx, hm⟩ | ⟨u, hu, hx, hm⟩
      · rw [hw] at hx
        cases hx
        have hd : defines o.api = some (u.name.rust, .rust) := by rw [hu]; rfl
        exact ⟨o, ho, (ht o ho ⟨_, hd⟩).1, hd⟩
      · rw [hw] at hx; cases hx
    · have hi := mem_piecesOf.1 hi
      cases hi <;> cases hw
    · cases hw

/-- **C88**, what is missing.  A type of the bridge that is switched off, if it is not an alias, always leaves the module in
pieces: impls, operators, assertions or an import without a condition still name it. -/
theorem off_type_breaks (hp : parseItems r checks trusted ns items = ([], outs)) {n : Ident} (hb : Atom.fromStr n = none)
    {o : Out} (ho : o ∈ outs) {k : Kind} (hd : defines o.api = some (n, k)) (hk : k ≠ .alias)
    (hoff : ∀ o ∈ outs, ∀ k, defines o.api = some (n, k) → ¬ On f o) : ¬ Closed r f outs := by
  intro hc
  obtain ⟨o', ho', k', hd', ha, hx⟩ := proper_item ho hd
  have hl : Left r f outs ⟨[], .other, [.named n]⟩ :=
    ⟨mem_pieces.2 (.inr (.inl ⟨o', ho', mem_piecesOf.2 (.about hd' (ha hk) hx)⟩)), by intro a ha; cases ha⟩
  obtain ⟨q, hq, hw⟩ := hc.defined _ hl (.named n) (by simp) ⟨n, []⟩ (.self _) hb
  rcases hw with hw | hw
  · rcases mem_pieces.1 hq.1 with ⟨b, hb', hi⟩ | ⟨b, hb', hi⟩ | ⟨k, hk, rfl⟩
    · rcases (import_what hi).2 with ⟨u, hu, hx, hm⟩ | ⟨u, hu, hx, hm⟩ <;> (rw [hw] at hx; cases hx)
    · have hi := mem_piecesOf.1 hi
      cases hi <;> cases hw
      next h _ =>
        exact hoff b hb' _ h ((((printed hp) b hb').item (defining_item h).1 (defining_item h).2 f).1 hq.2)
    · cases hw
  · obtain ⟨b, hb', hon, hdef⟩ := hc.imported q n hq hw
    exact hoff b hb' _ hdef hon

/-- **C88**, where all types and fields are switched on: what the C++ generator provides for a `Box`, a `Vec`, a smart pointer
or a vector has its counterpart in the expanded module.  Missing: the converse, which is false (`instance_left_over`). -/
theorem instances_expected_partial (hp : parseItems r checks trusted ns items = ([], outs)) (hx : Extends f σ)
    (hs : stripped σ outs = (apis', [])) (ht : TypesOn f outs) {k : ImplKey} (hk : k ∈ (collect apis').impls.map (·.1)) :
    k ∈ (collect (outs.map (·.api))).impls.map (·.1) := by
  have same : SameTypes (outs.map (·.api)) apis' := by rw [strip_on hx hs]; exact same_types (printed hp) ht
  rw [impls_exact] at hk ⊢
  rcases hk with ⟨i, hi, hik⟩ | ⟨h1, h2, t, h3, h4⟩
  · refine .inl ⟨i, ?_, hik⟩
    rw [strip_on hx hs, mem_switchedOn] at hi
    obtain ⟨o, ho, _, he⟩ := hi
    unfold onItem at he
    split at he
    · cases he
    · cases he
    · exact List.mem_map.2 ⟨o, ho, he⟩
  · exact .inr ⟨h1, by rw [same.definition]; exact h2, t, same.occurs h3, h4⟩

end Verif.Stripped
