import Verif.Layout.Spec
import Verif.Abi.Props
import Verif.Toposort.Props
/-!
# Shared types have one layout
-/
namespace Verif.Layout
open Verif.Syntax Verif.Types Verif.Abi Verif.Check Verif.Mangle

/-! ### One definition per name -/

theorem def_mem {apis : List Api} {a : Api} {n : Ident} {k : Kind} (h : a ∈ apis) (hd : defines a = some (n, k)) :
    k ∈ definitions apis n := by
  simp only [definitions, List.mem_map, List.mem_filter, List.mem_filterMap]
  exact ⟨(n, k), ⟨⟨a, h, hd⟩, by simp⟩, rfl⟩

/-- The definitions of a name that only this bridge defines. -/
def Only (apis : List Api) (n : Ident) : Prop := (definitions apis n).length ≤ 1

theorem only_eq {apis : List Api} {n : Ident} (h : Only apis n) {a b : Api} {j k : Kind} (ha : a ∈ apis) (hb : b ∈ apis)
    (da : defines a = some (n, j)) (db : defines b = some (n, k)) : a = b := by
  obtain ⟨l, r, rfl⟩ := List.append_of_mem ha
  have h1 : definitions (l ++ a :: r) n = definitions l n ++ (j :: definitions r n) := by
    rw [Improper.definitions_append]; congr 1; simp [definitions, da]
  unfold Only at h
  rw [h1] at h
  simp only [List.length_append, List.length_cons] at h
  rcases List.mem_append.1 hb with hb | hb
  · have := List.length_pos_of_mem (def_mem hb db); omega
  · rcases List.mem_cons.1 hb with hb | hb
    · exact hb.symm
    · have := List.length_pos_of_mem (def_mem hb db); omega

/-- A shared type is defined in this bridge alone, or in a header. -/
theorem shared_only {apis : List Api} (hd : (collect apis).dups = []) {n : Ident}
    (hk : Kind.shared ∈ definitions apis n) (hh : ¬ FromHeader apis n) : Only apis n := by
  unfold FromHeader at hh
  unfold Only
  rcases ((duplicates_exact _).1 hd).1 n with (hc | hc | hc) | (hc | hc | hc)
  · exact hc
  all_goals (rw [hc] at hh; simp at hh)

theorem not_cxx {apis : List Api} {n : Ident} (hk : Kind.shared ∈ definitions apis n) :
    n ∈ (collect apis).cxx ↔ FromHeader apis n := by
  rw [(knows apis).cxx]
  unfold FromHeader
  constructor
  · rintro ⟨k, h, rfl | rfl | rfl⟩
    · exact .inr (.inr ⟨hk, h⟩)
    · exact .inl h
    · exact .inr (.inl h)
  · rintro (h | h | ⟨_, h⟩)
    · exact ⟨_, h, .inr (.inl rfl)⟩
    · exact ⟨_, h, .inr (.inr rfl)⟩
    · exact ⟨_, h, .inl rfl⟩

/-! ### The order of the definitions -/

theorem takeThrough_eq (n : Ident) (l : List Struct) : (takeThrough n l).1 ++ (takeThrough n l).2 = l := by
  induction l with
  | nil => rfl
  | cons a l ih =>
    unfold takeThrough
    split
    · rfl
    · simp [ih]

theorem takeThrough_mem {n : Ident} {l : List Struct} (h : ∃ s ∈ l, s.name.rust = n) :
    n ∈ (takeThrough n l).1.map (·.name.rust) := by
  induction l with
  | nil => simp at h
  | cons a l ih =>
    unfold takeThrough
    split
    · next hn => simp [hn]
    · next hn =>
      obtain ⟨s, hs, he⟩ := h
      rcases List.mem_cons.1 hs with rfl | hs
      · exact absurd he hn
      · simp [ih ⟨s, hs, he⟩]

/-- The structs among the items. -/
def itemStructs (is : List Item) : List Struct :=
  is.filterMap (fun | .struct s _ => some s | _ => none)

/-- The loop writes the sorted structs in order, except those defined in headers. -/
theorem dataLoop_structs (ts : Types) (methods : Ident → List ExternFn) (apis : List Api) :
    ∀ (pre iter : List Struct), ((pre ++ iter).map (·.name.rust)).Nodup →
      (∀ s, Api.struct s ∈ apis → s ∈ pre ++ iter) →
      (∀ s ∈ iter, Api.struct s ∈ apis) →
      itemStructs (dataLoop ts methods apis (pre.map (·.name.rust)) iter) =
        iter.filter (fun n => decide (n.name.rust ∉ ts.cxx)) := by
  induction apis with
  | nil =>
    intro pre iter _ _ h3
    cases iter with
    | nil => rfl
    | cons s iter => exact absurd (h3 s (by simp)) (by simp)
  | cons a apis ih =>
    intro pre iter h1 h2 h3
    have skip : (∀ s, a ≠ .struct s) → itemStructs (dataLoop ts methods apis (pre.map (·.name.rust)) iter) =
        iter.filter (fun n => decide (n.name.rust ∉ ts.cxx)) := by
      intro hne
      refine ih pre iter h1 (fun s hs => h2 s (by simp [hs])) (fun s hs => ?_)
      rcases List.mem_cons.1 (h3 s hs) with h | h
      · exact absurd h.symm (hne s)
      · exact h
    cases a with
    | struct s =>
      simp only [dataLoop]
      split
      · next hw =>
        refine ih pre iter h1 (fun s hs => h2 s (by simp [hs])) (fun t ht => ?_)
        rcases List.mem_cons.1 (h3 t ht) with h | h
        · exfalso
          cases h
          rw [List.map_append, List.nodup_append] at h1
          exact h1.2.2 _ hw _ (List.mem_map.2 ⟨_, ht, rfl⟩) rfl
        · exact h
      · next hw =>
        have hs : s ∈ iter := by
          rcases List.mem_append.1 (h2 s (by simp)) with h | h
          · exact absurd (List.mem_map.2 ⟨s, h, rfl⟩) hw
          · exact h
        have hsplit := takeThrough_eq s.name.rust iter
        have hmem := takeThrough_mem (n := s.name.rust) ⟨s, hs, rfl⟩
        have heq : pre ++ iter = (pre ++ (takeThrough s.name.rust iter).1) ++ (takeThrough s.name.rust iter).2 := by
          rw [List.append_assoc, hsplit]
        have hrec := ih (pre ++ (takeThrough s.name.rust iter).1) (takeThrough s.name.rust iter).2
          (heq ▸ h1) (fun t ht => heq ▸ h2 t (by simp [ht])) (fun t ht => by
            have ht' : t ∈ iter := by rw [← hsplit]; simp [ht]
            rcases List.mem_cons.1 (h3 t ht') with h | h
            · exfalso
              cases h
              rw [heq, List.map_append, List.nodup_append] at h1
              exact h1.2.2 _ (by rw [List.map_append]; exact List.mem_append_right _ hmem) _
                (List.mem_map.2 ⟨_, ht, rfl⟩) rfl
            · exact h)
        rw [List.map_append] at hrec
        have hstr : ∀ l : List Struct, itemStructs (l.map (fun n => Item.struct n (methods n.name.rust))) = l := by
          intro l; induction l with
          | nil => rfl
          | cons a l ih => simpa [itemStructs] using ih
        have happ : ∀ l l', itemStructs (l ++ l') = itemStructs l ++ itemStructs l' := by simp [itemStructs]
        rw [happ, hstr, hrec, ← List.filter_append, hsplit]
    | enum e =>
      have := skip (by simp)
      simp only [dataLoop]
      rw [← this]
      split
      · simp [itemStructs]
      · split <;> simp [itemStructs]
    | rustType t =>
      have := skip (by simp)
      simp only [dataLoop]
      rw [← this]; simp [itemStructs]
    | _ => exact skip (by simp)

theorem structs_nodup {apis : List Api} (hd : (collect apis).dups = []) :
    ((Pod.structsOf apis).map (·.name.rust)).Nodup := by
  have key : ∀ l : List Api, (∀ n, (definitions l n).count .shared ≤ 1) → ((Pod.structsOf l).map (·.name.rust)).Nodup := by
    intro l
    induction l with
    | nil => intro _; simp [Pod.structsOf]
    | cons a l ih =>
      intro h
      have hl : ∀ n, (definitions l n).count .shared ≤ 1 := by
        intro n
        have := h n
        rw [show a :: l = [a] ++ l from rfl, Improper.definitions_append, List.count_append] at this
        omega
      cases a with
      | struct s =>
        have hs : Pod.structsOf (.struct s :: l) = s :: Pod.structsOf l := by simp [Pod.structsOf]
        rw [hs, List.map_cons, List.nodup_cons]
        refine ⟨fun hm => ?_, ih hl⟩
        obtain ⟨t, ht, hn⟩ := List.mem_map.1 hm
        have h1 := Improper.shared_mem ((Pod.mem_structsOf l t).1 ht)
        rw [hn] at h1
        have h2 := List.count_pos_iff.2 h1
        have := h s.name.rust
        rw [show Api.struct s :: l = [.struct s] ++ l from rfl, Improper.definitions_append, List.count_append] at this
        have h3 : (definitions [.struct s] s.name.rust).count .shared = 1 := by simp [definitions, defines]
        omega
      | _ => exact (by simpa [Pod.structsOf] using ih hl)
  apply key
  intro n
  rcases ((duplicates_exact _).1 hd).1 n with (hc | hc | hc) | (hc | hc | hc)
  · exact Nat.le_trans List.count_le_length hc
  all_goals (rw [hc]; decide)

/-- The structs written are the sorted ones that no header defines, in the sorted order. -/
theorem structs_written {apis : List Api} (hd : (collect apis).dups = []) {sorted : List Struct}
    (hs : sorted.Perm (Pod.structsOf apis)) :
    itemStructs (dataStructures (collect apis) sorted apis) =
      sorted.filter (fun n => decide (n.name.rust ∉ (collect apis).cxx)) := by
  have := dataLoop_structs (collect apis) (methodsFor apis) apis [] sorted
    (by simpa using ((hs.map (·.name.rust)).nodup_iff).2 (structs_nodup hd))
    (fun s h => by simpa using hs.mem_iff.2 ((Pod.mem_structsOf _ _).2 h))
    (fun s h => (Pod.mem_structsOf _ _).1 (hs.mem_iff.1 h))
  exact this

theorem dataLoop_enum {ts : Types} {methods : Ident → List ExternFn} {apis : List Api} {w : List Ident}
    {iter : List Struct} {e : Enum} : Item.enum e ∈ dataLoop ts methods apis w iter ↔
      Api.enum e ∈ apis ∧ e.name.rust ∉ ts.cxx := by
  induction apis generalizing w iter with
  | nil => simp [dataLoop]
  | cons a apis ih =>
    cases a with
    | struct s =>
      simp only [dataLoop]
      split
      · rw [ih]; simp
      · simp only [List.mem_append, ih]; simp
    | enum e' =>
      simp only [dataLoop, List.mem_append, ih, List.mem_cons, Api.enum.injEq]
      constructor
      · rintro (h | h)
        · split at h
          · next hc => simp at h; subst h; exact ⟨.inl rfl, hc⟩
          · split at h <;> simp at h
        · exact ⟨.inr h.1, h.2⟩
      · rintro ⟨rfl | h, hc⟩
        · left; rw [if_pos hc]; simp
        · exact .inr ⟨h, hc⟩
    | _ => simp only [dataLoop, List.mem_cons, ih]; simp

theorem dataLoop_opaque {ts : Types} {methods : Ident → List ExternFn} {apis : List Api} {w : List Ident}
    {iter : List Struct} {t : ExternType} {ms : List ExternFn} : Item.opaque t ms ∈ dataLoop ts methods apis w iter ↔
      Api.rustType t ∈ apis ∧ ms = methods t.name.rust := by
  induction apis generalizing w iter with
  | nil => simp [dataLoop]
  | cons a apis ih =>
    cases a with
    | struct s =>
      simp only [dataLoop]
      split
      · rw [ih]; simp
      · simp only [List.mem_append, ih]; simp
    | enum e' =>
      simp only [dataLoop, List.mem_append, ih, List.mem_cons]
      constructor
      · rintro (h | h)
        · split at h
          · simp at h
          · split at h <;> simp at h
        · simpa using h
      · intro h; right; simpa using h
    | rustType t' =>
      simp only [dataLoop, List.mem_cons, ih, Api.rustType.injEq, Item.opaque.injEq]
      constructor
      · rintro (⟨rfl, rfl⟩ | h)
        · exact ⟨.inl rfl, rfl⟩
        · exact ⟨.inr h.1, h.2⟩
      · rintro ⟨rfl | h, rfl⟩
        · exact .inl ⟨rfl, rfl⟩
        · exact .inr ⟨h, rfl⟩
    | _ => simp only [dataLoop, List.mem_cons, ih]; simp

theorem writeItems_mem {ts : Types} {is : List Item} {ds : List CDef} (h : writeItems ts is = some ds) (d : CDef) :
    d ∈ ds ↔ ∃ i ∈ is, writeItem ts i = some (some d) := by
  induction is generalizing ds with
  | nil => cases h; simp
  | cons i is ih =>
    simp only [writeItems] at h
    split at h
    · next o ds' h1 h2 =>
      cases h
      simp only [List.mem_append, Option.mem_toList, ih h2, List.mem_cons, exists_eq_or_imp, h1, Option.some.injEq,
        Option.mem_def]
    · cases h

theorem writeItems_some {ts : Types} {is : List Item} {ds : List CDef} (h : writeItems ts is = some ds) :
    ∀ i ∈ is, ∃ o, writeItem ts i = some o := by
  induction is generalizing ds with
  | nil => simp
  | cons i is ih =>
    simp only [writeItems] at h
    split at h
    · next o ds' h1 h2 =>
      intro j hj
      rcases List.mem_cons.1 hj with rfl | hj
      · exact ⟨_, h1⟩
      · exact ih h2 j hj
    · cases h

theorem item_struct_mem {is : List Item} {s : Struct} : s ∈ itemStructs is ↔ ∃ ms, Item.struct s ms ∈ is := by
  simp only [itemStructs, List.mem_filterMap]
  constructor
  · rintro ⟨i, hi, h⟩
    split at h
    · cases h; exact ⟨_, hi⟩
    · cases h
  · rintro ⟨ms, h⟩; exact ⟨_, h, rfl⟩

/-- Every C++ definition comes from a struct or enum that no header defines, or from an opaque Rust type. -/
theorem cxxDefs_mem {apis : List Api} (hd : (collect apis).dups = []) {sorted : List Struct}
    (hs : sorted.Perm (Pod.structsOf apis)) {ds : List CDef} (h : cxxDefs (collect apis) sorted apis = some ds)
    (d : CDef) : d ∈ ds ↔
      (∃ s, Api.struct s ∈ apis ∧ s.name.rust ∉ (collect apis).cxx ∧ writeStruct (collect apis) s = some d) ∨
      (∃ e, Api.enum e ∈ apis ∧ e.name.rust ∉ (collect apis).cxx ∧ writeEnum e = some d) ∨
      (∃ t, Api.rustType t ∈ apis ∧ writeOpaque t = some d) := by
  rw [writeItems_mem h]
  have hst : ∀ s, (∃ ms, Item.struct s ms ∈ dataStructures (collect apis) sorted apis) ↔
      Api.struct s ∈ apis ∧ s.name.rust ∉ (collect apis).cxx := by
    intro s
    rw [← item_struct_mem, structs_written hd hs, List.mem_filter, hs.mem_iff, Pod.mem_structsOf]
    simp
  constructor
  · rintro ⟨i, hi, hw⟩
    cases i with
    | struct s ms =>
      obtain ⟨h1, h2⟩ := (hst s).1 ⟨ms, hi⟩
      exact .inl ⟨s, h1, h2, by simpa [writeItem] using hw⟩
    | enum e =>
      obtain ⟨h1, h2⟩ := dataLoop_enum.1 hi
      exact .inr (.inl ⟨e, h1, h2, by simpa [writeItem] using hw⟩)
    | checkEnum e => simp [writeItem] at hw
    | «opaque» t ms =>
      obtain ⟨h1, h2⟩ := dataLoop_opaque.1 hi
      exact .inr (.inr ⟨t, h1, by simpa [writeItem] using hw⟩)
  · rintro (⟨s, h1, h2, hw⟩ | ⟨e, h1, h2, hw⟩ | ⟨t, h1, hw⟩)
    · obtain ⟨ms, hm⟩ := (hst s).2 ⟨h1, h2⟩
      exact ⟨_, hm, by simp [writeItem, hw]⟩
    · exact ⟨_, dataLoop_enum.2 ⟨h1, h2⟩, by simp [writeItem, hw]⟩
    · exact ⟨_, dataLoop_opaque.2 ⟨h1, rfl⟩, by simp [writeItem, hw]⟩

/-! ### Which definition a name refers to -/

theorem resolves_defines {a : Api} {p : Pair} {gs : List Ident} (h : resolves a = some (p, gs)) :
    ∃ k, defines a = some (p.rust, k) := by
  cases a <;> simp [resolves, defines] at h ⊢ <;> (obtain ⟨rfl, rfl⟩ := h; rfl)

theorem header_cxx {apis : List Api} {n : Ident} (h : FromHeader apis n) : n ∈ (collect apis).cxx := by
  rw [(knows apis).cxx]
  rcases h with h | h | ⟨_, h⟩
  · exact ⟨_, h, .inr (.inl rfl)⟩
  · exact ⟨_, h, .inr (.inr rfl)⟩
  · exact ⟨_, h, .inl rfl⟩

/-- A bridge, with everything the two generators know about it. -/
structure Setting (g : Generator) (apis : List Api) (sorted : List Struct) (ds : List CDef) : Prop where
  accepted : Accepted g apis
  lexical : LexicalBridge apis
  parsed : Parsed apis
  distinct : CxxNamesDistinct apis
  perm : sorted.Perm (Pod.structsOf apis)
  defs : cxxDefs (collect apis) sorted apis = some ds

variable {g : Generator} {apis : List Api} {sorted : List Struct} {ds : List CDef}

/-- The item a definition comes from. -/
theorem origin (S : Setting g apis sorted ds) {d : CDef} (hd : d ∈ ds) :
    ∃ a ∈ apis, (∃ gs, resolves a = some (d.name, gs)) ∧
      ((∃ s, a = .struct s ∧ s.name.rust ∉ (collect apis).cxx ∧ writeStruct (collect apis) s = some d) ∨
       (∃ e, a = .enum e ∧ e.name.rust ∉ (collect apis).cxx ∧ writeEnum e = some d) ∨
       (∃ t, a = .rustType t ∧ writeOpaque t = some d)) := by
  rcases (cxxDefs_mem S.accepted.1 S.perm S.defs d).1 hd with ⟨s, h1, h2, h3⟩ | ⟨e, h1, h2, h3⟩ | ⟨t, h1, h3⟩
  · have : d.name = s.name := by
      unfold writeStruct at h3
      split at h3 <;> simp at h3; rw [← h3]
    exact ⟨_, h1, ⟨s.generics, by simp [resolves, this]⟩, .inl ⟨s, rfl, h2, h3⟩⟩
  · have : d.name = e.name := by
      unfold writeEnum at h3
      obtain ⟨x, _, hx⟩ := Option.map_eq_some_iff.1 h3
      rw [← hx]
    exact ⟨_, h1, ⟨e.generics, by simp [resolves, this]⟩, .inr (.inl ⟨e, rfl, h2, h3⟩)⟩
  · have : d.name = t.name := by
      unfold writeOpaque at h3
      obtain ⟨x, _, hx⟩ := Option.map_eq_some_iff.1 h3
      rw [← hx]
    exact ⟨_, h1, ⟨t.generics, by simp [resolves, this]⟩, .inr (.inr ⟨t, rfl, h3⟩)⟩

/-- A definition with the C++ name of a type is a definition of that type. -/
theorem origin_name (S : Setting g apis sorted ds) {d : CDef} (hd : d ∈ ds) {n : Ident} {p : Pair}
    (hn : Names apis n p) (hp : SameName d.name p) : d.name.rust = n := by
  obtain ⟨a, ha, ⟨gs, har⟩, _⟩ := origin S hd
  obtain ⟨rfl, b, hb, hs, hbr⟩ := hn
  exact S.distinct a ha b hb _ _ _ _ har hbr hp

/-- Types from headers are not defined. -/
theorem header_undefined (S : Setting g apis sorted ds) {n : Ident} (hh : FromHeader apis n) {p : Pair}
    (hn : Names apis n p) : ∀ d ∈ ds, ¬ SameName d.name p := by
  intro d hd hp
  have hr := origin_name S hd hn hp
  obtain ⟨a, ha, ⟨gs, har⟩, ho⟩ := origin S hd
  have hc := header_cxx hh
  rcases ho with ⟨s, rfl, h2, _⟩ | ⟨e, rfl, h2, _⟩ | ⟨t, rfl, _⟩
  · simp only [resolves, Option.some.injEq, Prod.mk.injEq] at har
    rw [har.1, hr] at h2; exact h2 hc
  · simp only [resolves, Option.some.injEq, Prod.mk.injEq] at har
    rw [har.1, hr] at h2; exact h2 hc
  · simp only [resolves, Option.some.injEq, Prod.mk.injEq] at har
    have hk : Kind.rust ∈ definitions apis n := def_mem ha (by simp [defines, har.1, hr])
    unfold FromHeader at hh
    rcases ((duplicates_exact _).1 S.accepted.1).1 n with (hc | hc | hc) | (hc | hc | hc)
    · match hl : definitions apis n, hc with
      | [], _ => rw [hl] at hk; cases hk
      | [k], _ => rw [hl] at hk hh; simp at hk; subst hk; simp at hh
    all_goals (rw [hc] at hk; simp at hk)

theorem inEffect_mem {d : CDef} (h : InEffect ds d) : d ∈ ds := by
  obtain ⟨pre, post, rfl, _⟩ := h; simp

/-- Some definition with the same guard is in effect. -/
theorem inEffect_guard {d : CDef} (h : d ∈ ds) : ∃ d', InEffect ds d' ∧ d'.guard = d.guard := by
  induction ds with
  | nil => cases h
  | cons e ds ih =>
    by_cases he : e.guard = d.guard
    · exact ⟨e, ⟨[], ds, rfl, by simp⟩, he⟩
    · rcases List.mem_cons.1 h with rfl | h
      · exact absurd rfl he
      · obtain ⟨d', ⟨pre, post, rfl, hp⟩, hg⟩ := ih h
        refine ⟨d', ⟨e :: pre, post, rfl, fun x hx => ?_⟩, hg⟩
        rcases List.mem_cons.1 hx with rfl | hx
        · rwa [hg]
        · exact hp x hx

theorem item_lexical (S : Setting g apis sorted ds) {a : Api} (ha : a ∈ apis) {p : Pair} {gs : List Ident}
    (h : resolves a = some (p, gs)) : LexicalPair p := by
  apply S.lexical a ha
  cases a <;> simp [resolves] at h <;> simp [namesOf, h.1]

/-- Definitions with equal guards have equal names. -/
theorem guard_name (S : Setting g apis sorted ds) {d d' : CDef} (hd : d ∈ ds) (hd' : d' ∈ ds)
    (hg : d'.guard = d.guard) : SameName d'.name d.name := by
  have kind : ∀ {d : CDef}, d ∈ ds → LexicalPair d.name ∧
      (structGuard d.name = some d.guard ∨ enumGuard d.name = some d.guard) := by
    intro d hd
    obtain ⟨a, ha, ⟨gs, har⟩, ho⟩ := origin S hd
    refine ⟨item_lexical S ha har, ?_⟩
    rcases ho with ⟨s, rfl, _, hw⟩ | ⟨e, rfl, _, hw⟩ | ⟨t, rfl, hw⟩
    · unfold writeStruct at hw
      split at hw
      · next h1 h2 => cases hw; exact .inl h1
      · cases hw
    · obtain ⟨x, h1, hx⟩ := Option.map_eq_some_iff.1 hw
      cases hx; exact .inr h1
    · obtain ⟨x, h1, hx⟩ := Option.map_eq_some_iff.1 hw
      cases hx; exact .inl h1
  obtain ⟨l, k⟩ := kind hd
  obtain ⟨l', k'⟩ := kind hd'
  obtain ⟨_, _, h1, h2, h3⟩ := guards_distinct l' l
  obtain ⟨_, _, _, _, h3'⟩ := guards_distinct l l'
  rw [hg] at k'
  rcases k with k | k <;> rcases k' with k' | k'
  · exact h1.1 (k'.trans k.symm)
  · exact absurd (k.trans k'.symm) h3'
  · exact absurd (k'.trans k.symm) h3
  · exact h2.1 (k'.trans k.symm)

/-- The struct or enum behind the name of a type that is used by value and that no header defines, with its
definition, which is the only one of that name. -/
inductive Meaning (apis : List Api) (ds : List CDef) (n : Ident) (p : Pair) : Prop
  | struct (s : Struct) (hs : Api.struct s ∈ apis) (hn : s.name.rust = n) (hp : p = s.name) (d : CDef)
      (hw : writeStruct (collect apis) s = some d) (hd : InEffect ds d)
      (hu : ∀ d' ∈ ds, SameName d'.name p → d' = d)
      (hr : ∀ r ∈ rustDefs apis, r.name = n → r = expandStruct s)
  | enum (e : Enum) (he : Api.enum e ∈ apis) (hn : e.name.rust = n) (hp : p = e.name) (d : CDef)
      (hw : writeEnum e = some d) (hd : InEffect ds d) (hu : ∀ d' ∈ ds, SameName d'.name p → d' = d)
      (hr : ∀ r ∈ rustDefs apis, r.name = n → r = expandEnum e)

theorem rustDefs_mem {r : RDef} (h : r ∈ rustDefs apis) :
    ∃ a ∈ apis, ∃ k, defines a = some (r.name, k) ∧
      ((∃ s, a = .struct s ∧ r = expandStruct s) ∨ (∃ e, a = .enum e ∧ r = expandEnum e)) := by
  simp only [rustDefs, List.mem_filterMap] at h
  obtain ⟨a, ha, h⟩ := h
  cases a <;> simp at h
  · subst h; exact ⟨_, ha, .shared, rfl, .inl ⟨_, rfl, rfl⟩⟩
  · subst h; exact ⟨_, ha, _, rfl, .inr ⟨_, rfl, rfl⟩⟩

theorem meaning_shared (S : Setting g apis sorted ds) {n : Ident} (hshared : Kind.shared ∈ definitions apis n)
    (hh : ¬ FromHeader apis n) {p : Pair} (hnames : Names apis n p) : Meaning apis ds n p := by
  obtain ⟨hpr, a, ha, gs, har⟩ := hnames
  obtain ⟨k, hk⟩ := resolves_defines har
  rw [hpr] at hk
  have hkm := def_mem ha hk
  have honly := shared_only S.accepted.1 hshared hh
  have hncxx : n ∉ (collect apis).cxx := fun h => hh ((not_cxx hshared).1 h)
  have hkind : k = .shared := by
    unfold Only at honly
    match hl : definitions apis n, honly with
    | [], _ => rw [hl] at hkm; cases hkm
    | [j], _ => rw [hl] at hkm hshared; simp at hkm hshared; rw [hkm, ← hshared]
  subst hkind
  -- the only definition
  have huniq : ∀ d ∈ ds, ∀ d' ∈ ds, SameName d.name p → SameName d'.name p → d' = d := by
    intro d hd d' hd' h1 h2
    have r1 := origin_name S hd ⟨hpr, a, ha, gs, har⟩ h1
    have r2 := origin_name S hd' ⟨hpr, a, ha, gs, har⟩ h2
    obtain ⟨b, hb, ⟨_, hbr⟩, o1⟩ := origin S hd
    obtain ⟨b', hb', ⟨_, hbr'⟩, o2⟩ := origin S hd'
    obtain ⟨j, hj⟩ := resolves_defines hbr
    obtain ⟨j', hj'⟩ := resolves_defines hbr'
    rw [r1] at hj
    rw [r2] at hj'
    have e1 := only_eq honly hb hb' hj hj'
    subst e1
    rcases o1 with ⟨s, rfl, _, w1⟩ | ⟨e, rfl, _, w1⟩ | ⟨x, rfl, w1⟩
    · rcases o2 with ⟨s', e, _, w2⟩ | ⟨e', e, _⟩ | ⟨x', e, _⟩
      · cases e; exact Option.some.inj (w2.symm.trans w1)
      · cases e
      · cases e
    · rcases o2 with ⟨s', e, _⟩ | ⟨e', e, _, w2⟩ | ⟨x', e, _⟩
      · cases e
      · cases e; exact Option.some.inj (w2.symm.trans w1)
      · cases e
    · rcases o2 with ⟨s', e, _⟩ | ⟨e', e, _, w2⟩ | ⟨x', e, w2⟩
      · cases e
      · cases e
      · cases e; exact Option.some.inj (w2.symm.trans w1)
  have heff : ∀ d ∈ ds, d.name = p → InEffect ds d := by
    intro d hd hn
    obtain ⟨d', hd', hg⟩ := inEffect_guard hd
    have := guard_name S hd (inEffect_mem hd') hg
    rw [← huniq d hd d' (inEffect_mem hd') (by rw [hn]; exact ⟨rfl, rfl⟩) (hn ▸ this)]
    exact hd'
  have hwrites := writeItems_some S.defs
  cases a with
  | struct s =>
    simp only [resolves, Option.some.injEq, Prod.mk.injEq] at har
    obtain ⟨rfl, rfl⟩ := har
    have hsn : s.name.rust ∉ (collect apis).cxx := hpr ▸ hncxx
    obtain ⟨ms, hm⟩ := (item_struct_mem (is := dataStructures (collect apis) sorted apis) (s := s)).1 (by
      rw [structs_written S.accepted.1 S.perm, List.mem_filter, S.perm.mem_iff, Pod.mem_structsOf]
      exact ⟨ha, by simpa using hsn⟩)
    obtain ⟨o, ho⟩ := hwrites _ hm
    simp only [writeItem] at ho
    obtain ⟨d, hd, rfl⟩ := Option.map_eq_some_iff.1 ho
    have hdm : d ∈ ds := (cxxDefs_mem S.accepted.1 S.perm S.defs d).2 (.inl ⟨s, ha, hsn, hd⟩)
    have hdn : d.name = s.name := by
      unfold writeStruct at hd
      split at hd <;> simp at hd; rw [← hd]
    refine .struct s ha hpr rfl d hd (heff d hdm hdn)
      (fun d' hd' h => huniq d hdm d' hd' (by rw [hdn]; exact ⟨rfl, rfl⟩) h) (fun r hr hrn => ?_)
    obtain ⟨b, hb, j, hj, h⟩ := rustDefs_mem hr
    rw [hrn] at hj
    have := only_eq honly ha hb hk hj
    subst this
    rcases h with ⟨s', e, h⟩ | ⟨e', e, _⟩
    · cases e; exact h
    · cases e
  | enum e =>
    simp only [resolves, Option.some.injEq, Prod.mk.injEq] at har
    obtain ⟨rfl, rfl⟩ := har
    have hsn : e.name.rust ∉ (collect apis).cxx := hpr ▸ hncxx
    obtain ⟨o, ho⟩ := hwrites _ (dataLoop_enum.2 ⟨ha, hsn⟩)
    simp only [writeItem] at ho
    obtain ⟨d, hd, rfl⟩ := Option.map_eq_some_iff.1 ho
    have hdm : d ∈ ds := (cxxDefs_mem S.accepted.1 S.perm S.defs d).2 (.inr (.inl ⟨e, ha, hsn, hd⟩))
    have hdn : d.name = e.name := by
      unfold writeEnum at hd
      obtain ⟨x, _, hx⟩ := Option.map_eq_some_iff.1 hd
      rw [← hx]
    refine .enum e ha hpr rfl d hd (heff d hdm hdn)
      (fun d' hd' h => huniq d hdm d' hd' (by rw [hdn]; exact ⟨rfl, rfl⟩) h) (fun r hr hrn => ?_)
    obtain ⟨b, hb, j, hj, h⟩ := rustDefs_mem hr
    rw [hrn] at hj
    have := only_eq honly ha hb hk hj
    subst this
    rcases h with ⟨s', e, _⟩ | ⟨e', e, h⟩
    · cases e
    · cases e; exact h
  | _ => simp [defines] at hk

theorem meaning (S : Setting g apis sorted ds) {t : NamedType}
    (hu : isUnsized (cxOf g apis) (.ident t) = false)
    (hh : ¬ FromHeader apis t.rust) {p : Pair} (hp : resolve (collect apis) t.rust = some p) :
    Meaning apis ds t.rust p := by
  have hnames := names_of_resolve hp
  refine meaning_shared S ?_ hh hnames
  have hnb := not_by_value_of_sized S.accepted.1 hu _ (.self _)
  obtain ⟨hpr, a, ha, gs, har⟩ := hnames
  obtain ⟨k, hk⟩ := resolves_defines har
  rw [hpr] at hk
  have hkm := def_mem ha hk
  by_cases hs : Kind.shared ∈ definitions apis t.rust
  · exact hs
  · exfalso
    cases k with
    | shared => exact hs hkm
    | headerEnum => exact hh (.inr (.inl hkm))
    | «alias» => exact hh (.inl hkm)
    | rust => exact hnb (.opaqueRust t hkm)
    | cxx => exact hnb (.opaqueCxx t ⟨hkm, hs, fun h => hh (.inr (.inl h))⟩)

theorem writeFields_get {ts : Types} {fs : List Var} {cs : List (Ident × CTok)} (h : writeFields ts fs = some cs) :
    cs.length = fs.length ∧ ∀ (i : Nat) (f : Var), fs[i]? = some f → ∃ c, writeType ts f.ty = some c ∧
      cs[i]? = some (f.name.cxx, c) := by
  induction fs generalizing cs with
  | nil => cases h; simp
  | cons f fs ih =>
    simp only [writeFields] at h
    split at h
    · next c cs' h1 h2 =>
      cases h
      obtain ⟨e1, e2⟩ := ih h2
      refine ⟨by simp [e1], fun i x hx => ?_⟩
      cases i with
      | zero => simp at hx; subst hx; exact ⟨c, h1, by simp⟩
      | succ i => simpa using e2 i x (by simpa using hx)
    · cases h

theorem writeStruct_fields {ts : Types} {s : Struct} {d : CDef} (h : writeStruct ts s = some d) :
    ∃ cs, writeFields ts s.fields = some cs ∧ d.body = .struct cs ∧ d.name = s.name := by
  unfold writeStruct at h
  split at h
  · next g cs h1 h2 => cases h; exact ⟨cs, h2, rfl, rfl⟩
  · cases h

theorem writeEnum_body {e : Enum} {d : CDef} (h : writeEnum e = some d) : d.body = .enum e.repr ∧ d.name = e.name := by
  unfold writeEnum at h
  obtain ⟨x, _, hx⟩ := Option.map_eq_some_iff.1 h
  rw [← hx]; exact ⟨rfl, rfl⟩

/-- The fields of a struct occur and are sized; there is at least one. -/
theorem fields_ok (h : Accepted g apis) {s : Struct} (hs : Api.struct s ∈ apis) :
    s.fields ≠ [] ∧ ∀ f ∈ s.fields, Occurs apis f.ty ∧ isUnsized (cxOf g apis) f.ty = false := by
  have hc := accepted_api h hs
  simp only [checkApi, checkApiStruct, List.append_eq_nil_iff, List.flatMap_eq_nil_iff] at hc
  obtain ⟨⟨⟨⟨_, he⟩, _⟩, _⟩, hf⟩ := hc
  constructor
  · intro hn; simp [hn] at he
  · intro f hm
    refine ⟨⟨_, hs, f.ty, List.mem_map.2 ⟨f, hm, rfl⟩, .self _⟩, ?_⟩
    have := hf f hm
    split at this
    · cases this
    · split at this
      · cases this
      · next h => simpa using h

theorem record_same {ls : List Lay} (h : ls ≠ []) : cxxRecord ls = rustRecord ls := by
  simp [cxxRecord, rustRecord, h]

theorem array_ok (h : Accepted g apis) {t : Ty} {n : Nat} (ho : Occurs apis (.array t n)) :
    Occurs apis t ∧ isUnsized (cxOf g apis) t = false := by
  refine ⟨occurs_part ho (.array t n), ?_⟩
  have := accepted_type h ho
  simp only [checkType, checkTypeArray] at this
  split at this
  · cases this
  · next h => simpa using h

variable {m : Machine} {imported : Ident → Option Lay} {header : Pair → Option Lay}

theorem header_case (S : Setting g apis sorted ds) (hv : Vouched m imported header apis) {t : NamedType}
    (hh : FromHeader apis t.rust) {p : Pair} (hp : resolve (collect apis) t.rust = some p) {l : Lay}
    (h : RustLayout m imported (rustDefs apis) (.ident t) l) : CxxLayout m header ds (.named p) l :=
  .header p (header_undefined S hh (names_of_resolve hp)) l ((hv t hh p (names_of_resolve hp) l).1 h)

theorem writeType_named {t : NamedType} {c : CTok} (hb : Atom.fromStr t.rust = none)
    (h : writeType (collect apis) (.ident t) = some c) :
    ∃ p, resolve (collect apis) t.rust = some p ∧ c = .named p := by
  simp only [writeType, hb] at h
  obtain ⟨p, h1, h2⟩ := Option.map_eq_some_iff.1 h
  exact ⟨p, h1, h2.symm⟩

theorem rust_to_cxx (S : Setting g apis sorted ds) (hv : Vouched m imported header apis) {ty : Ty} {l : Lay}
    (h : RustLayout m imported (rustDefs apis) ty l) (ho : Occurs apis ty)
    (hu : isUnsized (cxOf g apis) ty = false) (c : CTok) (hc : writeType (collect apis) ty = some c) :
    CxxLayout m header ds c l := by
  induction h generalizing c with
  | number t a h hn => simp only [writeType, h] at hc; cases hc; exact .number a hn
  | string t h => simp only [writeType, h] at hc; cases hc; exact .string
  | reprC t hb d hd hn hr ls hl hf ih =>
    obtain ⟨p, hp, rfl⟩ := writeType_named hb hc
    by_cases hh : FromHeader apis t.rust
    · exact header_case S hv hh hp (.reprC t hb d hd hn hr ls hl hf)
    cases meaning S hu hh hp with
    | struct s hs hsn hpn d' hw hd' hu' hrr =>
      have := hrr d hd hn
      subst this
      obtain ⟨cs, hcs, hbody, hdn⟩ := writeStruct_fields hw
      obtain ⟨e1, e2⟩ := writeFields_get hcs
      obtain ⟨hne, hfo⟩ := fields_ok S.accepted hs
      have hlne : ls ≠ [] := by
        rintro rfl; simp only [expandStruct, List.length_nil, List.length_map] at hl; exact hne (List.length_eq_zero_iff.1 hl.symm)
      rw [← record_same hlne]
      refine .struct p d' hd' (by rw [hdn, hpn]; exact ⟨rfl, rfl⟩) cs hbody ls
        (by rw [hl, e1]; simp [expandStruct]) (fun i f l hf' hl' => ?_)
      have hi : i < s.fields.length := by
        rw [← e1]; exact (List.getElem?_eq_some_iff.1 hf').1
      have hfi : s.fields[i]? = some s.fields[i] := List.getElem?_eq_getElem hi
      obtain ⟨c, hc1, hc2⟩ := e2 i _ hfi
      rw [hf'] at hc2
      obtain ⟨ho', hu'⟩ := hfo _ (List.getElem_mem hi)
      have := ih i (s.fields[i].name.rust, s.fields[i].ty) l (by simp [expandStruct, hi]) hl' ho' hu' c hc1
      cases hc2
      exact this
    | enum e he hen hpn d' hw hd' hu' hrr =>
      have := hrr d hd hn
      subst this
      simp [expandEnum] at hr
  | transparent t hb d hd hn hr f hf l h ih =>
    obtain ⟨p, hp, rfl⟩ := writeType_named hb hc
    by_cases hh : FromHeader apis t.rust
    · exact header_case S hv hh hp (.transparent t hb d hd hn hr f hf l h)
    cases meaning S hu hh hp with
    | struct s hs hsn hpn d' hw hd' hu' hrr =>
      have := hrr d hd hn
      subst this
      simp [expandStruct] at hr
    | enum e he hen hpn d' hw hd' hu' hrr =>
      have := hrr d hd hn
      subst this
      obtain ⟨hbody, hdn⟩ := writeEnum_body hw
      simp only [expandEnum, List.cons.injEq, and_true] at hf
      subst hf
      have hnum := S.parsed.enums e he
      have hat : Atom.fromStr e.repr.asRef = some e.repr := (Atom.fromStr_eq_some_iff _ _).2 rfl
      cases h with
      | number t a h hn => simp only [hat] at h; cases h; exact .enum p d' hd' (by rw [hdn, hpn]; exact ⟨rfl, rfl⟩) _ hbody hnum
      | string t h => simp only [hat, Option.some.injEq] at h; exact absurd h hnum.1
      | reprC t hb => rw [hat] at hb; cases hb
      | transparent t hb => rw [hat] at hb; cases hb
      | imported t hb => rw [hat] at hb; cases hb
  | imported t hb hn l h =>
    obtain ⟨p, hp, rfl⟩ := writeType_named hb hc
    by_cases hh : FromHeader apis t.rust
    · exact header_case S hv hh hp (.imported t hb hn l h)
    exfalso
    cases meaning S hu hh hp with
    | struct s hs hsn =>
      exact hn (expandStruct s) (List.mem_filterMap.2 ⟨_, hs, rfl⟩) hsn
    | enum e he hen =>
      exact hn (expandEnum e) (List.mem_filterMap.2 ⟨_, he, rfl⟩) hen
  | fn => simp [isUnsized] at hu
  | array t n l h ih =>
    simp only [writeType] at hc
    obtain ⟨c', hc', rfl⟩ := Option.map_eq_some_iff.1 hc
    obtain ⟨h1, h2⟩ := array_ok S.accepted ho
    exact .array c' n (S.parsed.arrays t n ho) l (ih h1 h2 c' hc')
  | str => simp only [writeType] at hc; cases hc; exact .str
  | _ =>
    simp only [writeType] at hc
    obtain ⟨c', hc', rfl⟩ := Option.map_eq_some_iff.1 hc
    constructor

theorem cxx_to_rust (S : Setting g apis sorted ds) (hv : Vouched m imported header apis) {c : CTok} {l : Lay}
    (h : CxxLayout m header ds c l) (ty : Ty) (ho : Occurs apis ty)
    (hu : isUnsized (cxOf g apis) ty = false) (hc : writeType (collect apis) ty = some c) :
    RustLayout m imported (rustDefs apis) ty l := by
  -- named types from headers
  have hdr : ∀ (t : NamedType) (p : Pair) (l : Lay), Atom.fromStr t.rust = none → FromHeader apis t.rust →
      resolve (collect apis) t.rust = some p → CxxLayout m header ds (.named p) l →
      RustLayout m imported (rustDefs apis) (.ident t) l := by
    intro t p l hb hh hp h
    have hn := header_undefined S hh (names_of_resolve hp)
    apply (hv t hh p (names_of_resolve hp) l).2
    cases h with
    | struct p d hd hn' => exact absurd hn' (hn d (inEffect_mem hd))
    | enum p d hd hn' => exact absurd hn' (hn d (inEffect_mem hd))
    | header p _ l h => exact h
  -- the type behind a C++ name
  have named : ∀ {ty : Ty} {p : Pair}, writeType (collect apis) ty = some (.named p) →
      ∃ t, ty = .ident t ∧ Atom.fromStr t.rust = none ∧ resolve (collect apis) t.rust = some p := by
    intro ty p h
    cases ty <;> simp only [writeType, reduceCtorEq] at h
    case ident t =>
      cases hb : Atom.fromStr t.rust with
      | some a => simp [hb] at h
      | none =>
        simp only [hb] at h
        obtain ⟨q, h1, h2⟩ := Option.map_eq_some_iff.1 h
        cases h2
        exact ⟨t, rfl, hb, h1⟩
    case fn => split at h <;> cases h
    all_goals first
      | (obtain ⟨x, _, hx⟩ := Option.map_eq_some_iff.1 h; cases hx; done)
      | (cases h; done)
  induction h generalizing ty with
  | number a hn =>
    cases ty <;> simp only [writeType, reduceCtorEq] at hc
    case ident t =>
      cases hb : Atom.fromStr t.rust with
      | some a' => simp only [hb] at hc; cases hc; exact .number t _ hb hn
      | none => simp [hb] at hc
    case fn => split at hc <;> cases hc
    all_goals first
      | (obtain ⟨x, _, hx⟩ := Option.map_eq_some_iff.1 hc; cases hx; done)
      | (cases hc; done)
  | string =>
    cases ty <;> simp only [writeType, reduceCtorEq] at hc
    case ident t =>
      cases hb : Atom.fromStr t.rust with
      | some a' => simp only [hb] at hc; cases hc; exact .string t hb
      | none => simp [hb] at hc
    case fn => split at hc <;> cases hc
    all_goals first
      | (obtain ⟨x, _, hx⟩ := Option.map_eq_some_iff.1 hc; cases hx; done)
      | (cases hc; done)
  | struct p d hd hn fields hbody ls hl hf ih =>
    obtain ⟨t, rfl, hb, hp⟩ := named hc
    by_cases hh : FromHeader apis t.rust
    · exact hdr t p _ hb hh hp (.struct p d hd hn fields hbody ls hl hf)
    cases meaning S hu hh hp with
    | struct s hs hsn hpn d' hw hd' hu' hrr =>
      have := hu' d (inEffect_mem hd) hn
      subst this
      obtain ⟨cs, hcs, hbody', hdn⟩ := writeStruct_fields hw
      rw [hbody] at hbody'
      cases hbody'
      obtain ⟨e1, e2⟩ := writeFields_get hcs
      obtain ⟨hne, hfo⟩ := fields_ok S.accepted hs
      have hlne : ls ≠ [] := by
        rintro rfl; rw [e1] at hl; exact hne (List.length_eq_zero_iff.1 hl.symm)
      rw [record_same hlne]
      refine .reprC t hb (expandStruct s) (List.mem_filterMap.2 ⟨_, hs, rfl⟩) hsn rfl ls
        (by rw [hl, e1]; simp [expandStruct]) (fun i f l hf' hl' => ?_)
      simp only [expandStruct, List.getElem?_map, Option.map_eq_some_iff] at hf'
      obtain ⟨v, hv1, rfl⟩ := hf'
      obtain ⟨c, hc1, hc2⟩ := e2 i v hv1
      obtain ⟨ho', hu'⟩ := hfo _ (List.mem_of_getElem? hv1)
      exact ih i _ l hc2 hl' v.ty ho' hu' hc1
    | enum e he hen hpn d' hw hd' hu' hrr =>
      have := hu' d (inEffect_mem hd) hn
      subst this
      rw [(writeEnum_body hw).1] at hbody
      cases hbody
  | enum p d hd hn repr hbody hr =>
    obtain ⟨t, rfl, hb, hp⟩ := named hc
    by_cases hh : FromHeader apis t.rust
    · exact hdr t p _ hb hh hp (.enum p d hd hn repr hbody hr)
    cases meaning S hu hh hp with
    | struct s hs hsn hpn d' hw hd' hu' hrr =>
      have := hu' d (inEffect_mem hd) hn
      subst this
      obtain ⟨cs, hcs, hbody', hdn⟩ := writeStruct_fields hw
      rw [hbody] at hbody'
      cases hbody'
    | enum e he hen hpn d' hw hd' hu' hrr =>
      have := hu' d (inEffect_mem hd) hn
      subst this
      rw [(writeEnum_body hw).1] at hbody
      cases hbody
      have hat : Atom.fromStr e.repr.asRef = some e.repr := (Atom.fromStr_eq_some_iff _ _).2 rfl
      exact .transparent t hb (expandEnum e) (List.mem_filterMap.2 ⟨_, he, rfl⟩) hen rfl _ rfl _
        (.number _ _ hat hr)
  | header p hn l h =>
    obtain ⟨t, rfl, hb, hp⟩ := named hc
    by_cases hh : FromHeader apis t.rust
    · exact hdr t p _ hb hh hp (.header p hn l h)
    exfalso
    cases meaning S hu hh hp with
    | struct s hs hsn hpn d' hw hd' =>
      exact hn d' (inEffect_mem hd') (by rw [(writeStruct_fields hw).choose_spec.2.2, hpn]; exact ⟨rfl, rfl⟩)
    | enum e he hen hpn d' hw hd' =>
      exact hn d' (inEffect_mem hd') (by rw [(writeEnum_body hw).2, hpn]; exact ⟨rfl, rfl⟩)
  | fn as r =>
    cases ty <;> simp only [writeType, reduceCtorEq] at hc
    case ident t =>
      cases hb : Atom.fromStr t.rust with
      | some a' => simp [hb] at hc
      | none => simp [hb] at hc
    case fn => simp [isUnsized] at hu
    all_goals first
      | (obtain ⟨x, _, hx⟩ := Option.map_eq_some_iff.1 hc; cases hx; done)
      | (cases hc; done)
  | array c n hn l h ih =>
    cases ty <;> simp only [writeType, reduceCtorEq] at hc
    case ident t =>
      cases hb : Atom.fromStr t.rust with
      | some a' => simp [hb] at hc
      | none => simp [hb] at hc
    case fn => simp [isUnsized] at hu
    case array t k =>
      obtain ⟨x, hx, he⟩ := Option.map_eq_some_iff.1 hc
      cases he
      obtain ⟨h1, h2⟩ := array_ok S.accepted ho
      exact .array t n l (ih t h1 h2 hx)
    all_goals first
      | (obtain ⟨x, _, hx⟩ := Option.map_eq_some_iff.1 hc; cases hx; done)
      | (cases hc; done)
  | _ =>
    cases ty <;> simp only [writeType, reduceCtorEq] at hc
    case ident t =>
      cases hb : Atom.fromStr t.rust with
      | some a' => simp [hb] at hc
      | none => simp [hb] at hc
    case fn => simp [isUnsized] at hu
    all_goals first
      | (obtain ⟨x, _, hx⟩ := Option.map_eq_some_iff.1 hc; cases hx; done)
      | (cases hc; done)
      | constructor

/-! ### The generators do not panic on definitions -/

theorem writeFields_some {ts : Types} {fs : List Var} (h : ∀ f ∈ fs, ∃ c, writeType ts f.ty = some c) :
    ∃ cs, writeFields ts fs = some cs := by
  induction fs with
  | nil => exact ⟨[], rfl⟩
  | cons f fs ih =>
    obtain ⟨c, hc⟩ := h f (by simp)
    obtain ⟨cs, hcs⟩ := ih (fun f hf => h f (by simp [hf]))
    exact ⟨_, by simp only [writeFields, hc, hcs]; rfl⟩

theorem sized_not_bare {ty : Ty} (hu : isUnsized (cxOf g apis) ty = false) : ¬ Bare ty := by
  cases ty <;> simp_all [isUnsized, Bare]

theorem writeStruct_some (h : Accepted g apis) (hlex : LexicalBridge apis) {s : Struct} (hs : Api.struct s ∈ apis) :
    ∃ d, writeStruct (collect apis) s = some d := by
  obtain ⟨cs, hcs⟩ := writeFields_some (ts := collect apis) (fs := s.fields) (fun f hf => by
    obtain ⟨ho, hu⟩ := (fields_ok h hs).2 f hf
    obtain ⟨c, hc, _⟩ := write_agrees (cx := ⟨collect apis, [], 0⟩) h f.ty ho (sized_not_bare hu)
    exact ⟨c, hc⟩)
  have hl : LexicalPair s.name := hlex _ hs _ (by simp [namesOf])
  obtain ⟨⟨gd, hg⟩, _⟩ := guards_distinct hl hl
  exact ⟨_, by simp only [writeStruct, hg, hcs]; rfl⟩

theorem cxxDefs_some (h : Accepted g apis) (hlex : LexicalBridge apis) (hs : sorted.Perm (Pod.structsOf apis)) :
    ∃ ds, cxxDefs (collect apis) sorted apis = some ds := by
  have key : ∀ is : List Item, (∀ i ∈ is, ∃ o, writeItem (collect apis) i = some o) →
      ∃ ds, writeItems (collect apis) is = some ds := by
    intro is
    induction is with
    | nil => intro _; exact ⟨[], rfl⟩
    | cons i is ih =>
      intro hi
      obtain ⟨o, ho⟩ := hi i (by simp)
      obtain ⟨ds, hds⟩ := ih (fun i h => hi i (by simp [h]))
      exact ⟨_, by simp only [writeItems, ho, hds]; rfl⟩
  apply key
  intro i hi
  cases i with
  | struct s ms =>
    have := item_struct_mem.2 ⟨ms, hi⟩
    rw [structs_written h.1 hs, List.mem_filter, hs.mem_iff, Pod.mem_structsOf] at this
    obtain ⟨d, hd⟩ := writeStruct_some h hlex this.1
    exact ⟨some d, by simp [writeItem, hd]⟩
  | enum e =>
    have hl : LexicalPair e.name := hlex _ (dataLoop_enum.1 hi).1 _ (by simp [namesOf])
    obtain ⟨_, ⟨gd, hg⟩, _⟩ := guards_distinct hl hl
    exact ⟨_, by simp [writeItem, writeEnum, hg]; rfl⟩
  | checkEnum e => exact ⟨none, rfl⟩
  | «opaque» t ms =>
    have hl : LexicalPair t.name := hlex _ (dataLoop_opaque.1 hi).1 _ (by simp [namesOf])
    obtain ⟨⟨gd, hg⟩, _⟩ := guards_distinct hl hl
    exact ⟨_, by simp [writeItem, writeOpaque, hg]; rfl⟩

/-! ### Main results -/

theorem writeFields_names {ts : Types} {fs : List Var} {cs : List (Ident × CTok)} (h : writeFields ts fs = some cs) :
    cs.map (·.1) = fs.map (·.name.cxx) := by
  induction fs generalizing cs with
  | nil => cases h; rfl
  | cons f fs ih =>
    simp only [writeFields] at h
    split at h
    · next c cs' h1 h2 => cases h; simp [ih h2]
    · cases h

/-- **C71** (for bridges whose types have different names in C++).  For every shared struct that no header
defines, the macro prints a `#[repr(C)]` struct and the generator a C++ struct that the compiler gets to see,
with the same fields in the same order; and whatever the sizes of the platform's basic types, the fields lie at
the same offsets in both, and the structs have the same size and alignment.
Missing: two types may have the same name in C++, `same_cxx_name_disagrees`. -/
theorem struct_layout_partial (h : Accepted g apis) (hlex : LexicalBridge apis) (hpar : Parsed apis)
    (hdist : CxxNamesDistinct apis) {errs : Nat}
    (hsort : Toposort.sort (Pod.structsOf apis) = some (sorted, errs)) (hv : Vouched m imported header apis) :
    ∃ ds, cxxDefs (collect apis) sorted apis = some ds ∧
      ∀ s, Api.struct s ∈ apis → ¬ FromHeader apis s.name.rust →
        ∃ r ∈ rustDefs apis, ∃ d fields, InEffect ds d ∧
          r.name = s.name.rust ∧ r.repr = .c ∧ r.fields.map (·.1) = s.fields.map (·.name.rust) ∧
          d.name = s.name ∧ d.body = .struct fields ∧ fields.map (·.1) = s.fields.map (·.name.cxx) ∧
          ∀ offsets l, RustStructLayout m imported (rustDefs apis) r offsets l ↔
            CxxStructLayout m header ds fields offsets l := by
  have hperm := (Toposort.structs_in_order_partial _ (structs_nodup h.1) _ _ hsort).1
  obtain ⟨ds, hds⟩ := cxxDefs_some h hlex hperm
  refine ⟨ds, hds, fun s hs hh => ?_⟩
  have S : Setting g apis sorted ds := ⟨h, hlex, hpar, hdist, hperm, hds⟩
  cases meaning_shared S (Improper.shared_mem hs) hh ⟨rfl, _, hs, s.generics, rfl⟩ with
  | enum e he hen hp => 
    exfalso
    have := only_eq (shared_only h.1 (Improper.shared_mem hs) hh) hs he (j := .shared) rfl (by rw [← hen]; rfl)
    cases this
  | struct s' hs' hsn hp d hw hd hu hr =>
    have hss := Improper.one_struct h.1 hs' hs hsn
    subst hss
    obtain ⟨cs, hcs, hbody, hdn⟩ := writeStruct_fields hw
    obtain ⟨e1, e2⟩ := writeFields_get hcs
    obtain ⟨hne, hfo⟩ := fields_ok h hs
    refine ⟨expandStruct s', List.mem_filterMap.2 ⟨_, hs, rfl⟩, d, cs, hd, rfl, rfl, by simp [expandStruct], hdn, hbody,
      writeFields_names hcs, fun offsets l => ?_⟩
    constructor
    · rintro ⟨ls, hl, hf, hrec⟩
      have hlne : ls ≠ [] := by
        rintro rfl; simp only [expandStruct, List.length_nil, List.length_map] at hl
        exact hne (List.length_eq_zero_iff.1 hl.symm)
      refine ⟨ls, by rw [hl, e1]; simp [expandStruct], fun i f l hf' hl' => ?_, by rw [record_same hlne]; exact hrec⟩
      have hi : i < s'.fields.length := by
        rw [← e1]; exact (List.getElem?_eq_some_iff.1 hf').1
      obtain ⟨c, hc1, hc2⟩ := e2 i _ (List.getElem?_eq_getElem hi)
      rw [hf'] at hc2
      cases hc2
      obtain ⟨ho, hu⟩ := hfo _ (List.getElem_mem hi)
      exact rust_to_cxx S hv (hf i (s'.fields[i].name.rust, s'.fields[i].ty) l (by simp [expandStruct, hi]) hl') ho hu c hc1
    · rintro ⟨ls, hl, hf, hrec⟩
      have hlne : ls ≠ [] := by
        rintro rfl; rw [e1] at hl; exact hne (List.length_eq_zero_iff.1 hl.symm)
      refine ⟨ls, by rw [hl, e1]; simp [expandStruct], fun i f l hf' hl' => ?_, by rw [← record_same hlne]; exact hrec⟩
      simp only [expandStruct, List.getElem?_map, Option.map_eq_some_iff] at hf'
      obtain ⟨v, hv1, rfl⟩ := hf'
      obtain ⟨c, hc1, hc2⟩ := e2 i v hv1
      obtain ⟨ho, hu⟩ := hfo _ (List.mem_of_getElem? hv1)
      exact cxx_to_rust S hv (hf i _ l hc2 hl') v.ty ho hu hc1

/-- **C71** for every type that is stored by value: a type of the bridge the checker accepts as a field has the
same size and alignment in both languages. -/
theorem type_layout_partial (h : Accepted g apis) (hlex : LexicalBridge apis) (hpar : Parsed apis)
    (hdist : CxxNamesDistinct apis) {errs : Nat}
    (hsort : Toposort.sort (Pod.structsOf apis) = some (sorted, errs)) (hv : Vouched m imported header apis)
    (hds : cxxDefs (collect apis) sorted apis = some ds) {s : Struct} (hs : Api.struct s ∈ apis) {f : Var}
    (hf : f ∈ s.fields) : ∃ c, writeType (collect apis) f.ty = some c ∧
      ∀ l, RustLayout m imported (rustDefs apis) f.ty l ↔ CxxLayout m header ds c l := by
  have hperm := (Toposort.structs_in_order_partial _ (structs_nodup h.1) _ _ hsort).1
  have S : Setting g apis sorted ds := ⟨h, hlex, hpar, hdist, hperm, hds⟩
  obtain ⟨ho, hu⟩ := (fields_ok h hs).2 f hf
  obtain ⟨c, hc, _⟩ := write_agrees (cx := ⟨collect apis, [], 0⟩) h f.ty ho (sized_not_bare hu)
  exact ⟨c, hc, fun l => ⟨fun h => rust_to_cxx S hv h ho hu c hc, fun h => cxx_to_rust S hv h f.ty ho hu hc⟩⟩

/-! ### Concrete instances -/

section Demo

private def fld (n : Ident) (t : Ty) : Var := ⟨⟨[], n, n⟩, t⟩
private def pr (n : Ident) : Pair := ⟨[], n, n⟩

/-- x86-64. -/
private def x64 : Machine where
  word := ⟨8, 8⟩
  atom
    | .bool | .char | .u8 | .i8 => ⟨1, 1⟩
    | .u16 | .i16 => ⟨2, 2⟩
    | .u32 | .i32 | .f32 => ⟨4, 4⟩
    | _ => ⟨8, 8⟩

private def inner : Struct := ⟨[], pr "Inner", [], [fld "a" (.named "u8"), fld "b" (.named "u32")]⟩
private def outer : Struct :=
  ⟨[], ⟨["org"], "Outside", "Outer"⟩, [], [fld "e" (.named "E"), fld "i" (.named "Inner"), fld "x" (.named "Ext"),
    fld "s" (.named "String"), fld "p" (.uniquePtr (.named "Thing")), fld "t" (.array (.named "u16") 3)]⟩
private def en : Enum := ⟨[], pr "E", [], [pr "A", pr "B"], false, .u16, true⟩

/-- Nested structs in the wrong order, an enum, an imported type, an array, a string and a smart pointer. -/
private def demo : List Api :=
  [.struct outer, .struct inner, .enum en, .typeAlias ⟨[], pr "Ext", []⟩,
   .cxxType ⟨.cxx, [], pr "Thing", [], [], true⟩]

private def ext : Ident → Option Lay := fun n => if n = "Ext" then some ⟨12, 4⟩ else none

private theorem demo_ok : Accepted .build demo ∧ Accepted .macro demo ∧ LexicalBridge demo ∧
    (Toposort.sort (Pod.structsOf demo)).isSome = true := by decide +kernel

private theorem demo_parsed : Parsed demo := by
  constructor
  · rintro t n ⟨a, ha, w, hw, hin⟩
    have := (within_iff_visit _ _).2 hin
    simp only [demo, List.mem_cons, List.not_mem_nil, or_false] at ha
    rcases ha with rfl | rfl | rfl | rfl | rfl <;> simp [writtenTypes, outer, inner, fld] at hw
    · rcases hw with rfl | rfl | rfl | rfl | rfl | rfl <;> simp [visitTypes, Ty.named] at this
      omega
    · rcases hw with rfl | rfl <;> simp [visitTypes, Ty.named] at this
    · subst hw; simp [visitTypes, Ty.named] at this
  · intro e he
    simp [demo] at he
    subst he
    decide

private theorem demo_distinct : CxxNamesDistinct demo := by
  intro a ha b hb p gs q hs h1 h2 hn
  simp only [demo, List.mem_cons, List.not_mem_nil, or_false] at ha hb
  rcases ha with rfl | rfl | rfl | rfl | rfl <;> rcases hb with rfl | rfl | rfl | rfl | rfl <;>
    simp [resolves] at h1 h2 <;>
    (obtain ⟨rfl, rfl⟩ := h1; obtain ⟨rfl, rfl⟩ := h2; revert hn; simp [SameName, pr, outer, inner, en])

private theorem demo_vouched : Vouched x64 ext (fun p => if p.cxx = "Ext" then some ⟨12, 4⟩ else none) demo := by
  intro t hh p hp l
  have ht : t.rust = "Ext" := by
    simp only [FromHeader, definitions, demo, defines, List.filterMap_cons, List.filterMap_nil, outer, inner, en, pr,
      List.mem_map, List.mem_filter, List.mem_cons, decide_eq_true_eq, List.not_mem_nil, or_false,
      Bool.false_eq_true, if_false] at hh
    have key : ∀ {k : Kind}, (∃ a, ((a = ("Outer", Kind.shared) ∨ a = ("Inner", Kind.shared) ∨ a = ("E", Kind.shared) ∨
        a = ("Ext", Kind.alias) ∨ a = ("Thing", Kind.cxx)) ∧ a.1 = t.rust) ∧ a.2 = k) →
        (k = .shared ∧ (t.rust = "Outer" ∨ t.rust = "Inner" ∨ t.rust = "E")) ∨ (k = .alias ∧ t.rust = "Ext") ∨
        (k = .cxx ∧ t.rust = "Thing") := by
      rintro k ⟨a, ⟨rfl | rfl | rfl | rfl | rfl, h1⟩, h2⟩ <;> subst h2 <;> simp [← h1]
    rcases hh with hh | hh | ⟨h1, h2⟩
    · simpa using key hh
    · simpa using key hh
    · have a1 := key h1
      have a2 := key h2
      simp at a1 a2
      rw [a2] at a1
      simp at a1
  have hpe : p = pr "Ext" := by
    obtain ⟨h1, a, ha, gs, h2⟩ := hp
    simp only [demo, List.mem_cons, List.not_mem_nil, or_false] at ha
    rcases ha with rfl | rfl | rfl | rfl | rfl <;> simp [resolves] at h2 <;> obtain ⟨rfl, rfl⟩ := h2 <;> simp [outer, inner, en, pr, ht] at h1 ⊢
  subst hpe
  have hb : Atom.fromStr t.rust = none := by rw [ht]; decide
  have hnd : ∀ d ∈ rustDefs demo, d.name ≠ t.rust := by
    intro d hd
    simp [rustDefs, demo] at hd
    rcases hd with rfl | rfl | rfl <;> rw [ht] <;> decide
  constructor
  · intro h
    cases h with
    | number t a h => rw [hb] at h; cases h
    | string t h => rw [hb] at h; cases h
    | reprC t hb d hd hn => exact absurd hn (hnd d hd)
    | transparent t hb d hd hn => exact absurd hn (hnd d hd)
    | imported t hb hn l h => rw [ht] at h; exact h
  · intro h
    exact .imported t hb hnd l (by rw [ht]; exact h)

/-- The hypotheses of `struct_layout_partial` hold of the demo bridge. -/
example : ∃ sorted errs ds, Toposort.sort (Pod.structsOf demo) = some (sorted, errs) ∧
    cxxDefs (collect demo) sorted demo = some ds ∧ ¬ FromHeader demo "Outer" := by
  obtain ⟨⟨sorted, errs⟩, hs⟩ := Option.isSome_iff_exists.1 demo_ok.2.2.2
  obtain ⟨ds, hd, _⟩ := struct_layout_partial demo_ok.1 demo_ok.2.2.1 demo_parsed demo_distinct hs demo_vouched
  exact ⟨sorted, errs, ds, hs, hd, by
    simp [FromHeader, definitions, demo, defines, outer, inner, en, pr]⟩

private theorem inner_layout : RustLayout x64 ext (rustDefs demo) (.named "Inner") ⟨8, 4⟩ := by
  have := RustLayout.reprC (m := x64) (imported := ext) (defs := rustDefs demo) ⟨"Inner", []⟩ (by decide)
    (expandStruct inner) (by simp [rustDefs, demo]) rfl rfl [⟨1, 1⟩, ⟨4, 4⟩] rfl (by
      intro i f l hf hl
      match i with
      | 0 => simp [expandStruct, inner, fld] at hf hl; subst hf hl; exact .number _ .u8 (by decide) (by decide)
      | 1 => simp [expandStruct, inner, fld] at hf hl; subst hf hl; exact .number _ .u32 (by decide) (by decide)
      | i + 2 => simp at hl)
  exact this

/-- The offsets in `Outer`. -/
example : RustStructLayout x64 ext (rustDefs demo) (expandStruct outer) [0, 4, 12, 24, 48, 56] ⟨64, 8⟩ := by
  refine ⟨[⟨2, 2⟩, ⟨8, 4⟩, ⟨12, 4⟩, ⟨24, 8⟩, ⟨8, 8⟩, ⟨6, 2⟩], rfl, ?_, by decide⟩
  intro i f l hf hl
  match i with
  | 0 =>
    simp [expandStruct, outer, fld] at hf hl; subst hf hl
    exact .transparent _ (by decide) (expandEnum en) (by simp [rustDefs, demo]) rfl rfl _ rfl _
      (.number _ .u16 (by decide) (by decide))
  | 1 => simp [expandStruct, outer, fld] at hf hl; subst hf hl; exact inner_layout
  | 2 =>
    simp [expandStruct, outer, fld] at hf hl; subst hf hl
    exact .imported _ (by decide) (by
      intro d hd; simp [rustDefs, demo] at hd; rcases hd with rfl | rfl | rfl <;> decide) _ rfl
  | 3 => simp [expandStruct, outer, fld] at hf hl; subst hf hl; exact .string _ (by decide)
  | 4 => simp [expandStruct, outer, fld] at hf hl; subst hf hl; exact .uniquePtr _
  | 5 =>
    simp [expandStruct, outer, fld] at hf hl; subst hf hl
    exact .array _ 3 ⟨2, 2⟩ (.number _ .u16 (by decide) (by decide))
  | i + 6 => simp at hl

private def small : Struct := ⟨[], pr "A", [], [fld "x" (.named "u8")]⟩
private def large : Struct := ⟨[], ⟨[], "A", "B"⟩, [], [fld "x" (.named "u64")]⟩

/-- `struct A { x: u8 }  #[cxx_name = "A"] struct B { x: u64 }` is accepted.  The second C++ definition is skipped,
because it has the include guard of the first: what is 8 bytes in Rust is 1 byte in C++. -/
theorem same_cxx_name_disagrees :
    let apis := [Api.struct small, .struct large]
    Accepted .build apis ∧ Accepted .macro apis ∧ LexicalBridge apis ∧
    Toposort.sort (Pod.structsOf apis) = some ([small, large], 0) ∧
    ∃ ds c, cxxDefs (collect apis) [small, large] apis = some ds ∧ writeType (collect apis) (.named "B") = some c ∧
      RustLayout x64 ext (rustDefs apis) (.named "B") ⟨8, 8⟩ ∧
      CxxLayout x64 (fun _ => none) ds c ⟨1, 1⟩ := by
  intro apis
  refine ⟨by decide +kernel, by decide +kernel, by decide +kernel, rfl, ?_⟩
  refine ⟨[⟨"CXXBRIDGE1_STRUCT_A".toList, pr "A", .struct [("x", .atom .u8)]⟩,
    ⟨"CXXBRIDGE1_STRUCT_A".toList, ⟨[], "A", "B"⟩, .struct [("x", .atom .u64)]⟩], .named ⟨[], "A", "B"⟩,
    rfl, rfl, ?_, ?_⟩
  · have := RustLayout.reprC (m := x64) (imported := ext) (defs := rustDefs apis) ⟨"B", []⟩ (by decide)
      (expandStruct large) (by simp [rustDefs, apis]) rfl rfl [⟨8, 8⟩] rfl (by
        intro i f l hf hl
        match i with
        | 0 => simp [expandStruct, large, fld] at hf hl; subst hf hl; exact .number _ .u64 (by decide) (by decide)
        | i + 1 => simp at hl)
    exact this
  · have := CxxLayout.struct (m := x64) (header := fun _ => none) (p := ⟨[], "A", "B"⟩)
      (defs := [⟨"CXXBRIDGE1_STRUCT_A".toList, pr "A", .struct [("x", .atom .u8)]⟩,
        ⟨"CXXBRIDGE1_STRUCT_A".toList, ⟨[], "A", "B"⟩, .struct [("x", .atom .u64)]⟩])
      _ ⟨[], _, rfl, by simp⟩ ⟨rfl, rfl⟩ [("x", .atom .u8)] rfl [⟨1, 1⟩] rfl (by
        intro i f l hf hl
        match i with
        | 0 => simp at hf hl; subst hf hl; exact .number .u8 (by decide)
        | i + 1 => simp at hl)
    exact this

end Demo

end Verif.Layout
