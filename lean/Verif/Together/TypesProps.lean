import Verif.Together.TypesSpec
import Verif.Layout.Props
import Verif.Header.Check
import Verif.Together.Spec
/-!
# C106: a translation unit sees the types of all its bridges as Rust does
-/
namespace Verif.Together.Types
open Verif.Syntax Verif.Types
open Verif.Abi (CTok writeType Names)
open Verif.Check
open Verif.Mangle (structGuard enumGuard guards_distinct LexicalPair LexicalBridge Symbol)
open Verif.Layout
open Verif.Header (Chunk Chunk.lines Cxx.layout)

variable {m : Machine} {header : Pair → Option Lay} {bs : List Bridge}

theorem setting {b : Bridge} (h : b.Generated) : Setting .build b.apis b.sorted b.defs := by
  obtain ⟨errs, hs⟩ := h.order
  exact ⟨h.accepted, h.lexical, h.parsed, h.distinct,
    (Toposort.structs_in_order_partial _ (structs_nodup h.accepted.1) _ _ hs).1, h.written⟩

theorem unit_mem {d : CDef} : d ∈ unit bs ↔ ∃ b ∈ bs, d ∈ b.defs := List.mem_flatMap

/-- What is known of each definition. -/
theorem def_kind {b : Bridge} (h : b.Generated) {d : CDef} (hd : d ∈ b.defs) : LexicalPair d.name ∧
    ((structGuard d.name = some d.guard ∧ ((∃ fs, d.body = .struct fs) ∨ d.body = .opaque)) ∨
      (enumGuard d.name = some d.guard ∧ ∃ r, d.body = .enum r)) := by
  have S := setting h
  obtain ⟨a, ha, ⟨gs, har⟩, ho⟩ := origin S hd
  refine ⟨item_lexical S ha har, ?_⟩
  rcases ho with ⟨s, rfl, _, hw⟩ | ⟨e, rfl, _, hw⟩ | ⟨t, rfl, hw⟩
  · unfold writeStruct at hw
    split at hw
    · next h1 h2 => cases hw; exact .inl ⟨h1, .inl ⟨_, rfl⟩⟩
    · cases hw
  · obtain ⟨x, h1, hx⟩ := Option.map_eq_some_iff.1 hw
    cases hx; exact .inr ⟨h1, _, rfl⟩
  · obtain ⟨x, h1, hx⟩ := Option.map_eq_some_iff.1 hw
    cases hx; exact .inl ⟨h1, .inr rfl⟩

/-- Definitions with equal guards have equal names. -/
theorem guard_name {b c : Bridge} (hb : b.Generated) (hc : c.Generated) {d e : CDef} (hd : d ∈ b.defs) (he : e ∈ c.defs)
    (hg : d.guard = e.guard) : SameName d.name e.name := by
  obtain ⟨l, k⟩ := def_kind hb hd
  obtain ⟨l', k'⟩ := def_kind hc he
  obtain ⟨_, _, h1, h2, h3⟩ := guards_distinct l l'
  obtain ⟨_, _, _, _, h3'⟩ := guards_distinct l' l
  rw [hg] at k
  rcases k with ⟨k, _⟩ | ⟨k, _⟩ <;> rcases k' with ⟨k', _⟩ | ⟨k', _⟩
  · exact h1.1 (k.trans k'.symm)
  · exact absurd (k.trans k'.symm) h3
  · exact absurd (k'.trans k.symm) h3'
  · exact h2.1 (k.trans k'.symm)

/-- Equal names and bodies give equal guards. -/
theorem name_guard {b c : Bridge} (hb : b.Generated) (hc : c.Generated) {d e : CDef} (hd : d ∈ b.defs) (he : e ∈ c.defs)
    (hn : SameName d.name e.name) (hbody : d.body = e.body) : d.guard = e.guard := by
  obtain ⟨l, k⟩ := def_kind hb hd
  obtain ⟨l', k'⟩ := def_kind hc he
  obtain ⟨_, _, h1, h2, _⟩ := guards_distinct l l'
  rcases k with ⟨k, kb⟩ | ⟨k, r, kb⟩ <;> rcases k' with ⟨k', kb'⟩ | ⟨k', r', kb'⟩
  · have := h1.2 hn
    rw [k, k'] at this; exact Option.some.inj this
  · rw [hbody, kb'] at kb
    rcases kb with ⟨_, kb⟩ | kb <;> cases kb
  · rw [← hbody, kb] at kb'
    rcases kb' with ⟨_, kb'⟩ | kb' <;> cases kb'
  · have := h2.2 hn
    rw [k, k'] at this; exact Option.some.inj this

theorem bodies_equal (hc : Consistent bs) {d e : CDef} (hd : d ∈ unit bs) (he : e ∈ unit bs)
    (hn : SameName d.name e.name) : d.body = e.body := by
  obtain ⟨b, hb, hd⟩ := unit_mem.1 hd
  obtain ⟨c, hc', he⟩ := unit_mem.1 he
  exact hc b hb c hc' d hd e he hn

theorem SameName.symm {p q : Pair} (h : SameName p q) : SameName q p := ⟨h.1.symm, h.2.symm⟩
theorem SameName.trans {p q r : Pair} (h : SameName p q) (h' : SameName q r) : SameName p r :=
  ⟨h.1.trans h'.1, h.2.trans h'.2⟩

/-- A definition of the same name and body is in effect. -/
theorem in_effect (hg : ∀ b ∈ bs, b.Generated) (hc : Consistent bs) {d : CDef} (hd : d ∈ unit bs) :
    ∃ e, InEffect (unit bs) e ∧ e.guard = d.guard ∧ SameName e.name d.name ∧ e.body = d.body := by
  obtain ⟨e, he, hge⟩ := inEffect_guard hd
  have hm := inEffect_mem he
  obtain ⟨b, hb, hd'⟩ := unit_mem.1 hd
  obtain ⟨c, hc', he'⟩ := unit_mem.1 hm
  have hn := guard_name (hg c hc') (hg b hb) he' hd' hge
  exact ⟨e, he, hge, hn, bodies_equal hc hm hd hn⟩

/-! ### Layouts are determined -/

theorem lists_equal {α : Type} {xs : List α} {ls ls' : List Lay} (P : α → Lay → Prop) (h1 : ls.length = xs.length)
    (h2 : ls'.length = xs.length) (hP : ∀ (i : Nat) (x : α) (l l' : Lay), xs[i]? = some x → ls[i]? = some l → P x l' → l = l')
    (h : ∀ (i : Nat) (x : α) (l : Lay), xs[i]? = some x → ls'[i]? = some l → P x l) : ls = ls' := by
  apply List.ext_getElem? 
  intro i
  by_cases hi : i < xs.length
  · have a := hP i xs[i] (ls[i]'(by omega)) (ls'[i]'(by omega)) (by simp [hi]) (by simp [hi, h1])
      (h i xs[i] _ (by simp [hi]) (by simp [hi, h2]))
    rw [List.getElem?_eq_getElem (by omega), List.getElem?_eq_getElem (by omega), a]
  · rw [List.getElem?_eq_none (by omega), List.getElem?_eq_none (by omega)]

theorem determined {ds : List CDef} (hb : ∀ d ∈ ds, ∀ e ∈ ds, SameName d.name e.name → d.body = e.body) {c : CTok} {l l' : Lay}
    (h : CxxLayout m header ds c l) (h' : CxxLayout m header ds c l') : l = l' := by
  induction h generalizing l' with
  | number a hn => cases h' with
    | number a hn => rfl
    | string => exact absurd rfl hn.1
  | string => cases h' with
    | number a hn => exact absurd rfl hn.1
    | string => rfl
  | struct p d hd hn fields hf ls hl _ ih =>
    cases h' with
    | struct p d' hd' hn' fields' hf' ls' hl' hls' =>
      have := hb _ (inEffect_mem hd) _ (inEffect_mem hd') (SameName.trans hn (SameName.symm hn'))
      rw [hf, hf'] at this
      cases this
      have : ls = ls' := lists_equal (fun (f : Ident × CTok) l => CxxLayout m header ds f.2 l) hl hl'
        (fun i x l l' h1 h2 h3 => ih i x l h1 h2 h3) hls'
      rw [this]
    | enum p d' hd' hn' repr hf' =>
      have := hb _ (inEffect_mem hd) _ (inEffect_mem hd') (SameName.trans hn (SameName.symm hn'))
      rw [hf, hf'] at this
      cases this
    | header p hno => exact absurd hn (hno _ (inEffect_mem hd))
  | enum p d hd hn repr hf hr =>
    cases h' with
    | struct p d' hd' hn' fields' hf' ls' hl' hls' =>
      have := hb _ (inEffect_mem hd) _ (inEffect_mem hd') (SameName.trans hn (SameName.symm hn'))
      rw [hf, hf'] at this
      cases this
    | enum p d' hd' hn' repr hf' =>
      have := hb _ (inEffect_mem hd) _ (inEffect_mem hd') (SameName.trans hn (SameName.symm hn'))
      rw [hf, hf'] at this
      cases this
      rfl
    | header p hno => exact absurd hn (hno _ (inEffect_mem hd))
  | header p hno l hl =>
    cases h' with
    | struct p d' hd' hn' => exact absurd hn' (hno _ (inEffect_mem hd'))
    | enum p d' hd' hn' => exact absurd hn' (hno _ (inEffect_mem hd'))
    | header p hno l' hl' => rw [hl] at hl'; cases hl'; rfl
  | array t n hn l _ ih =>
    cases h' with
    | array t n hn l' h' => rw [ih h']
  | _ => cases h'; rfl

/-! ### One bridge within the unit -/

open Classical in
/-- The layouts of the types that a bridge finds in the translation unit. -/
noncomputable def found (m : Machine) (header : Pair → Option Lay) (bs : List Bridge) (p : Pair) : Option Lay :=
  if h : ∃ l, CxxLayout m header (unit bs) (.named p) l then some h.choose else none

theorem found_iff (hc : Consistent bs) (p : Pair) (l : Lay) :
    found m header bs p = some l ↔ CxxLayout m header (unit bs) (.named p) l := by
  unfold found
  have hb : ∀ d ∈ unit bs, ∀ e ∈ unit bs, SameName d.name e.name → d.body = e.body :=
    fun d hd e he hn => bodies_equal hc hd he hn
  split
  · next h =>
    constructor
    · intro he; cases he; exact h.choose_spec
    · intro he; rw [determined hb h.choose_spec he]
  · next h =>
    exact ⟨nofun, fun he => absurd ⟨l, he⟩ h⟩

theorem to_unit (hg : ∀ b ∈ bs, b.Generated) (hc : Consistent bs) {b : Bridge} (hb : b ∈ bs) {c : CTok} {l : Lay}
    (h : CxxLayout m (found m header bs) b.defs c l) : CxxLayout m header (unit bs) c l := by
  induction h with
  | struct p d hd hn fields hf ls hl _ ih =>
    obtain ⟨e, he, _, hen, heb⟩ := in_effect hg hc (unit_mem.2 ⟨b, hb, inEffect_mem hd⟩)
    exact .struct p e he (SameName.trans hen hn) fields (heb.trans hf) ls hl ih
  | enum p d hd hn repr hf hr =>
    obtain ⟨e, he, _, hen, heb⟩ := in_effect hg hc (unit_mem.2 ⟨b, hb, inEffect_mem hd⟩)
    exact .enum p e he (SameName.trans hen hn) repr (heb.trans hf) hr
  | header p hno l hl => exact (found_iff hc p l).1 hl
  | number a hn => exact .number a hn
  | array t n hn l _ ih => exact .array t n hn l ih
  | _ => constructor

theorem from_unit (hg : ∀ b ∈ bs, b.Generated) (hc : Consistent bs) {b : Bridge} (hb : b ∈ bs) {c : CTok} {l : Lay}
    (h : CxxLayout m header (unit bs) c l) : CxxLayout m (found m header bs) b.defs c l := by
  induction h with
  | struct p d hd hn fields hf ls hl hls ih =>
    by_cases hp : ∃ e ∈ b.defs, SameName e.name p
    · obtain ⟨e, he, hen⟩ := hp
      obtain ⟨e', he', hge⟩ := inEffect_guard he
      have hn' := guard_name (hg b hb) (hg b hb) (inEffect_mem he') he hge
      have hb' := bodies_equal hc (unit_mem.2 ⟨b, hb, inEffect_mem he'⟩) (inEffect_mem hd)
        (SameName.trans hn' (SameName.trans hen (SameName.symm hn)))
      exact .struct p e' he' (SameName.trans hn' hen) fields (hb'.trans hf) ls hl ih
    · refine .header p (fun e he hen => hp ⟨e, he, hen⟩) _ ((found_iff hc p _).2 ?_)
      exact .struct p d hd hn fields hf ls hl hls
  | enum p d hd hn repr hf hr =>
    by_cases hp : ∃ e ∈ b.defs, SameName e.name p
    · obtain ⟨e, he, hen⟩ := hp
      obtain ⟨e', he', hge⟩ := inEffect_guard he
      have hn' := guard_name (hg b hb) (hg b hb) (inEffect_mem he') he hge
      have hb' := bodies_equal hc (unit_mem.2 ⟨b, hb, inEffect_mem he'⟩) (inEffect_mem hd)
        (SameName.trans hn' (SameName.trans hen (SameName.symm hn)))
      exact .enum p e' he' (SameName.trans hn' hen) repr (hb'.trans hf) hr
    · refine .header p (fun e he hen => hp ⟨e, he, hen⟩) _ ((found_iff hc p _).2 ?_)
      exact .enum p d hd hn repr hf hr
  | header p hno l hl =>
    refine .header p (fun e he hen => hno e (unit_mem.2 ⟨b, hb, he⟩) hen) _ ((found_iff hc p _).2 ?_)
    exact .header p hno l hl
  | number a hn => exact .number a hn
  | array t n hn l _ ih => exact .array t n hn l ih
  | _ => constructor

/-! ### The preprocessor -/

theorem preprocess_mem {R : List Symbol} {ds : List CDef} {d : CDef} :
    d ∈ preprocess R ds ↔ ∃ pre post, ds = pre ++ d :: post ∧ d.guard ∉ R ∧ ∀ e ∈ pre, e.guard ≠ d.guard := by
  induction ds generalizing R with
  | nil => simp [preprocess]
  | cons x ds ih =>
    rw [preprocess]
    have rest : ∀ (R' : List Symbol), (∀ g, g ∈ R' ↔ g ∈ R ∨ g = x.guard) → (d ∈ preprocess R' ds ↔
        ∃ pre post, ds = pre ++ d :: post ∧ d.guard ∉ R ∧ ∀ e ∈ x :: pre, e.guard ≠ d.guard) := by
      intro R' hR
      rw [ih]
      constructor
      · rintro ⟨pre, post, h1, h2, h3⟩
        refine ⟨pre, post, h1, fun h => h2 ((hR _).2 (.inl h)), fun e he => ?_⟩
        rcases List.mem_cons.1 he with rfl | he
        · exact fun h => h2 ((hR _).2 (.inr h.symm))
        · exact h3 e he
      · rintro ⟨pre, post, h1, h2, h3⟩
        refine ⟨pre, post, h1, fun h => ?_, fun e he => h3 e (List.mem_cons_of_mem _ he)⟩
        rcases (hR _).1 h with h | h
        · exact h2 h
        · exact h3 x (List.mem_cons_self ..) h.symm
    by_cases hx : x.guard ∈ R
    · rw [if_pos hx, rest R (fun g => ⟨.inl, fun h => h.elim id fun h => h ▸ hx⟩)]
      constructor
      · rintro ⟨pre, post, h1, h2, h3⟩
        exact ⟨x :: pre, post, by rw [h1]; rfl, h2, h3⟩
      · rintro ⟨pre, post, h1, h2, h3⟩
        cases pre with
        | nil => cases h1; exact absurd hx h2
        | cons y pre => cases h1; exact ⟨pre, post, rfl, h2, h3⟩
    · rw [if_neg hx, List.mem_cons, rest (x.guard :: R) (fun g => by rw [List.mem_cons]; exact or_comm)]
      constructor
      · rintro (rfl | ⟨pre, post, h1, h2, h3⟩)
        · exact ⟨[], ds, rfl, hx, by simp⟩
        · exact ⟨x :: pre, post, by rw [h1]; rfl, h2, h3⟩
      · rintro ⟨pre, post, h1, h2, h3⟩
        cases pre with
        | nil => cases h1; exact .inl rfl
        | cons y pre => cases h1; exact .inr ⟨pre, post, rfl, h2, h3⟩

theorem preprocess_guards (R : List Symbol) (ds : List CDef) :
    (preprocess R ds).Pairwise fun d e => d.guard ≠ e.guard := by
  induction ds generalizing R with
  | nil => exact List.Pairwise.nil
  | cons x ds ih =>
    rw [preprocess]
    split
    · exact ih R
    · refine List.pairwise_cons.2 ⟨fun e he h => ?_, ih _⟩
      obtain ⟨_, _, _, h2, _⟩ := preprocess_mem.1 he
      exact h2 (by rw [← h]; exact List.mem_cons_self ..)

theorem no_macro : (Cxx.layout.flatMap Chunk.lines).all (fun l =>
    (after b!"#define CXXBRIDGE1_STRUCT_" l).isNone && (after b!"#define CXXBRIDGE1_ENUM_" l).isNone) = true := by
  decide +kernel

theorem after_append (p l : Preamble.Text) : after p (p ++ l) = some l := by
  induction p with
  | nil => rfl
  | cons b p ih => simp [after, ih]

/-- A macro that rust/cxx.h, or what is copied from it, defines. -/
def OfRuntime (g : Symbol) : Prop := b!"#define " ++ g.map Char.toNat ∈ Cxx.layout.flatMap Chunk.lines

theorem guards_apart {p : Syntax.Pair} {g : Symbol} (h : structGuard p = some g ∨ enumGuard p = some g) : ¬ OfRuntime g := by
  intro hr
  have := List.all_eq_true.1 no_macro _ hr
  rw [Bool.and_eq_true] at this
  rcases h with h | h
  · simp only [structGuard, Option.bind_eq_bind, Option.bind_eq_some_iff] at h
    obtain ⟨s, _, hs⟩ := h
    cases hs
    have e : b!"#define " ++ ("CXXBRIDGE1_STRUCT_".toList ++ s).map Char.toNat =
        b!"#define CXXBRIDGE1_STRUCT_" ++ s.map Char.toNat := by
      rw [List.map_append, ← List.append_assoc]; congr 1
    rw [e, after_append] at this
    cases this.1
  · simp only [enumGuard, Option.bind_eq_bind, Option.bind_eq_some_iff] at h
    obtain ⟨s, _, hs⟩ := h
    cases hs
    have e : b!"#define " ++ ("CXXBRIDGE1_ENUM_".toList ++ s).map Char.toNat =
        b!"#define CXXBRIDGE1_ENUM_" ++ s.map Char.toNat := by
      rw [List.map_append, ← List.append_assoc]; congr 1
    rw [e, after_append] at this
    cases this.2

theorem same_type_guard {b c : Bridge} (hb : b.Generated) (hc : c.Generated) {d e : CDef} (hd : d ∈ b.defs)
    (he : e ∈ c.defs) : d.guard = e.guard ↔ SameType d e := by
  obtain ⟨l, k⟩ := def_kind hb hd
  obtain ⟨l', k'⟩ := def_kind hc he
  obtain ⟨_, _, h1, h2, h3⟩ := guards_distinct l l'
  obtain ⟨_, _, _, _, h3'⟩ := guards_distinct l' l
  have no : ∀ {x : CDef}, ((∃ fs, x.body = .struct fs) ∨ x.body = .opaque) → ¬ ∃ r, x.body = .enum r := by
    rintro x (⟨fs, h⟩ | h) ⟨r, h'⟩ <;> rw [h] at h' <;> cases h'
  constructor
  · intro hg
    refine ⟨guard_name hb hc hd he hg, ?_⟩
    rcases k with ⟨k, kb⟩ | ⟨k, kb⟩ <;> rcases k' with ⟨k', kb'⟩ | ⟨k', kb'⟩
    · exact ⟨fun h => absurd h (no kb), fun h => absurd h (no kb')⟩
    · rw [hg] at k; exact absurd (k.trans k'.symm) h3
    · rw [hg] at k; exact absurd (k'.trans k.symm) h3'
    · exact ⟨fun _ => kb', fun _ => kb⟩
  · rintro ⟨hn, hk⟩
    rcases k with ⟨k, kb⟩ | ⟨k, kb⟩ <;> rcases k' with ⟨k', kb'⟩ | ⟨k', kb'⟩
    · have := h1.2 hn
      rw [k, k'] at this; exact Option.some.inj this
    · exact absurd (hk.2 kb') (no kb)
    · exact absurd (hk.1 kb) (no kb')
    · have := h2.2 hn
      rw [k, k'] at this; exact Option.some.inj this

/-! ### The claims -/

/-- **C106**.  Whatever generated headers and source files make up a translation unit, and whatever parts of the runtime
are included or copied into it: no type of a bridge is defined twice, and every type that a bridge defines is defined,
if perhaps by another bridge. -/
theorem types_defined_once (hg : ∀ b ∈ bs, b.Generated) (R : List Symbol) (hR : ∀ g ∈ R, OfRuntime g) :
    ((preprocess R (unit bs)).Pairwise fun d e => ¬ SameType d e) ∧
    ∀ b ∈ bs, ∀ d ∈ b.defs, ∃ e ∈ preprocess R (unit bs), SameType e d := by
  constructor
  · refine (preprocess_guards R (unit bs)).imp_of_mem ?_
    intro d e hd he hne hs
    obtain ⟨pre, post, h1, _⟩ := preprocess_mem.1 hd
    obtain ⟨pre', post', h1', _⟩ := preprocess_mem.1 he
    obtain ⟨b, hb, hd'⟩ := unit_mem.1 (show d ∈ unit bs by rw [h1]; simp)
    obtain ⟨c, hc, he'⟩ := unit_mem.1 (show e ∈ unit bs by rw [h1']; simp)
    exact hne ((same_type_guard (hg b hb) (hg c hc) hd' he').2 hs)
  · intro b hb d hd
    obtain ⟨e, ⟨pre, post, h1, h2⟩, hge⟩ := inEffect_guard (unit_mem.2 ⟨b, hb, hd⟩)
    have hm : e ∈ unit bs := by rw [h1]; simp
    obtain ⟨c, hc, he'⟩ := unit_mem.1 hm
    refine ⟨e, preprocess_mem.2 ⟨pre, post, h1, fun hr => ?_, h2⟩, (same_type_guard (hg c hc) (hg b hb) he' hd).1 hge⟩
    refine guards_apart (p := e.name) ?_ (hR _ hr)
    rcases (def_kind (hg c hc) he').2 with ⟨k, _⟩ | ⟨k, _⟩
    · exact .inl k
    · exact .inr k

/-- **C106**, layout.  If bridges that define types of the same name in C++ define them alike, each shared struct of each
bridge of the translation unit has, in C++, the fields that it has in Rust, and at the same offsets.
Missing: bridges that do not, `definition_suppressed`. -/
theorem unit_layout_partial (hg : ∀ b ∈ bs, b.Generated) (hc : Consistent bs) (ht : Trusted m header bs)
    {b : Bridge} (hb : b ∈ bs) {s : Struct} (hs : Api.struct s ∈ b.apis) (hh : ¬ FromHeader b.apis s.name.rust) :
    ∃ r ∈ rustDefs b.apis, ∃ d fields, InEffect (unit bs) d ∧
      r.name = s.name.rust ∧ r.repr = .c ∧ r.fields.map (·.1) = s.fields.map (·.name.rust) ∧
      SameName d.name s.name ∧ d.body = .struct fields ∧ fields.map (·.1) = s.fields.map (·.name.cxx) ∧
      ∀ offsets l, RustStructLayout m b.imported (rustDefs b.apis) r offsets l ↔
        CxxStructLayout m header (unit bs) fields offsets l := by
  have hG := hg b hb
  obtain ⟨errs, ho⟩ := hG.order
  have hv : Vouched m b.imported (found m header bs) b.apis := fun t hf p hp l =>
    (ht b hb t hf p hp l).trans (found_iff hc p l).symm
  obtain ⟨ds, hds, hall⟩ := struct_layout_partial hG.accepted hG.lexical hG.parsed hG.distinct ho hv
  rw [hG.written] at hds
  cases hds
  obtain ⟨r, hr, d, fields, hd, h1, h2, h3, h4, h5, h6, h7⟩ := hall s hs hh
  obtain ⟨e, he, _, hen, heb⟩ := in_effect hg hc (unit_mem.2 ⟨b, hb, inEffect_mem hd⟩)
  refine ⟨r, hr, e, fields, he, h1, h2, h3, by rw [← h4]; exact hen, heb.trans h5, h6, fun offsets l => ?_⟩
  rw [h7]
  constructor
  · rintro ⟨ls, a, b', c⟩
    exact ⟨ls, a, fun i f l hf hl => to_unit hg hc hb (b' i f l hf hl), c⟩
  · rintro ⟨ls, a, b', c⟩
    exact ⟨ls, a, fun i f l hf hl => from_unit hg hc hb (b' i f l hf hl), c⟩

/-! ### Concrete instances -/

section Demo

private def fld (n : Ident) (t : Ty) : Var := ⟨⟨[], n, n⟩, t⟩

/-- x86-64. -/
private def x64 : Machine where
  word := ⟨8, 8⟩
  atom
    | .bool | .char | .u8 | .i8 => ⟨1, 1⟩
    | .u16 | .i16 => ⟨2, 2⟩
    | .u32 | .i32 | .f32 => ⟨4, 4⟩
    | _ => ⟨8, 8⟩

private def point : Struct := ⟨[], ⟨["geo"], "Point", "Point"⟩, [], [fld "x" (.named "i32"), fld "y" (.named "i32")]⟩
private def line : Struct := ⟨[], ⟨[], "Line", "Line"⟩, [], [fld "a" (.named "Point"), fld "b" (.named "Point")]⟩
private def dot : Struct := ⟨[], ⟨["geo"], "Point", "Dot"⟩, [], [fld "x" (.named "u8")]⟩

/-- `namespace geo; struct Point { x: i32, y: i32 }` -/
private def points : Bridge where
  apis := [.struct point]
  imported := fun _ => none
  sorted := [point]
  defs := [⟨"CXXBRIDGE1_STRUCT_geo$Point".toList, point.name, .struct [("x", .atom .i32), ("y", .atom .i32)]⟩]

/-- `type Point = crate::points::Point; struct Line { a: Point, b: Point }` -/
private def lines : Bridge where
  apis := [.typeAlias ⟨[], ⟨["geo"], "Point", "Point"⟩, []⟩, .struct line]
  imported := fun n => if n = "Point" then some ⟨8, 4⟩ else none
  sorted := [line]
  defs := [⟨"CXXBRIDGE1_STRUCT_Line".toList, line.name, .struct [("a", .named point.name), ("b", .named point.name)]⟩]

/-- `#[cxx_name = "Point"] struct Dot { x: u8 }` -/
private def dots : Bridge where
  apis := [.struct dot]
  imported := fun _ => none
  sorted := [dot]
  defs := [⟨"CXXBRIDGE1_STRUCT_geo$Point".toList, dot.name, .struct [("x", .atom .u8)]⟩]

private theorem plain_parsed {apis : List Api} (h : ∀ a ∈ apis, (∀ e, a ≠ .enum e) ∧ ∀ w ∈ writtenTypes a, ∃ n, w = .named n) :
    Parsed apis := by
  constructor
  · rintro t n ⟨a, ha, w, hw, hin⟩
    have := (within_iff_visit _ _).2 hin
    obtain ⟨m, rfl⟩ := (h a ha).2 w hw
    simp [visitTypes, Ty.named] at this
  · intro e he
    exact absurd rfl ((h _ he).1 e)

private theorem points_generated : points.Generated where
  accepted := by decide +kernel
  lexical := by decide +kernel
  parsed := plain_parsed (by
    intro a ha
    simp only [points, List.mem_singleton] at ha
    subst ha
    simp [writtenTypes, point, fld])
  distinct := by
    intro a ha b hb p gs q hs h1 h2 _
    simp only [points, List.mem_singleton] at ha hb
    subst ha hb
    rw [h1] at h2; cases h2; rfl
  order := ⟨0, rfl⟩
  written := rfl

private theorem dots_generated : dots.Generated where
  accepted := by decide +kernel
  lexical := by decide +kernel
  parsed := plain_parsed (by
    intro a ha
    simp only [dots, List.mem_singleton] at ha
    subst ha
    simp [writtenTypes, dot, fld])
  distinct := by
    intro a ha b hb p gs q hs h1 h2 _
    simp only [dots, List.mem_singleton] at ha hb
    subst ha hb
    rw [h1] at h2; cases h2; rfl
  order := ⟨0, rfl⟩
  written := rfl

private theorem lines_generated : lines.Generated where
  accepted := by decide +kernel
  lexical := by decide +kernel
  parsed := plain_parsed (by
    intro a ha
    simp only [lines, List.mem_cons, List.not_mem_nil, or_false] at ha
    rcases ha with rfl | rfl <;> simp [writtenTypes, line, fld, Ty.named])
  distinct := by
    intro a ha b hb p gs q hs h1 h2 hn
    simp only [lines, List.mem_cons, List.not_mem_nil, or_false] at ha hb
    rcases ha with rfl | rfl <;> rcases hb with rfl | rfl <;>
      simp [resolves] at h1 h2 <;>
      (obtain ⟨rfl, rfl⟩ := h1; obtain ⟨rfl, rfl⟩ := h2; revert hn; simp [SameName, line])
  order := ⟨0, rfl⟩
  written := rfl

private theorem record_layout {header : Pair → Option Lay} {ds : List CDef} {d : CDef} {p : Pair} {x y : Ident} {t : CTok} {l : Lay}
    (hd : InEffect ds d) (hn : SameName d.name p) (hb : d.body = .struct [(x, t), (y, t)])
    (ht : CxxLayout x64 header ds t l) : CxxLayout x64 header ds (.named p) (cxxRecord [l, l]).2 :=
  .struct p d hd hn _ hb [l, l] rfl (by
    intro i f l' hf hl
    match i with
    | 0 => simp at hf hl; subst hf hl; exact ht
    | 1 => simp at hf hl; subst hf hl; exact ht
    | i + 2 => simp at hl)

private theorem demo_consistent : Consistent [points, lines, points] := by
  intro b hb c hc d hd e he hn
  simp only [List.mem_cons, List.not_mem_nil, or_false] at hb hc
  rcases hb with rfl | rfl | rfl <;> rcases hc with rfl | rfl | rfl <;>
    simp only [points, lines, List.mem_singleton] at hd he <;> subst hd he <;>
    first | rfl | (exact absurd hn.2 (by decide))

private theorem point_in_unit : CxxLayout x64 (fun _ => none) (unit [points, lines, points]) (.named point.name) ⟨8, 4⟩ :=
  record_layout (d := ⟨"CXXBRIDGE1_STRUCT_geo$Point".toList, point.name, .struct [("x", .atom .i32), ("y", .atom .i32)]⟩)
    ⟨[], _, rfl, by simp⟩ ⟨rfl, rfl⟩ rfl (.number .i32 (by decide))

private theorem demo_trusted : Trusted x64 (fun _ => none) [points, lines, points] := by
  intro b hb t hf p hp l
  have hbl : b = points ∨ b = lines := by
    simp only [List.mem_cons, List.not_mem_nil, or_false] at hb
    rcases hb with h | h | h <;> simp [h]
  rcases hbl with rfl | rfl
  · exfalso
    simp [FromHeader, Verif.Types.definitions, points, defines] at hf
  · have ht : t.rust = "Point" := by
      simp [FromHeader, Verif.Types.definitions, lines, defines, line] at hf
      exact hf.symm
    have hpe : p = point.name := by
      obtain ⟨h1, a, ha, gs, h2⟩ := hp
      simp only [lines, List.mem_cons, List.not_mem_nil, or_false] at ha
      rcases ha with rfl | rfl <;> simp [resolves] at h2 <;> obtain ⟨rfl, rfl⟩ := h2
      · rfl
      · rw [ht] at h1; exact absurd h1 (by decide)
    subst hpe
    have hb : Atom.fromStr t.rust = none := by rw [ht]; decide
    have hnd : ∀ d ∈ rustDefs lines.apis, d.name ≠ t.rust := by
      intro d hd
      simp [rustDefs, lines] at hd
      subst hd; rw [ht]; decide
    have bodies : ∀ d ∈ unit [points, lines, points], ∀ e ∈ unit [points, lines, points],
        SameName d.name e.name → d.body = e.body := fun d hd e he hn => bodies_equal demo_consistent hd he hn
    constructor
    · intro h
      have : l = ⟨8, 4⟩ := by
        cases h with
        | number t a h => rw [hb] at h; cases h
        | string t h => rw [hb] at h; cases h
        | reprC t hb d hd hn => exact absurd hn (hnd d hd)
        | transparent t hb d hd hn => exact absurd hn (hnd d hd)
        | imported t hb hn l h =>
          simp only [lines, ht, if_true] at h
          exact (Option.some.inj h).symm
      subst this
      exact point_in_unit
    · intro h
      have := determined bodies h point_in_unit
      subst this
      exact .imported t hb hnd _ (by simp [lines, ht])

/-- A header that defines a type, one that imports it from there, and the first one again: one definition of each is
left, and `Line` is laid out alike in both languages. -/
example : (preprocess [] (unit [points, lines, points])).map (·.name.cxx) = ["Point", "Line"] ∧
    ∃ r ∈ rustDefs lines.apis, ∃ fields, r.name = "Line" ∧ ∀ offsets l,
      RustStructLayout x64 lines.imported (rustDefs lines.apis) r offsets l ↔
        CxxStructLayout x64 (fun _ => none) (unit [points, lines, points]) fields offsets l := by
  refine ⟨by decide +kernel, ?_⟩
  obtain ⟨r, hr, d, fields, _, h1, _, _, _, _, _, h⟩ := unit_layout_partial (s := line) (b := lines) (by
    intro b hb
    simp only [List.mem_cons, List.not_mem_nil, or_false] at hb
    rcases hb with rfl | rfl | rfl
    · exact points_generated
    · exact lines_generated
    · exact points_generated) demo_consistent demo_trusted (by simp) (by simp [lines])
    (by simp [FromHeader, Verif.Types.definitions, lines, defines, line])
  exact ⟨r, hr, fields, h1, h⟩

/-- A macro of rust/cxx.h that may be defined already. -/
example : OfRuntime "CXXBRIDGE1_RUST_STRING".toList := by
  unfold OfRuntime
  exact List.elem_iff.1 (by decide +kernel)

/-- Two bridges, in different crates perhaps, each accepted, that define different structs of the same name in C++: of the
headers included together, the first one suppresses the definition of the second without a word.  What is 8 bytes in
Rust is 1 byte in C++. -/
theorem definition_suppressed :
    dots.Generated ∧ points.Generated ∧ preprocess [] (unit [dots, points]) = dots.defs ∧
    (∃ c, writeType (collect points.apis) (.named "Point") = some c ∧
      RustLayout x64 points.imported (rustDefs points.apis) (.named "Point") ⟨8, 4⟩ ∧
      CxxLayout x64 (fun _ => none) (unit [dots, points]) c ⟨1, 1⟩) := by
  refine ⟨dots_generated, points_generated, rfl, .named point.name, rfl, ?_, ?_⟩
  · have := RustLayout.reprC (m := x64) (imported := points.imported) (defs := rustDefs points.apis) ⟨"Point", []⟩ (by decide)
      (expandStruct point) (by simp [rustDefs, points]) rfl rfl [⟨4, 4⟩, ⟨4, 4⟩] rfl (by
        intro i f l hf hl
        match i with
        | 0 => simp [expandStruct, point, fld] at hf hl; subst hf hl; exact .number _ .i32 (by decide) (by decide)
        | 1 => simp [expandStruct, point, fld] at hf hl; subst hf hl; exact .number _ .i32 (by decide) (by decide)
        | i + 2 => simp at hl)
    exact this
  · have := CxxLayout.struct (m := x64) (header := fun _ => none) (p := point.name) (defs := unit [dots, points])
      ⟨"CXXBRIDGE1_STRUCT_geo$Point".toList, dot.name, .struct [("x", .atom .u8)]⟩ ⟨[], _, rfl, by simp⟩ ⟨rfl, rfl⟩
      [("x", .atom .u8)] rfl [⟨1, 1⟩] rfl (by
        intro i f l hf hl
        match i with
        | 0 => simp at hf hl; subst hf hl; exact .number .u8 (by decide)
        | i + 1 => simp at hl)
    exact this

end Demo

end Verif.Together.Types
