import Verif.Stripped.Strip
import Verif.Improper.Props
/-!
# C88: which functions, fields and variants are left
-/
namespace Verif.Stripped
open Verif.Syntax Verif.Types Verif.Parse Verif.Cfg

variable {r : Readers} {checks trusted : Bool} {ns : Namespace} {items : List ItemSrc} {outs : List Out}
variable {f : Config} {σ : Evaluator} {apis' : List Api}

theorem mem_pieces {p : Piece} : p ∈ pieces outs ↔
    (∃ o ∈ outs, p ∈ importOf o) ∨ (∃ o ∈ outs, p ∈ piecesOf (collect (outs.map (·.api))) o) ∨
      ∃ k ∈ (collect (outs.map (·.api))).impls, ⟨[], .other, [.named k.1.rust]⟩ = p := by
  simp only [pieces, List.mem_append, List.mem_flatMap, List.mem_map, or_assoc]

theorem mem_switchedOn {a : Api} : a ∈ switchedOn f outs ↔ ∃ o ∈ outs, On f o ∧ onItem f o = a := by
  simp only [switchedOn, List.mem_map, List.mem_filter, On, and_assoc]

theorem import_what {o : Out} {p : Piece} (h : p ∈ importOf o) : p.attrs = [] ∧
    ((∃ t, o.api = .rustType t ∧ p.what = .imports t.name.rust ∧ p.mentions = []) ∨
     (∃ t, o.api = .rustType t ∧ p.what = .other ∧ p.mentions = [.named t.name.rust])) := by
  unfold importOf at h
  split at h
  · next t ht =>
    simp only [List.mem_cons, List.not_mem_nil, or_false] at h
    rcases h with rfl | rfl
    · exact ⟨rfl, .inl ⟨t, ht, rfl, rfl⟩⟩
    · exact ⟨rfl, .inr ⟨t, ht, rfl, rfl⟩⟩
  · cases h

/-- The pieces of an item, one by one. -/
inductive IsPiece (ts : Types) (o : Out) : Piece → Prop
  | define {n k} (h : defines o.api = some (n, k)) (hk : k ≠ .rust)
      (hc : k = .cxx → mapHas ts.structs n = false ∧ mapHas ts.enums n = false) :
      IsPiece ts o ⟨o.extra.others, .defines n, []⟩
  | field {s m} (h : o.api = .struct s) (hm : m ∈ o.members.zip s.fields) :
      IsPiece ts o ⟨o.extra.others ++ m.1.1.others, .field s.name.rust m.2, [m.2.ty]⟩
  | variant {e m} (h : o.api = .enum e) (hm : m ∈ o.members.zip e.variants) :
      IsPiece ts o ⟨m.1.1.others, .variant e.name.rust m.2, [.named e.name.rust]⟩
  | calls {fn} (h : o.api = .cxxFunction fn) : IsPiece ts o ⟨o.extra.others, .calls fn, signatureTypes fn⟩
  | exports {fn} (h : o.api = .rustFunction fn) : IsPiece ts o ⟨o.extra.others, .exports fn, signatureTypes fn⟩
  | about {n k} (h : defines o.api = some (n, k)) (ha : k ≠ .alias)
      (hc : k = .cxx → mapHas ts.structs n = false ∧ mapHas ts.enums n = false) :
      IsPiece ts o ⟨[], .other, [.named n]⟩
  | verify {a} (h : o.api = .typeAlias a) : IsPiece ts o ⟨o.extra.others, .other, [.named a.name.rust]⟩
  | method {fn rc} (h : o.api = .cxxFunction fn) (hr : fn.sig.receiver = some rc) :
      IsPiece ts o ⟨[], .other, [.ident rc.ty]⟩

theorem mem_piecesOf {ts : Types} {o : Out} {p : Piece} : p ∈ piecesOf ts o ↔ IsPiece ts o p := by
  constructor
  · intro h
    unfold piecesOf at h
    split at h
    · cases h
    · cases h
    · next s hs =>
      have hd : defines o.api = some (s.name.rust, .shared) := by rw [hs]; rfl
      simp only [structPieces, List.mem_append, List.mem_singleton, List.mem_map] at h
      rcases h with (((rfl | ⟨m, hm, rfl⟩) | rfl) | ⟨_, _, rfl⟩) | rfl
      · exact .define hd (by simp) (by simp)
      · exact .field hs hm
      · exact .about hd (by simp) (by simp)
      · exact .about hd (by simp) (by simp)
      · exact .about hd (by simp) (by simp)
    · next e he =>
      have hd : ∃ k, defines o.api = some (e.name.rust, k) ∧ (k = .shared ∨ k = .headerEnum) := by
        rw [he]; simp only [defines]; split <;> exact ⟨_, rfl, by simp⟩
      obtain ⟨k, hd, hk⟩ := hd
      have k1 : k ≠ .rust := by rintro rfl; simp at hk
      have k2 : k ≠ .alias := by rintro rfl; simp at hk
      have k3 : k ≠ .cxx := by rintro rfl; simp at hk
      simp only [enumPieces, List.mem_append, List.mem_cons, List.not_mem_nil, or_false, List.mem_map] at h
      rcases h with ((rfl | rfl) | ⟨m, hm, rfl⟩) | rfl
      · exact .define hd k1 (fun h => absurd h k3)
      · exact .about hd k2 (fun h => absurd h k3)
      · exact .variant he hm
      · exact .about hd k2 (fun h => absurd h k3)
    · next t ht =>
      have hd : defines o.api = some (t.name.rust, .cxx) := by rw [ht]; rfl
      split at h
      · next hn =>
        simp only [Bool.and_eq_true, Bool.not_eq_true'] at hn
        simp only [List.mem_cons, List.not_mem_nil, or_false] at h
        rcases h with rfl | rfl | rfl
        · exact .define hd (by simp) (fun _ => hn)
        · exact .about hd (by simp) (fun _ => hn)
        · exact .about hd (by simp) (fun _ => hn)
      · cases h
    · next fn hf =>
      simp only [List.mem_append, List.mem_singleton, List.mem_map, Option.mem_toList] at h
      rcases h with ⟨rc, hr, rfl⟩ | rfl
      · exact .method hf hr
      · exact .calls hf
    · next t ht =>
      have hd : defines o.api = some (t.name.rust, .rust) := by rw [ht]; rfl
      simp only [List.mem_cons, List.not_mem_nil, or_false, or_self] at h
      subst h
      exact .about hd (by simp) (by simp)
    · next fn hf =>
      simp only [List.mem_singleton] at h
      subst h
      exact .exports hf
    · next a ha =>
      simp only [List.mem_cons, List.not_mem_nil, or_false] at h
      rcases h with rfl | rfl
      · exact .define (k := .alias) (by rw [ha]; rfl) (by simp) (by simp)
      · exact .verify ha
  · intro h
    unfold piecesOf
    cases h with
    | define h hk hc =>
      cases ha : o.api with
      | struct s => rw [ha] at h; cases h; simp [structPieces]
      | enum e =>
        rw [ha] at h
        simp only [defines, Option.some.injEq, Prod.mk.injEq] at h
        simp [enumPieces, h.1]
      | cxxType t => rw [ha] at h; cases h; simp [hc rfl]
      | rustType t => rw [ha] at h; cases h; exact absurd rfl hk
      | typeAlias a => rw [ha] at h; cases h; simp
      | _ => rw [ha] at h; cases h
    | field h hm => rw [h]; simp only [structPieces, List.mem_append, List.mem_map]; exact .inl (.inl (.inl (.inr ⟨_, hm, rfl⟩)))
    | variant h hm => rw [h]; simp only [enumPieces, List.mem_append, List.mem_map]; exact .inl (.inr ⟨_, hm, rfl⟩)
    | calls h => rw [h]; simp
    | exports h => rw [h]; simp
    | about h ha hc =>
      cases hap : o.api with
      | struct s => rw [hap] at h; cases h; simp [structPieces]
      | enum e =>
        rw [hap] at h
        simp only [defines, Option.some.injEq, Prod.mk.injEq] at h
        simp [enumPieces, h.1]
      | cxxType t => rw [hap] at h; cases h; simp [hc rfl]
      | rustType t => rw [hap] at h; cases h; simp
      | typeAlias a => rw [hap] at h; cases h; exact absurd rfl ha
      | _ => rw [hap] at h; cases h
    | verify h => rw [h]; simp
    | method h hr => rw [h]; simp [hr]

/-- **C88**.  A function of C++ is left in the expanded Rust module exactly if the C++ generator writes its code. -/
theorem calls_in_step (hp : parseItems r checks trusted ns items = ([], outs)) (hx : Extends f σ)
    (hs : stripped σ outs = (apis', [])) (fn : ExternFn) :
    (∃ p, Left r f outs p ∧ p.what = .calls fn) ↔ Api.cxxFunction fn ∈ apis' := by
  rw [strip_on hx hs, mem_switchedOn]
  constructor
  · rintro ⟨p, ⟨hm, hk⟩, hw⟩
    rcases mem_pieces.1 hm with ⟨o, ho, hi⟩ | ⟨o, ho, hi⟩ | ⟨k, _, rfl⟩
    · rcases (import_what hi).2 with ⟨_, _, h, _⟩ | ⟨_, _, h, _⟩ <;> (rw [hw] at h; cases h)
    · have hi := mem_piecesOf.1 hi
      cases hi <;> cases hw
      next h => exact ⟨o, ho, ((printed hp o ho).item (by simp [h]) (by simp [h]) f).1 hk, by simp [onItem, h]⟩
    · cases hw
  · rintro ⟨o, ho, hon, he⟩
    have h : o.api = .cxxFunction fn := by
      unfold onItem at he
      split at he
      · cases he
      · cases he
      · exact he
    exact ⟨_, ⟨mem_pieces.2 (.inr (.inl ⟨o, ho, mem_piecesOf.2 (.calls h)⟩)),
      ((printed hp o ho).item (by simp [h]) (by simp [h]) f).2 hon⟩, rfl⟩

/-- **C88**.  A function of Rust is exported by the expanded module exactly if the C++ generator writes code that calls it. -/
theorem exports_in_step (hp : parseItems r checks trusted ns items = ([], outs)) (hx : Extends f σ)
    (hs : stripped σ outs = (apis', [])) (fn : ExternFn) :
    (∃ p, Left r f outs p ∧ p.what = .exports fn) ↔ Api.rustFunction fn ∈ apis' := by
  rw [strip_on hx hs, mem_switchedOn]
  constructor
  · rintro ⟨p, ⟨hm, hk⟩, hw⟩
    rcases mem_pieces.1 hm with ⟨o, ho, hi⟩ | ⟨o, ho, hi⟩ | ⟨k, _, rfl⟩
    · rcases (import_what hi).2 with ⟨_, _, h, _⟩ | ⟨_, _, h, _⟩ <;> (rw [hw] at h; cases h)
    · have hi := mem_piecesOf.1 hi
      cases hi <;> cases hw
      next h => exact ⟨o, ho, ((printed hp o ho).item (by simp [h]) (by simp [h]) f).1 hk, by simp [onItem, h]⟩
    · cases hw
  · rintro ⟨o, ho, hon, he⟩
    have h : o.api = .rustFunction fn := by
      unfold onItem at he
      split at he
      · cases he
      · cases he
      · exact he
    exact ⟨_, ⟨mem_pieces.2 (.inr (.inl ⟨o, ho, mem_piecesOf.2 (.exports h)⟩)),
      ((printed hp o ho).item (by simp [h]) (by simp [h]) f).2 hon⟩, rfl⟩

/-! ### Fields and variants -/

/-- The fields of the struct `n` that are left, in order; `kept` tells what rustc keeps. -/
def fieldsLeft (kept : List Attr → Bool) (outs : List Out) (n : Ident) : List Var :=
  (pieces outs).filterMap fun p => match p.what with
    | .field m v => if m = n ∧ kept p.attrs = true then some v else none
    | _ => none

/-- The constants of the enum `n` that are left, in order. -/
def variantsLeft (kept : List Attr → Bool) (outs : List Out) (n : Ident) : List Pair :=
  (pieces outs).filterMap fun p => match p.what with
    | .variant m v => if m = n ∧ kept p.attrs = true then some v else none
    | _ => none

theorem flatMap_single {α β : Type} {g : α → List β} {l : List α} {a : α} {l1 l2 : List α} (h : l = l1 ++ a :: l2)
    (h1 : ∀ b ∈ l1, g b = []) (h2 : ∀ b ∈ l2, g b = []) : l.flatMap g = g a := by
  subst h
  rw [List.flatMap_append, List.flatMap_cons, List.flatMap_eq_nil_iff.2 h1, List.flatMap_eq_nil_iff.2 h2]
  simp

theorem filterMap_pieces {β : Type} (g : Piece → Option β) (hi : ∀ o, ∀ p ∈ importOf o, g p = none)
    (hk : ∀ n, g ⟨[], .other, [.named n]⟩ = none) :
    (pieces outs).filterMap g = outs.flatMap fun o => (piecesOf (collect (outs.map (·.api))) o).filterMap g := by
  have h1 : (outs.flatMap importOf).filterMap g = [] := by
    rw [List.filterMap_eq_nil_iff]
    intro p hp
    obtain ⟨o, _, hp⟩ := List.mem_flatMap.1 hp
    exact hi o p hp
  have h2 : ((collect (outs.map (·.api))).impls.map (fun k => (⟨[], .other, [.named k.1.rust]⟩ : Piece))).filterMap g = [] := by
    rw [List.filterMap_eq_nil_iff]
    intro p hp
    obtain ⟨k, _, rfl⟩ := List.mem_map.1 hp
    exact hk _
  unfold pieces
  dsimp only
  rw [List.filterMap_append, List.filterMap_append, h1, h2, List.append_nil, List.nil_append, List.filterMap_flatMap]

/-- In an accepted bridge a shared type is defined once. -/
theorem shared_once {o : Out} (hd : (collect (outs.map (·.api))).dups = []) {l1 l2 : List Out} (ho : outs = l1 ++ o :: l2)
    {n : Ident} {k : Kind} (hk : k = .shared ∨ k = .headerEnum) (hdef : defines o.api = some (n, k)) :
    ∀ b, b ∈ l1 ∨ b ∈ l2 → ∀ k', defines b.api = some (n, k') → k' ≠ .shared ∧ k' ≠ .headerEnum := by
  have h := ((knows _).dups.1 hd).1 n
  subst ho
  rw [List.map_append, List.map_cons, Improper.definitions_append,
    show o.api :: l2.map (·.api) = [o.api] ++ l2.map (·.api) from rfl, Improper.definitions_append] at h
  have e : definitions [o.api] n = [k] := by simp [definitions, hdef]
  rw [e] at h
  have mem {l : List Out} {b : Out} {k' : Kind} (hb : b ∈ l) (hk' : defines b.api = some (n, k')) :
      k' ∈ definitions (l.map (·.api)) n :=
    List.mem_map.2 ⟨(n, k'), List.mem_filter.2 ⟨List.mem_filterMap.2 ⟨_, List.mem_map.2 ⟨b, hb, rfl⟩, hk'⟩, by simp⟩, rfl⟩
  intro b hb k' hk'
  have hb' : k' ∈ definitions (l1.map (·.api)) n ∨ k' ∈ definitions (l2.map (·.api)) n :=
    hb.imp (mem · hk') (mem · hk')
  generalize definitions (l1.map (·.api)) n = d1 at *
  generalize definitions (l2.map (·.api)) n = d2 at *
  match d1, d2 with
  | [], [] => simp at hb'
  | [x], [] =>
    simp only [List.mem_singleton, List.not_mem_nil, or_false] at hb'
    subst hb'
    rcases hk with rfl | rfl <;> cases k' <;> simp [Compatible, Tolerated] at h ⊢
  | [], [x] =>
    simp only [List.mem_singleton, List.not_mem_nil, false_or] at hb'
    subst hb'
    rcases hk with rfl | rfl <;> cases k' <;> simp [Compatible, Tolerated] at h ⊢
  | x :: y :: d1, d2 => exfalso; rcases h with (h | h | h) | h | h | h <;> simp at h
  | [x], y :: d2 => exfalso; rcases h with (h | h | h) | h | h | h <;> simp at h
  | [], x :: y :: d2 => exfalso; rcases h with (h | h | h) | h | h | h <;> simp at h

/-- **C88**.  A struct that the C++ generator writes has in Rust the same fields, in the same order. -/
theorem fields_in_step (hp : parseItems r checks trusted ns items = ([], outs)) (hx : Extends f σ)
    (hd : (collect (outs.map (·.api))).dups = []) (hs : stripped σ outs = (apis', []))
    (kept : List Attr → Bool) (hk : ∀ as, kept as = true ↔ Kept r f as) {s : Struct} (h : Api.struct s ∈ apis') :
    fieldsLeft kept outs s.name.rust = s.fields := by
  rw [strip_on hx hs, mem_switchedOn] at h
  obtain ⟨o, ho, hon, he⟩ := h
  have ha : ∃ s0, o.api = .struct s0 ∧
      s = { s0 with fields := ((o.members.zip s0.fields).filter (fun m => holds f m.1.1.cfg)).map (·.2) } := by
    unfold onItem at he
    split at he
    · next s0 hs0 => cases he; exact ⟨s0, hs0, rfl⟩
    · cases he
    · next h _ => exact absurd he (h s)
  obtain ⟨s0, ha, rfl⟩ := ha
  dsimp only
  obtain ⟨l1, l2, hl⟩ := List.append_of_mem ho
  have once := shared_once hd hl (n := s0.name.rust) (k := .shared) (.inl rfl) (by rw [ha]; rfl)
  have hpr := printed hp o ho
  have others : ∀ b, b ∈ l1 ∨ b ∈ l2 → (piecesOf (collect (outs.map (·.api))) b).filterMap (fun p => match p.what with
      | .field m v => if m = s0.name.rust ∧ kept p.attrs = true then some v else none
      | _ => none) = [] := by
    intro b hb
    rw [List.filterMap_eq_nil_iff]
    intro p hp
    have hp := mem_piecesOf.1 hp
    cases hp <;> dsimp only
    next s h _ =>
      rw [if_neg]
      rintro ⟨hn, _⟩
      exact (once b hb .shared (by rw [h, ← hn]; rfl)).1 rfl
  unfold fieldsLeft
  rw [filterMap_pieces, flatMap_single hl (fun b hb => others b (.inl hb)) (fun b hb => others b (.inr hb))]
  · unfold piecesOf
    rw [ha]
    dsimp only [structPieces]
    simp only [List.filterMap_append, List.filterMap_cons_none, List.filterMap_nil, List.nil_append, List.append_nil,
      List.filterMap_map]
    have hnil : ∀ g : Trait → Option Var, (∀ t, g t = none) → s0.derives.filterMap g = [] := by
      intro g hg; rw [List.filterMap_eq_nil_iff]; intro t _; exact hg t
    rw [hnil _ (by intro t; rfl), List.append_nil]
    have key : ∀ l : List ((Extra × Option Discriminant.Disc) × Var), (∀ m ∈ l, m.1 ∈ o.members) →
        l.filterMap ((fun p : Piece => match p.what with
          | .field m v => if m = s0.name.rust ∧ kept p.attrs = true then some v else none
          | _ => none) ∘ fun m => ⟨o.extra.others ++ m.1.1.others, .field s0.name.rust m.2, [m.2.ty]⟩) =
        (l.filter (fun m => holds f m.1.1.cfg)).map (·.2) := by
      intro l hl
      induction l with
      | nil => rfl
      | cons m l ih =>
        have hm : kept (o.extra.others ++ m.1.1.others) = holds f m.1.1.cfg := by
          rw [Bool.eq_iff_iff, hk, kept_append, hpr.members _ (hl m (by simp)) f,
            hpr.item (by simp [ha]) (by simp [ha]) f]
          exact ⟨fun h => h.2, fun h => ⟨hon, h⟩⟩
        rw [List.filterMap_cons, List.filter_cons]
        simp only [Function.comp, hm, true_and]
        cases holds f m.1.1.cfg
        · simpa using ih (fun m hm => hl m (by simp [hm]))
        · simpa using ih (fun m hm => hl m (by simp [hm]))
    exact key _ fun m hm => (List.of_mem_zip hm).1
  · intro o p hp
    rcases (import_what hp).2 with ⟨_, _, h, _⟩ | ⟨_, _, h, _⟩ <;> rw [h]
  · intro n; rfl

/-- **C88**.  An enum that the C++ generator writes has in Rust the same variants, in the same order. -/
theorem variants_in_step (hp : parseItems r checks trusted ns items = ([], outs)) (hx : Extends f σ)
    (hd : (collect (outs.map (·.api))).dups = []) (hs : stripped σ outs = (apis', []))
    (kept : List Attr → Bool) (hk : ∀ as, kept as = true ↔ Kept r f as) {e : Enum} (h : Api.enum e ∈ apis') :
    variantsLeft kept outs e.name.rust = e.variants := by
  rw [strip_on hx hs, mem_switchedOn] at h
  obtain ⟨o, ho, hon, he⟩ := h
  have ha : ∃ s0, o.api = .enum s0 ∧
      e = { s0 with variants := ((o.members.zip s0.variants).filter (fun m => holds f m.1.1.cfg)).map (·.2) } := by
    unfold onItem at he
    split at he
    · cases he
    · next s0 hs0 => cases he; exact ⟨s0, hs0, rfl⟩
    · next h => exact absurd he (h e)
  obtain ⟨s0, ha, rfl⟩ := ha
  dsimp only
  obtain ⟨l1, l2, hl⟩ := List.append_of_mem ho
  have kind : ∀ (b : Out) (x : Enum), b.api = .enum x → ∃ k, (k = .shared ∨ k = .headerEnum) ∧
      defines b.api = some (x.name.rust, k) := by
    intro b x hb
    rw [hb]; simp only [defines]; split <;> exact ⟨_, by simp, rfl⟩
  obtain ⟨k, hk1, hk2⟩ := kind o s0 ha
  have once := shared_once hd hl hk1 hk2
  have hpr := printed hp o ho
  have others : ∀ b, b ∈ l1 ∨ b ∈ l2 → (piecesOf (collect (outs.map (·.api))) b).filterMap (fun p => match p.what with
      | .variant m v => if m = s0.name.rust ∧ kept p.attrs = true then some v else none
      | _ => none) = [] := by
    intro b hb
    rw [List.filterMap_eq_nil_iff]
    intro p hp
    have hp := mem_piecesOf.1 hp
    cases hp <;> dsimp only
    next s h _ =>
      rw [if_neg]
      rintro ⟨hn, _⟩
      obtain ⟨k', hk1', hk2'⟩ := kind b _ h
      have := once b hb k' (by rw [hk2', hn])
      rcases hk1' with rfl | rfl
      · exact this.1 rfl
      · exact this.2 rfl
  unfold variantsLeft
  rw [filterMap_pieces, flatMap_single hl (fun b hb => others b (.inl hb)) (fun b hb => others b (.inr hb))]
  · unfold piecesOf
    rw [ha]
    dsimp only [enumPieces]
    simp only [List.filterMap_append, List.filterMap_cons_none, List.filterMap_nil, List.nil_append, List.append_nil,
      List.filterMap_map]
    have key : ∀ l : List ((Extra × Option Discriminant.Disc) × Pair), (∀ m ∈ l, m.1 ∈ o.members) →
        l.filterMap ((fun p : Piece => match p.what with
          | .variant m v => if m = s0.name.rust ∧ kept p.attrs = true then some v else none
          | _ => none) ∘ fun m => ⟨m.1.1.others, .variant s0.name.rust m.2, [.named s0.name.rust]⟩) =
        (l.filter (fun m => holds f m.1.1.cfg)).map (·.2) := by
      intro l hl
      induction l with
      | nil => rfl
      | cons m l ih =>
        have hm : kept m.1.1.others = holds f m.1.1.cfg := by
          rw [Bool.eq_iff_iff, hk, hpr.members _ (hl m (by simp)) f]
        rw [List.filterMap_cons, List.filter_cons]
        simp only [Function.comp, hm, true_and]
        cases holds f m.1.1.cfg
        · simpa using ih (fun m hm => hl m (by simp [hm]))
        · simpa using ih (fun m hm => hl m (by simp [hm]))
    exact key _ fun m hm => (List.of_mem_zip hm).1
  · intro o p hp
    rcases (import_what hp).2 with ⟨_, _, h, _⟩ | ⟨_, _, h, _⟩ <;> rw [h]
  · intro n; rfl

end Verif.Stripped
