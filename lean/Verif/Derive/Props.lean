import Verif.Derive.Spec
import Verif.Check.Props
/-!
# Derived traits
-/
namespace Verif.Derive
open Verif.Syntax Verif.Types Verif.Check

/-! ### Loops -/

/-- A loop that goes on as long as the answer is `e`. -/
def first {α : Type} [DecidableEq α] (e : α) : List α → α
  | [] => e
  | x :: r => if x = e then first e r else x

theorem cmpLoop_first (l : List Ordering) : cmpLoop l = first .eq l := by
  induction l with
  | nil => rfl
  | cons x l ih => cases x <;> simp [cmpLoop, first, ih]

theorem partialCmpLoop_first (l : List (Option Ordering)) : partialCmpLoop l = first (some .eq) l := by
  induction l with
  | nil => rfl
  | cons x l ih =>
    cases x with
    | none => simp [partialCmpLoop, first]
    | some x => cases x <;> simp [partialCmpLoop, first, ih]

theorem first_fin {α : Type} [DecidableEq α] (e : α) : ∀ (n : Nat) (f : Fin n → α) (o : α),
    first e ((List.finRange n).map f) = o ↔
      (∃ i, (∀ j < i, f j = e) ∧ f i = o ∧ o ≠ e) ∨ (∀ i, f i = e) ∧ o = e := by
  intro n
  induction n with
  | zero => intro f o; simp [first, List.finRange, eq_comm]
  | succ n ih =>
    intro f o
    rw [List.finRange_succ, List.map_cons, List.map_map]
    unfold first
    by_cases h : f 0 = e
    · rw [if_pos h]
      have := ih (f ∘ Fin.succ) o
      rw [this]
      constructor
      · rintro (⟨i, hj, hi, ho⟩ | ⟨ha, ho⟩)
        · refine .inl ⟨i.succ, fun j hlt => ?_, hi, ho⟩
          rcases Fin.eq_zero_or_eq_succ j with rfl | ⟨j, rfl⟩
          · exact h
          · exact hj j (Fin.succ_lt_succ_iff.1 hlt)
        · refine .inr ⟨fun i => ?_, ho⟩
          rcases Fin.eq_zero_or_eq_succ i with rfl | ⟨i, rfl⟩
          · exact h
          · exact ha i
      · rintro (⟨i, hj, hi, ho⟩ | ⟨ha, ho⟩)
        · rcases Fin.eq_zero_or_eq_succ i with rfl | ⟨i, rfl⟩
          · exact absurd (hi.symm.trans h) ho
          · exact .inl ⟨i, fun j hlt => hj j.succ (Fin.succ_lt_succ_iff.2 hlt), hi, ho⟩
        · exact .inr ⟨fun i => ha i.succ, ho⟩
    · rw [if_neg h]
      constructor
      · rintro rfl
        exact .inl ⟨0, fun j hlt => absurd hlt (Fin.not_lt_zero j), rfl, h⟩
      · rintro (⟨i, hj, hi, ho⟩ | ⟨ha, ho⟩)
        · rcases Fin.eq_zero_or_eq_succ i with rfl | ⟨i, rfl⟩
          · exact hi
          · exact absurd (hj 0 (Fin.succ_pos i)) h
        · exact absurd (ha 0) h

theorem first_map {α β : Type} [DecidableEq α] [DecidableEq β] (e : α) (g : α → β) (hg : ∀ x, g x = g e → x = e) (l : List α) :
    first (g e) (l.map g) = g (first e l) := by
  induction l with
  | nil => rfl
  | cons x l ih =>
    simp only [List.map_cons, first]
    by_cases h : x = e
    · subst h; simp [ih]
    · rw [if_neg h, if_neg fun hx => h (hg x hx)]

/-! ### Structs -/

/-- **C48**, structs.  `cmp` is decided by the first field that differs. -/
theorem cmp_lexicographic {fs : Fields} (a b : Val fs) (o : Ordering) : structCmp a b = o ↔ Lexicographic fs a b o := by
  unfold structCmp each Lexicographic
  rw [cmpLoop_first, first_fin]

/-- **C48**.  So is `partial_cmp`, if `Ord` is not derived. -/
theorem partialCmp_lexicographic {ds : List Trait} (hd : Trait.ord ∉ ds) {fs : Fields} (a b : Val fs) (o : Option Ordering) :
    structPartialCmp ds a b = o ↔ PartialLexicographic fs a b o := by
  unfold structPartialCmp each PartialLexicographic
  rw [if_neg (by simpa using hd), partialCmpLoop_first, first_fin]

/-- **C48**.  With `Ord` derived `partial_cmp` is `Some(cmp)`; without it too, if that is so for each field. -/
theorem partialCmp_cmp {ds : List Trait} {fs : Fields} (h : Trait.ord ∈ ds ∨ ∀ f ∈ fs, ∀ x y, f.partialCmp x y = some (f.cmp x y))
    (a b : Val fs) : structPartialCmp ds a b = some (structCmp a b) := by
  unfold structPartialCmp
  by_cases hd : Trait.ord ∈ ds
  · rw [if_pos (by simpa using hd)]
  · rw [if_neg (by simpa using hd)]
    have hf := h.resolve_left hd
    have he : (each fs fun i => (fs.get i).partialCmp (a i) (b i)) = (each fs fun i => (fs.get i).cmp (a i) (b i)).map some := by
      unfold each
      rw [List.map_map]
      exact List.map_congr_left fun i _ => hf _ (List.get_mem ..) _ _
    unfold structCmp
    rw [he, partialCmpLoop_first, cmpLoop_first]
    exact first_map Ordering.eq some (fun x hx => Option.some.inj hx) _

theorem structEq_iff {fs : Fields} (a b : Val fs) : structEq a b = true ↔ ∀ i, (fs.get i).eq (a i) (b i) = true := by
  unfold structEq each
  simp

/-- Facts about one lawful field. -/
theorem LawfulOrd.eq_left {α : Type} {eq : α → α → Bool} {cmp : α → α → Ordering} (h : LawfulOrd eq cmp) {a b : α} (c : α)
    (hab : cmp a b = .eq) : cmp a c = cmp b c := by
  have hba : cmp b a = .eq := by rw [h.swap b a, hab]; rfl
  have le : ∀ x y z, cmp x y = .eq → cmp y z ≠ .gt → cmp x z ≠ .gt := fun x y z e => h.trans x y z (by rw [e]; decide)
  have ge : ∀ x y z, cmp x y = .eq → cmp z y ≠ .gt → cmp z x ≠ .gt := fun x y z e k =>
    h.trans z y x k (by rw [h.swap y x, e]; decide)
  have h1 := le a b c hab
  have h2 := le b a c hba
  have h3 := ge a b c hab
  have h4 := ge b a c hba
  have s1 := h.swap a c
  have s2 := h.swap b c
  cases e1 : cmp a c <;> cases e2 : cmp b c <;> cases e3 : cmp c a <;> cases e4 : cmp c b <;> simp_all

theorem LawfulOrd.eq_right {α : Type} {eq : α → α → Bool} {cmp : α → α → Ordering} (h : LawfulOrd eq cmp) {b c : α} (a : α)
    (hbc : cmp b c = .eq) : cmp a b = cmp a c := by
  rw [h.swap a b, h.swap a c, h.eq_left a hbc]

theorem LawfulOrd.lt_trans {α : Type} {eq : α → α → Bool} {cmp : α → α → Ordering} (h : LawfulOrd eq cmp) {a b c : α}
    (h1 : cmp a b = .lt) (h2 : cmp b c = .lt) : cmp a c = .lt := by
  have hl := h.trans a b c (by rw [h1]; decide) (by rw [h2]; decide)
  cases e : cmp a c with
  | lt => rfl
  | gt => exact absurd e hl
  | eq =>
    have := h.eq_left b e
    rw [h1, h.swap c b, h2] at this
    cases this

theorem lt_of {o : Ordering} (h1 : o ≠ .gt) (h2 : o ≠ .eq) : o = .lt := by cases o <;> simp_all

/-- **C48**, structs.  `cmp` is a total order that agrees with `==` whenever that holds for each field. -/
theorem cmp_lawful {fs : Fields} (h : ∀ f ∈ fs, LawfulOrd f.eq f.cmp) : LawfulOrd (structEq (fs := fs)) structCmp := by
  have hf : ∀ i, LawfulOrd (fs.get i).eq (fs.get i).cmp := fun i => h _ (List.get_mem ..)
  have swap : ∀ a b : Val fs, structCmp a b = (structCmp b a).swap := by
    intro a b
    rw [cmp_lexicographic]
    rcases (cmp_lexicographic b a (structCmp b a)).1 rfl with ⟨i, hj, hi, ho⟩ | ⟨ha, ho⟩
    · refine .inl ⟨i, fun j hlt => ?_, ?_, ?_⟩
      · rw [(hf j).swap, hj j hlt]; rfl
      · rw [(hf i).swap, hi]
      · cases e : structCmp b a <;> simp_all
    · refine .inr ⟨fun i => ?_, by rw [ho]; rfl⟩
      rw [(hf i).swap, ha i]; rfl
  refine ⟨swap, fun a b c => ?_, fun a b => ?_⟩
  · -- the first field in which either pair differs decides
    intro h1 h2
    rcases (cmp_lexicographic a b (structCmp a b)).1 rfl with ⟨i, hj, hi, ho⟩ | ⟨ha, ho⟩
    · have hi' : (fs.get i).cmp (a i) (b i) = .lt := by
        rw [hi]; exact lt_of h1 ho
      rcases (cmp_lexicographic b c (structCmp b c)).1 rfl with ⟨k, kj, ki, ko⟩ | ⟨ka, ko⟩
      · have ki' : (fs.get k).cmp (b k) (c k) = .lt := by
          rw [ki]; exact lt_of h2 ko
        have : structCmp a c = .lt := by
          rw [cmp_lexicographic]
          rcases Nat.lt_trichotomy i.val k.val with hlt | heq | hlt
          · refine .inl ⟨i, fun j jl => ?_, ?_, by decide⟩
            · rw [(hf j).eq_left _ (hj j jl), kj j (Nat.lt_trans jl hlt)]
            · rw [← (hf i).eq_right _ (kj i hlt), hi']
          · have : i = k := Fin.ext heq
            subst this
            refine .inl ⟨i, fun j jl => ?_, (hf i).lt_trans hi' ki', by decide⟩
            rw [(hf j).eq_left _ (hj j jl), kj j jl]
          · refine .inl ⟨k, fun j jl => ?_, ?_, by decide⟩
            · rw [(hf j).eq_left _ (hj j (Nat.lt_trans jl hlt)), kj j jl]
            · rw [(hf k).eq_left _ (hj k hlt), ki']
        rw [this]; decide
      · have : structCmp a c = .lt := by
          rw [cmp_lexicographic]
          refine .inl ⟨i, fun j jl => ?_, ?_, by decide⟩
          · rw [(hf j).eq_left _ (hj j jl), ka j]
          · rw [← (hf i).eq_right _ (ka i), hi']
        rw [this]; decide
    · have : structCmp a c = structCmp b c := by
        unfold structCmp each
        congr 1
        exact List.map_congr_left fun i _ => (hf i).eq_left _ (ha i)
      rw [this]; exact h2
  · rw [structEq_iff, cmp_lexicographic]
    constructor
    · rintro (⟨i, -, -, ho⟩ | ⟨ha, -⟩)
      · exact absurd rfl ho
      · exact fun i => ((hf i).eq_iff _ _).1 (ha i)
    · exact fun he => .inr ⟨fun i => ((hf i).eq_iff _ _).2 (he i), rfl⟩

/-- **C48**.  Without `Ord`: the laws of `PartialOrd` carry over from the fields, if equal values compare alike. -/
theorem partialCmp_lawful {ds : List Trait} (hd : Trait.ord ∉ ds) {fs : Fields} (h : ∀ f ∈ fs, LawfulPartialOrd f.eq f.partialCmp)
    (hc : ∀ f ∈ fs, Congruent f.eq f.partialCmp) :
    LawfulPartialOrd (structEq (fs := fs)) (structPartialCmp ds) ∧ Congruent (structEq (fs := fs)) (structPartialCmp ds) := by
  have hf : ∀ i, LawfulPartialOrd (fs.get i).eq (fs.get i).partialCmp := fun i => h _ (List.get_mem ..)
  have hg : ∀ i, Congruent (fs.get i).eq (fs.get i).partialCmp := fun i => hc _ (List.get_mem ..)
  have lex := fun a b o => partialCmp_lexicographic hd (fs := fs) a b o
  have left : ∀ i {a b : (fs.get i).val} (c), (fs.get i).partialCmp a b = some .eq →
      (fs.get i).partialCmp a c = (fs.get i).partialCmp b c := fun i a b c e => hg i a b c (((hf i).eq_iff a b).1 e)
  have right : ∀ i {b c : (fs.get i).val} (a), (fs.get i).partialCmp b c = some .eq →
      (fs.get i).partialCmp a b = (fs.get i).partialCmp a c := fun i b c a e => by
    rw [(hf i).swap a b, (hf i).swap a c, left i a e]
  have swap : ∀ a b : Val fs, structPartialCmp ds a b = (structPartialCmp ds b a).map Ordering.swap := by
    intro a b
    rw [lex]
    rcases (lex b a (structPartialCmp ds b a)).1 rfl with ⟨i, hj, hi, ho⟩ | ⟨ha, ho⟩
    · refine .inl ⟨i, fun j hlt => ?_, ?_, ?_⟩
      · rw [(hf j).swap, hj j hlt]; rfl
      · rw [(hf i).swap, hi]
      · cases e : structPartialCmp ds b a with
        | none => simp
        | some x => cases x <;> simp_all
    · refine .inr ⟨fun i => ?_, by rw [ho]; rfl⟩
      rw [(hf i).swap, ha i]; rfl
  have eqv : ∀ a b : Val fs, structPartialCmp ds a b = some .eq ↔ structEq a b = true := by
    intro a b
    rw [structEq_iff, lex]
    constructor
    · rintro (⟨i, -, -, ho⟩ | ⟨ha, -⟩)
      · exact absurd rfl ho
      · exact fun i => ((hf i).eq_iff _ _).1 (ha i)
    · exact fun he => .inr ⟨fun i => ((hf i).eq_iff _ _).2 (he i), rfl⟩
  have cong : Congruent (structEq (fs := fs)) (structPartialCmp ds) := by
    intro a b c e
    rw [structEq_iff] at e
    rw [lex]
    rcases (lex b c (structPartialCmp ds b c)).1 rfl with ⟨i, hj, hi, ho⟩ | ⟨ha, ho⟩
    · exact .inl ⟨i, fun j hlt => by rw [hg j _ _ _ (e j)]; exact hj j hlt, by rw [hg i _ _ _ (e i)]; exact hi, ho⟩
    · exact .inr ⟨fun i => by rw [hg i _ _ _ (e i)]; exact ha i, ho⟩
  refine ⟨⟨swap, fun a b c h1 h2 => ?_, fun a b c h1 h2 => ?_, eqv⟩, cong⟩
  · rcases (lex a b _).1 h1 with ⟨i, hj, hi, -⟩ | ⟨-, ho⟩
    · rcases (lex b c _).1 h2 with ⟨k, kj, ki, -⟩ | ⟨-, ko⟩
      · rw [lex]
        rcases Nat.lt_trichotomy i.val k.val with hlt | heq | hlt
        · refine .inl ⟨i, fun j jl => ?_, ?_, by decide⟩
          · rw [left j _ (hj j jl), kj j (Nat.lt_trans jl hlt)]
          · rw [← right i _ (kj i hlt), hi]
        · have : i = k := Fin.ext heq
          subst this
          refine .inl ⟨i, fun j jl => ?_, (hf i).lt_trans _ _ _ hi ki, by decide⟩
          rw [left j _ (hj j jl), kj j jl]
        · refine .inl ⟨k, fun j jl => ?_, ?_, by decide⟩
          · rw [left j _ (hj j (Nat.lt_trans jl hlt)), kj j jl]
          · rw [left k _ (hj k hlt), ki]
      · cases ko
    · cases ho
  · rw [structEq_iff] at *
    exact fun i => (hf i).eq_trans _ _ _ (h1 i) (h2 i)

/-- A partial order on three values: 0 equals 1, 1 is less than 2, 0 and 2 do not compare. -/
def threeEq : Fin 3 → Fin 3 → Bool := fun a b => decide (a = b) || decide (a ≠ 2 ∧ b ≠ 2)
def threeCmp : Fin 3 → Fin 3 → Option Ordering := fun a b =>
  if threeEq a b then some .eq else if a = 1 ∧ b = 2 then some .lt else if a = 2 ∧ b = 1 then some .gt else none

/-- The field types of the examples. -/
def threeTy : FieldTy := ⟨Fin 3, threeEq, threeCmp, fun _ _ => .eq, fun _ => [], id, 0⟩
def natTy : FieldTy := ⟨Nat, fun a b => a == b, fun a b => some (compare a b), compare, fun n => [n], id, 0⟩

theorem natTy_lawful : LawfulOrd natTy.eq natTy.cmp := by
  refine ⟨fun (a b : Nat) => ?_, fun (a b c : Nat) => ?_, fun (a b : Nat) => ?_⟩
  · exact (Nat.compare_swap b a).symm
  · show compare a b ≠ .gt → compare b c ≠ .gt → compare a c ≠ .gt
    simp only [Nat.compare_ne_gt]
    exact Nat.le_trans
  · show compare a b = .eq ↔ (a == b) = true
    simp

theorem natTy_partial : LawfulPartialOrd natTy.eq natTy.partialCmp ∧ Congruent natTy.eq natTy.partialCmp := by
  refine ⟨⟨fun (a b : Nat) => ?_, fun (a b c : Nat) => ?_, fun (a b c : Nat) => ?_, fun (a b : Nat) => ?_⟩, fun (a b c : Nat) => ?_⟩
  · show some (compare a b) = _
    rw [← Nat.compare_swap b a]; rfl
  · show some (compare a b) = some .lt → some (compare b c) = some .lt → some (compare a c) = some .lt
    simp only [Option.some.injEq, Nat.compare_eq_lt]
    exact Nat.lt_trans
  · show (a == b) = true → (b == c) = true → (a == c) = true
    simp only [beq_iff_eq]
    exact Eq.trans
  · show some (compare a b) = some .eq ↔ (a == b) = true
    simp
  · show (a == b) = true → some (compare a c) = some (compare b c)
    simp only [beq_iff_eq]
    rintro rfl; rfl

/-- A struct of two numbers, its values, and how they compare. -/
def pair (x y : Nat) : Val [natTy, natTy] := fun i => match i with
  | ⟨0, _⟩ => x
  | ⟨1, _⟩ => y

example : (∀ f ∈ [natTy, natTy], LawfulOrd f.eq f.cmp) ∧ structCmp (pair 1 5) (pair 2 0) = .lt ∧
    structCmp (pair 2 5) (pair 2 0) = .gt := by
  refine ⟨?_, by decide, by decide⟩
  intro f hf
  simp at hf
  subst hf
  exact natTy_lawful

example : Trait.ord ∉ [Trait.partialOrd] ∧ (∀ f ∈ [natTy, natTy], LawfulPartialOrd f.eq f.partialCmp) ∧
    ∀ f ∈ [natTy, natTy], Congruent f.eq f.partialCmp := by
  refine ⟨by decide, ?_, ?_⟩ <;> (intro f hf; simp at hf; subst hf)
  · exact natTy_partial.1
  · exact natTy_partial.2

def mixed (x : Fin 3) (y : Nat) : Val [threeTy, natTy] := fun i => match i with
  | ⟨0, _⟩ => x
  | ⟨1, _⟩ => y

/-- The laws that Rust documents for `PartialOrd` do not carry over by themselves: `<` need not be transitive. -/
theorem partialCmp_not_transitive : ∃ fs : Fields, (∀ f ∈ fs, LawfulPartialOrd f.eq f.partialCmp) ∧
    ¬ LawfulPartialOrd (structEq (fs := fs)) (structPartialCmp [.partialOrd]) := by
  refine ⟨[threeTy, natTy], ?_, fun h => ?_⟩
  · intro f hf
    simp only [List.mem_cons, List.not_mem_nil, or_false] at hf
    rcases hf with rfl | rfl
    · refine ⟨?_, ?_, ?_, ?_⟩
      · show ∀ a b : Fin 3, threeCmp a b = (threeCmp b a).map Ordering.swap
        decide
      · show ∀ a b c : Fin 3, threeCmp a b = some .lt → threeCmp b c = some .lt → threeCmp a c = some .lt
        decide
      · show ∀ a b c : Fin 3, threeEq a b = true → threeEq b c = true → threeEq a c = true
        decide
      · show ∀ a b : Fin 3, threeCmp a b = some .eq ↔ threeEq a b = true
        decide
    · exact natTy_partial.1
  · have := h.lt_trans (mixed 0 1) (mixed 1 2) (mixed 2 0) (by decide) (by decide)
    exact absurd this (by decide)

/-! ### Enums -/

/-- **C48**, enums.  They are ordered as their discriminants are. -/
theorem enum_order (a b : Int) : (enumCmp a b = .lt ↔ a < b) ∧ (enumCmp a b = .eq ↔ a = b) ∧ (enumCmp a b = .gt ↔ b < a) ∧
    enumPartialCmp a b = some (enumCmp a b) := by
  unfold enumCmp enumPartialCmp
  refine ⟨Int.compare_eq_lt, Int.compare_eq_eq, Int.compare_eq_gt, rfl⟩

/-- **C58**, `Debug`.  A value prints as the first variant with its discriminant, and if there is none as a number. -/
theorem enum_debug (name : List Char) (variants : List (List Char × Int)) (repr : Int) :
    (∀ pre v post, variants = pre ++ v :: post → v.2 = repr → (∀ w ∈ pre, w.2 ≠ repr) → enumDebug name variants repr = v.1) ∧
    ((∀ v ∈ variants, v.2 ≠ repr) → enumDebug name variants repr = name ++ ['('] ++ (toString repr).toList ++ [')']) := by
  unfold enumDebug
  constructor
  · rintro pre v post rfl hv hw
    have : (pre ++ v :: post).find? (fun v => v.2 == repr) = some v := by
      rw [List.find?_append, List.find?_eq_none.2 (by simpa using hw)]
      simp [List.find?, hv]
    rw [this]
  · intro hn
    rw [List.find?_eq_none.2 (by simpa using hn)]
    rfl

/-! ### Which traits are implemented -/

theorem expandStruct_some {ds : List Trait} (h : Trait.externType ∉ ds) : ∃ is, expandStruct ds = some is ∧ is.map (·.1) = ds := by
  induction ds with
  | nil => exact ⟨[], rfl, rfl⟩
  | cons d ds ih =>
    obtain ⟨is, hi, hm⟩ := ih fun hd => h (List.mem_cons_of_mem _ hd)
    have hd : d ≠ .externType := fun e => h (by simp [e])
    cases d <;> first | (exact absurd rfl hd) | exact ⟨_, by simp [expandStruct, hi]; rfl, by simp [hm]⟩

theorem expandEnumLoop_some {ds : List Trait} (h : Trait.externType ∉ ds) (h' : Trait.default ∉ ds) :
    ∃ is, expandEnumLoop ds = some is ∧ is.map (·.1) = ds := by
  induction ds with
  | nil => exact ⟨[], rfl, rfl⟩
  | cons d ds ih =>
    obtain ⟨is, hi, hm⟩ := ih (fun hd => h (List.mem_cons_of_mem _ hd)) fun hd => h' (List.mem_cons_of_mem _ hd)
    have hd : d ≠ .externType := fun e => h (by simp [e])
    have hd' : d ≠ .default := fun e => h' (by simp [e])
    cases d <;> first | (exact absurd rfl hd) | (exact absurd rfl hd') | exact ⟨_, by simp [expandEnumLoop, hi]; rfl, by simp [hm]⟩

/-- **C58**, structs.  In an accepted bridge the derives of a struct expand without a panic to exactly one impl each. -/
theorem struct_derives {g : Generator} {apis : List Api} (ha : Accepted g apis) {s : Struct} (hs : Api.struct s ∈ apis) :
    ∃ is, expandStruct s.derives = some is ∧ is.map (·.1) = s.derives := by
  refine expandStruct_some fun hd => ?_
  have := accepted_api ha hs
  simp only [checkApi, checkApiStruct, List.append_eq_nil_iff, List.flatMap_eq_nil_iff] at this
  have := this.1.2 _ hd
  simp at this

/-- **C58**, enums.  Those of an enum too, and `Copy`, `Clone`, `Eq` and `PartialEq` are implemented in any case, once. -/
theorem enum_derives {g : Generator} {apis : List Api} (ha : Accepted g apis) {e : Enum} (he : Api.enum e ∈ apis) :
    ∃ is, expandEnum e.derives = some is ∧
      (∀ t, t ∈ is.map (·.1) ↔ t ∈ e.derives ∨ t = .copy ∨ t = .clone ∨ t = .eq ∨ t = .partialEq) ∧
      (e.derives.Nodup → (is.map (·.1)).Nodup) := by
  have hc := accepted_api ha he
  simp only [checkApi, checkApiEnum, List.append_eq_nil_iff, List.flatMap_eq_nil_iff] at hc
  obtain ⟨is, hi, hm⟩ := expandEnumLoop_some (ds := e.derives) (fun hd => by simpa using hc.2 _ hd)
    fun hd => by simpa using hc.2 _ hd
  unfold expandEnum
  rw [hi]
  refine ⟨_, rfl, fun t => ?_, fun hn => ?_⟩
  · simp only [List.map_append, hm, List.mem_append, List.contains_iff_mem]
    by_cases h1 : Trait.copy ∈ e.derives <;> by_cases h2 : Trait.clone ∈ e.derives <;> by_cases h3 : Trait.eq ∈ e.derives <;>
      by_cases h4 : Trait.partialEq ∈ e.derives <;> simp [h1, h2, h3, h4] <;> grind
  · simp only [List.map_append, hm, List.contains_iff_mem]
    by_cases h1 : Trait.copy ∈ e.derives <;> by_cases h2 : Trait.clone ∈ e.derives <;> by_cases h3 : Trait.eq ∈ e.derives <;>
      by_cases h4 : Trait.partialEq ∈ e.derives <;> simp [h1, h2, h3, h4, List.nodup_append, hn] <;> grind

theorem struct_loop_how {ds : List Trait} {is : List (Trait × How)} (h : expandStruct ds = some is) {i : Trait × How} (hi : i ∈ is) :
    i.2 = .left ↔ i.1 ∈ [Trait.eq, .partialEq, .hash, .serialize, .deserialize] := by
  induction ds generalizing is with
  | nil => cases (Option.some.inj h); simp at hi
  | cons d ds ih =>
    cases he : expandStruct ds with
    | none => cases d <;> simp [expandStruct, he] at h
    | some js =>
      cases d <;> simp only [expandStruct, he, Option.bind_some, Option.bind_none, Option.map_some, Option.some.injEq,
        reduceCtorEq] at h <;> subst h <;> rcases List.mem_cons.1 hi with rfl | hi <;>
        first | exact ih he hi | simp

theorem enum_loop_how {ds : List Trait} {is : List (Trait × How)} (h : expandEnumLoop ds = some is) {i : Trait × How} (hi : i ∈ is) :
    i.2 = .left ↔ i.1 ∈ [Trait.eq, .partialEq, .hash, .serialize, .deserialize] := by
  induction ds generalizing is with
  | nil => cases (Option.some.inj h); simp at hi
  | cons d ds ih =>
    cases he : expandEnumLoop ds with
    | none => cases d <;> simp [expandEnumLoop, he] at h
    | some js =>
      cases d <;> simp only [expandEnumLoop, he, Option.bind_some, Option.bind_none, Option.map_some, Option.some.injEq,
        reduceCtorEq] at h <;> subst h <;> rcases List.mem_cons.1 hi with rfl | hi <;>
        first | exact ih he hi | simp

/-- **C58**, by whom.  The impls of `Eq`, `PartialEq`, `Hash`, `Serialize` and `Deserialize` are those of Rust's own derive
macros, and no others are. -/
theorem derived_by_rust {ds : List Trait} {is : List (Trait × How)} (h : expandStruct ds = some is ∨ expandEnum ds = some is)
    {i : Trait × How} (hi : i ∈ is) : i.2 = .left ↔ i.1 ∈ [Trait.eq, .partialEq, .hash, .serialize, .deserialize] := by
  rcases h with h | h
  · exact struct_loop_how h hi
  · unfold expandEnum at h
    cases he : expandEnumLoop ds with
    | none => simp [he] at h
    | some js =>
      rw [he, Option.map_some, Option.some.injEq] at h
      subst h
      simp only [List.mem_append] at hi
      rcases hi with (((hi | hi) | hi) | hi) | hi
      · exact enum_loop_how he hi
      all_goals split at hi <;> simp at hi <;> subst hi <;> simp

/-- **C58**, patterns.  The variants of every enum of an accepted bridge can be used in patterns: Rust demands that both `Eq`
and `PartialEq` come from its own derive macros, and they do, whether or not they are listed. -/
theorem enum_in_patterns {g : Generator} {apis : List Api} (ha : Accepted g apis) {e : Enum} (he : Api.enum e ∈ apis) :
    ∃ is, expandEnum e.derives = some is ∧ (Trait.eq, How.left) ∈ is ∧ (Trait.partialEq, How.left) ∈ is ∧
      (Trait.eq, How.written) ∉ is ∧ (Trait.partialEq, How.written) ∉ is := by
  obtain ⟨is, hi, hm, _⟩ := enum_derives ha he
  have hl : ∀ t : Trait, t = .eq ∨ t = .partialEq → (t, How.left) ∈ is ∧ (t, How.written) ∉ is := by
    intro t ht
    have hw : (t, How.written) ∉ is := fun hw => by
      have := (derived_by_rust (.inr hi) hw).2 (by rcases ht with rfl | rfl <;> simp)
      simp at this
    refine ⟨?_, hw⟩
    obtain ⟨⟨t', h⟩, hmem, rfl⟩ := List.mem_map.1 ((hm t).2 (by rcases ht with rfl | rfl <;> simp))
    cases h
    · exact absurd hmem hw
    · exact hmem
  exact ⟨is, hi, (hl _ (.inl rfl)).1, (hl _ (.inr rfl)).1, (hl _ (.inl rfl)).2, (hl _ (.inr rfl)).2⟩

/-- **C58**, `Clone` and `Default`.  They act field by field; with `Copy` cloning is a copy. -/
theorem struct_clone (ds : List Trait) {fs : Fields} (a : Val fs) (i : Fin fs.length) :
    structClone ds a i = (if Trait.copy ∈ ds then a i else (fs.get i).clone (a i)) ∧ structDefault fs i = (fs.get i).default := by
  unfold structClone
  by_cases h : Trait.copy ∈ ds <;> simp [h, structDefault]

/-! ### Operators -/

theorem members_exact (ds : List Trait) (o : Cmp) : o ∈ members ds ↔ Provides ds o := by
  unfold members
  by_cases h1 : Trait.partialEq ∈ ds <;> by_cases h2 : Trait.partialOrd ∈ ds <;> cases o <;> simp [Provides, h1, h2]

/-- **C33**, symbols.  For every set of derives: the functions that Rust exports are those that C++ declares, and those
that its operators and `std::hash` call. -/
theorem symbols_agree (ds : List Trait) (n : String) :
    ((∃ f, (n, f) ∈ exports ds) ↔ n ∈ decls ds) ∧
    (n ∈ decls ds ↔ (∃ o, (o, Body.call n) ∈ defs ds) ∨ n ∈ hashCalls ds) := by
  have he : ∀ f, (n, f) ∈ exports ds ↔
      Trait.partialEq ∈ ds ∧ ((n, f) = ("eq", .cmp .eq) ∨ Trait.eq ∉ ds ∧ (n, f) = ("ne", .cmp .ne)) ∨
      Trait.partialOrd ∈ ds ∧ ((n, f) = ("lt", .cmp .lt) ∨ (n, f) = ("le", .cmp .le) ∨
        Trait.ord ∉ ds ∧ ((n, f) = ("gt", .cmp .gt) ∨ (n, f) = ("ge", .cmp .ge))) ∨
      Trait.hash ∈ ds ∧ (n, f) = ("hash", .hash) := by
    intro f
    unfold exports
    rw [List.mem_flatMap]
    constructor
    · rintro ⟨d, hd, hf⟩
      cases d <;> simp at hf <;> grind
    · rintro (⟨h, hf⟩ | ⟨h, hf⟩ | ⟨h, hf⟩)
      · exact ⟨_, h, by simp; grind⟩
      · exact ⟨_, h, by simp; grind⟩
      · exact ⟨_, h, by simp; grind⟩
  constructor
  · simp only [he]
    unfold decls
    by_cases h1 : Trait.partialEq ∈ ds <;> by_cases h2 : Trait.partialOrd ∈ ds <;> by_cases h3 : Trait.hash ∈ ds <;>
      by_cases h4 : Trait.eq ∈ ds <;> by_cases h5 : Trait.ord ∈ ds <;> simp [h1, h2, h3, h4, h5] <;> grind
  · unfold decls defs hashCalls
    by_cases h1 : Trait.partialEq ∈ ds <;> by_cases h2 : Trait.partialOrd ∈ ds <;> by_cases h3 : Trait.hash ∈ ds <;>
      by_cases h4 : Trait.eq ∈ ds <;> by_cases h5 : Trait.ord ∈ ds <;> simp [h1, h2, h3, h4, h5] <;> grind

theorem call_export {ds : List Trait} {o : Cmp} {n : String} (h : (o, Body.call n) ∈ defs ds) : (n, Fn.cmp o) ∈ exports ds := by
  unfold defs at h
  unfold exports
  rw [List.mem_flatMap]
  rcases List.mem_append.1 h with h | h
  · by_cases h1 : Trait.partialEq ∈ ds
    · refine ⟨_, h1, ?_⟩
      by_cases h2 : Trait.eq ∈ ds <;> simp [h1, h2] at h ⊢ <;> grind
    · simp [h1] at h
  · by_cases h1 : Trait.partialOrd ∈ ds
    · refine ⟨_, h1, ?_⟩
      by_cases h2 : Trait.ord ∈ ds <;> simp [h1, h2] at h ⊢ <;> grind
    · simp [h1] at h

theorem not_def {ds : List Trait} {o o' : Cmp} (h : (o, Body.not o') ∈ defs ds) :
    o = .ne ∧ o' = .eq ∨ Trait.ord ∈ ds ∧ (o = .gt ∧ o' = .le ∨ o = .ge ∧ o' = .lt) := by
  unfold defs at h
  by_cases h1 : Trait.partialEq ∈ ds <;> by_cases h2 : Trait.partialOrd ∈ ds <;>
    by_cases h4 : Trait.eq ∈ ds <;> by_cases h5 : Trait.ord ∈ ds <;> simp [h1, h2, h4, h5] at h ⊢ <;> grind

theorem base_def {ds : List Trait} {o : Cmp} (h : o ∈ members ds) (ho : o ≠ .ne ∧ o ≠ .gt ∧ o ≠ .ge) :
    ∃ n, (o, Body.call n) ∈ defs ds := by
  unfold members at h
  unfold defs
  by_cases h1 : Trait.partialEq ∈ ds <;> by_cases h2 : Trait.partialOrd ∈ ds <;> simp [h1, h2] at h ⊢ <;> grind

theorem has_def {ds : List Trait} {o : Cmp} (h : o ∈ members ds) :
    (∃ n, (o, Body.call n) ∈ defs ds) ∨ ∃ o' ∈ members ds, (o' ≠ .ne ∧ o' ≠ .gt ∧ o' ≠ .ge) ∧ (o, Body.not o') ∈ defs ds := by
  unfold members at h ⊢
  unfold defs
  by_cases h1 : Trait.partialEq ∈ ds <;> by_cases h2 : Trait.partialOrd ∈ ds <;>
    by_cases h4 : Trait.eq ∈ ds <;> by_cases h5 : Trait.ord ∈ ds <;> simp [h1, h2, h4, h5] at h ⊢ <;> cases o <;> simp at h ⊢

/-- **C33**: each operator that the class declares is defined once, and no other operator is. -/
theorem defs_members (ds : List Trait) : (defs ds).map (·.1) = members ds ∧ (members ds).Nodup := by
  unfold defs members
  by_cases h1 : Trait.partialEq ∈ ds <;> by_cases h2 : Trait.partialOrd ∈ ds <;> simp [h1, h2]

/-- What the C++ operators negate. -/
theorem negation {ds : List Trait} {fs : Fields} {o o' : Cmp} (h : (o, Body.not o') ∈ defs ds) (a b : Val fs) :
    (!rustOp structEq (structPartialCmp ds) o' a b) = rustOp structEq (structPartialCmp ds) o a b := by
  rcases not_def h with ⟨rfl, rfl⟩ | ⟨hd, ⟨rfl, rfl⟩ | ⟨rfl, rfl⟩⟩
  · rfl
  all_goals
    simp only [rustOp, partialCmp_cmp (.inl hd)]
    cases structCmp a b <;> rfl

/-- **C33**, operators.  For every set of derives, fields and values: a C++ operator that the class declares returns what
the operator of Rust returns.  (The class declares it if the trait is derived, `members_exact`.) -/
theorem operators_agree {ds : List Trait} {fs : Fields} {link : String → Option (Val fs → Val fs → Bool)}
    (hl : Linked (rustOp structEq (structPartialCmp ds)) (exports ds) link) {o : Cmp} (ho : o ∈ members ds) (a b : Val fs) (r : Bool) :
    Returns (defs ds) link a b o r ↔ r = rustOp structEq (structPartialCmp ds) o a b := by
  have call : ∀ {o n}, (o, Body.call n) ∈ defs ds → link n = some (rustOp structEq (structPartialCmp ds) o) :=
    fun h => hl _ _ (call_export h)
  constructor
  · intro h
    clear ho
    induction h with
    | call hd hf =>
      rw [call hd] at hf
      rw [← Option.some.inj hf]
    | not hd _ ih => rw [ih]; exact negation hd a b
  · rintro rfl
    rcases has_def ho with ⟨n, hn⟩ | ⟨o', ho', hb, hd⟩
    · exact .call hn (call hn)
    · obtain ⟨n, hn⟩ := base_def ho' hb
      rw [← negation hd a b]
      exact .not hd (.call hn (call hn))

/-- The functions can be linked: no name is exported twice with different meanings. -/
theorem linkable (ds : List Trait) {α : Type} (rust : Cmp → α → α → Bool) : ∃ link, Linked rust (exports ds) link := by
  refine ⟨fun n => if n = "eq" then some (rust .eq) else if n = "ne" then some (rust .ne) else if n = "lt" then some (rust .lt)
    else if n = "le" then some (rust .le) else if n = "gt" then some (rust .gt) else some (rust .ge), fun n o h => ?_⟩
  unfold exports at h
  rw [List.mem_flatMap] at h
  obtain ⟨d, -, h⟩ := h
  cases d <;> simp at h
  · rcases h with ⟨rfl, rfl⟩ | ⟨-, rfl, rfl⟩ <;> simp
  · rcases h with ⟨rfl, rfl⟩ | ⟨rfl, rfl⟩ | ⟨-, ⟨rfl, rfl⟩ | ⟨rfl, rfl⟩⟩ <;> simp

/-- `>` of C++ with and without `Ord`. -/
example : Cmp.gt ∈ members [.partialEq, .partialOrd] ∧ Cmp.gt ∈ members [.partialEq, .eq, .partialOrd, .ord] ∧
    defs [.partialEq, .partialOrd] ≠ defs [.partialEq, .eq, .partialOrd, .ord] ∧
    rustOp structEq (structPartialCmp []) .gt (pair 2 5) (pair 2 0) = true := by decide

/-- **C59**.  Values that compare equal have equal hashes, whatever the hasher, if that is so for each field; and
`std::hash` calls the function that computes the hash. -/
theorem equal_hash {fs : Fields} (h : ∀ f ∈ fs, ∀ x y, f.eq x y = true → f.hash x = f.hash y) (finish : List Nat → Nat) (bits : Nat)
    {a b : Val fs} (he : structEq a b = true) : hash finish bits a = hash finish bits b := by
  unfold hash structHash each
  rw [structEq_iff] at he
  congr 3
  exact List.map_congr_left fun i _ => h _ (List.get_mem ..) _ _ (he i)

theorem hash_linked (ds : List Trait) (n : String) : n ∈ hashCalls ds ↔ (n, Fn.hash) ∈ exports ds := by
  unfold hashCalls exports
  rw [List.mem_flatMap]
  constructor
  · intro hn
    by_cases h : Trait.hash ∈ ds
    · exact ⟨_, h, by simpa [h] using hn⟩
    · simp [h] at hn
  · rintro ⟨d, hd, hf⟩
    cases d <;> simp at hf
    simp [hd, hf]

example : (∀ f ∈ [natTy, natTy], ∀ x y, f.eq x y = true → f.hash x = f.hash y) ∧ structEq (pair 1 2) (pair 1 2) = true ∧
    structHash (pair 1 2) ≠ structHash (pair 2 1) := by
  refine ⟨?_, by decide, by decide⟩
  intro f hf
  simp at hf
  subst hf
  show ∀ x y : Nat, (x == y) = true → [x] = [y]
  simp

/-- A struct and an enum with derives. -/
def derived : List Api :=
  [.struct ⟨[.debug, .partialEq, .hash, .copy, .clone], nm "S", [], [⟨nm "x", .named "u8"⟩]⟩,
   .enum ⟨[.partialOrd, .copy], nm "E", [], [nm "A"], false, .u8, false⟩]

example : Accepted .build derived ∧ Accepted .macro derived ∧ expandEnum [.partialOrd, .copy] =
    some [(.partialOrd, .written), (.copy, .written), (.clone, .written), (.eq, .left), (.partialEq, .left)] := by decide +kernel

end Verif.Derive
