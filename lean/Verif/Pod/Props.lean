import Mathlib.Data.Fintype.Card
import Verif.Pod.Model
import Verif.Pod.Spec
import Verif.Improper.Props
import Verif.Toposort.Props
/-!
# The plain-data analysis
-/
namespace Verif.Pod
open Verif.Syntax Verif.Types Verif.Improper Verif.Toposort

theorem numeric_iff (s : Ident) : s ∈ numeric ↔ ∃ a, Atom.fromStr s = some a ∧ atomPod a = true := by
  constructor
  · intro h
    have : ∀ x ∈ numeric, ∃ a, Atom.fromStr x = some a ∧ atomPod a = true := by
      simp only [numeric, List.mem_cons, List.not_mem_nil, or_false, forall_eq_or_imp, forall_eq]
      exact ⟨⟨_, rfl, rfl⟩, ⟨_, rfl, rfl⟩, ⟨_, rfl, rfl⟩, ⟨_, rfl, rfl⟩, ⟨_, rfl, rfl⟩, ⟨_, rfl, rfl⟩, ⟨_, rfl, rfl⟩,
        ⟨_, rfl, rfl⟩, ⟨_, rfl, rfl⟩, ⟨_, rfl, rfl⟩, ⟨_, rfl, rfl⟩, ⟨_, rfl, rfl⟩, ⟨_, rfl, rfl⟩, ⟨_, rfl, rfl⟩⟩
    exact this s h
  · rintro ⟨a, ha, hp⟩
    rw [← Atom.asRef_of_fromStr ha]
    cases a <;> first | (cases hp; done) | decide

theorem kind_iff (ty : Ty) : (kind ty).isSome = true ↔ Primitive ty := by
  cases ty <;> simp [kind, Primitive]
  next t =>
    rw [numeric_iff]
    cases Atom.fromStr t.rust with
    | none => simp
    | some a => cases a <;> simp [atomKind, atomPod]

theorem allFields_true (f : Ty → Option Bool) (tys : List Ty) :
    allFields f tys = some true ↔ ∀ t ∈ tys, (kind t).isSome = false ∧ f t = some true := by
  induction tys with
  | nil => simp [allFields]
  | cons t ts ih =>
    unfold allFields
    cases hk : (kind t).isSome
    · simp only [Bool.false_eq_true, if_false, List.mem_cons, forall_eq_or_imp, hk, true_and]
      split
      · next h => simp [h]
      · next h => simp [h]
      · next h => simp [h, ih]
    · simp only [if_true, Option.some.injEq, Bool.false_eq_true, List.mem_cons, forall_eq_or_imp, hk, false_and]
      simp

theorem allFields_false (f : Ty → Option Bool) (tys : List Ty) (h : allFields f tys = some false) :
    ∃ t ∈ tys, (kind t).isSome = true ∨ f t = some false := by
  induction tys with
  | nil => simp [allFields] at h
  | cons t ts ih =>
    unfold allFields at h
    cases hk : (kind t).isSome
    · rw [hk] at h
      simp only [Bool.false_eq_true, if_false] at h
      split at h
      · cases h
      · next hf => exact ⟨t, by simp, .inr hf⟩
      · obtain ⟨t', ht', h'⟩ := ih h
        exact ⟨t', by simp [ht'], h'⟩
    · exact ⟨t, by simp, .inl hk⟩

theorem allFields_isSome (f : Ty → Option Bool) (tys : List Ty) (h : ∀ t ∈ tys, (f t).isSome = true) :
    (allFields f tys).isSome = true := by
  induction tys with
  | nil => rfl
  | cons t ts ih =>
    unfold allFields
    split
    · rfl
    · have := h t (by simp)
      split
      · next hf => rw [hf] at this; cases this
      · rfl
      · exact ih (fun t ht => h t (by simp [ht]))

/-- **C55**.  Whenever the analysis answers, it says that a type is plain data exactly when it is. -/
theorem pod_exact {apis : List Api} (hd : (collect apis).dups = []) (depth : Nat) (ty : Ty) (b : Bool)
    (h : isPod (collect apis) depth ty = some b) : b = true ↔ Plain apis ty := by
  induction depth generalizing ty b with
  | zero => simp [isPod] at h
  | succ depth ih =>
    cases ty with
    | ident t =>
      simp only [isPod] at h
      cases ha : Atom.fromStr t.rust with
      | some a =>
        rw [ha] at h
        simp only [Option.some.injEq] at h
        subst h
        constructor
        · intro hb; exact .numeric t ((numeric_iff _).2 ⟨a, ha, hb⟩)
        · intro hp
          cases hp with
          | numeric _ hn =>
            obtain ⟨a', ha', hb⟩ := (numeric_iff _).1 hn
            rw [ha] at ha'; injection ha' with ha'; rw [ha']; exact hb
          | enum _ hb => rw [ha] at hb; cases hb
          | struct _ hb => rw [ha] at hb; cases hb
      | none =>
        rw [ha] at h
        have hnum : t.rust ∉ numeric := by rw [numeric_iff]; simp [ha]
        cases hs : mapGet (collect apis).structs t.rust with
        | none =>
          rw [hs] at h
          simp only [Option.some.injEq] at h
          subst h
          have hno := (struct_missing apis t.rust).1 hs
          rw [(gathers apis).hasEnum]
          constructor
          · rintro ⟨e, he, hn⟩; exact .enum t ha e he hn hno
          · intro hp
            cases hp with
            | numeric _ hn => exact absurd hn hnum
            | enum _ _ e he hn _ => exact ⟨e, he, hn⟩
            | struct _ _ s hs hn => exact absurd hn (hno s hs)
        | some s =>
          rw [hs] at h
          obtain ⟨hm, hn⟩ := (struct_lookup hd t.rust s).1 hs
          constructor
          · rintro rfl
            have hall := (allFields_true _ _).1 h
            refine .struct t ha s hm hn (fun f hf => ?_) (fun f hf => ?_)
            · rw [← kind_iff, (hall f.ty (List.mem_map.2 ⟨f, hf, rfl⟩)).1]; simp
            · exact (ih f.ty true (hall f.ty (List.mem_map.2 ⟨f, hf, rfl⟩)).2).1 rfl
          · intro hp
            cases hp with
            | numeric _ hn => exact absurd hn hnum
            | enum _ _ e he hn' hno => exact absurd hn (hno s hm)
            | struct _ _ s' hm' hn' hp hf =>
              obtain rfl := one_struct hd hm' hm (hn'.trans hn.symm)
              cases b
              · obtain ⟨ty, hty, hbad⟩ := allFields_false _ _ h
                obtain ⟨f, hff, rfl⟩ := List.mem_map.1 hty
                rcases hbad with hbad | hbad
                · exact absurd ((kind_iff _).1 hbad) (hp f hff)
                · exact absurd ((ih f.ty false hbad).2 (hf f hff)) (by simp)
              · rfl
    | array t n =>
      simp only [isPod] at h
      rw [ih t b h]
      exact ⟨.array t n, fun h => by cases h; assumption⟩
    | ref p l m t => simp only [isPod, Option.some.injEq] at h; subst h; exact ⟨fun _ => .ref .., fun _ => rfl⟩
    | ptr m t => simp only [isPod, Option.some.injEq] at h; subst h; exact ⟨fun _ => .ptr .., fun _ => rfl⟩
    | str p l m t => simp only [isPod, Option.some.injEq] at h; subst h; exact ⟨fun _ => .str .., fun _ => rfl⟩
    | sliceRef l m t => simp only [isPod, Option.some.injEq] at h; subst h; exact ⟨fun _ => .slice .., fun _ => rfl⟩
    | fn u as r th => simp only [isPod, Option.some.injEq] at h; subst h; exact ⟨fun _ => .fn .., fun _ => rfl⟩
    | _ =>
      simp only [isPod, Option.some.injEq] at h
      subst h
      exact ⟨nofun, nofun⟩

/-- **C55**, the use of it.  Plain data holds no object whose move or destruction runs code. -/
theorem plain_not_owning {apis : List Api} (hd : (collect apis).dups = []) {ty : Ty} (h : Plain apis ty) :
    ¬ Owning apis ty := by
  induction h with
  | numeric t hn =>
    obtain ⟨a, ha, hp⟩ := (numeric_iff _).1 hn
    intro ho
    cases ho with
    | string _ hs =>
      rcases hs with hs | hs
      all_goals (rw [hs] at hn; exact absurd hn (by decide))
    | extern _ hb => rw [ha] at hb; cases hb
    | field _ hb => rw [ha] at hb; cases hb
  | enum t hb e he hn hno =>
    intro ho
    cases ho with
    | string _ hs =>
      rcases hs with hs | hs
      all_goals (rw [hs] at hb; exact absurd hb (by decide))
    | extern _ _ _ he' => exact he' e he hn
    | field _ _ s hs hn' => exact hno s hs hn'
  | struct t hb s hs hn _ _ ih =>
    intro ho
    cases ho with
    | string _ hs =>
      rcases hs with hs | hs
      all_goals (rw [hs] at hb; exact absurd hb (by decide))
    | extern _ _ hs' => exact hs' s hs hn
    | field _ _ s' hs' hn' f hf ho =>
      obtain rfl := one_struct hd hs' hs (hn'.trans hn.symm)
      exact ih f hf ho
  | array t n _ ih =>
    intro ho
    cases ho with
    | array _ _ ho => exact ih ho
  | _ => intro ho; cases ho

/-- The structs of a bridge. -/
def structsOf (apis : List Api) : List Struct :=
  apis.filterMap (fun a => match a with | .struct s => some s | _ => none)

theorem mem_structsOf (apis : List Api) (s : Struct) : s ∈ structsOf apis ↔ Api.struct s ∈ apis := by
  unfold structsOf
  rw [List.mem_filterMap]
  constructor
  · rintro ⟨a, ha, h⟩
    cases a <;> simp only [reduceCtorEq, Option.some.injEq] at h
    subst h; exact ha
  · intro h; exact ⟨_, h, rfl⟩

theorem allFields_mono {f g : Ty → Option Bool} (hfg : ∀ t b, f t = some b → g t = some b) (tys : List Ty) (b : Bool)
    (h : allFields f tys = some b) : allFields g tys = some b := by
  induction tys with
  | nil => exact h
  | cons t tys ih =>
    unfold allFields at h ⊢
    split
    · next hk => rwa [if_pos hk] at h
    · next hk =>
      rw [if_neg hk] at h
      cases hp : f t with
      | none => rw [hp] at h; cases h
      | some c =>
        rw [hfg t c hp]
        rw [hp] at h
        cases c
        · exact h
        · exact ih h

theorem isPod_succ (ts : Types) (depth : Nat) : ∀ (ty : Ty) (b : Bool), isPod ts depth ty = some b →
    isPod ts (depth + 1) ty = some b := by
  induction depth with
  | zero => intro ty b h; simp [isPod] at h
  | succ depth ih =>
    intro ty b h
    cases ty with
    | ident t =>
      rw [isPod] at h ⊢
      cases ha : Atom.fromStr t.rust with
      | some a => rw [ha] at h; exact h
      | none =>
        rw [ha] at h
        cases hs : mapGet ts.structs t.rust with
        | none => rw [hs] at h; exact h
        | some s => rw [hs] at h; exact allFields_mono ih _ _ h
    | array t n => exact ih t b h
    | _ => exact h

theorem isPod_le (ts : Types) {k k' : Nat} (hk : k ≤ k') {ty : Ty} {b : Bool} (h : isPod ts k ty = some b) :
    isPod ts k' ty = some b := by
  induction hk with
  | refl => exact h
  | step _ ih => exact isPod_succ ts _ ty b ih

/-- A depth that suffices for each of finitely many types suffices for all. -/
theorem common_depth (ts : Types) (tys : List Ty) (h : ∀ t ∈ tys, ∃ k, (isPod ts k t).isSome = true) :
    ∃ k, ∀ t ∈ tys, (isPod ts k t).isSome = true := by
  induction tys with
  | nil => exact ⟨0, by simp⟩
  | cons t tys ih =>
    obtain ⟨k1, h1⟩ := h t (by simp)
    obtain ⟨k2, h2⟩ := ih (fun t ht => h t (by simp [ht]))
    refine ⟨max k1 k2, fun t' ht' => ?_⟩
    rcases List.mem_cons.1 ht' with rfl | ht'
    · obtain ⟨b, hb⟩ := Option.isSome_iff_exists.1 h1
      rw [isPod_le ts (Nat.le_max_left k1 k2) hb]; rfl
    · obtain ⟨b, hb⟩ := Option.isSome_iff_exists.1 (h2 t' ht')
      rw [isPod_le ts (Nat.le_max_right k1 k2) hb]; rfl

/-- A type ends in a given depth if the struct inside it, if any, does. -/
theorem type_depth (ts : Types) (ty : Ty)
    (h : ∀ x, Inside x ty → ∀ g, ∃ k, (isPod ts k (.ident ⟨x, g⟩)).isSome = true) :
    ∃ k, (isPod ts k ty).isSome = true := by
  induction ty using Ty.induct with
  | ident t => exact h t.rust rfl t.generics
  | array t n ih =>
    obtain ⟨k, hk⟩ := ih h
    exact ⟨k + 1, hk⟩
  | _ => exact ⟨1, rfl⟩

/-- **C55** (termination, for bridges in which no struct contains itself by value).  Missing: structs that
contain themselves through an array are accepted by the checks (`array_cycle_accepted`), and on them the
analysis does not terminate (`array_cycle_diverges`). -/
theorem pod_terminates_partial {apis : List Api} (hd : (collect apis).dups = [])
    (hc : ¬ HasCycle (structsOf apis) ContainsByValue) (ty : Ty) :
    ∃ depth, ∀ k ≥ depth, (isPod (collect apis) k ty).isSome = true := by
  let ss := structsOf apis
  let R : Struct → Struct → Prop := fun a b => a ∈ ss ∧ b ∈ ss ∧ ContainsByValue a b
  let r : Fin ss.length → Fin ss.length → Prop := fun i j => Relation.TransGen R ss[j] ss[i]
  have : IsTrans (Fin ss.length) r := ⟨fun a b c h1 h2 => h2.trans h1⟩
  have : Std.Irrefl r := ⟨fun a h => hc ⟨_, h⟩⟩
  have : Finite (Fin ss.length) := Finite.intro (Equiv.refl _)
  have wf : WellFounded r := Finite.wellFounded_of_trans_of_irrefl r
  have hstruct : ∀ i : Fin ss.length, ∀ g, ∃ k, (isPod (collect apis) k (.ident ⟨ss[i].name.rust, g⟩)).isSome = true := by
    intro i
    induction i using wf.induction with
    | _ i ih =>
      intro g
      have hmem : ss[i] ∈ ss := List.getElem_mem _
      have hmem' := (mem_structsOf apis _).1 hmem
      cases ha : Atom.fromStr ss[i].name.rust with
      | some a => exact ⟨1, by simp only [isPod, ha]; rfl⟩
      | none =>
        have hl := (struct_lookup hd ss[i].name.rust ss[i]).2 ⟨hmem', rfl⟩
        have hfields : ∀ t ∈ ss[i].fields.map (·.ty), ∃ k, (isPod (collect apis) k t).isSome = true := by
          intro t ht
          obtain ⟨f, hf, rfl⟩ := List.mem_map.1 ht
          refine type_depth _ _ (fun x hx g' => ?_)
          cases hs : mapGet (collect apis).structs x with
          | none =>
            cases ha : Atom.fromStr x with
            | some a => exact ⟨1, by simp only [isPod, ha]; rfl⟩
            | none => exact ⟨1, by simp only [isPod, ha, hs]; rfl⟩
          | some s =>
            obtain ⟨hsm, hsn⟩ := (struct_lookup hd x s).1 hs
            obtain ⟨j, hj, hjs⟩ := List.getElem_of_mem ((mem_structsOf apis s).2 hsm)
            have := ih ⟨j, hj⟩ (.single ⟨hmem, List.getElem_mem _, f, hf, by
              show Inside ss[j].name.rust f.ty
              rw [show ss[j] = s from hjs, hsn]; exact hx⟩) g'
            simp only [Fin.getElem_fin] at this
            rw [show ss[j] = s from hjs, hsn] at this
            exact this
        obtain ⟨k, hk⟩ := common_depth _ _ hfields
        refine ⟨k + 1, ?_⟩
        simp only [isPod, ha, hl]
        exact allFields_isSome _ _ hk
  have hty : ∃ k, (isPod (collect apis) k ty).isSome = true := by
    refine type_depth _ _ (fun x hx g' => ?_)
    cases hs : mapGet (collect apis).structs x with
    | none =>
      cases ha : Atom.fromStr x with
      | some a => exact ⟨1, by simp only [isPod, ha]; rfl⟩
      | none => exact ⟨1, by simp only [isPod, ha, hs]; rfl⟩
    | some s =>
      obtain ⟨hsm, hsn⟩ := (struct_lookup hd x s).1 hs
      obtain ⟨j, hj, hjs⟩ := List.getElem_of_mem ((mem_structsOf apis s).2 hsm)
      have := hstruct ⟨j, hj⟩ g'
      simp only [Fin.getElem_fin] at this
      rw [show ss[j] = s from hjs, hsn] at this
      exact this
  obtain ⟨depth, hdep⟩ := hty
  obtain ⟨b, hb⟩ := Option.isSome_iff_exists.1 hdep
  exact ⟨depth, fun k hk => by rw [isPod_le _ hk hb]; rfl⟩

/-- `struct A { x: [A; 1] }` passes the checks, but no recursion depth is enough to classify it: the real
function overflows its stack. -/
theorem array_cycle_diverges (depth : Nat) :
    isPod (collect [st "A" [.array (.named "A") 1]]) depth (.named "A") = none := by
  have key : ∀ k, isPod (collect [st "A" [.array (.named "A") 1]]) k (.named "A") = none ∧
      isPod (collect [st "A" [.array (.named "A") 1]]) k (.array (.named "A") 1) = none := by
    intro k
    induction k with
    | zero => exact ⟨rfl, rfl⟩
    | succ k ih =>
      refine ⟨?_, ih.1⟩
      have h1 : isPod (collect [st "A" [.array (.named "A") 1]]) (k + 1) (.named "A") =
          allFields (isPod (collect [st "A" [.array (.named "A") 1]]) k) [.array (.named "A") 1] := rfl
      rw [h1]
      unfold allFields
      rw [ih.2]
      rfl
  exact (key depth).1

section Witness

/-- A plain struct of an enum and a reference, and one that holds a string two levels down. -/
def shapes : List Api :=
  [.enum ⟨[], ⟨[], "E", "E"⟩, [], [⟨[], "V", "V"⟩], false, .u8, false⟩,
   st "P" [.named "E", .array (.named "Q") 2], st "Q" [.ref false none false (.named "CxxString")],
   st "R" [.named "Q", .array (.named "String") 1]]

example : (collect shapes).dups = [] ∧ isPod (collect shapes) 5 (.named "P") = some true ∧
    isPod (collect shapes) 5 (.named "R") = some false := by
  refine ⟨?_, ?_, ?_⟩ <;> decide +kernel

/-- No struct of `shapes` contains itself. -/
example : ¬ HasCycle (structsOf shapes) ContainsByValue := by
  let rank : Struct → Nat := fun s => if s.name.rust = "Q" then 0 else 1
  have hstep : ∀ a b, (a ∈ structsOf shapes ∧ b ∈ structsOf shapes ∧ ContainsByValue a b) → rank b < rank a := by
    rintro a b ⟨ha, hb, f, hf, hin⟩
    simp only [structsOf, shapes, st, List.filterMap_cons, List.filterMap_nil, List.mem_cons, List.not_mem_nil,
      or_false, List.map_cons, List.map_nil] at ha hb
    rcases ha with rfl | rfl | rfl <;> rcases hb with rfl | rfl | rfl <;>
      simp only [List.mem_cons, List.not_mem_nil, or_false] at hf <;>
      first
      | (rcases hf with rfl | rfl <;> simp [Inside, Ty.named, rank] at hin ⊢)
      | (subst hf; simp [Inside] at hin)
  rintro ⟨s, hs⟩
  have : ∀ a b, Relation.TransGen (fun a b => a ∈ structsOf shapes ∧ b ∈ structsOf shapes ∧ ContainsByValue a b) a b →
      rank b < rank a := by
    intro a b h
    induction h with
    | single h => exact hstep _ _ h
    | tail _ h ih => exact Nat.lt_trans (hstep _ _ h) ih
  exact absurd (this s s hs) (Nat.lt_irrefl _)

end Witness

end Verif.Pod
