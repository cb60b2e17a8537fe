import Verif.Improper.Model
import Verif.Improper.Spec
import Verif.Types.Collect
/-!
# The improper-ctype analysis is exact
-/
namespace Verif.Improper
open Verif.Syntax Verif.Types

/-! ### One struct per name -/

theorem definitions_append (a b : List Api) (n : Ident) :
    definitions (a ++ b) n = definitions a n ++ definitions b n := by
  simp [definitions]

theorem shared_mem {apis : List Api} {s : Struct} (h : Api.struct s ∈ apis) :
    Kind.shared ∈ definitions apis s.name.rust := by
  simp only [definitions, List.mem_map, List.mem_filter, List.mem_filterMap]
  exact ⟨_, ⟨⟨_, h, rfl⟩, by simp⟩, rfl⟩

theorem one_struct {apis : List Api} (hd : (collect apis).dups = []) {s s' : Struct} (h : Api.struct s ∈ apis)
    (h' : Api.struct s' ∈ apis) (hn : s.name.rust = s'.name.rust) : s = s' := by
  obtain ⟨l, r, rfl⟩ := List.append_of_mem h
  by_cases he : s = s'
  · exact he
  · exfalso
    have hc := ((duplicates_exact _).1 hd).1 s.name.rust
    have hcount : 2 ≤ (definitions (l ++ Api.struct s :: r) s.name.rust).count .shared := by
      have h1 : definitions (l ++ Api.struct s :: r) s.name.rust =
          definitions l s.name.rust ++ (.shared :: definitions r s.name.rust) := by
        rw [definitions_append]; congr 1; simp [definitions, defines]
      rw [h1, List.count_append, List.count_cons]
      simp only [List.mem_append, List.mem_cons, Api.struct.injEq] at h'
      rcases h' with h' | h' | h'
      · have := List.count_pos_iff.2 (shared_mem h'); rw [← hn] at this; simp; omega
      · exact absurd h'.symm he
      · have := List.count_pos_iff.2 (shared_mem h'); rw [← hn] at this; simp; omega
    have hle : (definitions (l ++ Api.struct s :: r) s.name.rust).count .shared ≤ 1 := by
      rcases hc with (hc | hc | hc) | (hc | hc | hc)
      · exact Nat.le_trans List.count_le_length hc
      all_goals (rw [hc]; decide)
    omega

theorem struct_lookup {apis : List Api} (hd : (collect apis).dups = []) (n : Ident) (s : Struct) :
    mapGet (collect apis).structs n = some s ↔ Api.struct s ∈ apis ∧ s.name.rust = n := by
  constructor
  · exact (gathers apis).structs n s
  · rintro ⟨h, rfl⟩
    have hh := ((gathers apis).hasStruct s.name.rust).2 ⟨s, h, rfl⟩
    obtain ⟨s', hs'⟩ := Option.isSome_iff_exists.1 hh
    obtain ⟨h', hn⟩ := (gathers apis).structs _ _ hs'
    rw [hs', one_struct hd h' h hn]

theorem struct_missing (apis : List Api) (n : Ident) :
    mapGet (collect apis).structs n = none ↔ ∀ s, Api.struct s ∈ apis → s.name.rust ≠ n := by
  rw [← Option.not_isSome_iff_eq_none]
  show ¬ (mapHas (collect apis).structs n = true) ↔ _
  rw [(gathers apis).hasStruct]
  constructor
  · intro h s hs hn; exact h ⟨s, hs, hn⟩
  · rintro h ⟨s, hs, hn⟩; exact h s hs hn

/-! ### The loop computes the least closed set -/

/-- A set of struct names under which a type counts as improper. -/
def Bad (ts : Types) (imp : List Ident) (ty : Ty) : Prop := isImproper ts imp ty = true

theorem scanFields_bad (ts : Types) (imp : List Ident) (tys : List Ty) (b : Bool) :
    (scanFields ts imp tys b).1 = true ↔ ∃ ty ∈ tys, Bad ts imp ty := by
  induction tys generalizing b with
  | nil => simp [scanFields]
  | cons ty tys ih =>
    unfold scanFields Bad isImproper
    cases hd : determine ts ty with
    | definite x => cases x <;> simp [ih, Bad, isImproper, hd]
    | depends n => by_cases h : n ∈ imp <;> simp [h, ih, Bad, isImproper, hd]

theorem scanFields_drop (ts : Types) (imp : List Ident) (tys : List Ty) :
    ∀ b, scanFields ts imp tys b = (false, false) → b = false ∧ ∀ ty ∈ tys, determine ts ty = .definite false := by
  induction tys with
  | nil => intro b h; simpa [scanFields] using h
  | cons ty tys ih =>
    intro b h
    unfold scanFields at h
    cases hd : determine ts ty with
    | definite x =>
      rw [hd] at h
      cases x
      · obtain ⟨hb, ht⟩ := ih b (by simpa using h)
        exact ⟨hb, by simpa [hd] using ht⟩
      · simp at h
    | depends n =>
      rw [hd] at h
      by_cases hn : n ∈ imp
      · simp [hn] at h
      · have := (ih true (by simpa [hn] using h)).1
        cases this

theorem bad_mono {ts : Types} {imp imp' : List Ident} (h : ∀ n ∈ imp, n ∈ imp') {ty : Ty} (hb : Bad ts imp ty) :
    Bad ts imp' ty := by
  unfold Bad isImproper at *
  cases hd : determine ts ty with
  | definite b => rw [hd] at hb; exact hb
  | depends n => rw [hd] at hb; simp at hb ⊢; exact h n hb

theorem mem_setInsert' {α : Type} [DecidableEq α] (s : List α) (k x : α) : x ∈ setInsert s k ↔ x = k ∨ x ∈ s := by
  unfold setInsert; split
  · constructor
    · exact .inr
    · rintro (rfl | h) <;> assumption
  · simp

/-- What a pass does: it only adds structs with a bad field, keeps all it must, and if it added nothing
then none of the visited structs has a bad field. -/
theorem pass_spec (ts : Types) (P : Ident → Prop)
    (hP : ∀ imp, (∀ n ∈ imp, P n) → ∀ n, (∃ ty ∈ fieldTypes ts n, Bad ts imp ty) → P n)
    (ns imp : List Ident) (himp : ∀ n ∈ imp, P n) :
    (∀ n ∈ (pass ts ns imp).2.1, P n) ∧ (∀ n ∈ imp, n ∈ (pass ts ns imp).2.1) ∧
    (∀ n ∈ ns, n ∈ (pass ts ns imp).1 ∨ n ∈ (pass ts ns imp).2.1 ∨
      ∀ ty ∈ fieldTypes ts n, determine ts ty = .definite false) ∧
    ((pass ts ns imp).2.2 = false → (pass ts ns imp).2.1 = imp ∧
      ∀ n ∈ ns, ¬ ∃ ty ∈ fieldTypes ts n, Bad ts imp ty) := by
  induction ns generalizing imp with
  | nil => simpa [pass] using himp
  | cons n ns ih =>
    unfold pass
    split
    · next r hs =>
      have hbad := (scanFields_bad ts imp (fieldTypes ts n) false).1 (by rw [hs])
      have himp' : ∀ m ∈ setInsert imp n, P m := by
        intro m hm
        rcases (mem_setInsert' imp n m).1 hm with rfl | hm
        · exact hP imp himp _ hbad
        · exact himp m hm
      obtain ⟨h1, h2, h3, h4⟩ := ih (setInsert imp n) himp'
      refine ⟨h1, fun m hm => h2 m ((mem_setInsert' _ _ _).2 (.inr hm)), ?_, by simp⟩
      intro m hm
      rcases List.mem_cons.1 hm with rfl | hm
      · exact .inr (.inl (h2 m ((mem_setInsert' _ _ _).2 (.inl rfl))))
      · exact h3 m hm
    · next retain hs =>
      have hbad : ¬ ∃ ty ∈ fieldTypes ts n, Bad ts imp ty := by
        rw [← scanFields_bad ts imp _ false, hs]; simp
      obtain ⟨h1, h2, h3, h4⟩ := ih imp himp
      refine ⟨h1, h2, ?_, ?_⟩
      · intro m hm
        rcases List.mem_cons.1 hm with rfl | hm
        · cases retain
          · exact .inr (.inr (scanFields_drop ts imp _ false hs).2)
          · exact .inl (by simp)
        · rcases h3 m hm with h | h | h
          · exact .inl (by cases retain <;> simp [h])
          · exact .inr (.inl h)
          · exact .inr (.inr h)
      · intro hnew
        obtain ⟨he, hall⟩ := h4 hnew
        refine ⟨he, fun m hm => ?_⟩
        rcases List.mem_cons.1 hm with rfl | hm
        · exact hbad
        · exact hall m hm

/-- The result of the loop is contained in every closed set and closed itself. -/
theorem loop_spec (ts : Types) (order : Nat → List Ident → List Ident)
    (hperm : ∀ k l, (order k l).Perm l) (P : Ident → Prop)
    (hP : ∀ imp, (∀ n ∈ imp, P n) → ∀ n, (∃ ty ∈ fieldTypes ts n, Bad ts imp ty) → P n)
    (all : List Ident) (k : Nat) (unresolved imp : List Ident) (himp : ∀ n ∈ imp, P n)
    (hres : ∀ n ∈ all, n ∈ unresolved ∨ n ∈ imp ∨ ∀ ty ∈ fieldTypes ts n, determine ts ty = .definite false) :
    let out := loop ts order (fun k l => (hperm k l).length_eq) k unresolved imp
    (∀ n ∈ out, P n) ∧ (∀ n ∈ all, (∃ ty ∈ fieldTypes ts n, Bad ts out ty) → n ∈ out) := by
  fun_induction loop ts order (fun k l => (hperm k l).length_eq) k unresolved imp with
  | case1 k unresolved imp kept imp' heq ih =>
    have hs := pass_spec ts P hP (order k unresolved) imp himp
    rw [heq] at hs
    refine ih hs.1 ?_
    intro n hn
    rcases hres n hn with h | h | h
    · exact hs.2.2.1 n ((hperm k unresolved).mem_iff.2 h)
    · exact .inr (.inl (hs.2.1 n h))
    · exact .inr (.inr h)
  | case2 k unresolved imp kept imp' heq =>
    have hs := pass_spec ts P hP (order k unresolved) imp himp
    rw [heq] at hs
    obtain ⟨he, hall⟩ := hs.2.2.2 rfl
    simp only at he
    subst he
    refine ⟨himp, fun n hn hbad => ?_⟩
    rcases hres n hn with h | h | h
    · exact absurd hbad (hall n ((hperm k unresolved).mem_iff.2 h))
    · exact h
    · obtain ⟨ty, hty, hb⟩ := hbad
      unfold Bad isImproper at hb
      rw [h ty hty] at hb
      cases hb

/-! ### Against the declarations -/

theorem bad_sound {apis : List Api} {imp : List Ident} (hd : (collect apis).dups = [])
    (himp : ∀ n ∈ imp, Atom.fromStr n = none ∧ Improper apis (.named n)) (ty : Ty) (h : Bad (collect apis) imp ty) :
    Improper apis ty := by
  unfold Bad isImproper at h
  induction ty using Ty.induct with
  | ident t =>
    simp only [determine] at h
    cases ha : Atom.fromStr t.rust with
    | some a =>
      rw [ha] at h
      simp at h
      have : t.rust = "String" := by
        rw [h] at ha
        unfold Atom.fromStr at ha
        grind (splits := 20)
      obtain ⟨r, g⟩ := t
      simp only at this
      subst this
      exact .string g
    | none =>
      rw [ha] at h
      cases hs : mapGet (collect apis).structs t.rust with
      | none =>
        rw [hs] at h
        have hno := (struct_missing apis t.rust).1 hs
        simp only [Bool.or_eq_true, decide_eq_true_eq] at h
        rcases h with h | h
        · exact .rustType t ha hno (((gathers apis).rust _).1 h)
        · exact .alias t ha hno (((gathers apis).aliases _).1 h)
      | some s =>
        rw [hs] at h
        obtain ⟨hm, hn⟩ := (struct_lookup hd t.rust s).1 hs
        simp only [decide_eq_true_eq] at h
        have := (himp _ h).2
        rw [hn] at this
        unfold Ty.named at this
        generalize hg : Ty.ident ⟨t.rust, []⟩ = ty at this
        cases this <;> first | (cases hg; done) | skip
        case string g =>
          injection hg with hg
          injection hg with hg _
          rw [hg] at ha; exact absurd ha (by decide)
        case rustType t' hb hs h =>
          injection hg with hg
          subst hg
          exact .rustType t hb hs h
        case alias t' hb hs h =>
          injection hg with hg
          subst hg
          exact .alias t hb hs h
        case field t' hb s hs hn f hf h =>
          injection hg with hg
          subst hg
          exact .field t hb s hs hn f hf h
  | rustBox => exact .box _
  | rustVec => exact .vec _
  | uniquePtr => simp [determine] at h
  | sharedPtr => simp [determine] at h
  | weakPtr => simp [determine] at h
  | cxxVector => simp [determine] at h
  | ref p l m t ih => exact .ref p l m t (ih (by simpa [determine] using h))
  | ptr m t ih => exact .ptr m t (ih (by simpa [determine] using h))
  | str => exact .str ..
  | fn => exact .fn ..
  | void => exact .void
  | sliceRef => exact .slice ..
  | array t n ih => exact .array t n (ih (by simpa [determine] using h))

theorem mem_structNames (apis : List Api) (n : Ident) :
    n ∈ structNames (collect apis) ↔ mapHas (collect apis).structs n = true := by
  unfold structNames mapHas mapGet
  rw [Option.isSome_map, List.find?_isSome]
  simp only [List.mem_map, decide_eq_true_eq]

/-- **C38**.  However the hash set of unresolved structs is iterated, a type of the bridge is classified as an
improper C type exactly when it is one, including for cyclic declarations. -/
theorem improper_exact {apis : List Api} (hd : (collect apis).dups = [])
    (order : Nat → List Ident → List Ident) (hperm : ∀ k l, (order k l).Perm l) (ty : Ty) :
    isImproper (collect apis)
      (improperStructs (collect apis) order (fun k l => (hperm k l).length_eq)) ty = true ↔ Improper apis ty := by
  have hspec := loop_spec (collect apis) order hperm
    (fun n => (Atom.fromStr n = none ∧ Improper apis (.named n)) ∨ Atom.fromStr n ≠ none) ?hP
    (structNames (collect apis)) 0 (structNames (collect apis)) [] (by simp) (fun n hn => .inl hn)
  case hP =>
    rintro imp himp n ⟨ty, hty, hb⟩
    by_cases ha : Atom.fromStr n = none
    · refine .inl ⟨ha, ?_⟩
      unfold fieldTypes at hty
      cases hs : mapGet (collect apis).structs n with
      | none => rw [hs] at hty; cases hty
      | some s =>
        rw [hs] at hty
        obtain ⟨f, hf, rfl⟩ := List.mem_map.1 hty
        obtain ⟨hm, hn⟩ := (struct_lookup hd n s).1 hs
        -- names of builtins in `imp` are never consulted
        have himp' : Improper apis f.ty := by
          refine bad_sound hd (imp := imp.filter (fun m => decide (Atom.fromStr m = none))) ?_ f.ty ?_
          · intro m hm
            obtain ⟨hm, ha⟩ := List.mem_filter.1 hm
            rcases himp m hm with h | h
            · exact h
            · exact absurd (by simpa using ha) h
          · unfold Bad isImproper at hb ⊢
            cases hdet : determine (collect apis) f.ty with
            | definite b => rw [hdet] at hb; exact hb
            | depends m =>
              rw [hdet] at hb
              simp only [decide_eq_true_eq, List.mem_filter] at hb ⊢
              refine ⟨hb, ?_⟩
              have : ∀ t : Ty, determine (collect apis) t = .depends m → Atom.fromStr m = none := by
                intro t
                induction t using Ty.induct with
                | ident t =>
                  intro h
                  simp only [determine] at h
                  cases ha : Atom.fromStr t.rust with
                  | some a => rw [ha] at h; cases h
                  | none =>
                    rw [ha] at h
                    cases hs : mapGet (collect apis).structs t.rust with
                    | none => rw [hs] at h; cases h
                    | some s =>
                      rw [hs] at h
                      injection h with h
                      rw [← h, ((struct_lookup hd _ _).1 hs).2]; exact ha
                | ref p l m t ih => exact ih
                | ptr m t ih => exact ih
                | array t n ih => exact ih
                | _ => intro h; cases h
              exact this _ hdet
        exact .field ⟨n, []⟩ ha s hm hn f hf himp'
    · exact .inr ha
  obtain ⟨hsub, hclosed⟩ := hspec
  constructor
  · intro h
    have : Bad (collect apis) (improperStructs (collect apis) order (fun k l => (hperm k l).length_eq)) ty := h
    unfold Bad isImproper at this
    have key : ∀ m, determine (collect apis) ty = .depends m → Atom.fromStr m = none := by
      intro m
      induction ty using Ty.induct with
      | ident t =>
        intro h
        simp only [determine] at h
        cases ha : Atom.fromStr t.rust with
        | some a => rw [ha] at h; cases h
        | none =>
          rw [ha] at h
          cases hs : mapGet (collect apis).structs t.rust with
          | none => rw [hs] at h; cases h
          | some s =>
            rw [hs] at h
            injection h with h
            rw [← h, ((struct_lookup hd _ _).1 hs).2]; exact ha
      | ref p l m t ih => exact ih h this
      | ptr m t ih => exact ih h this
      | array t n ih => exact ih h this
      | _ => intro h; cases h
    cases hdet : determine (collect apis) ty with
    | definite b =>
      refine bad_sound hd (imp := []) (by simp) ty ?_
      unfold Bad isImproper; rw [hdet] at this ⊢; exact this
    | depends m =>
      rw [hdet] at this
      simp only [decide_eq_true_eq] at this
      refine bad_sound hd (imp := [m]) ?_ ty ?_
      · intro n hn
        rw [List.mem_singleton.1 hn]
        rcases hsub m this with h | h
        · exact h
        · exact absurd (key m hdet) h
      · unfold Bad isImproper; rw [hdet]; simp
  · intro h
    induction h with
    | string => rfl
    | rustType t hb hs h =>
      simp [isImproper, determine, hb, (struct_missing apis t.rust).2 hs, ((gathers apis).rust _).2 h]
    | alias t hb hs h =>
      simp [isImproper, determine, hb, (struct_missing apis t.rust).2 hs, ((gathers apis).aliases _).2 h]
    | field t hb s hs hn f hf _ ih =>
      have hl := (struct_lookup hd t.rust s).2 ⟨hs, hn⟩
      simp only [isImproper, determine, hb, hl, decide_eq_true_eq]
      refine hclosed s.name.rust ((mem_structNames apis _).2 ?_) ⟨f.ty, ?_, ih⟩
      · rw [hn]; simp [mapHas, hl]
      · simp only [fieldTypes, hn, hl]; exact List.mem_map.2 ⟨f, hf, rfl⟩
    | box => rfl
    | vec => rfl
    | str => rfl
    | fn => rfl
    | void => rfl
    | slice => rfl
    | ref p l m t _ ih => simpa [isImproper, determine] using ih
    | ptr m t _ ih => simpa [isImproper, determine] using ih
    | array t n _ ih => simpa [isImproper, determine] using ih

/-- **C38**, declaration order.  Reordering the items of the bridge does not change the classification. -/
theorem improper_order_independent {apis apis' : List Api} (hp : apis.Perm apis')
    (hd : (collect apis).dups = []) (hd' : (collect apis').dups = [])
    (order : Nat → List Ident → List Ident) (hperm : ∀ k l, (order k l).Perm l) (ty : Ty) :
    isImproper (collect apis)
      (improperStructs (collect apis) order (fun k l => (hperm k l).length_eq)) ty =
    isImproper (collect apis')
      (improperStructs (collect apis') order (fun k l => (hperm k l).length_eq)) ty := by
  have hmono : ∀ {a b : List Api}, a.Perm b → ∀ t, Improper a t → Improper b t := by
    intro a b hp t h
    have hdef : ∀ n k, k ∈ definitions a n → k ∈ definitions b n := by
      intro n k hk
      simp only [definitions, List.mem_map, List.mem_filter, List.mem_filterMap] at hk ⊢
      obtain ⟨d, ⟨⟨x, hx, hx2⟩, hx3⟩, hx4⟩ := hk
      exact ⟨d, ⟨⟨x, hp.mem_iff.1 hx, hx2⟩, hx3⟩, hx4⟩
    induction h with
    | string g => exact .string g
    | rustType t hb hs h => exact .rustType t hb (fun s hm => hs s (hp.mem_iff.2 hm)) (hdef _ _ h)
    | alias t hb hs h => exact .alias t hb (fun s hm => hs s (hp.mem_iff.2 hm)) (hdef _ _ h)
    | field t hb s hs hn f hf _ ih => exact .field t hb s (hp.mem_iff.1 hs) hn f hf ih
    | box => exact .box _
    | vec => exact .vec _
    | str => exact .str ..
    | fn => exact .fn ..
    | void => exact .void
    | slice => exact .slice ..
    | ref p l m t _ ih => exact .ref p l m t ih
    | ptr m t _ ih => exact .ptr m t ih
    | array t n _ ih => exact .array t n ih
  rw [Bool.eq_iff_iff, improper_exact hd order hperm, improper_exact hd' order hperm]
  exact ⟨hmono hp ty, hmono hp.symm ty⟩

section Witness

def st (name : Ident) (fields : List Ty) : Api :=
  .struct ⟨[], ⟨[], name, name⟩, [], fields.map (fun t => ⟨⟨[], "x", "x"⟩, t⟩)⟩

/-- Mutually recursive structs through pointers, one of which holds a Rust string two levels down; and a
recursive struct without. -/
def cyclic : List Api :=
  [st "A" [.named "u8", .ptr false (.named "B")], st "B" [.ref false none false (.named "C"), .ptr true (.named "A")],
   st "C" [.array (.named "String") 2], st "D" [.ptr false (.named "D"), .uniquePtr (.named "C")]]

example : (collect cyclic).dups = [] ∧
    (improperStructs (collect cyclic) (fun _ l => l) (fun _ _ => rfl)).length = 3 := by
  constructor
  · decide +kernel
  · decide +kernel

example : Improper cyclic (.named "A") := by
  have hs : Improper cyclic (.named "String") := .string []
  have hc : Improper cyclic (.named "C") :=
    .field ⟨"C", []⟩ (by decide) _ (List.mem_cons_of_mem _ (List.mem_cons_of_mem _ List.mem_cons_self)) rfl
      ⟨⟨[], "x", "x"⟩, .array (.named "String") 2⟩ (by simp) (.array _ _ hs)
  have hb : Improper cyclic (.named "B") :=
    .field ⟨"B", []⟩ (by decide) _ (List.mem_cons_of_mem _ List.mem_cons_self) rfl
      ⟨⟨[], "x", "x"⟩, .ref false none false (.named "C")⟩ (by simp) (.ref _ _ _ _ hc)
  exact .field ⟨"A", []⟩ (by decide) _ List.mem_cons_self rfl
      ⟨⟨[], "x", "x"⟩, .ptr false (.named "B")⟩ (by simp) (.ptr _ _ hb)

end Witness

end Verif.Improper
