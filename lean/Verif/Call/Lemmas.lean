import Verif.Call.Spec
/-!
# Environments
-/
namespace Verif.Call
open Verif.Syntax Verif.Types Verif.Abi Verif.Mangle

/-! ### Lookup -/

theorem get_cons_eq (env : Env) (x : Name) (v : V) : Env.get ((x, v) :: env) x = some v := by
  simp [Env.get]

theorem get_cons_ne (env : Env) {x y : Name} (v : V) (h : y ≠ x) : Env.get ((x, v) :: env) y = env.get y := by
  have : (y == x) = false := by simpa using h
  simp only [Env.get, List.lookup_cons, this]

theorem get_mem {env : Env} {x : Name} {v : V} (h : env.get x = some v) : x ∈ env.map (·.1) := by
  induction env with
  | nil => simp [Env.get] at h
  | cons p env ih =>
    obtain ⟨y, u⟩ := p
    by_cases he : x = y
    · simp [he]
    · rw [get_cons_ne _ _ he] at h
      exact List.mem_cons_of_mem _ (ih h)

theorem getAll_congr {env env' : Env} {xs : List Name} (h : ∀ x ∈ xs, env'.get x = env.get x) :
    env'.getAll xs = env.getAll xs := by
  induction xs with
  | nil => rfl
  | cons x xs ih =>
    simp only [Env.getAll]
    rw [h x List.mem_cons_self, ih (fun y hy => h y (List.mem_cons_of_mem _ hy))]

theorem getAll_append (env : Env) {xs ys : List Name} {a b : List V} (h1 : env.getAll xs = some a)
    (h2 : env.getAll ys = some b) : env.getAll (xs ++ ys) = some (a ++ b) := by
  induction xs generalizing a with
  | nil => simp only [Env.getAll, Option.some.injEq] at h1; subst h1; exact h2
  | cons x xs ih =>
    simp only [Env.getAll] at h1
    cases hx : env.get x with
    | none => simp [hx] at h1
    | some v =>
      cases ha : env.getAll xs with
      | none => simp [hx, ha] at h1
      | some us =>
        simp only [hx, ha, Option.some.injEq] at h1
        subst h1
        simp [Env.getAll, hx, ih ha]

theorem getAll_split {env : Env} {xs ys : List Name} {a b : List V} (h : env.getAll (xs ++ ys) = some (a ++ b))
    (hl : xs.length = a.length) : env.getAll xs = some a ∧ env.getAll ys = some b := by
  induction xs generalizing a with
  | nil => cases a with
    | nil => exact ⟨rfl, h⟩
    | cons => cases hl
  | cons x xs ih =>
    cases a with
    | nil => cases hl
    | cons v a =>
      simp only [List.cons_append, Env.getAll] at h
      cases hx : env.get x with
      | none => simp [hx] at h
      | some u =>
        cases hr : env.getAll (xs ++ ys) with
        | none => simp [hx, hr] at h
        | some us =>
          simp only [hx, hr, Option.some.injEq, List.cons.injEq] at h
          obtain ⟨rfl, rfl⟩ := h
          obtain ⟨h1, h2⟩ := ih hr (by simpa using hl)
          exact ⟨by simp [Env.getAll, hx, h1], h2⟩

theorem getAll_mem {env : Env} {xs : List Name} {vs : List V} (h : env.getAll xs = some vs) :
    ∀ x ∈ xs, x ∈ env.map (·.1) := by
  induction xs generalizing vs with
  | nil => simp
  | cons x xs ih =>
    simp only [Env.getAll] at h
    cases hx : env.get x with
    | none => simp [hx] at h
    | some v =>
      cases hr : env.getAll xs with
      | none => simp [hx, hr] at h
      | some us =>
        intro y hy
        rcases List.mem_cons.1 hy with rfl | hy
        · exact get_mem hx
        · exact ih hr y hy

theorem getAll_one (env : Env) {x : Name} {v : V} (h : env.get x = some v) : env.getAll [x] = some [v] := by
  simp [Env.getAll, h]

theorem one_getAll {env : Env} {x : Name} {v : V} (h : env.getAll [x] = some [v]) : env.get x = some v := by
  simp only [Env.getAll] at h
  cases hx : env.get x with
  | none => simp [hx] at h
  | some u => simpa [hx] using h

/-- Bound parameters have the values they are bound to. -/
theorem bind_getAll {xs : List Name} {vs : List V} {env : Env} (h : bind xs vs = some env) :
    env.getAll xs = some vs ∧ env.map (·.1) = xs := by
  unfold bind at h
  split at h
  · rename_i hc
    obtain ⟨hnd, hl⟩ := hc
    cases h
    refine ⟨?_, List.map_fst_zip (by omega)⟩
    induction xs generalizing vs with
    | nil => cases vs with
      | nil => rfl
      | cons => cases hl
    | cons x xs ih => cases vs with
      | nil => cases hl
      | cons v vs =>
        have hn := List.nodup_cons.1 hnd
        simp only [List.zip_cons_cons, Env.getAll, get_cons_eq]
        rw [getAll_congr (env := xs.zip vs), ih hn.2 (by simpa using hl)]
        intro y hy
        exact get_cons_ne _ _ (fun e => hn.1 (e ▸ hy))
  · cases h

theorem bind_some {xs : List Name} {vs : List V} (hn : xs.Nodup) (hl : xs.length = vs.length) :
    ∃ env, bind xs vs = some env ∧ env.getAll xs = some vs ∧ env.map (·.1) = xs := by
  have h : bind xs vs = some (xs.zip vs) := by simp [bind, hn, hl]
  exact ⟨_, h, bind_getAll h⟩

/-! ### Local variables -/

theorem declare_append (lang : Lang) (env : Env) (a b : List (Name × Rhs)) :
    declare lang env (a ++ b) = (declare lang env a).bind (declare lang · b) := by
  induction a generalizing env with
  | nil => rfl
  | cons p a ih =>
    obtain ⟨x, e⟩ := p
    simp only [List.cons_append, declare]
    split
    · rfl
    · cases evalRhs env x e with
      | none => rfl
      | some v => exact ih _

theorem evalRhs_extend {env : Env} {x y : Name} {v : V} {e : Rhs} (hx : x ∉ env.map (·.1))
    (h : evalRhs env y e ≠ none) : evalRhs ((x, v) :: env) y e = evalRhs env y e := by
  have hg : ∀ z, env.get z ≠ none → Env.get ((x, v) :: env) z = env.get z := by
    intro z hz
    refine get_cons_ne _ _ (fun he => ?_)
    cases h1 : env.get z with
    | none => exact hz h1
    | some u => exact hx (he ▸ get_mem h1)
  cases e with
  | var z => exact hg z h
  | uninit => rfl
  | fn f => rfl
  | fat t z =>
    simp only [evalRhs] at h ⊢
    rw [hg z (fun he => by simp [he] at h)]

/-- In C++, new variables with new names do not disturb each other. -/
theorem declare_cxx {env : Env} {lets : List (Name × Rhs)} (hnd : (lets.map (·.1)).Nodup)
    (hdis : ∀ x ∈ lets.map (·.1), x ∉ env.map (·.1)) (hev : ∀ p ∈ lets, evalRhs env p.1 p.2 ≠ none) :
    ∃ env', declare .cxx env lets = some env' ∧ (∀ y ∈ env.map (·.1), env'.get y = env.get y) ∧
      (∀ p ∈ lets, env'.get p.1 = evalRhs env p.1 p.2) := by
  induction lets generalizing env with
  | nil => exact ⟨env, rfl, fun _ _ => rfl, by simp⟩
  | cons p lets ih =>
    obtain ⟨x, e⟩ := p
    have hx : x ∉ env.map (·.1) := hdis x (by simp)
    cases he : evalRhs env x e with
    | none => exact absurd he (hev (x, e) (by simp))
    | some v =>
      have hn := List.nodup_cons.1 hnd
      obtain ⟨env', h1, h2, h3⟩ := ih (env := (x, v) :: env) hn.2
        (by
          intro y hy
          simp only [List.map_cons, List.mem_cons, not_or]
          exact ⟨fun e => hn.1 (e ▸ hy), hdis y (List.mem_cons_of_mem _ hy)⟩)
        (by
          intro p hp
          have := hev p (List.mem_cons_of_mem _ hp)
          rw [evalRhs_extend hx this]
          exact this)
      refine ⟨env', by simp only [declare, he, hx, and_false, if_false]; exact h1, ?_, ?_⟩
      · intro y hy
        rw [h2 y (List.mem_cons_of_mem _ hy)]
        exact get_cons_ne _ _ (fun e => hx (e ▸ hy))
      · intro p hp
        rcases List.mem_cons.1 hp with rfl | hp
        · rw [h2 x (by simp), get_cons_eq]; exact he.symm
        · rw [h3 p hp, evalRhs_extend hx (hev p (List.mem_cons_of_mem _ hp))]

/-- The initialiser of `x` reads at most `x`. -/
def Rebinds (p : Name × Rhs) : Prop := p.2 = .uninit ∨ p.2 = .var p.1 ∨ ∃ t, p.2 = .fat t p.1

theorem evalRhs_rebind {env env' : Env} {p : Name × Rhs} (hp : Rebinds p) (h : env'.get p.1 = env.get p.1) :
    evalRhs env' p.1 p.2 = evalRhs env p.1 p.2 := by
  rcases hp with hp | hp | ⟨t, hp⟩ <;> simp only [hp, evalRhs, h]

/-- In Rust, variables that replace themselves do not disturb each other. -/
theorem declare_rust {env : Env} {lets : List (Name × Rhs)} (hnd : (lets.map (·.1)).Nodup)
    (hre : ∀ p ∈ lets, Rebinds p) (hev : ∀ p ∈ lets, evalRhs env p.1 p.2 ≠ none) :
    ∃ env', declare .rust env lets = some env' ∧ (∀ y, y ∉ lets.map (·.1) → env'.get y = env.get y) ∧
      (∀ p ∈ lets, env'.get p.1 = evalRhs env p.1 p.2) := by
  induction lets generalizing env with
  | nil => exact ⟨env, rfl, fun _ _ => rfl, by simp⟩
  | cons p lets ih =>
    obtain ⟨x, e⟩ := p
    cases he : evalRhs env x e with
    | none => exact absurd he (hev (x, e) (by simp))
    | some v =>
      have hn := List.nodup_cons.1 hnd
      have hstep : ∀ p ∈ lets, evalRhs ((x, v) :: env) p.1 p.2 = evalRhs env p.1 p.2 := by
        intro p hp
        refine evalRhs_rebind (hre p (List.mem_cons_of_mem _ hp)) (get_cons_ne _ _ (fun hpx => hn.1 ?_))
        exact hpx ▸ List.mem_map.2 ⟨p, hp, rfl⟩
      obtain ⟨env', h1, h2, h3⟩ := ih (env := (x, v) :: env) hn.2
        (fun p hp => hre p (List.mem_cons_of_mem _ hp))
        (by
          intro p hp
          rw [hstep p hp]
          exact hev p (List.mem_cons_of_mem _ hp))
      refine ⟨env', by simp only [declare, he, reduceCtorEq, false_and, if_false]; exact h1, ?_, ?_⟩
      · intro y hy
        simp only [List.map_cons, List.mem_cons, not_or] at hy
        rw [h2 y hy.2]
        exact get_cons_ne _ _ hy.1
      · intro p hp
        rcases List.mem_cons.1 hp with rfl | hp
        · rw [h2 x hn.1, get_cons_eq]; exact he.symm
        · rw [h3 p hp, hstep p hp]

end Verif.Call
