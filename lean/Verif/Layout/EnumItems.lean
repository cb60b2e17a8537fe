import Verif.Layout.Props
/-!
# Which enums the generated file defines, and which it checks
-/
namespace Verif.Layout
open Verif.Syntax Verif.Types Verif.Abi Verif.Check Verif.Mangle

variable {apis : List Api} {ts : Types} {methods : Ident → List ExternFn}

theorem defines_mem {a : Api} (ha : a ∈ apis) {n : Ident} {k : Kind} (h : defines a = some (n, k)) : k ∈ definitions apis n :=
  List.mem_map.2 ⟨(n, k), List.mem_filter.2 ⟨List.mem_filterMap.2 ⟨a, ha, h⟩, by simp⟩, rfl⟩

theorem dataLoop_enums {item : Item} {e : Enum} {w : List Ident} {iter : List Struct} (hi : item = .enum e ∨ item = .checkEnum e) :
    item ∈ dataLoop ts methods apis w iter ↔ Api.enum e ∈ apis ∧
      ((item = .enum e ∧ e.name.rust ∉ ts.cxx) ∨
        (item = .checkEnum e ∧ e.name.rust ∈ ts.cxx ∧ e.variantsFromHeader = false)) := by
  induction apis generalizing w iter with
  | nil => simp [dataLoop]
  | cons a apis ih =>
    have skip : (∀ e', a ≠ .enum e') → (Api.enum e ∈ a :: apis ↔ Api.enum e ∈ apis) := fun h =>
      ⟨fun hm => (List.mem_cons.1 hm).resolve_left (fun hh => h e hh.symm), List.mem_cons_of_mem _⟩
    cases a with
    | struct s' =>
      rw [skip (by simp)]
      simp only [dataLoop]
      split
      · exact ih
      · rw [List.mem_append, ih]
        refine or_iff_right ?_
        rcases hi with rfl | rfl <;> simp
    | enum e' =>
      simp only [dataLoop, List.mem_append, ih, List.mem_cons, Api.enum.injEq]
      by_cases h1 : e'.name.rust ∈ ts.cxx <;> cases h2 : e'.variantsFromHeader <;> rcases hi with rfl | rfl <;>
        simp only [h1, not_true_eq_false, not_false_eq_true, ↓reduceIte, List.mem_singleton, List.not_mem_nil, false_or, or_false, true_and,
          Item.enum.injEq, Item.checkEnum.injEq, reduceCtorEq, false_and, Bool.not_false, Bool.not_true, Bool.false_eq_true] <;>
        constructor
      all_goals first
        | (rintro (rfl | ⟨h3, h4⟩) <;> simp_all; done)
        | (rintro ⟨rfl | h3, h4⟩ <;> simp_all; done)
        | (rintro ⟨h3, h4⟩; simp_all; done)
    | rustType t =>
      rw [skip (by simp)]
      simp only [dataLoop, List.mem_cons, ih]
      refine or_iff_right ?_
      rcases hi with rfl | rfl <;> simp
    | _ => rw [skip (by simp)]; exact ih

/-- **C72** (which enums).  The generated file defines exactly the enums whose C++ definition is not declared to exist, and
checks exactly those whose definition is declared to exist and whose variants are written in the bridge. -/
theorem enums_written (sorted : List Struct) (e : Enum) :
    (Item.enum e ∈ dataStructures (collect apis) sorted apis ↔ Api.enum e ∈ apis ∧ ¬ FromHeader apis e.name.rust) ∧
    (Item.checkEnum e ∈ dataStructures (collect apis) sorted apis ↔
      Api.enum e ∈ apis ∧ FromHeader apis e.name.rust ∧ e.variantsFromHeader = false) := by
  have hc : Api.enum e ∈ apis → (e.name.rust ∈ (collect apis).cxx ↔ FromHeader apis e.name.rust) := by
    intro he
    cases hv : e.variantsFromHeader with
    | false => exact not_cxx ((defines_mem he (by simp [defines, hv])))
    | true =>
      have hk : Kind.headerEnum ∈ definitions apis e.name.rust := (defines_mem he (by simp [defines, hv]))
      refine ⟨fun _ => .inr (.inl hk), fun _ => ?_⟩
      rw [(knows apis).cxx]
      exact ⟨_, hk, .inr (.inr rfl)⟩
  unfold dataStructures
  rw [dataLoop_enums (.inl rfl), dataLoop_enums (.inr rfl)]
  constructor
  · simp only [reduceCtorEq, false_and, or_false, true_and]
    exact and_congr_right fun he => not_congr (hc he)
  · simp only [reduceCtorEq, false_and, false_or, true_and]
    exact and_congr_right fun he => and_congr_left fun _ => hc he

/-- One enum of each kind: defined by the bridge, defined in a header and checked, and loaded from a header. -/
def threeEnums : List Api :=
  [.enum ⟨[], nm "A", [], [nm "X"], false, .u8, false⟩, .enum ⟨[], nm "B", [], [nm "X"], false, .u8, false⟩,
   .cxxType ⟨.cxx, [], nm "B", [], [], true⟩, .enum ⟨[], nm "C", [], [], true, .u8, false⟩]

example : ¬ FromHeader threeEnums "A" ∧ FromHeader threeEnums "B" ∧ FromHeader threeEnums "C" := by
  unfold FromHeader; decide +kernel

end Verif.Layout
