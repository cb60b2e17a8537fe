import Verif.PtrTraits.Model
import Verif.PtrTraits.Spec
import Verif.CxxString.Props
/-!
# Comparing, hashing and printing pointers and C++ strings
-/
namespace Verif.PtrTraits
open Verif Spec

/-- Both kinds of pointer implement the traits alike, so that the laws are shown once. -/
theorem shared_as_unique (m : Memory α) (t : Traits α) : SharedPtr.traits m t = UniquePtr.traits m t := rfl

theorem partialEq_lifts {t : Traits α} (m : Memory α) (h : PartialEqLaws t.eq) :
    PartialEqLaws (UniquePtr.traits m t).eq where
  symm {p q} h1 := by
    cases p <;> cases q <;> simp_all [UniquePtr.traits, UniquePtr.asRef, optionEq]
    exact h.symm h1
  trans {p q r} h1 h2 := by
    cases p <;> cases q <;> cases r <;> simp_all [UniquePtr.traits, UniquePtr.asRef, optionEq]
    exact h.trans h1 h2

theorem eq_lifts {t : Traits α} (m : Memory α) (h : EqLaws t.eq) : EqLaws (UniquePtr.traits m t).eq where
  toPartialEqLaws := partialEq_lifts m h.toPartialEqLaws
  refl p := by cases p <;> simp [UniquePtr.traits, UniquePtr.asRef, optionEq, h.refl]

theorem partialOrd_lifts {t : Traits α} (m : Memory α) (h : PartialOrdLaws t.eq t.partialCmp) :
    PartialOrdLaws (UniquePtr.traits m t).eq (UniquePtr.traits m t).partialCmp where
  equal {p q} := by
    cases p <;> cases q <;> simp [UniquePtr.traits, UniquePtr.asRef, optionEq, optionPartialCmp, h.equal]
  dual {p q r} h1 := by
    cases p <;> cases q <;> simp [UniquePtr.traits, UniquePtr.asRef, optionPartialCmp] at h1 ⊢
    · subst h1; trivial
    · subst h1; trivial
    · subst h1; trivial
    · exact h.dual h1
  less {p q r} h1 h2 := by
    cases p <;> cases q <;> cases r <;> simp_all [UniquePtr.traits, UniquePtr.asRef, optionPartialCmp]
    exact h.less h1 h2
  greater {p q r} h1 h2 := by
    cases p <;> cases q <;> cases r <;> simp_all [UniquePtr.traits, UniquePtr.asRef, optionPartialCmp]
    exact h.greater h1 h2

theorem ord_lifts {t : Traits α} (m : Memory α) (h : OrdLaws t.eq t.partialCmp t.cmp) :
    OrdLaws (UniquePtr.traits m t).eq (UniquePtr.traits m t).partialCmp (UniquePtr.traits m t).cmp where
  toEqLaws := eq_lifts m h.toEqLaws
  toPartialOrdLaws := partialOrd_lifts m h.toPartialOrdLaws
  same {p q} := by
    cases p <;> cases q <;> simp [UniquePtr.traits, UniquePtr.asRef, optionPartialCmp, optionCmp, h.same]

theorem hash_lifts {t : Traits α} (m : Memory α) (h : HashLaws t.eq t.hash) :
    HashLaws (UniquePtr.traits m t).eq (UniquePtr.traits m t).hash where
  same {p q} h1 := by
    cases p <;> cases q <;> simp_all [UniquePtr.traits, UniquePtr.asRef, optionEq, optionHash]
    exact h.same h1

/-- C91.  Whatever is in memory, a `UniquePtr` and a `SharedPtr` keep every law their target type keeps:
that of `PartialEq`, `Eq`, `PartialOrd`, `Ord` and `Hash`. -/
theorem ptr_laws (m : Memory α) (t : Traits α) (p : Traits Ptr)
    (hp : p = UniquePtr.traits m t ∨ p = SharedPtr.traits m t) :
    (PartialEqLaws t.eq → PartialEqLaws p.eq) ∧ (EqLaws t.eq → EqLaws p.eq) ∧
    (PartialOrdLaws t.eq t.partialCmp → PartialOrdLaws p.eq p.partialCmp) ∧
    (OrdLaws t.eq t.partialCmp t.cmp → OrdLaws p.eq p.partialCmp p.cmp) ∧
    (HashLaws t.eq t.hash → HashLaws p.eq p.hash) := by
  have : p = UniquePtr.traits m t := hp.elim id fun h => h.trans (shared_as_unique m t)
  subst this
  exact ⟨partialEq_lifts m, eq_lifts m, partialOrd_lifts m, ord_lifts m, hash_lifts m⟩

/-- C91.  Pointers are compared by what they point to and never by where it is: equal if both are null or the
targets are equal; null comes before everything else, and two targets as they do themselves. -/
theorem ptr_compared_by_target (m : Memory α) (t : Traits α) (p : Traits Ptr)
    (hp : p = UniquePtr.traits m t ∨ p = SharedPtr.traits m t) (x y : Ptr) :
    (p.eq x y = true ↔ BothOr (fun a b => t.eq a b = true) m x y) ∧
    (∀ r, p.cmp x y = r ↔ NullFirst (fun a b r => t.cmp a b = r) m x y r) ∧
    (∀ r, p.partialCmp x y = some r ↔ NullFirst (fun a b r => t.partialCmp a b = some r) m x y r) := by
  have : p = UniquePtr.traits m t := hp.elim id fun h => h.trans (shared_as_unique m t)
  subst this
  refine ⟨?_, fun r => ?_, fun r => ?_⟩ <;> cases x <;> cases y <;>
    simp [UniquePtr.traits, UniquePtr.asRef, optionEq, optionPartialCmp, optionCmp, BothOr, NullFirst] <;>
    exact eq_comm

/-- C91.  Null and non-null pointers never feed a hasher the same, and two non-null pointers feed it the same only if
their targets do. -/
theorem ptr_hash (m : Memory α) (t : Traits α) (p : Traits Ptr)
    (hp : p = UniquePtr.traits m t ∨ p = SharedPtr.traits m t) (x y : Ptr) :
    p.hash x = p.hash y ↔ BothOr (fun a b => t.hash a = t.hash b) m x y := by
  have : p = UniquePtr.traits m t := hp.elim id fun h => h.trans (shared_as_unique m t)
  subst this
  cases x <;> cases y <;> simp [UniquePtr.traits, UniquePtr.asRef, optionHash, BothOr]

/-- C91.  A null pointer prints as `nullptr` with whatever flags, and any other as its target with the same flags. -/
theorem ptr_text (m : Memory α) (t : Traits α) (p : Traits Ptr)
    (hp : p = UniquePtr.traits m t ∨ p = SharedPtr.traits m t) (flags : Flags) (i : Nat) :
    p.debug flags none = "nullptr" ∧ p.display flags none = "nullptr" ∧
    p.debug flags (some i) = t.debug flags (m i) ∧ p.display flags (some i) = t.display flags (m i) := by
  have : p = UniquePtr.traits m t := hp.elim id fun h => h.trans (shared_as_unique m t)
  subst this
  exact ⟨rfl, rfl, rfl, rfl⟩

/-- C91.  A weak pointer prints as its target while that lives and as `nullptr` afterwards. -/
theorem weak_text (m : Memory α) (t : Traits α) (flags : Flags) (w : Weak) :
    (∀ i, w.target = some i → w.expired = false → weakDebug m t flags w = t.debug flags (m i)) ∧
    (w.target = none ∨ w.expired = true → weakDebug m t flags w = "nullptr") := by
  constructor
  · intro i h1 h2; simp [weakDebug, upgrade, h1, h2, SharedPtr.traits, SharedPtr.asRef]
  · rintro (h | h) <;> simp [weakDebug, upgrade, h, SharedPtr.traits, SharedPtr.asRef]

/-- C91.  Dereferencing gives the target, and panics exactly on null, with a message that says what was called on
which type. -/
theorem ptr_deref (m : Memory α) (name : String) (x : Ptr) :
    (∀ i, x = some i → UniquePtr.deref m name x = .ok (m i) ∧ UniquePtr.derefMut m name x = .ok (m i) ∧
      UniquePtr.pinMut m name x = .ok (m i) ∧ SharedPtr.deref m name x = .ok (m i)) ∧
    (x = none →
      UniquePtr.deref m name x = .error ("called deref on a null UniquePtr<" ++ name ++ ">") ∧
      UniquePtr.derefMut m name x = .error ("called deref_mut on a null UniquePtr<" ++ name ++ ">") ∧
      UniquePtr.pinMut m name x = .error ("called pin_mut on a null UniquePtr<" ++ name ++ ">") ∧
      SharedPtr.deref m name x = .error ("called deref on a null SharedPtr<" ++ name ++ ">")) := by
  constructor
  · rintro i rfl; exact ⟨rfl, rfl, rfl, rfl⟩
  · rintro rfl; exact ⟨rfl, rfl, rfl, rfl⟩

open CxxString in
theorem sliceCmp_eq (x y : List Nat) : sliceCmp x y = .eq ↔ x = y := by
  constructor
  · intro h; have := sliceCmp_isOrd x y; rw [h] at this; exact this
  · rintro rfl
    induction x with
    | nil => rfl
    | cons a x ih => simp [sliceCmp, ih]

open CxxString in
theorem sliceCmp_turned : ∀ x y : List Nat, Turned (sliceCmp x y) (sliceCmp y x)
  | [], [] => trivial
  | [], _ :: _ => trivial
  | _ :: _, [] => trivial
  | a :: x, b :: y => by
    unfold sliceCmp
    by_cases h1 : a < b
    · have : ¬ b < a := by omega
      simp [h1, this, Turned]
    · by_cases h2 : b < a
      · simp [h1, h2, Turned]
      · simp [h1, h2, sliceCmp_turned x y]

open CxxString in
theorem sliceCmp_trans : ∀ x y z : List Nat, sliceCmp x y = .lt → sliceCmp y z = .lt → sliceCmp x z = .lt
  | [], [], _, h, _ => by simp [sliceCmp] at h
  | _ :: _, [], _, h, _ => by simp [sliceCmp] at h
  | _, _ :: _, [], _, h => by simp [sliceCmp] at h
  | [], _ :: _, _ :: _, _, _ => by simp [sliceCmp]
  | a :: x, b :: y, c :: z, h1, h2 => by
    unfold sliceCmp at h1 h2 ⊢
    by_cases hab : a < b
    · by_cases hbc : b < c
      · have : a < c := by omega
        simp [this]
      · by_cases hcb : c < b
        · simp [hbc, hcb] at h2
        · have : a < c := by omega
          simp [this]
    · by_cases hba : b < a
      · simp [hab, hba] at h1
      · have : a = b := by omega
        subst this
        simp at h1
        by_cases hbc : a < c
        · simp [hbc]
        · by_cases hcb : c < a
          · simp [hbc, hcb] at h2
          · simp [hbc, hcb] at h2 ⊢
            exact sliceCmp_trans x y z h1 h2

theorem turned_gt {r r' : Ordering} (h : Turned r r') : r = .gt ↔ r' = .lt := by
  cases r <;> cases r' <;> simp_all [Turned]

/-- C91.  `CxxString` keeps the laws of `Eq`, `Ord` and `Hash`, also together with `str`: whichever side the `str` is on,
it is equal to a C++ string if the bytes are, so equality carries over from one to the other. -/
theorem cxxString_laws (debug display : Flags → List Nat → String) :
    OrdLaws (cxxString debug display).eq (cxxString debug display).partialCmp (cxxString debug display).cmp ∧
    HashLaws (cxxString debug display).eq (cxxString debug display).hash ∧
    (∀ s c, strEqCxx s c = cxxEqStr c s) ∧
    (∀ s c d, strEqCxx s c = true → ((cxxString debug display).eq c d = true ↔ strEqCxx s d = true)) ∧
    (∀ s c, strEqCxx s c = true ↔ s = c) := by
  refine ⟨?_, ⟨?_⟩, ?_, ?_, ?_⟩
  · exact {
      symm := by intro a b; simp [cxxString, eq_comm]
      trans := by intro a b c; simp only [cxxString, decide_eq_true_eq]; exact Eq.trans
      refl := by simp [cxxString]
      equal := by intro a b; simp [cxxString, sliceCmp_eq]
      dual := by
        intro a b r h
        simp only [cxxString, Option.some.injEq] at h ⊢
        subst h
        exact ⟨_, rfl, sliceCmp_turned a b⟩
      less := by
        intro a b c h1 h2
        simp only [cxxString, Option.some.injEq] at h1 h2 ⊢
        exact sliceCmp_trans a b c h1 h2
      greater := by
        intro a b c h1 h2
        simp only [cxxString, Option.some.injEq] at h1 h2 ⊢
        rw [turned_gt (sliceCmp_turned _ _)] at h1 h2 ⊢
        exact sliceCmp_trans c b a h2 h1
      same := rfl }
  · intro a b h
    simp only [cxxString, decide_eq_true_eq] at h ⊢
    rw [h]
  · intro s c; simp [strEqCxx, cxxEqStr, eq_comm]
  · intro s c d; simp only [strEqCxx, cxxString, decide_eq_true_eq]; rintro rfl; exact Iff.rfl
  · intro s c; simp [strEqCxx]

/-! ## Cases -/

/-- Floating point numbers: `none` stands for NaN. -/
def float : Traits (Option Nat) where
  eq a b := a.isSome && a == b
  partialCmp a b := match a, b with
    | some a, some b => some (compare a b)
    | _, _ => none
  cmp _ _ := .eq
  hash _ := []
  debug _ a := match a with | some n => toString n | none => "NaN"
  display _ a := match a with | some n => toString n | none => "NaN"

/-- Numbers with NaN keep the laws of `PartialEq` and `PartialOrd` and not that of `Eq`. -/
example : PartialEqLaws float.eq where
  symm {a b} h := by cases a <;> cases b <;> simp_all [float]
  trans {a b c} h1 h2 := by cases a <;> cases b <;> cases c <;> simp_all [float]

example : ¬ EqLaws float.eq := fun h => by have := h.refl none; simp [float] at this

/-- Two strings in memory twice over, and one that differs. -/
def mem : Memory (List Nat)
  | 0 => [97, 98]
  | 1 => [97, 98]
  | _ => [97, 200]

def text : Traits (List Nat) := cxxString (fun _ _ => "\"…\"") (fun _ _ => "…")

example : (UniquePtr.traits mem text).eq (some 0) (some 1) = true ∧
    (UniquePtr.traits mem text).cmp (some 1) (some 2) = .lt ∧
    (UniquePtr.traits mem text).cmp none (some 0) = .lt ∧
    (SharedPtr.traits mem text).hash (some 0) = [.isize 1, .usize 2, .bytes [97, 98]] ∧
    (SharedPtr.traits mem text).debug ⟨true, some 20⟩ none = "nullptr" ∧
    weakDebug mem text ⟨false, none⟩ ⟨some 0, true⟩ = "nullptr" := by decide +kernel

/-- The laws hold of pointers to C++ strings. -/
example : OrdLaws (UniquePtr.traits mem text).eq (UniquePtr.traits mem text).partialCmp (UniquePtr.traits mem text).cmp :=
  (ptr_laws mem text _ (Or.inl rfl)).2.2.2.1 (cxxString_laws _ _).1

end Verif.PtrTraits
