import Verif.TypeEq.Model
import Verif.Ordered.Props
/-!
# Property C22: identity of types
-/
namespace Verif.TypeEq
open Verif.Syntax Verif.Ordered

/-! ### Specification -/

mutual
/-- No raw pointer and no array occurs in the type. -/
def noPtrArray : Ty → Bool
  | .ptr .. | .array .. => false
  | .ident _ | .void => true
  | .rustBox a | .rustVec a | .uniquePtr a | .sharedPtr a | .weakPtr a | .cxxVector a => noPtrArray a
  | .ref _ _ _ a | .str _ _ _ a | .sliceRef _ _ a => noPtrArray a
  | .fn _ as r _ => noPtrArrayList as && noPtrArrayOpt r
def noPtrArrayList : List Ty → Bool
  | [] => true
  | a :: as => noPtrArray a && noPtrArrayList as
def noPtrArrayOpt : Option Ty → Bool
  | none => true
  | some a => noPtrArray a
end

theorem noPtrArrayList_iff (as : List Ty) :
    noPtrArrayList as = true ↔ ∀ a ∈ as, noPtrArray a = true := by
  induction as with
  | nil => simp [noPtrArrayList]
  | cons a as ih => simp [noPtrArrayList, ih]

theorem eqvZip_iff {as : List Ty}
    (h : ∀ a ∈ as, ∀ b, eqv a b = true ↔ a = b ∧ noPtrArray a = true) :
    ∀ bs, as.length = bs.length →
      (eqvZip as bs = true ↔ as = bs ∧ noPtrArrayList as = true) := by
  induction as with
  | nil => intro bs hl; cases bs <;> simp_all [eqvZip, noPtrArrayList]
  | cons a as ih =>
    intro bs hl
    cases bs with
    | nil => simp at hl
    | cons b bs =>
      simp only [List.length_cons, Nat.add_right_cancel_iff] at hl
      have ih' := ih (fun x hx => h x (by simp [hx])) bs hl
      simp only [eqvZip, noPtrArrayList, Bool.and_eq_true, ih', h a (by simp) b, List.cons.injEq]
      constructor
      · rintro ⟨⟨h1, h2⟩, h3, h4⟩; exact ⟨⟨h1, h3⟩, h2, h4⟩
      · rintro ⟨⟨h1, h3⟩, h2, h4⟩; exact ⟨⟨h1, h2⟩, h3, h4⟩

theorem eqvOpt_iff {r : Option Ty}
    (h : ∀ a, r = some a → ∀ b, eqv a b = true ↔ a = b ∧ noPtrArray a = true) (r' : Option Ty) :
    eqvOpt r r' = true ↔ r = r' ∧ noPtrArrayOpt r = true := by
  cases r <;> cases r' <;> simp [eqvOpt, noPtrArrayOpt]
  exact h _ rfl _

/-- **C22** (what equality decides).  The generator's type equality holds exactly between types
that are written the same *and* contain no raw pointer and no array. -/
theorem type_eq_iff (a b : Ty) : eqv a b = true ↔ a = b ∧ noPtrArray a = true := by
  induction a using Ty.induct generalizing b with
  | ident t =>
    cases b <;> simp [eqv, noPtrArray]
    rename_i t'
    cases t; cases t'; simp
  | void => cases b <;> simp [eqv, noPtrArray]
  | ptr m t ih => cases b <;> simp [eqv, noPtrArray]
  | array t n ih => cases b <;> simp [eqv, noPtrArray]
  | fn u as r th iha ihr =>
    cases b <;> try simp [eqv, noPtrArray]
    rename_i u' as' r' th'
    rw [eqvOpt_iff (fun x hx b => ihr x hx b)]
    constructor
    · rintro ⟨⟨⟨⟨h1, h2, h2'⟩, h3⟩, h4⟩, h5⟩
      have h6 := (eqvZip_iff (fun x hx b => iha x hx b) as' h4).1 h5
      exact ⟨⟨h1, h6.1, h2, h3⟩, h6.2, h2'⟩
    · rintro ⟨⟨h1, h2, h3, h4⟩, h5, h6⟩
      subst h2
      exact ⟨⟨⟨⟨h1, h3, h6⟩, h4⟩, rfl⟩, (eqvZip_iff (fun x hx b => iha x hx b) as rfl).2 ⟨rfl, h5⟩⟩
  | ref p l m t ih | str p l m t ih | sliceRef l m t ih =>
    cases b <;> simp [eqv, noPtrArray, ih, and_assoc]
  | rustBox t ih | rustVec t ih | uniquePtr t ih | sharedPtr t ih | weakPtr t ih | cxxVector t ih =>
    cases b <;> simp [eqv, noPtrArray, ih]

/-- **C22** (equivalence relation, equal hashes).  Symmetry, transitivity and hash agreement hold
for all types.  Missing from the full claim: reflexivity, which fails for types containing a raw
pointer or an array (`type_eq_not_reflexive`). -/
theorem type_eq_laws_partial :
    (∀ a b, eqv a b = true → eqv b a = true) ∧
    (∀ a b c, eqv a b = true → eqv b c = true → eqv a c = true) ∧
    (∀ a b, eqv a b = true → hashStream a = hashStream b) ∧
    (∀ a, noPtrArray a = true → eqv a a = true) := by
  refine ⟨?_, ?_, ?_, ?_⟩
  · intro a b h; obtain ⟨rfl, _⟩ := (type_eq_iff a b).1 h; exact h
  · intro a b c h1 h2; obtain ⟨rfl, h⟩ := (type_eq_iff a b).1 h1; exact h2
  · intro a b h; obtain ⟨rfl, h⟩ := (type_eq_iff a b).1 h; rfl
  · intro a h; exact (type_eq_iff a a).2 ⟨rfl, h⟩

/-- **C22 fails** for raw pointers and arrays: the two missing match arms make such a type unequal
to itself, although `Type` claims `Eq` and hashes these variants. -/
theorem type_eq_not_reflexive :
    eqv (.ptr true (.named "T")) (.ptr true (.named "T")) = false ∧
    eqv (.array (.named "u8") 4) (.array (.named "u8") 4) = false ∧
    hashStream (.ptr true (.named "T")) = hashStream (.ptr true (.named "T")) := by
  refine ⟨?_, ?_, rfl⟩ <;> simp [eqv]

/-- More generally no type containing a raw pointer or array equals anything. -/
theorem type_eq_never_of_ptr_array (a b : Ty) (h : noPtrArray a = false) : eqv a b = false := by
  rw [Bool.eq_false_iff, Ne, type_eq_iff]
  rintro ⟨_, h'⟩
  rw [h] at h'; cases h'

instance : BEq Ty := ⟨eqv⟩

noncomputable local instance : DecidableEq Ty := fun _ _ => Classical.propDecidable _

/-- **C22** (deduplication).  Collecting any sequence of types without raw pointers and arrays into
the bridge's type set keeps each written type once, in order of first appearance. -/
theorem types_collected_once_partial (ts : List Ty) (h : ∀ t ∈ ts, noPtrArray t = true) :
    ((OSet.new : OSet Ty).insertAll ts).1.iter = firstOccurrences ts :=
  (ordered_set_refines_on (P := fun t => noPtrArray t = true)
    (fun a b ha _ => by
      show eqv a b = true ↔ _
      rw [type_eq_iff]; exact ⟨fun h => h.1, fun h => ⟨h, ha⟩⟩) ts h).1

/-- **C22 fails** (deduplication): a raw pointer type mentioned twice is collected twice. -/
theorem ptr_type_collected_twice :
    ((OSet.new : OSet Ty).insertAll [.ptr false (.named "T"), .ptr false (.named "T")]).1.iter =
      [.ptr false (.named "T"), .ptr false (.named "T")] := by
  have h : ∀ b, (Ty.ptr false (Ty.named "T") == b) = false := by
    intro b; show eqv _ _ = false
    exact type_eq_never_of_ptr_array _ _ (by simp [noPtrArray])
  simp [OSet.insertAll, OSet.insert, OSet.new, OSet.iter, h]

/-! ### Concrete instances -/

/-- `UniquePtr<CxxVector<T>>` and a function pointer satisfy the side condition. -/
example : noPtrArray (.uniquePtr (.cxxVector (.named "T"))) = true ∧
    noPtrArray (.fn false [.ref true none true (.named "T"), .named "u8"] (some (.named "bool")) false)
      = true := by simp [noPtrArray, noPtrArrayList, noPtrArrayOpt, Ty.named]

/-- Equal types: same text; unequal: a lifetime added. -/
example : eqv (.ref false (some "a") false (.named "T")) (.ref false (some "a") false (.named "T")) = true ∧
    eqv (.ref false (some "a") false (.named "T")) (.ref false none false (.named "T")) = false := by
  simp [eqv, Ty.named]

end Verif.TypeEq
