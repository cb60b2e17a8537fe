import Verif.Builtins.Model
/-!
# C18
-/
namespace Verif.Builtins
open Verif.Syntax (Atom)

/-- Every element, to enumerate a finite type completely. -/
def elems : List Elem := Elem.str :: Atom.all.map Elem.atom

theorem mem_elems (e : Elem) : e ∈ elems := by
  cases e with
  | str => simp [elems]
  | atom a => cases a <;> decide

def platforms : List Platform :=
  [none, some true, some false].flatMap fun a => [none, some true, some false].flatMap fun b =>
    [none, some true, some false].map fun c => ⟨a, b, c⟩

theorem mem_platforms (p : Platform) : p ∈ platforms := by
  obtain ⟨a, b, c⟩ := p
  rcases a with _ | _ | _ <;> rcases b with _ | _ | _ <;> rcases c with _ | _ | _ <;> decide

/-- The element an instantiation holds. -/
def Inst.elem : Inst → Elem
  | .sharedPtr e | .weakPtr e | .uniquePtr e | .uniquePtrVector e | .cxxVector e | .rustVec e => e

/-- Everything Rust imports for `i` is defined in C++, once, and for the same element type. -/
def ImportsOk (i : Inst) : Bool :=
  match rustImports i with
  | none => false
  | some syms => syms.all fun n => (cxxDefines.filter fun d => d.1 == n) == [(n, cxxType i.elem)]

/-- **C18**, Rust calling C++.  For every instantiation of a smart pointer or C++ vector with a built-in
type that the bridge accepts, the Rust crate has an implementation, and every symbol that implementation
imports is defined exactly once by cxx.cc, for the C++ type the bridge maps the element to. -/
theorem builtin_imports_defined (i : Inst) (h : accepts i = true) :
    ∃ syms, rustImports i = some syms ∧ ∀ n ∈ syms, cxxDefines.filter (fun d => d.1 == n) = [(n, cxxType i.elem)] := by
  have key : ∀ e ∈ elems, ∀ k ∈ [Inst.sharedPtr, .weakPtr, .uniquePtr, .uniquePtrVector, .cxxVector, .rustVec],
      accepts (k e) = true → ImportsOk (k e) = true := by decide +kernel
  have hi : ImportsOk i = true := by
    cases i with
    | sharedPtr e => exact key e (mem_elems e) .sharedPtr (by simp) h
    | weakPtr e => exact key e (mem_elems e) .weakPtr (by simp) h
    | uniquePtr e => exact key e (mem_elems e) .uniquePtr (by simp) h
    | uniquePtrVector e => exact key e (mem_elems e) .uniquePtrVector (by simp) h
    | cxxVector e => exact key e (mem_elems e) .cxxVector (by simp) h
    | rustVec e => exact key e (mem_elems e) .rustVec (by simp) h
  unfold ImportsOk at hi
  cases hr : rustImports i with
  | none => rw [hr] at hi; cases hi
  | some syms =>
    rw [hr] at hi
    refine ⟨syms, rfl, fun n hn => ?_⟩
    simpa using List.all_eq_true.1 hi n hn

/-- **C18**, by-value operations.  `push` and `pop` exist for exactly the accepted vector elements that
Rust can hold by value, i.e. all but `CxxString`. -/
theorem builtin_vector_by_value (e : Elem) (h : accepts (.cxxVector e) = true) :
    ∃ syms, rustImports (.cxxVector e) = some syms ∧
      ((∃ n ∈ syms, n.getLast? = some "push_back") ↔ e ≠ .atom .cxxString) ∧
      ((∃ n ∈ syms, n.getLast? = some "pop_back") ↔ e ≠ .atom .cxxString) := by
  have key : ∀ e ∈ elems, accepts (.cxxVector e) = true → (rustImports (.cxxVector e)).isSome = true ∧
      ((∃ n ∈ (rustImports (.cxxVector e)).getD [], n.getLast? = some "push_back") ↔ e ≠ .atom .cxxString) ∧
      ((∃ n ∈ (rustImports (.cxxVector e)).getD [], n.getLast? = some "pop_back") ↔ e ≠ .atom .cxxString) := by decide +kernel
  have := key e (mem_elems e) h
  cases hr : rustImports (.cxxVector e) with
  | none => simp [hr] at this
  | some syms => rw [hr] at this; exact ⟨syms, rfl, this.2⟩

/-- Rust exports the symbols of every row once. -/
def RowOk (r : String × Elem) : Bool :=
  (vecSymbols r.1).length == 8 && (vecSymbols r.1).all fun n => (rustVecExports.filter fun d => d.1 == n) == [(n, r.2)]

/-- One specialisation for the type, calling symbols of a row for an element that C++ takes for the same type. -/
def VecOk (p : Platform) (e : Elem) : Bool :=
  match (rustVec p).filter fun r => canon p r.2 == canon p (cxxType e) with
  | [(seg, _)] => rustVecShims.any fun d => d.1 == seg && canon p (cxxType d.2) == canon p (cxxType e)
  | _ => false

/-- **C18**, C++ calling Rust.  Whatever type the platform takes for `size_t`, `ssize_t` and `char`, for
every built-in element the bridge accepts in a `Vec` there is exactly one specialisation of `rust::Vec`
for its C++ type, and each of the eight symbols it calls is exported exactly once by the Rust crate, for
an element type that is the same type in C++. -/
theorem builtin_vec_exported (p : Platform) (e : Elem) (h : accepts (.rustVec e) = true) :
    ∃ syms, (vecSpecialisations p).filter (fun r => r.1 == canon p (cxxType e)) = [(canon p (cxxType e), syms)] ∧
      syms.length = 8 ∧ ∀ n ∈ syms, ∃ e', rustVecExports.filter (fun d => d.1 == n) = [(n, e')] ∧
        canon p (cxxType e') = canon p (cxxType e) := by
  have key : ∀ p ∈ platforms, ∀ e ∈ elems, accepts (.rustVec e) = true → VecOk p e = true := by decide +kernel
  have rows : ∀ r ∈ rustVecShims, RowOk r = true := by decide +kernel
  have hv := key p (mem_platforms p) e (mem_elems e) h
  unfold VecOk at hv
  split at hv
  · next seg t hf =>
    obtain ⟨d, hd, hd'⟩ := List.any_eq_true.1 hv
    simp only [Bool.and_eq_true, beq_iff_eq] at hd'
    have ht : canon p t = canon p (cxxType e) := by
      have : (seg, t) ∈ (rustVec p).filter (fun r => canon p r.2 == canon p (cxxType e)) := by rw [hf]; simp
      simpa using (List.mem_filter.1 this).2
    have hr := rows d hd
    simp only [RowOk, Bool.and_eq_true, beq_iff_eq, List.all_eq_true] at hr
    refine ⟨vecSymbols seg, ?_, hd'.1 ▸ hr.1, fun n hn => ⟨d.2, hr.2 n (hd'.1 ▸ hn), hd'.2⟩⟩
    rw [vecSpecialisations, List.filter_map]
    show List.map _ ((rustVec p).filter fun r => canon p r.2 == canon p (cxxType e)) = _
    rw [hf, List.map_singleton, ht]
  · cases hv

example : accepts (.sharedPtr (.atom .f32)) = true ∧ accepts (.weakPtr (.atom .cxxString)) = true ∧ accepts (.uniquePtr (.atom .cxxString)) = true ∧
    accepts (.uniquePtrVector (.atom .usize)) = true ∧ accepts (.cxxVector (.atom .isize)) = true ∧ accepts (.rustVec .str) = true := by
  decide

end Verif.Builtins
