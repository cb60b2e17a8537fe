import Verif.Fits.Model
import Verif.Assert.Props
import Verif.Thunk.Props
/-!
# C118: operations that take or give values never reach `unreachable!()`
-/
namespace Verif.Fits
open Verif.Syntax Verif.Types Verif.Check Verif.Assert Verif.Thunk Verif.Mangle

/-- The bound on the type argument of the four operations, `T: ExternType<Kind = Trivial>`, holds in the scope `s`
(src/unique_ptr.rs:48, src/shared_ptr.rs:43, src/cxx_vector.rs:182, 195). -/
def Admits (s : Scope) (T : Ident) : Prop := ∃ i, (s T).ext = some (i, .trivial)

theorem key_rust (op : Op) (T : Ident) : (op.key T).rust = T := by cases op <;> rfl

/-- The argument of an instantiation is no opaque Rust type, and is defined in the bridge. -/
theorem argument {g : Generator} {apis : List Api} (ha : Accepted g apis) {op : Op} {T : Ident}
    (hk : op.key T ∈ (collect apis).impls.map (·.1)) : Kind.rust ∉ definitions apis T ∧ definitions apis T ≠ [] := by
  have hat : Atom.fromStr T = none := key_rust op T ▸ ((names_resolve ha).2.2 _ hk).1
  obtain ⟨t, ho, hkt⟩ : ∃ t, Occurs apis t ∧ implKey t = some (op.key T) := by
    rcases (impls_exact apis _).1 hk with ⟨i, hi, hik⟩ | ⟨_, _, t, ht, hkt⟩
    · exact ⟨i.ty, ⟨_, hi, i.ty, by simp [writtenTypes], .self _⟩, hik⟩
    · exact ⟨t, ht, hkt⟩
  obtain ⟨n, hn, hw⟩ := implKey_arg hkt
  rw [key_rust] at hn
  refine ⟨fun hr => ?_, hn ▸ ((names_resolve ha).1 n (occurs_trans ho hw) (hn ▸ hat)).1⟩
  have hrust : T ∈ (cxOf g apis).types.rust := ((gathers apis).rust T).2 hr
  have hck := accepted_type ha ho
  unfold implKey at hkt
  split at hkt <;> cases op <;> simp only [Op.key, Option.some.injEq, reduceCtorEq, ImplKey.uniquePtr.injEq,
    ImplKey.sharedPtr.injEq, ImplKey.cxxVector.injEq] at hkt <;> subst hkt <;>
    simp [checkType, checkTypeUniquePtr, checkTypeSharedPtr, checkTypeCxxVector, hrust] at hck

/-- Handled by value, or an opaque C++ type of the bridge. -/
theorem cases_of {g : Generator} {apis : List Api} (ha : Accepted g apis) {op : Op} {T : Ident}
    (hk : op.key T ∈ (collect apis).impls.map (·.1)) : ByValueType apis T ∨ OpaqueCxx apis T := by
  obtain ⟨hr, hne⟩ := argument ha hk
  by_cases hb : ByValueType apis T
  · exact .inl hb
  · right
    have key : ∀ k ∈ definitions apis T, k = .cxx := by
      intro k hkd
      obtain ⟨a, ha', hd⟩ := defined hkd
      cases a <;> simp only [defines, reduceCtorEq, Option.some.injEq, Prod.mk.injEq] at hd
      · exact absurd (.inl ⟨_, ha', hd.1⟩) hb
      · exact absurd (.inr (.inl ⟨_, ha', hd.1⟩)) hb
      · exact hd.2.symm
      · exact absurd (hd.2 ▸ hkd) hr
      · exact absurd (.inr (.inr ⟨_, ha', hd.1⟩)) hb
    obtain ⟨k, hkd⟩ := List.exists_mem_of_ne_nil _ hne
    have hcx := key k hkd
    subst hcx
    exact ⟨hkd, ⟨fun h => (by cases key .shared h), fun h => (by cases key .headerEnum h)⟩⟩

/-- The methods that the macro writes for the trait of an operation. -/
theorem written_methods {W : Type} (lib : Lib W) {g : Generator} {apis : List Api} (ha : Accepted g apis)
    (hl : LexicalBridge apis) {op : Op} {T : Ident} (hk : op.key T ∈ (collect apis).impls.map (·.1)) :
    ∃ ms, rustMethods lib (collect apis) (op.key T) = some ms ∧
      (dispatch (ms.map (·.name)) op = .implementation ↔ isMaybeTrivial (collect apis) T = true) := by
  obtain ⟨p, s, hp, hs, -, -⟩ := Thunk.resolved ha hl hk
  rw [key_rust] at hp
  by_cases hb : isMaybeTrivial (collect apis) T = true <;> cases op <;>
    simp [rustMethods, Op.key, ImplKey.rust, hp, uniqueMethods, sharedMethods, vectorMethods, hs, hb, dispatch, Op.method]

/-- **C118** (types of bridges).  If a bridge is accepted and its expansion compiles, and Rust's type system lets one of the
operations be used with a type for which the bridge implements the trait, then the bridge implements the method. -/
theorem by_value_implemented {W : Type} (lib : Lib W) {g : Generator} {apis : List Api} (ha : Accepted g apis)
    (hl : LexicalBridge apis) {s : Scope} (hc : Compiles s (expand (cxOf g apis))) (op : Op) {T : Ident}
    (hk : op.key T ∈ (collect apis).impls.map (·.1)) (ht : Admits s T) :
    ∃ ms, rustMethods lib (collect apis) (op.key T) = some ms ∧ dispatch (ms.map (·.name)) op = .implementation := by
  obtain ⟨ms, hm, hd⟩ := written_methods lib ha hl hk
  refine ⟨ms, hm, hd.2 ((maybeTrivial_iff apis T).2 ?_)⟩
  rcases cases_of ha hk with h | ho
  · exact h
  · obtain ⟨t, htm, hn⟩ := cxx_defined ho.1
    have he := declares_ext hc (.cxx t htm ho hn rfl)
    obtain ⟨i, hi⟩ := ht
    rw [he] at hi
    simp at hi

/-- **C118** (the other way).  The default is left in place just for the opaque C++ types of the bridge, and there the
operation is ruled out. -/
theorem default_only_if_opaque {W : Type} (lib : Lib W) {g : Generator} {apis : List Api} (ha : Accepted g apis)
    (hl : LexicalBridge apis) {s : Scope} (hc : Compiles s (expand (cxOf g apis))) (op : Op) {T : Ident}
    (hk : op.key T ∈ (collect apis).impls.map (·.1)) {ms : List (Caller RPTy W)}
    (hm : rustMethods lib (collect apis) (op.key T) = some ms) (hd : dispatch (ms.map (·.name)) op = .panic) :
    OpaqueCxx apis T ∧ ¬ Admits s T := by
  obtain ⟨ms', hm', hd'⟩ := written_methods lib ha hl hk
  rw [hm] at hm'; cases hm'
  refine ⟨(cases_of ha hk).resolve_left fun hb => ?_, fun hx => ?_⟩
  · rw [hd'.2 ((maybeTrivial_iff apis T).2 hb)] at hd; cases hd
  · obtain ⟨ms', hm', hi⟩ := by_value_implemented lib ha hl hc op hk hx
    rw [hm] at hm'; cases hm'
    rw [hd] at hi; cases hi

/-- **C118** (builtin types).  The same for the builtin types that the runtime implements the traits for. -/
theorem builtin_by_value_implemented (op : Op) (a : Atom) {ms : List String} (hm : builtinMethods op a = some ms)
    (hk : builtinKind a = some .trivial) : dispatch ms op = .implementation := by
  revert hm hk
  cases op <;> cases a <;> intro hm hk <;> first | (cases hm; done) | (cases hk; done) | (cases hm; decide)

/-! ### Examples -/

/-- `struct S`, the opaque C++ type `T`, and vectors of both. -/
def demo : List Api :=
  [.struct ⟨[], ns "S", [], [⟨ns "x", Ty.named "u8"⟩]⟩, .cxxType ⟨.cxx, [], ns "T", [], [], true⟩,
   .cxxFunction ⟨.cxx, ns "f", ⟨false, [], none,
     [⟨ns "v", .ref false none false (.cxxVector (Ty.named "S"))⟩, ⟨ns "w", .ref false none false (.cxxVector (Ty.named "T"))⟩],
     some (.uniquePtr (Ty.named "S")), false⟩, true⟩]

theorem demo_accepted : Accepted .build demo := by decide +kernel

theorem demo_compiles : Compiles types (expand (cxOf .build demo)) := by
  have h : expand (cxOf .build demo) = [.impl "S" (Qualified.pairTypeId (ns "S")) .trivial, .noDrop "S",
    .impl "T" (Qualified.pairTypeId (ns "T")) .opaque, .notUnpin "T"] := by decide +kernel
  rw [h]
  intro i hi
  simp only [List.mem_cons, List.not_mem_nil, or_false] at hi
  rcases hi with rfl | rfl | rfl | rfl <;> simp [Item.Compiles, types]

example : Op.push.key "S" ∈ (collect demo).impls.map (·.1) ∧ Op.pop.key "T" ∈ (collect demo).impls.map (·.1) ∧
    Op.uniqueNew.key "S" ∈ (collect demo).impls.map (·.1) ∧ Admits types "S" ∧ ¬ Admits types "T" := by
  refine ⟨by decide +kernel, by decide +kernel, by decide +kernel, ⟨_, rfl⟩, ?_⟩
  rintro ⟨i, hi⟩
  simp [types] at hi

example : builtinMethods .push .u8 ≠ none ∧ builtinMethods .push .cxxString ≠ none ∧
    dispatch ["__null"] .uniqueNew = .panic := by decide

end Verif.Fits
