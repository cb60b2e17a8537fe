import Verif.Check.Exact
import Verif.Check.SameSpec
/-!
# C110: the macro and the C++ generator reject the same bridges
-/
namespace Verif.Check
open Verif.Syntax Verif.Types

variable (apis : List Api) (ts : Types)

theorem unsized_both (t : Ty) : isUnsized ⟨apis, ts, .build⟩ t = isUnsized ⟨apis, ts, .macro⟩ t := by
  induction t using Ty.induct with
  | ident t => rfl
  | array t n ih => simpa only [isUnsized] using ih
  | _ => rfl

/-- The complaint that only the C++ generator makes. -/
abbrev keep (l : List Err) : List Err := l.filter (fun e => decide (e ≠ .reservedLifetime))

theorem keep_flatMap {α : Type} (l : List α) (f f' : α → List Err) (h : ∀ a ∈ l, keep (f a) = f' a) :
    keep (l.flatMap f) = l.flatMap f' := by
  induction l with
  | nil => rfl
  | cons a l ih =>
    rw [List.flatMap_cons, List.flatMap_cons, keep, List.filter_append]
    show keep (f a) ++ keep (l.flatMap f) = _
    rw [h a List.mem_cons_self, ih fun a ha => h a (List.mem_cons_of_mem _ ha)]

theorem keep_append {a b a' b' : List Err} (h1 : keep a = a') (h2 : keep b = b') : keep (a ++ b) = a' ++ b' := by
  rw [keep, List.filter_append]; exact h1 ▸ h2 ▸ rfl

theorem keep_ite {c : Prop} [Decidable c] {a b a' b' : List Err} (h1 : keep a = a') (h2 : keep b = b') :
    keep (if c then a else b) = if c then a' else b' := by split <;> assumption

theorem keep_one {e : Err} (h : e ≠ .reservedLifetime) : keep [e] = [e] := by simp [keep, h]

theorem keep_lifetimes (ls : List Ident) : keep (checkLifetimes ⟨apis, ts, .build⟩ ls) = checkLifetimes ⟨apis, ts, .macro⟩ ls := by
  refine keep_flatMap ls _ _ fun l _ => ?_
  simp only [checkReservedLifetime]
  split <;> rfl

theorem keep_idents (a : Api) : keep (checkIdents a) = checkIdents a := by
  have hc : ∀ s, keep (checkCxxIdent s) = checkCxxIdent s := fun s => by
    unfold checkCxxIdent
    exact keep_append (keep_ite (keep_one (by decide)) rfl) (keep_ite (keep_one (by decide)) rfl)
  have hn : ∀ p, keep (checkName p) = checkName p := fun p => by
    unfold checkName checkRustIdent
    exact keep_append (keep_append (keep_flatMap _ _ _ fun s _ => hc s) (hc _)) (keep_ite (keep_one (by decide)) rfl)
  cases a <;> simp only [checkIdents] <;> first
    | rfl
    | exact hn _
    | exact keep_append (hn _) (keep_flatMap _ _ _ fun _ _ => hn _)

theorem keep_type (t : Ty) : keep (checkType ⟨apis, ts, .build⟩ t) = checkType ⟨apis, ts, .macro⟩ t := by
  have hp : ∀ t, pinTarget ⟨apis, ts, .build⟩ t = pinTarget ⟨apis, ts, .macro⟩ t := fun t => by cases t <;> rfl
  have hq : ∀ n, plainCxx ⟨apis, ts, .build⟩ n = plainCxx ⟨apis, ts, .macro⟩ n := fun n => rfl
  cases t with
  | ident t => exact keep_ite (keep_one (by decide)) rfl
  | rustBox t =>
    simp only [checkType]
    cases t <;> simp only [checkTypeBox, hq] <;> first
      | rfl
      | exact keep_append (keep_ite (keep_one (by decide)) rfl) (keep_ite rfl (keep_one (by decide)))
  | rustVec t =>
    simp only [checkType]
    cases t <;> simp only [checkTypeRustVec, hq] <;> first
      | rfl
      | exact keep_ite (keep_one (by decide)) (keep_ite (keep_one (by decide)) rfl)
  | uniquePtr t =>
    simp only [checkType]
    cases t <;> simp only [checkTypeUniquePtr] <;> first
      | rfl
      | exact keep_ite (keep_one (by decide)) (by split <;> rfl)
  | sharedPtr t =>
    simp only [checkType]
    cases t <;> simp only [checkTypeSharedPtr] <;> first
      | rfl
      | exact keep_ite (keep_one (by decide)) (by split <;> rfl)
  | weakPtr t =>
    simp only [checkType]
    cases t <;> simp only [checkTypeWeakPtr] <;> first
      | rfl
      | exact keep_ite (keep_one (by decide)) (by split <;> rfl)
  | cxxVector t =>
    simp only [checkType]
    cases t <;> simp only [checkTypeCxxVector] <;> first
      | rfl
      | exact keep_ite (keep_one (by decide)) (by split <;> rfl)
  | ref p l m t =>
    simp only [checkType, checkTypeRef, hp]
    exact keep_append (keep_ite (keep_one (by decide)) rfl) (by split <;> rfl)
  | ptr m t =>
    simp only [checkType, checkTypePtr]; split <;> rfl
  | array t n =>
    simp only [checkType, checkTypeArray, unsized_both]; exact keep_ite (keep_one (by decide)) rfl
  | fn u as r th =>
    simp only [checkType, checkTypeFn]
    exact keep_append (keep_ite (keep_one (by decide)) rfl) (keep_flatMap _ _ _ fun a _ => keep_ite (keep_one (by decide)) rfl)
  | sliceRef l m t =>
    simp only [checkType, checkTypeSliceRef, unsized_both]; exact keep_ite rfl (keep_one (by decide))
  | str p l m t => rfl
  | void => rfl

theorem keep_reserved (n : Ident) : keep (checkReservedName n) = checkReservedName n := by
  unfold checkReservedName; exact keep_ite (keep_one (by decide)) rfl

theorem keep_mutReturn (f : ExternFn) : keep (checkMutReturn ⟨apis, ts, .build⟩ f) = checkMutReturn ⟨apis, ts, .macro⟩ f := by
  have h1 : ∀ t, carriesMut ⟨apis, ts, .build⟩ t = carriesMut ⟨apis, ts, .macro⟩ t := fun t => by cases t <;> rfl
  have h2 : ∀ r, receiverJustifies ⟨apis, ts, .build⟩ r = receiverJustifies ⟨apis, ts, .macro⟩ r := fun r => by cases r <;> rfl
  have h3 : carriesMut ⟨apis, ts, .build⟩ = carriesMut ⟨apis, ts, .macro⟩ := funext h1
  simp only [checkMutReturn, h2, h3]
  refine keep_ite rfl ?_
  split <;> first
    | rfl
    | exact keep_ite rfl (keep_ite rfl (keep_one (by decide)))

theorem keep_fn (f : ExternFn) : keep (checkApiFn ⟨apis, ts, .build⟩ f) = checkApiFn ⟨apis, ts, .macro⟩ f := by
  unfold checkApiFn
  refine keep_append (keep_append (keep_append (keep_append (keep_append ?_ (keep_lifetimes apis ts _)) ?_) ?_) ?_) ?_
  · split
    · exact keep_ite (keep_one (by decide)) rfl
    · exact keep_ite (keep_one (by decide)) rfl
  · split
    · next r _ =>
      have : isOpaqueCxx ⟨apis, ts, .build⟩ r.ty.rust = isOpaqueCxx ⟨apis, ts, .macro⟩ r.ty.rust := rfl
      simp only [checkReceiver, this]
      exact keep_ite (keep_one (by decide)) (keep_ite (keep_one (by decide)) (keep_ite (keep_one (by decide))
        (keep_ite (keep_one (by decide)) rfl)))
    · rfl
  · refine keep_flatMap _ _ _ fun a _ => ?_
    simp only [checkArg, unsized_both]
    exact keep_ite (keep_ite (keep_one (by decide)) rfl) (keep_ite (keep_ite rfl (keep_one (by decide)))
      (keep_ite (keep_one (by decide)) rfl))
  · cases f.sig.ret with
    | none => rfl
    | some t =>
      simp only [checkRet, unsized_both]
      exact keep_ite (keep_one (by decide)) (keep_ite (keep_one (by decide)) rfl)
  · exact keep_ite (keep_mutReturn apis ts f) rfl

theorem keep_api (a : Api) : keep (checkApi ⟨apis, ts, .build⟩ a) = checkApi ⟨apis, ts, .macro⟩ a := by
  have hl := keep_lifetimes apis ts
  have ht : ∀ t, keep (checkApiType ⟨apis, ts, .build⟩ t) = checkApiType ⟨apis, ts, .macro⟩ t := fun t => by
    unfold checkApiType
    exact keep_append (keep_append (keep_append (keep_append (keep_reserved _) (hl _))
      (keep_flatMap _ _ _ fun d _ => keep_ite rfl (keep_one (by decide)))) (keep_ite rfl (keep_one (by decide))))
      (keep_ite (keep_one (by decide)) rfl)
  cases a with
  | «include» i => rfl
  | struct s =>
    simp only [checkApi, checkApiStruct, unsized_both]
    exact keep_append (keep_append (keep_append (keep_append (keep_append (keep_reserved _) (hl _))
      (keep_ite (keep_one (by decide)) rfl)) (keep_ite (keep_one (by decide)) rfl))
      (keep_flatMap _ _ _ fun d _ => keep_ite (keep_one (by decide)) rfl))
      (keep_flatMap _ _ _ fun d _ => keep_ite (keep_one (by decide)) (keep_ite (keep_one (by decide)) rfl))
  | enum e =>
    exact keep_append (keep_append (keep_append (keep_reserved _) (hl _)) (keep_ite (keep_one (by decide)) rfl))
      (keep_flatMap _ _ _ fun d _ => keep_ite (keep_one (by decide)) rfl)
  | cxxType t => exact ht t
  | rustType t => exact ht t
  | cxxFunction f => exact keep_fn apis ts f
  | rustFunction f => exact keep_fn apis ts f
  | typeAlias a =>
    refine keep_append (hl _) ?_
    rw [keep, List.filter_eq_self]
    intro e he; obtain ⟨_, _, rfl⟩ := List.mem_map.1 he; rfl
  | impl i =>
    refine keep_append (hl _) (keep_ite (keep_one (by decide)) ?_)
    split
    · exact keep_ite rfl (keep_one (by decide))
    · rfl

/-- **C110**.  What the macro complains about is what the C++ generator complains about, in the same order, apart from
lifetimes that are called `'static`. -/
theorem same_errors : (typecheck ⟨apis, ts, .build⟩).filter (fun e => decide (e ≠ .reservedLifetime)) = typecheck ⟨apis, ts, .macro⟩ :=
  keep_append (keep_append (keep_flatMap _ _ _ fun a _ => keep_idents a) (keep_flatMap _ _ _ fun t _ => keep_type apis ts t))
    (keep_flatMap _ _ _ fun a _ => keep_api apis ts a)

open Rules

theorem item_both (a : Api) : ItemOk .build apis a ↔ ItemOk .macro apis a ∧ "static" ∉ introduced a := by
  have hl : ∀ ls, LifetimesOk .macro ls := fun ls h => nomatch h
  have ht : ∀ t, ExternTypeOk .build apis t ↔ ExternTypeOk .macro apis t ∧ "static" ∉ t.generics := fun t =>
    ⟨fun ⟨h1, h2, h3, h4, h5⟩ => ⟨⟨h1, hl _, h3, h4, h5⟩, h2 rfl⟩, fun ⟨⟨h1, _, h3, h4, h5⟩, h2⟩ => ⟨h1, fun _ => h2, h3, h4, h5⟩⟩
  have hf : ∀ f, FnOk .build apis f ↔ FnOk .macro apis f ∧ "static" ∉ f.sig.generics := fun f =>
    ⟨fun ⟨h1, h2, h3, h4, h5, h6, h7⟩ => ⟨⟨h1, h2, hl _, h4, h5, h6, h7⟩, h3 rfl⟩,
      fun ⟨⟨h1, h2, _, h4, h5, h6, h7⟩, h3⟩ => ⟨h1, h2, fun _ => h3, h4, h5, h6, h7⟩⟩
  cases a with
  | «include» i => simp [ItemOk, introduced]
  | struct s =>
    exact ⟨fun ⟨h1, h2, h3, h4, h5, h6⟩ => ⟨⟨h1, hl _, h3, h4, h5, h6⟩, h2 rfl⟩,
      fun ⟨⟨h1, _, h3, h4, h5, h6⟩, h2⟩ => ⟨h1, fun _ => h2, h3, h4, h5, h6⟩⟩
  | enum e =>
    exact ⟨fun ⟨h1, h2, h3, h4⟩ => ⟨⟨h1, hl _, h3, h4⟩, h2 rfl⟩, fun ⟨⟨h1, _, h3, h4⟩, h2⟩ => ⟨h1, fun _ => h2, h3, h4⟩⟩
  | cxxType t => exact ht t
  | rustType t => exact ht t
  | cxxFunction f => exact hf f
  | rustFunction f => exact hf f
  | typeAlias a => exact ⟨fun ⟨h1, h2⟩ => ⟨⟨hl _, h2⟩, h1 rfl⟩, fun ⟨⟨_, h2⟩, h1⟩ => ⟨fun _ => h1, h2⟩⟩
  | impl i => exact ⟨fun ⟨h1, h2, h3⟩ => ⟨⟨hl _, h2, h3⟩, h1 rfl⟩, fun ⟨⟨_, h2, h3⟩, h1⟩ => ⟨fun _ => h1, h2, h3⟩⟩

/-- **C110**.  The C++ generator accepts a bridge exactly if the macro does and no item introduces a lifetime `'static` (which
the Rust compiler rejects in the expansion). -/
theorem same_bridges : Accepted .build apis ↔ Accepted .macro apis ∧ ∀ a ∈ apis, "static" ∉ introduced a := by
  rw [accepted_exact, accepted_exact]
  constructor
  · rintro ⟨h1, h2, h3, h4, h5⟩
    exact ⟨⟨h1, h2, h3, h4, fun a ha => ((item_both apis a).1 (h5 a ha)).1⟩, fun a ha => ((item_both apis a).1 (h5 a ha)).2⟩
  · rintro ⟨⟨h1, h2, h3, h4, h5⟩, h6⟩
    exact ⟨h1, h2, h3, h4, fun a ha => (item_both apis a).2 ⟨h5 a ha, h6 a ha⟩⟩

/-- `fn f<'static>(x: T<'static>)` and a second function that is wrong for both: the macro reports one problem, and the C++
generator two. -/
def wrongTwice : List Api :=
  [.cxxFunction ⟨.cxx, nm "f", ⟨false, ["static"], none, [⟨nm "x", .ref false (some "static") false (.named "u8")⟩], none, false⟩, true⟩,
   .cxxFunction ⟨.cxx, nm "g", ⟨false, [], none, [⟨nm "x", .named "CxxString"⟩], none, false⟩, true⟩]

example : typecheck ⟨wrongTwice, collect wrongTwice, .build⟩ = [.reservedLifetime, .argByValue] ∧
    typecheck ⟨wrongTwice, collect wrongTwice, .macro⟩ = [.argByValue] := by decide +kernel

example : Accepted .macro (wrongTwice.take 1) ∧ ¬ Accepted .build (wrongTwice.take 1) := by decide +kernel

end Verif.Check
