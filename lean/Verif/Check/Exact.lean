import Verif.Check.Rules
import Verif.Check.Props
/-!
# C85: a bridge is accepted exactly if it follows the rules
-/
namespace Verif.Check
open Verif.Syntax Verif.Types Rules

theorem fromStr_none (s : Ident) : Atom.fromStr s = none ↔ s ∉ builtins := by
  constructor
  · intro h hm
    cases ha : Atom.fromStr s with
    | some a => rw [ha] at h; cases h
    | none =>
      simp only [builtins, List.mem_cons, List.not_mem_nil, or_false] at hm
      rcases hm with rfl | rfl | rfl | rfl | rfl | rfl | rfl | rfl | rfl | rfl | rfl | rfl | rfl | rfl | rfl | rfl <;>
        revert ha <;> decide +kernel
  · intro h
    cases ha : Atom.fromStr s with
    | none => rfl
    | some a =>
      rw [Atom.fromStr_eq_some_iff] at ha
      subst ha
      cases a <;> exact absurd (by decide +kernel) h

section Names

variable {g : Generator} {apis : List Api}

theorem mem_cxx (n : Ident) : n ∈ (cxOf g apis).types.cxx ↔ Cxx apis n := (knows apis).cxx n
theorem mem_rust (n : Ident) : n ∈ (cxOf g apis).types.rust ↔ Rust apis n := (gathers apis).rust n
theorem has_alias (n : Ident) : mapHas (cxOf g apis).types.aliases n = true ↔ Alias apis n := (gathers apis).aliases n
theorem has_shared (n : Ident) : (mapHas (cxOf g apis).types.structs n = true ∨ mapHas (cxOf g apis).types.enums n = true) ↔
    Shared apis n := (knows apis).shared n

theorem no_shared (n : Ident) : (mapHas (cxOf g apis).types.structs n = false ∧ mapHas (cxOf g apis).types.enums n = false) ↔
    ¬ Shared apis n := by
  rw [← has_shared (g := g), not_or]; simp

theorem declared_iff (n : Ident) : Declared apis n ↔ Shared apis n ∨ Cxx apis n ∨ Rust apis n := by
  unfold Declared Shared Cxx Rust
  constructor
  · intro h
    obtain ⟨k, hk⟩ := List.exists_mem_of_ne_nil _ h
    cases k with
    | shared => exact .inl ⟨_, hk, .inl rfl⟩
    | headerEnum => exact .inl ⟨_, hk, .inr rfl⟩
    | cxx => exact .inr (.inl ⟨_, hk, .inl rfl⟩)
    | rust => exact .inr (.inr hk)
    | alias => exact .inr (.inl ⟨_, hk, .inr (.inl rfl)⟩)
  · rintro (⟨k, hk, _⟩ | ⟨k, hk, _⟩ | hk) <;> exact List.ne_nil_of_mem hk

theorem insist_mem (n t : Ident) (r : Reason) : (∃ r', (n, r') ∈ insist (cxOf g apis).types t r) ↔
    n = t ∧ Cxx apis n ∧ ¬ Shared apis n := by
  unfold insist
  by_cases hc : t ∈ (cxOf g apis).types.cxx ∧ mapHas (cxOf g apis).types.structs t = false ∧
      mapHas (cxOf g apis).types.enums t = false
  · rw [if_pos hc]
    rw [mem_cxx, no_shared] at hc
    constructor
    · rintro ⟨r', h⟩
      simp only [List.mem_singleton, Prod.mk.injEq] at h
      exact ⟨h.1, h.1 ▸ hc⟩
    · rintro ⟨rfl, _⟩
      exact ⟨r, by simp⟩
  · rw [if_neg hc]
    rw [mem_cxx, no_shared] at hc
    constructor
    · rintro ⟨_, h⟩; cases h
    · rintro ⟨rfl, h⟩; exact absurd h hc

/-- What is recorded as needing to be trivial. -/
theorem requires_iff (n : Ident) : (cxOf g apis).requiresTrivial n = true ↔ Cxx apis n ∧ ¬ Shared apis n ∧ Moved apis n := by
  have base : (cxOf g apis).requiresTrivial n = true ↔ ∃ r, (n, r) ∈ requiredTrivial apis (cxOf g apis).types := by
    unfold Cx.requiresTrivial
    rw [List.any_eq_true]
    constructor
    · rintro ⟨⟨m, r⟩, hm, he⟩
      simp only [decide_eq_true_eq] at he
      exact ⟨r, he ▸ hm⟩
    · rintro ⟨r, hr⟩
      exact ⟨_, hr, by simp⟩
  have ins : ∀ {t r r'}, (n, r') ∈ insist (cxOf g apis).types t r → n = t ∧ Cxx apis n ∧ ¬ Shared apis n :=
    fun h => (insist_mem n _ _).1 ⟨_, h⟩
  rw [base]
  constructor
  · rintro ⟨r, hr⟩
    have fn : ∀ f, HasFn apis f → (n, r) ∈ insistFn (cxOf g apis).types f → Cxx apis n ∧ ¬ Shared apis n ∧ Moved apis n := by
      intro f hf h
      simp only [insistFn, List.mem_append] at h
      rcases h with (h | h) | h
      · cases hrc : f.sig.receiver with
        | none => rw [hrc] at h; simp [insistReceiver] at h
        | some rc =>
          rw [hrc] at h
          simp only [insistReceiver] at h
          split at h
          · next hm =>
            obtain ⟨rfl, h1, h2⟩ := ins h
            exact ⟨h1, h2, .mutSelf hf hrc rfl hm.1 hm.2⟩
          · cases h
      · rw [List.mem_flatMap] at h
        obtain ⟨a, ha, h⟩ := h
        unfold insistArg at h
        split at h
        · next t he => obtain ⟨rfl, h1, h2⟩ := ins h; exact ⟨h1, h2, .argument hf ha he⟩
        · next p l m t he =>
          split at h
          · next hm =>
            obtain ⟨rfl, h1, h2⟩ := ins h
            rw [hm.1, hm.2] at he
            exact ⟨h1, h2, .mutArgument hf ha he⟩
          · cases h
        · cases h
      · cases hrt : f.sig.ret with
        | none => rw [hrt] at h; cases h
        | some t =>
          rw [hrt] at h
          simp only at h
          unfold insistRet at h
          split at h
          · next t => obtain ⟨rfl, h1, h2⟩ := ins h; exact ⟨h1, h2, .result hf hrt⟩
          · next p l m t =>
            split at h
            · next hm =>
              obtain ⟨rfl, h1, h2⟩ := ins h
              rw [hm.1, hm.2] at hrt
              exact ⟨h1, h2, .mutResult hf hrt⟩
            · cases h
          · cases h
    simp only [requiredTrivial, List.mem_append, List.mem_flatMap] at hr
    rcases hr with ⟨a, ha, hr⟩ | ⟨t, ht, hr⟩
    · cases a with
      | struct s =>
        simp only [insistApi, List.mem_flatMap] at hr
        obtain ⟨f, hf, hr⟩ := hr
        unfold insistField at hr
        split at hr
        · next t he => obtain ⟨rfl, h1, h2⟩ := ins hr; exact ⟨h1, h2, .field ha hf he⟩
        · cases hr
      | cxxFunction f => exact fn f (.inl ha) hr
      | rustFunction f => exact fn f (.inr ha) hr
      | _ => cases hr
    · have ho : Occurs apis t := ((gathers apis).all t).1 ht
      unfold insistType at hr
      split at hr
      · obtain ⟨rfl, h1, h2⟩ := ins hr; exact ⟨h1, h2, .box ho⟩
      · obtain ⟨rfl, h1, h2⟩ := ins hr; exact ⟨h1, h2, .vec ho⟩
      · obtain ⟨rfl, h1, h2⟩ := ins hr; exact ⟨h1, h2, .slice ho⟩
      · cases hr
  · rintro ⟨h1, h2, hm⟩
    have out : ∀ r, ∃ r', (n, r') ∈ insist (cxOf g apis).types n r := fun r => (insist_mem n n r).2 ⟨rfl, h1, h2⟩
    have api : ∀ a ∈ apis, (∃ r, (n, r) ∈ insistApi (cxOf g apis).types a) → ∃ r, (n, r) ∈ requiredTrivial apis (cxOf g apis).types := by
      rintro a ha ⟨r, hr⟩
      exact ⟨r, List.mem_append.2 (.inl (List.mem_flatMap.2 ⟨a, ha, hr⟩))⟩
    have typ : ∀ t, Occurs apis t → (∃ r, (n, r) ∈ insistType (cxOf g apis).types t) → ∃ r, (n, r) ∈ requiredTrivial apis (cxOf g apis).types := by
      rintro t ht ⟨r, hr⟩
      exact ⟨r, List.mem_append.2 (.inr (List.mem_flatMap.2 ⟨t, ((gathers apis).all t).2 ht, hr⟩))⟩
    have fn : ∀ f, HasFn apis f → (∃ r, (n, r) ∈ insistFn (cxOf g apis).types f) → ∃ r, (n, r) ∈ requiredTrivial apis (cxOf g apis).types := by
      rintro f (hf | hf) h
      · exact api _ hf h
      · exact api _ hf h
    cases hm with
    | @field s f gs hs hf he =>
      obtain ⟨r, hr⟩ := out (.structField s.name.rust)
      exact api _ hs ⟨r, List.mem_flatMap.2 ⟨f, hf, by rw [he]; exact hr⟩⟩
    | @argument f a gs hf ha he =>
      obtain ⟨r, hr⟩ := out (.functionArgument f.name.rust)
      exact fn f hf ⟨r, by
        simp only [insistFn, List.mem_append, List.mem_flatMap]
        exact .inl (.inr ⟨a, ha, by rw [he]; exact hr⟩)⟩
    | @result f gs hf he =>
      obtain ⟨r, hr⟩ := out (.functionReturn f.name.rust)
      exact fn f hf ⟨r, by
        simp only [insistFn, List.mem_append]
        exact .inr (by rw [he]; exact hr)⟩
    | @mutArgument f a l gs hf ha he =>
      obtain ⟨r, hr⟩ := out (.unpinnedMut f.name.rust)
      exact fn f hf ⟨r, by
        simp only [insistFn, List.mem_append, List.mem_flatMap]
        exact .inl (.inr ⟨a, ha, by rw [he]; exact hr⟩)⟩
    | @mutResult f l gs hf he =>
      obtain ⟨r, hr⟩ := out (.unpinnedMut f.name.rust)
      exact fn f hf ⟨r, by
        simp only [insistFn, List.mem_append]
        exact .inr (by rw [he]; exact hr)⟩
    | @mutSelf f rc hf he hn hmu hp =>
      obtain ⟨r, hr⟩ := out (.unpinnedMut f.name.rust)
      exact fn f hf ⟨r, by
        simp only [insistFn, List.mem_append]
        exact .inl (.inl (by rw [he]; simp only [insistReceiver]; rw [if_pos ⟨hmu, hp⟩, hn]; exact hr))⟩
    | box ho => exact typ _ ho (out .boxTarget)
    | vec ho => exact typ _ ho (out .vecElement)
    | @slice l m gs ho => exact typ _ ho (out (.sliceElement m))

theorem opaque_iff (n : Ident) : isOpaqueCxx (cxOf g apis) n = true ↔ Opaque apis n := by
  unfold isOpaqueCxx Opaque
  simp only [Bool.and_eq_true, Bool.not_eq_true', decide_eq_true_eq, Bool.and_eq_false_iff]
  rw [mem_cxx, and_assoc, and_assoc, ← and_assoc (a := mapHas _ _ = false), no_shared, ← Bool.not_eq_true, ← Bool.not_eq_true, has_alias, requires_iff]
  grind

theorem unsized_iff (t : Ty) : isUnsized (cxOf g apis) t = true ↔ Unsized apis t := by
  cases t with
  | ident t =>
    simp only [isUnsized, Bool.or_eq_true, decide_eq_true_eq, opaque_iff, mem_rust]
    constructor
    · rintro ((h | h) | h)
      · obtain ⟨n, gs⟩ := t
        simp only at h; subst h; exact .cxxString
      · exact .cxx h
      · exact .rust h
    · intro h
      cases h with
      | cxxString => exact .inl (.inl rfl)
      | cxx h => exact .inl (.inr h)
      | rust h => exact .inr h
  | array t n =>
    rw [isUnsized, unsized_iff t]
    exact ⟨.array, fun h => by cases h; assumption⟩
  | cxxVector t => exact ⟨fun _ => .cxxVector, fun _ => rfl⟩
  | fn u as r th => exact ⟨fun _ => .fn, fun _ => rfl⟩
  | void => exact ⟨fun _ => .void, fun _ => rfl⟩
  | _ => exact ⟨fun h => by simp [isUnsized] at h, fun h => by cases h⟩

theorem sized_iff (t : Ty) : isUnsized (cxOf g apis) t = false ↔ ¬ Unsized apis t := by
  rw [← unsized_iff (g := g)]; simp

theorem pinned_iff (t : Ty) : pinTarget (cxOf g apis) t = true ↔ Pinned apis t := by
  cases t with
  | ident t =>
    simp only [pinTarget, Bool.or_eq_true, decide_eq_true_eq, opaque_iff]
    constructor
    · rintro (h | h)
      · obtain ⟨n, gs⟩ := t
        simp only at h; subst h; exact .cxxString
      · exact .cxx h
    · intro h
      cases h with
      | cxxString => exact .inl rfl
      | cxx h => exact .inr h
  | cxxVector t => exact ⟨fun _ => .cxxVector, fun _ => rfl⟩
  | _ => exact ⟨fun h => by simp [pinTarget] at h, fun h => by cases h⟩

theorem plain_iff (n : Ident) : plainCxx (cxOf g apis) n = true ↔ Plain apis n := by
  unfold plainCxx Plain
  simp only [Bool.and_eq_true, Bool.not_eq_true', decide_eq_true_eq]
  rw [mem_cxx, and_assoc, and_assoc, no_shared, ← Bool.not_eq_true, has_alias]

/-! ### Types -/

theorem ite_nil {α : Type} {c : Prop} [Decidable c] {x : α} : (if c then [x] else []) = [] ↔ ¬ c := by
  by_cases h : c <;> simp [h]

theorem ite_nil' {α : Type} {c : Prop} [Decidable c] {x : α} : (if c then [] else [x]) = [] ↔ c := by
  by_cases h : c <;> simp [h]

theorem atom_name {s : Ident} {a : Atom} {n : String} (hn : a.asRef = n) : Atom.fromStr s = some a ↔ s = n := by
  rw [Atom.fromStr_eq_some_iff, hn]

theorem target_iff (t : Ty) : checkTypePtr t = [] ↔ ¬ NoTarget t := by
  cases t with
  | fn | void | ref => exact ⟨fun h => by simp [checkTypePtr] at h, fun h => absurd (by constructor) h⟩
  | _ => exact ⟨fun _ h => (by cases h), fun _ => rfl⟩

theorem type_iff (t : Ty) : checkType (cxOf g apis) t = [] ↔ TypeOk apis t := by
  have hstr : ∀ s, Atom.fromStr s = some .cxxString ↔ s = "CxxString" := fun s => atom_name rfl
  have hchar : ∀ s, Atom.fromStr s = some .char ↔ s = "c_char" := fun s => atom_name rfl
  have hbool : ∀ s, Atom.fromStr s = some .bool ↔ s = "bool" := fun s => atom_name rfl
  have hrs : ∀ s, Atom.fromStr s = some .rustString ↔ s = "String" := fun s => atom_name rfl
  cases t with
  | ident t =>
    rw [checkType, checkTypeIdent, ite_nil, fromStr_none, ← and_assoc (a := mapHas _ _ = false), no_shared, mem_cxx, mem_rust]
    constructor
    · intro h
      by_cases hb : t.rust ∈ builtins
      · exact .builtin hb
      · exact .declared ((declared_iff _).2 (by grind))
    · intro h
      cases h with
      | builtin hb => exact fun h => h.1 hb
      | declared hd => rw [declared_iff] at hd; grind
  | rustBox i =>
    rw [checkType]
    cases i with
    | ident t =>
      simp only [checkTypeBox, List.append_eq_nil_iff, ite_nil, ite_nil', plain_iff, fromStr_none]
      exact ⟨fun h => .box h.2 h.1, fun h => by cases h; exact ⟨by assumption, by assumption⟩⟩
    | _ => exact ⟨fun h => by simp [checkTypeBox] at h, fun h => by cases h⟩
  | rustVec i =>
    rw [checkType]
    cases i with
    | ident t =>
      simp only [checkTypeRustVec]
      by_cases hp : plainCxx (cxOf g apis) t.rust = true
      · simp only [hp, if_true]
        exact ⟨fun h => by simp at h, fun h => by cases h with | vec _ h2 => exact absurd ((plain_iff _).1 hp) h2⟩
      · rw [if_neg hp, ite_nil, hstr]
        rw [plain_iff] at hp
        exact ⟨fun h => .vec h hp, fun h => by cases h; assumption⟩
    | str => exact ⟨fun _ => .vecOfStr, fun _ => rfl⟩
    | _ => exact ⟨fun h => by simp [checkTypeRustVec] at h, fun h => by cases h⟩
  | uniquePtr i =>
    rw [checkType]
    cases i with
    | ident t =>
      simp only [checkTypeUniquePtr]
      by_cases hp : t.rust ∈ (cxOf g apis).types.rust
      · rw [if_pos hp]
        exact ⟨fun h => by simp at h, fun h => by cases h with | uniquePtr _ h2 => exact absurd ((mem_rust _).1 hp) h2⟩
      · rw [if_neg hp]
        rw [mem_rust] at hp
        split
        · next h => exact ⟨fun _ => .uniquePtr (.inl ((fromStr_none _).1 h)) hp, fun _ => rfl⟩
        · next h => exact ⟨fun _ => .uniquePtr (.inr ((hstr _).1 h)) hp, fun _ => rfl⟩
        · next h1 h2 =>
          refine ⟨fun h => by simp at h, fun h => ?_⟩
          cases h with
          | uniquePtr h _ =>
            rcases h with h | h
            · exact absurd ((fromStr_none _).2 h) h1
            · exact absurd ((hstr _).2 h) h2
    | cxxVector => exact ⟨fun _ => .uniqueVector, fun _ => rfl⟩
    | _ => exact ⟨fun h => by simp [checkTypeUniquePtr] at h, fun h => by cases h⟩
  | sharedPtr i =>
    rw [checkType]
    cases i with
    | ident t =>
      simp only [checkTypeSharedPtr]
      by_cases hp : t.rust ∈ (cxOf g apis).types.rust
      · rw [if_pos hp]
        exact ⟨fun h => by simp at h, fun h => by cases h with | sharedPtr _ h2 => exact absurd ((mem_rust _).1 hp) h2⟩
      · rw [if_neg hp]
        rw [mem_rust] at hp
        have key : TypeOk apis (.sharedPtr (.ident t)) ↔ ¬ (t.rust = "c_char" ∨ t.rust = "String") :=
          ⟨fun h => by cases h; simp_all, fun h => .sharedPtr (by simpa using h) hp⟩
        rw [key, ← hchar, ← hrs]
        split <;> simp_all
    | _ => exact ⟨fun h => by simp [checkTypeSharedPtr] at h, fun h => by cases h⟩
  | weakPtr i =>
    rw [checkType]
    cases i with
    | ident t =>
      simp only [checkTypeWeakPtr]
      by_cases hp : t.rust ∈ (cxOf g apis).types.rust
      · rw [if_pos hp]
        exact ⟨fun h => by simp at h, fun h => by cases h with | weakPtr _ h2 => exact absurd ((mem_rust _).1 hp) h2⟩
      · rw [if_neg hp]
        rw [mem_rust] at hp
        have key : TypeOk apis (.weakPtr (.ident t)) ↔ ¬ (t.rust = "c_char" ∨ t.rust = "String") :=
          ⟨fun h => by cases h; simp_all, fun h => .weakPtr (by simpa using h) hp⟩
        rw [key, ← hchar, ← hrs]
        split <;> simp_all
    | _ => exact ⟨fun h => by simp [checkTypeWeakPtr] at h, fun h => by cases h⟩
  | cxxVector i =>
    rw [checkType]
    cases i with
    | ident t =>
      simp only [checkTypeCxxVector]
      by_cases hp : t.rust ∈ (cxOf g apis).types.rust
      · rw [if_pos hp]
        exact ⟨fun h => by simp at h, fun h => by cases h with | cxxVector _ h2 => exact absurd ((mem_rust _).1 hp) h2⟩
      · rw [if_neg hp]
        rw [mem_rust] at hp
        have key : TypeOk apis (.cxxVector (.ident t)) ↔ ¬ (t.rust = "c_char" ∨ t.rust = "bool" ∨ t.rust = "String") :=
          ⟨fun h => by cases h; simp_all, fun h => .cxxVector (by simpa using h) hp⟩
        rw [key, ← hchar, ← hrs, ← hbool]
        split <;> simp_all
    | _ => exact ⟨fun h => by simp [checkTypeCxxVector] at h, fun h => by cases h⟩
  | ref p l m i =>
    rw [checkType]
    unfold checkTypeRef
    rw [List.append_eq_nil_iff, ite_nil, pinned_iff]
    have key : (match i with
        | .fn .. | .void => [Err.unsupportedRef]
        | .ref .. => [.refToRef]
        | _ => []) = [] ↔ ¬ NoTarget i := by
      cases i with
      | fn | void | ref => exact ⟨fun h => by simp at h, fun h => absurd (by constructor) h⟩
      | _ => exact ⟨fun _ h => (by cases h), fun _ => rfl⟩
    refine (and_congr Iff.rfl key).trans ?_
    constructor
    · rintro ⟨h1, h2⟩
      exact .ref h2 (fun a b c => h1 ⟨a, b, c⟩)
    · intro h
      cases h with
      | ref h2 h1 => exact ⟨fun ⟨a, b, c⟩ => h1 a b c, h2⟩
  | ptr m i =>
    rw [checkType, target_iff]
    exact ⟨.ptr, fun h => by cases h; assumption⟩
  | array i n =>
    rw [checkType, checkTypeArray, ite_nil, unsized_iff]
    exact ⟨.array, fun h => by cases h; assumption⟩
  | sliceRef l m i =>
    rw [checkType]
    unfold checkTypeSliceRef
    rw [ite_nil', Bool.or_eq_true, Bool.not_eq_true', sized_iff]
    constructor
    · rintro (h | h)
      · exact .slice h
      · cases i with
        | ident t => exact .sliceOf (by simpa only [Bool.or_eq_true, decide_eq_true_eq, mem_rust, has_alias] using h)
        | _ => cases h
    · intro h
      cases h with
      | slice h => exact .inl h
      | sliceOf h => right; simpa only [Bool.or_eq_true, decide_eq_true_eq, mem_rust, has_alias] using h
  | fn u as r th =>
    rw [checkType, checkTypeFn, List.append_eq_nil_iff, List.flatMap_eq_nil_iff]
    have key : (∀ a ∈ as, (if (isPtr a && !u) = true then [Err.fnPtrPointerArg] else []) = []) ↔
        ∀ m t, .ptr m t ∈ as → u = true := by
      constructor
      · intro h m t ht
        have := h _ ht
        cases u <;> simp_all [isPtr]
      · intro h a ha
        rw [ite_nil]
        cases a <;> simp [isPtr]
        exact h _ _ ha
    rw [key, ite_nil]
    constructor
    · rintro ⟨h1, h2⟩
      cases th
      · exact .fn h2
      · exact absurd rfl h1
    · intro h
      cases h with
      | fn h => exact ⟨by simp, h⟩
  | str => exact ⟨fun _ => .str, fun _ => rfl⟩
  | void => exact ⟨fun _ => .void, fun _ => rfl⟩

/-! ### Names -/

theorem starts_iff (s : Ident) : startsCxxbridge s = true ↔ ∃ rest, s.toList = "cxxbridge".toList ++ rest := by
  unfold startsCxxbridge
  rw [List.isPrefixOf_iff_prefix]
  exact ⟨fun ⟨r, h⟩ => ⟨r, h.symm⟩, fun ⟨r, h⟩ => ⟨r, h.symm⟩⟩

theorem double_iff (cs : List Char) : hasDouble cs = true ↔ ∃ before after, cs = before ++ '_' :: '_' :: after := by
  induction cs with
  | nil => simp [hasDouble]
  | cons c cs ih =>
    by_cases hc : ∃ t, c = '_' ∧ cs = '_' :: t
    · obtain ⟨t, rfl, rfl⟩ := hc
      exact ⟨fun _ => ⟨[], t, rfl⟩, fun _ => rfl⟩
    · have he : hasDouble (c :: cs) = hasDouble cs := by
        conv => lhs; unfold hasDouble
        split
        · next h => cases h; exact absurd ⟨_, rfl, rfl⟩ hc
        · next h => cases h; rfl
        · next h => cases h
      rw [he, ih]
      constructor
      · rintro ⟨b, a, rfl⟩; exact ⟨c :: b, a, rfl⟩
      · rintro ⟨b, a, h⟩
        cases b with
        | nil => simp only [List.nil_append, List.cons.injEq] at h; exact absurd ⟨a, h⟩ hc
        | cons x b => simp only [List.cons_append, List.cons.injEq] at h; exact ⟨b, a, h.2⟩

theorem cxxName_iff (s : Ident) : checkCxxIdent s = [] ↔ CxxName s := by
  unfold checkCxxIdent CxxName
  rw [List.append_eq_nil_iff, ite_nil, ite_nil, starts_iff, double_iff]

theorem rustName_iff (s : Ident) : checkRustIdent s = [] ↔ RustName s := by
  unfold checkRustIdent RustName
  rw [ite_nil, starts_iff]

theorem name_iff (p : Pair) : checkName p = [] ↔ NameOk p := by
  unfold checkName NameOk
  rw [List.append_eq_nil_iff, List.append_eq_nil_iff, List.flatMap_eq_nil_iff, cxxName_iff, rustName_iff, and_assoc]
  simp only [cxxName_iff]

theorem names_iff (a : Api) : checkIdents a = [] ↔ ∀ p ∈ names a, NameOk p := by
  cases a <;>
    simp [checkIdents, names, name_iff, List.append_eq_nil_iff, List.flatMap_eq_nil_iff]

/-! ### Items -/

theorem reserved_iff (n : Ident) : checkReservedName n = [] ↔ n ∉ reserved := by
  unfold checkReservedName
  rw [ite_nil, Ne, fromStr_none]
  simp only [reserved, List.mem_append, List.mem_cons, List.not_mem_nil, or_false]
  grind

theorem lifetimes_iff (ls : List Ident) : checkLifetimes (cxOf g apis) ls = [] ↔ LifetimesOk g ls := by
  unfold checkLifetimes LifetimesOk
  rw [List.flatMap_eq_nil_iff]
  cases g <;> simp [checkReservedLifetime, cxOf]
  exact ⟨fun h hm => h _ hm rfl, fun h x hx e => h (e ▸ hx)⟩

theorem struct_iff (s : Struct) : checkApiStruct (cxOf g apis) s = [] ↔ StructOk g apis s := by
  simp only [checkApiStruct, List.append_eq_nil_iff, List.flatMap_eq_nil_iff, reserved_iff, lifetimes_iff, ite_nil]
  have hf : (∀ f ∈ s.fields, (if isFn f.ty = true then [Err.fnField] else if isUnsized (cxOf g apis) f.ty = true then [.fieldByValue] else []) = []) ↔
      ∀ f ∈ s.fields, ¬ Unsized apis f.ty := by
    have : ∀ t : Ty, (if isFn t = true then [Err.fnField] else if isUnsized (cxOf g apis) t = true then [.fieldByValue] else []) = [] ↔
        ¬ Unsized apis t := by
      intro t
      rw [← unsized_iff (g := g)]
      by_cases h1 : isFn t = true
      · simp [h1, isFn_unsized _ h1]
      · rw [if_neg h1, ite_nil]
    simp only [this]
  have ht : ¬ (s.name.rust ∈ (cxOf g apis).types.cxx ∧ s.name.rust ∈ (cxOf g apis).types.untrusted) ↔
      ∀ t, .cxxType t ∈ apis → t.name.rust = s.name.rust → t.trusted = true := by
    have hu := (gathers apis).untrusted s.name.rust
    constructor
    · intro h t ht hn
      cases htr : t.trusted with
      | true => rfl
      | false =>
        refine absurd ⟨?_, hu.2 ⟨t, ht, hn, htr⟩⟩ h
        rw [mem_cxx]
        refine ⟨.cxx, ?_, .inl rfl⟩
        unfold definitions
        simp only [List.mem_map, List.mem_filter, List.mem_filterMap, decide_eq_true_eq]
        exact ⟨_, ⟨⟨_, ht, rfl⟩, hn⟩, rfl⟩
    · rintro h ⟨_, h2⟩
      obtain ⟨t, ht, hn, htr⟩ := hu.1 h2
      rw [h t ht hn] at htr; cases htr
  rw [hf, ht]
  constructor
  · rintro ⟨⟨⟨⟨⟨h1, h2⟩, h3⟩, h4⟩, h5⟩, h6⟩
    exact ⟨h1, h2, by simpa using h3, h4, fun h => h5 _ h rfl, h6⟩
  · rintro ⟨h1, h2, h3, h4, h5, h6⟩
    exact ⟨⟨⟨⟨⟨h1, h2⟩, by simpa using h3⟩, h4⟩, fun d hd e => h5 (e ▸ hd)⟩, h6⟩

theorem enum_iff (e : Enum) : checkApiEnum (cxOf g apis) e = [] ↔ EnumOk g e := by
  simp only [checkApiEnum, List.append_eq_nil_iff, List.flatMap_eq_nil_iff, reserved_iff, lifetimes_iff, ite_nil]
  constructor
  · rintro ⟨⟨⟨h1, h2⟩, h3⟩, h4⟩
    refine ⟨h1, h2, ?_, fun h => h4 _ h (.inl rfl), fun h => h4 _ h (.inr rfl)⟩
    cases hv : e.variants <;> cases hr : e.explicitRepr <;> cases hh : e.variantsFromHeader <;> simp_all
  · rintro ⟨h1, h2, h3, h4, h5⟩
    refine ⟨⟨⟨h1, h2⟩, ?_⟩, ?_⟩
    · cases hv : e.variants <;> cases hr : e.explicitRepr <;> cases hh : e.variantsFromHeader <;> simp_all
    · rintro d hd (rfl | rfl)
      · exact h4 hd
      · exact h5 hd

theorem externType_iff (t : ExternType) : checkApiType (cxOf g apis) t = [] ↔ ExternTypeOk g apis t := by
  simp only [checkApiType, List.append_eq_nil_iff, List.flatMap_eq_nil_iff, reserved_iff, lifetimes_iff, ite_nil, ite_nil',
    requires_iff, List.isEmpty_iff]
  constructor
  · rintro ⟨⟨⟨⟨h1, h2⟩, h3⟩, h4⟩, h5⟩
    exact ⟨h1, h2, h3, h4, h5⟩
  · rintro ⟨h1, h2, h3, h4, h5⟩
    exact ⟨⟨⟨⟨h1, h2⟩, h3⟩, h4⟩, h5⟩

theorem alias_iff (a : TypeAlias) : checkApiTypeAlias (cxOf g apis) a = [] ↔ AliasOk g a := by
  simp only [checkApiTypeAlias, List.append_eq_nil_iff, List.map_eq_nil_iff, lifetimes_iff]
  exact ⟨fun h => ⟨h.1, h.2⟩, fun h => ⟨h.1, h.2⟩⟩

theorem impl_iff (i : Impl) : checkApiImpl (cxOf g apis) i = [] ↔ ImplOk g i := by
  simp only [checkApiImpl, List.append_eq_nil_iff, lifetimes_iff]
  have key : ∀ t : Ty, (match implKey t with
      | some k => if Atom.fromStr k.rust = none then [] else [Err.unsupportedImpl]
      | none => [.unsupportedImpl]) = [] ↔ ∃ n, Instance n t ∧ n.rust ∉ builtins := by
    intro t
    cases hk : implKey t with
    | none =>
      refine ⟨fun h => by simp at h, ?_⟩
      rintro ⟨n, hn, _⟩
      cases hn <;> simp [implKey] at hk
    | some k =>
      simp only [ite_nil', fromStr_none]
      constructor
      · intro h
        unfold implKey at hk
        split at hk <;> cases hk <;> exact ⟨_, by constructor, h⟩
      · rintro ⟨n, hn, h⟩
        cases hn <;> simp only [implKey, Option.some.injEq] at hk <;> subst hk <;> exact h
  cases hn : i.negative with
  | true => exact ⟨fun h => by simp at h, fun h => by have := h.positive; rw [hn] at this; cases this⟩
  | false =>
    rw [if_neg (by simp)]
    refine (and_congr Iff.rfl (key i.ty)).trans ?_
    exact ⟨fun h => ⟨h.1, hn, h.2⟩, fun h => ⟨h.1, h.3⟩⟩

theorem borrowing_iff {n : Ident} : (∃ v, mapGet (cxOf g apis).types.resolutions n = some v ∧ v.2 ≠ []) ↔ Borrowing apis n := by
  have hr := (gathers apis).resolutions n
  have hr' : mapGet (cxOf g apis).types.resolutions n = _ := hr
  rw [hr']
  have key : ∀ (l : List Api) v, (l.filterMap resolves).reverse.find? (fun r => decide (r.1.rust = n)) = some v ↔
      ∃ before api after, l = before ++ api :: after ∧ resolves api = some v ∧ v.1.rust = n ∧
        ∀ b ∈ after, ∀ p ls, resolves b = some (p, ls) → p.rust ≠ n := by
    intro l
    induction l with
    | nil => intro v; simp
    | cons a l ih =>
      intro v
      have none_iff : (l.filterMap resolves).reverse.find? (fun r => decide (r.1.rust = n)) = none ↔
          ∀ b ∈ l, ∀ p ls, resolves b = some (p, ls) → p.rust ≠ n := by
        simp only [List.find?_eq_none, List.mem_reverse, List.mem_filterMap, decide_eq_true_eq]
        constructor
        · intro h b hb p ls hp; exact h (p, ls) ⟨b, hb, hp⟩
        · rintro h ⟨p, ls⟩ ⟨b, hb, hp⟩; exact h b hb p ls hp
      cases hx : (l.filterMap resolves).reverse.find? (fun r => decide (r.1.rust = n)) with
      | some w =>
        have : ((a :: l).filterMap resolves).reverse.find? (fun r => decide (r.1.rust = n)) = some w := by
          rw [List.filterMap_cons]
          split
          · exact hx
          · rw [List.reverse_cons, List.find?_append, hx]; rfl
        rw [this, ← hx, ih v]
        constructor
        · rintro ⟨b, c, d, rfl, h⟩; exact ⟨a :: b, c, d, rfl, h⟩
        · rintro ⟨b, c, d, he, h1, h2, h3⟩
          cases b with
          | nil =>
            simp only [List.nil_append, List.cons.injEq] at he
            obtain ⟨rfl, rfl⟩ := he
            rw [none_iff.2 h3] at hx; cases hx
          | cons y b =>
            simp only [List.cons_append, List.cons.injEq] at he
            exact ⟨b, c, d, he.2, h1, h2, h3⟩
      | none =>
        have hno := none_iff.1 hx
        have hl : ((a :: l).filterMap resolves).reverse.find? (fun r => decide (r.1.rust = n)) = some v ↔
            resolves a = some v ∧ v.1.rust = n := by
          rw [List.filterMap_cons]
          split
          · next h => rw [hx, h]; simp
          · next w h =>
            rw [List.reverse_cons, List.find?_append, hx, h]
            simp only [Option.none_or, List.find?_cons, List.find?_nil]
            by_cases hw : w.1.rust = n
            · simp only [hw, decide_true, Option.some.injEq]
              exact ⟨fun e => ⟨e, e ▸ hw⟩, fun e => e.1⟩
            · simp only [hw, decide_false]
              exact ⟨fun e => by simp at e, fun e => by cases e.1; exact absurd e.2 hw⟩
        rw [hl]
        constructor
        · rintro ⟨h1, h2⟩; exact ⟨[], a, l, rfl, h1, h2, hno⟩
        · rintro ⟨b, c, d, he, h1, h2, h3⟩
          cases b with
          | nil =>
            simp only [List.nil_append, List.cons.injEq] at he
            obtain ⟨rfl, rfl⟩ := he
            exact ⟨h1, h2⟩
          | cons y b =>
            simp only [List.cons_append, List.cons.injEq] at he
            obtain ⟨rfl, rfl⟩ := he
            exact absurd h2 (hno c (by simp) v.1 v.2 h1)
  constructor
  · rintro ⟨v, hv, hne⟩
    obtain ⟨b, c, d, he, h1, h2, h3⟩ := (key _ _).1 hv
    exact ⟨b, c, d, v.1, v.2, he, h1, h2, hne, h3⟩
  · rintro ⟨b, c, d, p, ls, he, h1, h2, hne, h3⟩
    exact ⟨(p, ls), (key _ _).2 ⟨b, c, d, he, h1, h2, h3⟩, hne⟩

theorem resolution_of_declared {n : Ident} (h : Declared apis n) :
    ∃ v, mapGet (cxOf g apis).types.resolutions n = some v := by
  cases hm : mapGet (cxOf g apis).types.resolutions n with
  | some v => exact ⟨v, rfl⟩
  | none => exact absurd hm (resolved h)

theorem lends_iff {t : Ty} (ht : TypeOk apis t) : carriesMut (cxOf g apis) t = true ↔ Lends apis t := by
  cases t with
  | ident t =>
    simp only [carriesMut]
    by_cases hb : Atom.fromStr t.rust = none
    · rw [if_pos hb]
      rw [fromStr_none] at hb
      have hd : Declared apis t.rust := by
        cases ht with
        | builtin h => exact absurd h hb
        | declared h => exact h
      obtain ⟨v, hv⟩ := resolution_of_declared (g := g) hd
      rw [hv]
      have : (!v.2.isEmpty) = true ↔ Borrowing apis t.rust := by
        rw [← borrowing_iff (g := g)]
        constructor
        · intro h; exact ⟨v, hv, by intro e; rw [e] at h; simp at h⟩
        · rintro ⟨w, hw, hne⟩
          rw [hv] at hw; cases hw
          simpa using hne
      show (!v.2.isEmpty) = true ↔ _
      rw [this]
      exact ⟨fun h => .named hb h, fun h => by cases h; assumption⟩
    · rw [if_neg hb]
      refine ⟨fun h => by simp at h, fun h => ?_⟩
      cases h with
      | named h _ => exact absurd ((fromStr_none _).2 h) hb
  | ref p l m t =>
    simp only [carriesMut]
    cases m
    · exact ⟨fun h => by simp at h, fun h => by cases h⟩
    · exact ⟨fun _ => .ref, fun _ => rfl⟩
  | sliceRef l m t =>
    simp only [carriesMut]
    cases m
    · exact ⟨fun h => by simp at h, fun h => by cases h⟩
    · exact ⟨fun _ => .slice, fun _ => rfl⟩
  | _ => exact ⟨fun h => by simp [carriesMut] at h, fun h => by cases h⟩

theorem receiver_iff (r : Receiver) : checkReceiver (cxOf g apis) r = [] ↔ ReceiverOk apis r := by
  have he := (gathers apis).hasEnum r.ty.rust
  have he' : mapHas (cxOf g apis).types.enums r.ty.rust = true ↔ _ := he
  unfold checkReceiver ReceiverOk
  simp only
  by_cases h1 : r.ty.rust = "Self"
  · simp [h1]
  rw [if_neg h1]
  by_cases h2 : mapHas (cxOf g apis).types.enums r.ty.rust = true
  · rw [if_pos h2]
    refine ⟨fun h => by simp at h, fun h => ?_⟩
    obtain ⟨e, hm, hn⟩ := he'.1 h2
    exact absurd hn (h.2.2.1 e hm)
  rw [if_neg h2]
  have hne : ∀ e, .enum e ∈ apis → e.name.rust ≠ r.ty.rust := fun e hm hn => h2 (he'.2 ⟨e, hm, hn⟩)
  have hsh : mapHas (cxOf g apis).types.structs r.ty.rust = true ↔ Shared apis r.ty.rust := by
    rw [← has_shared (g := g)]; simp [h2]
  have hu : (mapHas (cxOf g apis).types.structs r.ty.rust = false ∧ r.ty.rust ∉ (cxOf g apis).types.cxx ∧
      r.ty.rust ∉ (cxOf g apis).types.rust) ↔ ¬ Shared apis r.ty.rust ∧ ¬ Cxx apis r.ty.rust ∧ ¬ Rust apis r.ty.rust := by
    rw [← Bool.not_eq_true, hsh, mem_cxx, mem_rust]
  by_cases h3 : mapHas (cxOf g apis).types.structs r.ty.rust = false ∧ r.ty.rust ∉ (cxOf g apis).types.cxx ∧
      r.ty.rust ∉ (cxOf g apis).types.rust
  · rw [if_pos h3]
    rw [hu] at h3
    refine ⟨fun h => by simp at h, fun h => ?_⟩
    have := (declared_iff _).1 h.2.1
    grind
  rw [if_neg h3, ite_nil, opaque_iff]
  rw [hu] at h3
  have hd : Declared apis r.ty.rust := by rw [declared_iff]; grind
  exact ⟨fun h => ⟨h1, hd, hne, fun a b c => h ⟨a, b, c⟩⟩, fun h ⟨a, b, c⟩ => h.2.2.2 a b c⟩

theorem arg_iff (f : ExternFn) (t : Ty) : checkArg (cxOf g apis) f t = [] ↔ ArgOk apis f t := by
  unfold checkArg
  by_cases h1 : isFn t = true
  · rw [if_pos h1, ite_nil]
    cases t <;> simp [isFn] at h1
    constructor
    · intro h
      exact .fn (by cases hl : f.lang <;> simp_all)
    · intro h
      cases h with
      | fn h => simp [h]
      | value _ h => exact absurd .fn h
  rw [if_neg h1]
  by_cases h2 : isPtr t = true
  · rw [if_pos h2, ite_nil']
    cases t <;> simp [isPtr] at h2
    exact ⟨.ptr, fun h => by
      cases h with
      | ptr h => exact h
      | value h _ => exact absurd rfl (h _ _)⟩
  rw [if_neg h2, ite_nil, unsized_iff]
  constructor
  · intro h
    refine .value ?_ h
    rintro m i rfl
    simp [isPtr] at h2
  · intro h
    cases h with
    | fn => simp [isFn] at h1
    | ptr => simp [isPtr] at h2
    | value _ h => exact h

theorem ret_iff (r : Option Ty) : checkRet (cxOf g apis) r = [] ↔ ∀ t, r = some t → ¬ Unsized apis t := by
  cases r with
  | none => simp [checkRet]
  | some t =>
    simp only [checkRet, Option.some.injEq, forall_eq']
    by_cases h1 : isFn t = true
    · rw [if_pos h1, ← unsized_iff (g := g)]
      simp [isFn_unsized _ h1]
    · rw [if_neg h1, ite_nil, unsized_iff]

theorem mutReturn_iff (f : ExternFn) (hr : ∀ r, f.sig.receiver = some r → ReceiverOk apis r)
    (ha : ∀ a ∈ f.sig.args, ∀ t, Within t a.ty → TypeOk apis t) :
    checkMutReturn (cxOf g apis) f = [] ↔ (f.sig.unsafety = false →
      (∃ p l t, f.sig.ret = some (.ref p l true t)) ∨ (∃ l t, f.sig.ret = some (.sliceRef l true t)) → Justified apis f) := by
  have hj : (receiverJustifies (cxOf g apis) f.sig.receiver = true ∨
      f.sig.args.any (fun a => (visitTypes a.ty).any (carriesMut (cxOf g apis))) = true) ↔ Justified apis f := by
    unfold Justified
    apply or_congr
    · cases hrc : f.sig.receiver with
      | none => simp [receiverJustifies]
      | some r =>
        obtain ⟨v, hv⟩ := resolution_of_declared (g := g) (hr r hrc).2.1
        simp only [receiverJustifies, hv, Bool.or_eq_true, Option.some.injEq, exists_eq_left']
        apply or_congr Iff.rfl
        rw [← borrowing_iff (g := g)]
        constructor
        · intro h; exact ⟨v, hv, by intro e; rw [e] at h; simp at h⟩
        · rintro ⟨w, hw, hne⟩
          rw [hv] at hw; cases hw
          simpa using hne
    · simp only [List.any_eq_true, within_iff_visit]
      constructor
      · rintro ⟨a, hm, t, ht, hc⟩; exact ⟨a, hm, t, ht, (lends_iff (ha a hm t ht)).1 hc⟩
      · rintro ⟨a, hm, t, ht, hc⟩; exact ⟨a, hm, t, ht, (lends_iff (ha a hm t ht)).2 hc⟩
  have hx : (if receiverJustifies (cxOf g apis) f.sig.receiver then []
      else if f.sig.args.any (fun a => (visitTypes a.ty).any (carriesMut (cxOf g apis))) then []
      else [Err.mutReturn]) = [] ↔ Justified apis f := by
    rw [← hj]
    by_cases k1 : receiverJustifies (cxOf g apis) f.sig.receiver = true
    · simp [k1]
    · rw [if_neg k1, ite_nil']; simp [k1]
  unfold checkMutReturn
  cases hu : f.sig.unsafety with
  | true => simp
  | false =>
    simp only [Bool.false_eq_true, if_false, true_imp_iff]
    split
    · next h => rw [hx]; exact ⟨fun h _ => h, fun k => k (.inl ⟨_, _, _, h⟩)⟩
    · next h => rw [hx]; exact ⟨fun h _ => h, fun k => k (.inr ⟨_, _, h⟩)⟩
    · next h1 h2 =>
      refine ⟨fun _ => ?_, fun _ => rfl⟩
      rintro (⟨p, l, t, h⟩ | ⟨l, t, h⟩)
      · exact absurd h (h1 p l t)
      · exact absurd h (h2 l t)

theorem fn_iff (f : ExternFn) (ha : ∀ a ∈ f.sig.args, ∀ t, Within t a.ty → TypeOk apis t) :
    checkApiFn (cxOf g apis) f = [] ↔ FnOk g apis f := by
  simp only [checkApiFn, List.append_eq_nil_iff, List.flatMap_eq_nil_iff, lifetimes_iff, arg_iff, ret_iff]
  have hrecv : (match f.sig.receiver with | some r => checkReceiver (cxOf g apis) r | none => []) = [] ↔
      ∀ r, f.sig.receiver = some r → ReceiverOk apis r := by
    cases f.sig.receiver with
    | none => simp
    | some r => simp [receiver_iff]
  have hlt : (match f.lang with
     | .cxx => if (!f.sig.generics.isEmpty && !f.trusted) = true then [Err.untrustedLifetimes] else []
     | .rust => if (!f.sig.generics.isEmpty && !f.sig.unsafety) = true then [.unsafeLifetimes] else []) = [] ↔
      (f.lang = .cxx → f.sig.generics ≠ [] → f.trusted = true) ∧ (f.lang = .rust → f.sig.generics ≠ [] → f.sig.unsafety = true) := by
    cases f.lang <;> simp [ite_nil]
  refine (and_congr (and_congr (and_congr (and_congr (and_congr hlt Iff.rfl) hrecv) Iff.rfl) Iff.rfl) Iff.rfl).trans ?_
  have hmut : (∀ r, f.sig.receiver = some r → ReceiverOk apis r) →
      ((if f.lang = .cxx then checkMutReturn (cxOf g apis) f else []) = [] ↔ (f.lang = .cxx → f.sig.unsafety = false →
      (∃ p l t, f.sig.ret = some (.ref p l true t)) ∨ (∃ l t, f.sig.ret = some (.sliceRef l true t)) → Justified apis f)) := by
    intro hr
    by_cases hl : f.lang = .cxx
    · rw [if_pos hl, mutReturn_iff f hr ha]
      exact ⟨fun h _ => h, fun h => h hl⟩
    · rw [if_neg hl]
      exact ⟨fun _ h => absurd h hl, fun _ => rfl⟩
  constructor
  · rintro ⟨⟨⟨⟨⟨h1, h2⟩, h3⟩, h4⟩, h5⟩, h6⟩
    exact ⟨h1.1, h1.2, h2, h3, h4, h5, (hmut h3).1 h6⟩
  · rintro ⟨h1, h1', h2, h3, h4, h5, h6⟩
    exact ⟨⟨⟨⟨⟨⟨h1, h1'⟩, h2⟩, h3⟩, h4⟩, h5⟩, (hmut h3).2 h6⟩

end Names

/-- **C85**.  A bridge is accepted exactly if it follows the rules. -/
theorem accepted_exact (g : Generator) (apis : List Api) : Accepted g apis ↔ Follows g apis := by
  have hall : (∀ t ∈ (collect apis).all.iter, checkType (cxOf g apis) t = []) ↔ ∀ t, Occurs apis t → TypeOk apis t := by
    constructor
    · intro h t ht; exact (type_iff t).1 (h t (((gathers apis).all t).2 ht))
    · intro h t ht; exact (type_iff t).2 (h t (((gathers apis).all t).1 ht))
  have hitem : (∀ t, Occurs apis t → TypeOk apis t) → ((∀ a ∈ apis, checkApi (cxOf g apis) a = []) ↔ ∀ a ∈ apis, ItemOk g apis a) := by
    intro hty
    have hargs : ∀ (a : Api) f, a ∈ apis → a = .cxxFunction f ∨ a = .rustFunction f →
        ∀ x ∈ f.sig.args, ∀ t, Within t x.ty → TypeOk apis t := by
      intro a f ha he x hx t ht
      refine hty t ⟨a, ha, x.ty, ?_, ht⟩
      rcases he with rfl | rfl <;> exact List.mem_append.2 (.inl (List.mem_map.2 ⟨x, hx, rfl⟩))
    have one : ∀ a ∈ apis, (checkApi (cxOf g apis) a = [] ↔ ItemOk g apis a) := by
      intro a ha
      cases a with
      | «include» p => exact ⟨fun _ => trivial, fun _ => rfl⟩
      | struct s => exact struct_iff s
      | enum e => exact enum_iff e
      | cxxType t => exact externType_iff t
      | rustType t => exact externType_iff t
      | cxxFunction f => exact fn_iff f (hargs _ f ha (.inl rfl))
      | rustFunction f => exact fn_iff f (hargs _ f ha (.inr rfl))
      | typeAlias a => exact alias_iff a
      | impl i => exact impl_iff i
    exact ⟨fun h a ha => (one a ha).1 (h a ha), fun h a ha => (one a ha).2 (h a ha)⟩
  unfold Accepted typecheck
  rw [duplicates_exact, List.append_eq_nil_iff, List.append_eq_nil_iff, List.flatMap_eq_nil_iff, List.flatMap_eq_nil_iff,
    List.flatMap_eq_nil_iff]
  simp only [names_iff]
  rw [show (∀ x ∈ (Cx.types ⟨apis, collect apis, g⟩).all.iter, checkType ⟨apis, collect apis, g⟩ x = []) ↔ _ from hall]
  constructor
  · rintro ⟨⟨h1, h2⟩, ⟨h3, h4⟩, h5⟩
    exact ⟨h1, h2, h3, h4, (hitem h4).1 h5⟩
  · rintro ⟨h1, h2, h3, h4, h5⟩
    exact ⟨⟨h1, h2⟩, ⟨h3, h4⟩, (hitem h4).2 h5⟩

/-- The sample follows the rules, and breaking one of them is noticed. -/
example : Follows .build sample ∧ Follows .macro sample :=
  ⟨(accepted_exact _ _).1 sample_accepted.1, (accepted_exact _ _).1 sample_accepted.2⟩

example : ¬ Follows .build [.cxxType ⟨.cxx, [], nm "Vec", [], [], true⟩] := fun h =>
  (h.items _ (List.mem_singleton.2 rfl)).name (by decide +kernel)

end Verif.Check
