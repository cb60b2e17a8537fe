import Verif.ByValue.Model
import Verif.ByValue.Spec
import Verif.Check.Exact
/-!
# The messages about types that cannot be passed by value
-/
namespace Verif.ByValue
open Verif.Syntax Verif.Types Verif.Check Verif.Check.Rules

variable {g : Generator} {apis : List Api}

/-- A name that stands for a type of C++ or Rust stands for nothing else. -/
theorem opaque_alone (hd : ∀ n, Compatible (definitions apis n) ∨ Tolerated (definitions apis n)) {n : Ident} :
    (Rust apis n → definitions apis n = [.rust]) ∧
    (Opaque apis n → definitions apis n = [.cxx] ∨ (Alias apis n ∧ ¬ Moved apis n)) := by
  have := hd n
  unfold Rust Opaque Alias Cxx Rules.Shared
  generalize definitions apis n = ks at *
  match ks with
  | [] => simp
  | [k] => cases k <;> simp [Alias]
  | [a, b] => cases a <;> cases b <;> simp_all [Compatible, Tolerated]
  | a :: b :: c :: l => simp [Compatible, Tolerated] at this

theorem kinds (g : Generator) (apis : List Api) (n : Ident) :
    (mapHas (cxOf g apis).types.aliases n = true ↔ Kind.alias ∈ definitions apis n) ∧
    (n ∈ (cxOf g apis).types.cxx ↔ ∃ k ∈ definitions apis n, k = .cxx ∨ k = .alias ∨ k = .headerEnum) ∧
    (n ∈ (cxOf g apis).types.rust ↔ Kind.rust ∈ definitions apis n) ∧
    ((∀ k ∈ definitions apis n, k ≠ .shared ∧ k ≠ .headerEnum) →
      mapHas (cxOf g apis).types.structs n = false ∧ mapHas (cxOf g apis).types.enums n = false) := by
  refine ⟨(gathers apis).aliases n, (knows apis).cxx n, (gathers apis).rust n, fun h => ?_⟩
  have := mt ((knows apis).shared n).1 (by rintro ⟨k, hk, rfl | rfl⟩ <;> simpa using h _ hk)
  simpa [cxOf, not_or] using this

/-- What the message calls a type. -/
theorem described (hd : ∀ n, Compatible (definitions apis n) ∨ Tolerated (definitions apis n)) (hr : Reserved apis) {t : Ty}
    (hu : Unsized apis t) (hf : isFn t = false) (hm : ∀ n gs, t = .ident ⟨n, gs⟩ → Alias apis n → ¬ Rules.Shared apis n → Moved apis n) :
    Is apis t (describe (cxOf g apis) t) := by
  cases hu with
  | @cxxString gs =>
    obtain ⟨k1, k2, k3, k4⟩ := kinds g apis "CxxString"
    have hr' : definitions apis "CxxString" = [] := hr
    rw [hr'] at k1 k2 k3 k4
    obtain ⟨k4, k5⟩ := k4 (by simp)
    have : describe (cxOf g apis) (.ident ⟨"CxxString", gs⟩) = "C++ string" := by
      simp only [describe, k4, k5, k1, k2, k3]
      simp
      decide +kernel
    rw [this]; exact .string
  | @cxx t h =>
    obtain ⟨n, gs⟩ := t
    rcases (opaque_alone hd).2 h with e | ⟨ha, hn⟩
    · obtain ⟨k1, k2, k3, k4⟩ := kinds g apis n
      rw [e] at k1 k2 k3 k4
      obtain ⟨k4, k5⟩ := k4 (by simp)
      have : describe (cxOf g apis) (.ident ⟨n, gs⟩) = "opaque C++ type" := by
        simp only [describe, k4, k5, k1, k2]; simp
      rw [this]; exact .cxx e
    · exact absurd (hm n gs rfl ha h.2.1) hn
  | @rust t h =>
    obtain ⟨n, gs⟩ := t
    have e := (opaque_alone hd).1 h
    obtain ⟨k1, k2, k3, k4⟩ := kinds g apis n
    rw [e] at k1 k2 k3 k4
    obtain ⟨k4, k5⟩ := k4 (by simp)
    have : describe (cxOf g apis) (.ident ⟨n, gs⟩) = "opaque Rust type" := by
      simp only [describe, k4, k5, k1, k2, k3]; simp
    rw [this]; exact .rust e
  | cxxVector => exact .vector
  | fn => cases hf
  | void => exact .unit
  | array h => exact .array h

theorem is_unique {t : Ty} {x y : String} (h : Is apis t x) (h' : Is apis t y) (hr : Reserved apis) : x = y := by
  have hr : definitions apis "CxxString" = [] := hr
  cases h <;> cases h' <;> simp_all

theorem is_unsized {t : Ty} {x : String} (h : Is apis t x) : Unsized apis t := by
  cases h with
  | @cxx t h => exact .cxx (by simp [Opaque, Cxx, Rules.Shared, Alias, h])
  | @rust t h => exact .rust (by simp [Rust, h])
  | string => exact .cxxString
  | vector => exact .cxxVector
  | unit => exact .void
  | array h => exact .array h

theorem is_value {t : Ty} {x : String} (h : Is apis t x) : isFn t = false ∧ isPtr t = false := by
  cases h <;> exact ⟨rfl, rfl⟩

/-- **C113.**  In a bridge without ambiguous names, there is a message for exactly those uses by value of an item whose type cannot be
used so, and it says what the type is. -/
theorem messages_exact (hd : ∀ n, Compatible (definitions apis n) ∨ Tolerated (definitions apis n)) (hr : Reserved apis) {a : Api}
    (ha : a ∈ apis) (m : String) :
    m ∈ messages (cxOf g apis) a ↔
      ∃ verb ty what, (verb, ty) ∈ uses a ∧ Is apis ty what ∧ m = verb ++ " " ++ what ++ " by value is not supported" := by
  have key : ∀ verb t, (∀ n gs, t = .ident ⟨n, gs⟩ → Moved apis n) →
      ((isFn t = false ∧ isUnsized (cxOf g apis) t = true ∧ m = message verb (describe (cxOf g apis) t)) ↔
        ∃ what, Is apis t what ∧ m = verb ++ " " ++ what ++ " by value is not supported") := by
    intro verb t hm
    constructor
    · rintro ⟨hf, hu, rfl⟩
      exact ⟨_, described hd hr ((unsized_iff t).1 hu) hf fun n gs e _ _ => hm n gs e, rfl⟩
    · rintro ⟨what, h, rfl⟩
      refine ⟨(is_value h).1, (unsized_iff t).2 (is_unsized h), ?_⟩
      rw [is_unique h (described (g := g) hd hr (is_unsized h) (is_value h).1 fun n gs e _ _ => hm n gs e) hr]
      rfl
  have one : ∀ (t : Ty) (verb : String), m ∈ (if isFn t = true then [] else if isUnsized (cxOf g apis) t = true then
      [message verb (describe (cxOf g apis) t)] else []) ↔
      (isFn t = false ∧ isUnsized (cxOf g apis) t = true ∧ m = message verb (describe (cxOf g apis) t)) := by
    intro t verb
    cases isFn t <;> cases isUnsized (cxOf g apis) t <;> simp
  have fn : ∀ f, HasFn apis f → (m ∈ argMessages (cxOf g apis) f ++ retMessages (cxOf g apis) f.sig.ret ↔
      ∃ verb ty what, (verb, ty) ∈ (f.sig.args.map fun a => ("passing", a.ty)) ++ (f.sig.ret.toList.map fun t => ("returning", t)) ∧
        Is apis ty what ∧ m = verb ++ " " ++ what ++ " by value is not supported") := by
    intro f hf
    simp only [List.mem_append, argMessages, List.mem_flatMap, List.mem_map, Option.mem_toList, Prod.mk.injEq]
    constructor
    · rintro (⟨v, hv, h⟩ | h)
      · have h : m ∈ (if isFn v.ty = true then [] else if isUnsized (cxOf g apis) v.ty = true then
            [message "passing" (describe (cxOf g apis) v.ty)] else []) := by
          split at h
          · cases h
          · next h1 => rw [if_neg h1]; split at h
                       · cases h
                       · exact h
        obtain ⟨w, h1, h2⟩ := (key "passing" v.ty fun n gs e => .argument hf hv e).1 ((one _ _).1 h)
        exact ⟨_, _, w, .inl ⟨v, hv, rfl, rfl⟩, h1, h2⟩
      · cases hret : f.sig.ret with
        | none => rw [hret] at h; cases h
        | some t =>
          rw [hret] at h
          obtain ⟨w, h1, h2⟩ := (key "returning" t fun n gs e => .result hf (e ▸ hret)).1 ((one _ _).1 h)
          exact ⟨_, _, w, .inr ⟨t, rfl, rfl, rfl⟩, h1, h2⟩
    · rintro ⟨verb, ty, w, ⟨v, hv, rfl, rfl⟩ | ⟨t, ht, rfl, rfl⟩, h1, h2⟩
      · refine .inl ⟨v, hv, ?_⟩
        have := (one _ _).2 ((key "passing" v.ty fun n gs e => .argument hf hv e).2 ⟨w, h1, h2⟩)
        rw [if_neg (by simp [(is_value h1).1])] at this
        rw [if_neg (by simp [(is_value h1).1]), if_neg (by simp [(is_value h1).2])]
        exact this
      · right
        rw [ht]
        exact (one _ _).2 ((key "returning" t fun n gs e => .result hf (e ▸ ht)).2 ⟨w, h1, h2⟩)
  cases a with
  | struct s =>
    simp only [messages, fieldMessages, List.mem_flatMap, uses, List.mem_map, Prod.mk.injEq]
    constructor
    · rintro ⟨f, hf, h⟩
      obtain ⟨w, h1, h2⟩ := (key "using" f.ty fun n gs e => .field ha hf e).1 ((one _ _).1 h)
      exact ⟨_, _, w, ⟨f, hf, rfl, rfl⟩, h1, h2⟩
    · rintro ⟨verb, ty, w, ⟨f, hf, rfl, rfl⟩, h1, h2⟩
      exact ⟨f, hf, (one _ _).2 ((key "using" f.ty fun n gs e => .field ha hf e).2 ⟨w, h1, h2⟩)⟩
  | cxxFunction f => exact fn f (.inl ha)
  | rustFunction f => exact fn f (.inr ha)
  | _ => simp [messages, uses]

/-- The errors about uses by value, of those of C85. -/
def byValue : Err → Bool
  | .fieldByValue | .argByValue | .returnByValue => true
  | _ => false

theorem none_of (l : List Err) (h : ∀ e ∈ l, byValue e = false) : l.countP byValue = 0 := by
  rw [List.countP_eq_zero]; simpa using h

theorem lifetimes_none (cx : Cx) (ls : List Ident) : (checkLifetimes cx ls).countP byValue = 0 := by
  refine none_of _ fun e he => ?_
  simp only [checkLifetimes, List.mem_flatMap, checkReservedLifetime] at he
  obtain ⟨l, -, he⟩ := he
  (repeat' split at he) <;> simp at he <;> subst he <;> rfl

theorem reserved_none (n : Ident) : (checkReservedName n).countP byValue = 0 := by
  refine none_of _ fun e he => ?_
  unfold checkReservedName at he
  split at he
  · cases List.mem_singleton.1 he; rfl
  · cases he

theorem count_flatMap {α : Type} (l : List α) (f : α → List Err) (f' : α → List String)
    (h : ∀ x ∈ l, (f x).countP byValue = (f' x).length) : (l.flatMap f).countP byValue = (l.flatMap f').length := by
  induction l with
  | nil => rfl
  | cons x xs ih =>
    simp only [List.flatMap_cons, List.countP_append, List.length_append]
    rw [h x (by simp), ih fun y hy => h y (by simp [hy])]

/-- There are as many messages as there are errors of this kind in C85. -/
theorem messages_counted (cx : Cx) (a : Api) : (messages cx a).length = (checkApi cx a).countP byValue := by
  have ite0 : ∀ (c : Prop) [Decidable c] (e : Err), byValue e = false → (if c then [e] else []).countP byValue = 0 := by
    intro c _ e h; split <;> simp [h]
  have fn : ∀ f, (argMessages cx f ++ retMessages cx f.sig.ret).length = (checkApiFn cx f).countP byValue := by
    intro f
    simp only [checkApiFn, List.countP_append, lifetimes_none, List.length_append, argMessages]
    have h2 : ∀ r, (checkReceiver cx r).countP byValue = 0 := by
      intro r; simp only [checkReceiver]; (repeat' split) <;> rfl
    have h3 : ∀ (c : Prop) [Decidable c], (if c then checkMutReturn cx f else []).countP byValue = 0 := by
      intro c _
      split
      · unfold checkMutReturn; (repeat' split) <;> rfl
      · rfl
    have h4 : (checkRet cx f.sig.ret).countP byValue = (retMessages cx f.sig.ret).length := by
      cases f.sig.ret with
      | none => rfl
      | some t => simp only [checkRet, retMessages]; cases isFn t <;> cases isUnsized cx t <;> rfl
    rw [h3, h4, count_flatMap _ _ (fun a : Var => if isFn a.ty = true then [] else if isPtr a.ty = true then [] else
      if isUnsized cx a.ty = true then [message "passing" (describe cx a.ty)] else [])]
    · cases f.lang <;> cases f.sig.receiver <;> dsimp only <;> rw [ite0 _ _ rfl] <;> simp [h2]
    · intro a _
      unfold checkArg
      cases isFn a.ty <;> cases isPtr a.ty <;> cases isUnsized cx a.ty <;> simp [byValue]
      all_goals (repeat' split) <;> rfl
  cases a with
  | struct s =>
    simp only [messages, checkApi, checkApiStruct, List.countP_append, lifetimes_none, reserved_none, fieldMessages]
    rw [ite0 _ _ rfl, ite0 _ _ rfl, none_of (s.derives.flatMap _), count_flatMap _ _ (fun f : Var => if isFn f.ty = true then [] else
      if isUnsized cx f.ty = true then [message "using" (describe cx f.ty)] else [])]
    · simp
    · intro f _
      cases isFn f.ty <;> cases isUnsized cx f.ty <;> rfl
    · intro e he
      obtain ⟨d, -, he⟩ := List.mem_flatMap.1 he
      split at he
      · cases List.mem_singleton.1 he; rfl
      · cases he
  | cxxFunction f => exact fn f
  | rustFunction f => exact fn f
  | «include» => rfl
  | enum e =>
    refine (none_of _ fun x hx => ?_).symm
    simp only [checkApi, checkApiEnum, List.mem_append, List.mem_flatMap] at hx
    rcases hx with ((hx | hx) | hx) | ⟨d, -, hx⟩
    · simpa using List.countP_eq_zero.1 (reserved_none e.name.rust) x hx
    · simpa using List.countP_eq_zero.1 (lifetimes_none cx e.generics) x hx
    · split at hx <;> simp at hx; subst hx; rfl
    · split at hx <;> simp at hx; subst hx; rfl
  | cxxType t =>
    refine (none_of _ fun x hx => ?_).symm
    simp only [checkApi, checkApiType, List.mem_append, List.mem_flatMap] at hx
    rcases hx with (((hx | hx) | ⟨d, -, hx⟩) | hx) | hx
    · simpa using List.countP_eq_zero.1 (reserved_none t.name.rust) x hx
    · simpa using List.countP_eq_zero.1 (lifetimes_none cx t.generics) x hx
    · split at hx <;> simp at hx; subst hx; rfl
    · split at hx <;> simp at hx; subst hx; rfl
    · split at hx <;> simp at hx; subst hx; rfl
  | rustType t =>
    refine (none_of _ fun x hx => ?_).symm
    simp only [checkApi, checkApiType, List.mem_append, List.mem_flatMap] at hx
    rcases hx with (((hx | hx) | ⟨d, -, hx⟩) | hx) | hx
    · simpa using List.countP_eq_zero.1 (reserved_none t.name.rust) x hx
    · simpa using List.countP_eq_zero.1 (lifetimes_none cx t.generics) x hx
    · split at hx <;> simp at hx; subst hx; rfl
    · split at hx <;> simp at hx; subst hx; rfl
    · split at hx <;> simp at hx; subst hx; rfl
  | typeAlias a =>
    refine (none_of _ fun x hx => ?_).symm
    simp only [checkApi, checkApiTypeAlias, List.mem_append, List.mem_map] at hx
    rcases hx with hx | ⟨d, -, rfl⟩
    · simpa using List.countP_eq_zero.1 (lifetimes_none cx a.generics) x hx
    · rfl
  | impl i =>
    refine (none_of _ fun x hx => ?_).symm
    simp only [checkApi, checkApiImpl, List.mem_append] at hx
    rcases hx with hx | hx
    · simpa using List.countP_eq_zero.1 (lifetimes_none cx i.implGenerics) x hx
    · (repeat' split at hx) <;> simp at hx <;> subst hx <;> rfl

/-! ### Bridges -/

def nm (s : Ident) : Pair := ⟨[], s, s⟩

/-- `fn f(a: T, b: &T, c: CxxString, d: R, e: [R; 2]) -> CxxVector<u8>` with `T` of C++ and `R` of Rust. -/
def sample : List Api :=
  [.cxxType ⟨.cxx, [], nm "T", [], [], true⟩, .rustType ⟨.rust, [], nm "R", [], [], true⟩,
   .cxxFunction ⟨.cxx, nm "f", ⟨false, [], none,
     [⟨nm "a", .named "T"⟩, ⟨nm "b", .ref false none false (.named "T")⟩, ⟨nm "c", .named "CxxString"⟩, ⟨nm "d", .named "R"⟩,
      ⟨nm "e", .array (.named "R") 2⟩], some (.cxxVector (.named "u8")), false⟩, true⟩]

theorem sample_plain : (∀ n, Compatible (definitions sample n) ∨ Tolerated (definitions sample n)) ∧ Reserved sample :=
  ⟨((duplicates_exact sample).1 (by decide +kernel)).1, by unfold Reserved; decide +kernel⟩

example : sample.flatMap (messages (cxOf .build sample)) =
    ["passing opaque C++ type by value is not supported", "passing C++ string by value is not supported",
     "passing opaque Rust type by value is not supported", "passing array by value is not supported",
     "returning C++ vector by value is not supported"] := by decide +kernel

/-- What the conditions are for: an alias named `CxxString` is taken for a C++ string where it cannot be passed, and is called something
else in the message. -/
theorem named_string : ∃ a ∈ [Api.typeAlias ⟨[], nm "CxxString", []⟩, .struct ⟨[], nm "S", [], [⟨nm "x", .named "CxxString"⟩]⟩],
    messages (cxOf .build [.typeAlias ⟨[], nm "CxxString", []⟩, .struct ⟨[], nm "S", [], [⟨nm "x", .named "CxxString"⟩]⟩]) a =
      ["using C++ type by value is not supported"] :=
  ⟨.struct ⟨[], nm "S", [], [⟨nm "x", .named "CxxString"⟩]⟩, by simp, by decide +kernel⟩

end Verif.ByValue
