import Verif.Assert.Spec
import Verif.Check.Props
import Verif.Qualified.Props
/-!
# Types from elsewhere are what they claim to be
-/
namespace Verif.Assert
open Verif.Syntax Verif.Types Verif.Check Verif.Qualified

theorem item {g : Generator} {apis : List Api} {s : Scope} (hc : Compiles s (expand (cxOf g apis))) {a : Api}
    (ha : a ∈ apis) {i : Item} (hi : i ∈ expandApi (cxOf g apis) a) : i.Compiles s :=
  hc i (List.mem_flatMap.2 ⟨a, ha, hi⟩)

theorem defined {apis : List Api} {n : Ident} {k : Kind} (h : k ∈ definitions apis n) :
    ∃ a ∈ apis, defines a = some (n, k) := by
  unfold definitions at h
  obtain ⟨⟨m, k'⟩, hm, rfl⟩ := List.mem_map.1 h
  obtain ⟨hm, hn⟩ := List.mem_filter.1 hm
  obtain ⟨a, ha, hd⟩ := List.mem_filterMap.1 hm
  exact ⟨a, ha, by simpa using (show m = n by simpa using hn) ▸ hd⟩

theorem rust_defined {apis : List Api} {n : Ident} (h : OpaqueRust apis n) :
    ∃ t, Api.rustType t ∈ apis ∧ t.name.rust = n := by
  obtain ⟨a, ha, hd⟩ := defined h
  cases a <;> simp only [defines, reduceCtorEq, Option.some.injEq, Prod.mk.injEq, and_false] at hd
  all_goals first | exact ⟨_, ha, hd.1⟩ | (split at hd <;> simp at hd) | skip

theorem cxx_defined {apis : List Api} {n : Ident} (h : Kind.cxx ∈ definitions apis n) :
    ∃ t, Api.cxxType t ∈ apis ∧ t.name.rust = n := by
  obtain ⟨a, ha, hd⟩ := defined h
  cases a <;> simp only [defines, reduceCtorEq, Option.some.injEq, Prod.mk.injEq, and_false] at hd
  all_goals first | exact ⟨_, ha, hd.1⟩ | (split at hd <;> simp at hd) | skip

theorem alias_defined {apis : List Api} {n : Ident} (h : Kind.alias ∈ definitions apis n) :
    ∃ t, Api.typeAlias t ∈ apis ∧ t.name.rust = n := by
  obtain ⟨a, ha, hd⟩ := defined h
  cases a <;> simp only [defines, reduceCtorEq, Option.some.injEq, Prod.mk.injEq, and_false] at hd
  all_goals first | exact ⟨_, ha, hd.1⟩ | (split at hd <;> simp at hd) | skip

/-! ### What is recorded -/

theorem required {apis : List Api} {g : Generator} {n : Ident} {r : Reason}
    (h : (n, r) ∈ requiredTrivial apis (collect apis)) : (cxOf g apis).requiresTrivial n = true :=
  List.any_eq_true.2 ⟨_, h, by simp⟩

theorem insisted {apis : List Api} {n : Ident} (hn : Aliased apis n) (r : Reason) :
    (n, r) ∈ insist (collect apis) n r := by
  have hns := not_shared hn.2.1 hn.2.2
  have hcxx : n ∈ (collect apis).cxx := ((knows apis).cxx _).2 ⟨_, hn.1, .inr (.inl rfl)⟩
  simp [insist, hns.1, hns.2, hcxx]

theorem in_all {apis : List Api} {t : Ty} (h : Occurs apis t) {e : Ident × Reason}
    (he : e ∈ insistType (collect apis) t) : e ∈ requiredTrivial apis (collect apis) :=
  List.mem_append_right _ (List.mem_flatMap.2 ⟨t, ((gathers apis).all t).2 h, he⟩)

theorem in_apis {apis : List Api} {a : Api} (h : a ∈ apis) {e : Ident × Reason}
    (he : e ∈ insistApi (collect apis) a) : e ∈ requiredTrivial apis (collect apis) :=
  List.mem_append_left _ (List.mem_flatMap.2 ⟨a, h, he⟩)

theorem in_fn {apis : List Api} {f : ExternFn} (h : HasFn apis f) {e : Ident × Reason}
    (he : e ∈ insistFn (collect apis) f) : e ∈ requiredTrivial apis (collect apis) := by
  rcases h with h | h <;> exact in_apis h he

/-- Every type from elsewhere that Rust can move is recorded. -/
theorem moved_required {g : Generator} {apis : List Api} (h : Accepted g apis) {n : Ident} (hn : Aliased apis n)
    (hm : Moved apis n) : (cxOf g apis).requiresTrivial n = true := by
  cases hm with
  | field s f gs hs hf hh => exact (alias_by_value_recorded h (n := ⟨n, gs⟩) hn).1 s hs f hf hh
  | arg f a gs hf ha hh => exact (alias_by_value_recorded h (n := ⟨n, gs⟩) hn).2.1 f hf a ha hh
  | ret f r gs hf hr hh => exact (alias_by_value_recorded h (n := ⟨n, gs⟩) hn).2.2.1 f hf r hr hh
  | array t k gs ho hh => exact (alias_by_value_recorded h (n := ⟨n, gs⟩) hn).2.2.2 t k ho hh
  | mutRef l gs ho => exact (mutable_alias_recorded h (n := ⟨n, gs⟩) hn).1 l ho
  | receiver f r hf hr hrn hm hp =>
    exact (mutable_alias_recorded h (n := ⟨n, []⟩) hn).2 f hf r hr hm hp hrn
  | box t gs ho hh =>
    have hc : checkTypeBox (cxOf g apis) t = [] := accepted_type h ho
    cases hh with
    | self => exact required (in_all ho (insisted hn _))
    | elem k hh => simp [checkTypeBox] at hc
  | vec t gs ho hh =>
    have hc : checkTypeRustVec (cxOf g apis) t = [] := accepted_type h ho
    cases hh with
    | self => exact required (in_all ho (insisted hn _))
    | elem k hh => simp [checkTypeRustVec] at hc
  | slice l m t gs ho hh =>
    cases hh with
    | self => exact required (in_all ho (insisted hn _))
    | @elem t _ k hh =>
      have hc : checkTypeSliceRef (cxOf g apis) (.array t k) = [] := accepted_type h ho
      simp only [checkTypeSliceRef, Bool.or_false] at hc
      refine alias_sized (n := ⟨n, gs⟩) hh hn (t := t) ?_
      by_cases hu : isUnsized (cxOf g apis) (.array t k) = true
      · simp [hu] at hc
      · simpa [isUnsized] using hu

/-- And with a reason that excludes arrays, where arrays do not work. -/
theorem noArray_reason {apis : List Api} {n : Ident} (hn : Aliased apis n) (hm : NoArray apis n) :
    ∃ r, (n, r) ∈ requiredTrivial apis (collect apis) ∧ allowsArray r = false := by
  cases hm with
  | box gs ho => exact ⟨_, in_all ho (insisted hn .boxTarget), rfl⟩
  | slice l m gs ho => exact ⟨_, in_all ho (insisted hn (.sliceElement m)), rfl⟩
  | receiver f r hf hr hrn hm hp =>
    refine ⟨.unpinnedMut f.name.rust, in_fn hf ?_, rfl⟩
    unfold insistFn
    refine List.mem_append_left _ (List.mem_append_left _ ?_)
    rw [hr]; simp only [insistReceiver, hm, hp, and_self, if_true, hrn]
    exact insisted hn _
  | arg f a gs hf ha hh =>
    rcases hh with hh | ⟨l, hh⟩
    · refine ⟨.functionArgument f.name.rust, in_fn hf ?_, rfl⟩
      refine List.mem_append_left _ (List.mem_append_right _ (List.mem_flatMap.2 ⟨a, ha, ?_⟩))
      rw [hh]; exact insisted hn _
    · refine ⟨.unpinnedMut f.name.rust, in_fn hf ?_, rfl⟩
      refine List.mem_append_left _ (List.mem_append_right _ (List.mem_flatMap.2 ⟨a, ha, ?_⟩))
      rw [hh]; simp only [insistArg, and_self, if_true]; exact insisted hn _
  | ret f r gs hf hr hh =>
    rcases hh with hh | ⟨l, hh⟩
    · refine ⟨.functionReturn f.name.rust, in_fn hf ?_, rfl⟩
      refine List.mem_append_right _ ?_
      rw [hr, hh]; exact insisted hn _
    · refine ⟨.unpinnedMut f.name.rust, in_fn hf ?_, rfl⟩
      refine List.mem_append_right _ ?_
      rw [hr, hh]; simp only [insistRet, and_self, if_true]; exact insisted hn _

theorem of_insist {ts : Types} {t n : Ident} {q r : Reason} (h : (n, r) ∈ insist ts t q) : t = n ∧ q = r := by
  unfold insist at h
  split at h
  · simp at h; exact ⟨h.1.symm, h.2.symm⟩
  · cases h

theorem written {apis : List Api} {f : ExternFn} (hf : HasFn apis f) {t : Ty}
    (h : (∃ a ∈ f.sig.args, a.ty = t) ∨ f.sig.ret = some t) : Occurs apis t := by
  rcases hf with hf | hf <;> refine ⟨_, hf, t, ?_, .self _⟩ <;>
    (rcases h with ⟨a, ha, rfl⟩ | h
     · simp only [writtenTypes, List.mem_append, List.mem_map]; exact .inl ⟨a, ha, rfl⟩
     · simp [writtenTypes, h])

/-- Nothing else is recorded, and a reason that excludes arrays is there for a use that excludes them. -/
theorem reason_sound {apis : List Api} {n : Ident} {r : Reason} (h : (n, r) ∈ requiredTrivial apis (collect apis)) :
    Moved apis n ∧ (allowsArray r = false → NoArray apis n) := by
  have fn : ∀ f, HasFn apis f → (n, r) ∈ insistFn (collect apis) f →
      Moved apis n ∧ (allowsArray r = false → NoArray apis n) := by
    intro f hf h
    rcases List.mem_append.1 h with h | h
    · rcases List.mem_append.1 h with h | h
      · cases hr : f.sig.receiver with
        | none => rw [hr] at h; cases h
        | some v =>
          rw [hr] at h
          simp only [insistReceiver] at h
          split at h
          · rename_i hc
            obtain ⟨rfl, rfl⟩ := of_insist h
            exact ⟨.receiver f v hf hr rfl hc.1 hc.2, fun _ => .receiver f v hf hr rfl hc.1 hc.2⟩
          · cases h
      · obtain ⟨a, ha, h⟩ := List.mem_flatMap.1 h
        unfold insistArg at h
        split at h
        · rename_i t ht
          obtain ⟨rfl, rfl⟩ := of_insist h
          exact ⟨.arg f a t.generics hf ha (ht ▸ .self _), fun _ => .arg f a t.generics hf ha (.inl ht)⟩
        · rename_i p l m t ht
          split at h
          · rename_i hc
            obtain ⟨rfl, rfl⟩ := of_insist h
            obtain ⟨rfl, rfl⟩ := hc
            exact ⟨.mutRef l t.generics (written hf (.inl ⟨a, ha, ht⟩)),
              fun _ => .arg f a t.generics hf ha (.inr ⟨l, ht⟩)⟩
          · cases h
        · cases h
    · cases hr : f.sig.ret with
      | none => rw [hr] at h; cases h
      | some v =>
        rw [hr] at h
        simp only [insistRet] at h
        split at h
        · rename_i t
          obtain ⟨rfl, rfl⟩ := of_insist h
          exact ⟨.ret f _ t.generics hf hr (.self _), fun _ => .ret f _ t.generics hf hr (.inl rfl)⟩
        · rename_i p l m t
          split at h
          · rename_i hc
            obtain ⟨rfl, rfl⟩ := of_insist h
            obtain ⟨rfl, rfl⟩ := hc
            exact ⟨.mutRef l t.generics (written hf (.inr hr)), fun _ => .ret f _ t.generics hf hr (.inr ⟨l, rfl⟩)⟩
          · cases h
        · cases h
  rcases List.mem_append.1 h with h | h
  · obtain ⟨a, ha, h⟩ := List.mem_flatMap.1 h
    cases a <;> try (cases h; done)
    · rename_i s
      obtain ⟨v, hv, h⟩ := List.mem_flatMap.1 h
      unfold insistField at h
      split at h
      · rename_i t ht
        obtain ⟨rfl, rfl⟩ := of_insist h
        exact ⟨.field s v t.generics ha hv (ht ▸ .self _), fun hf => by cases hf⟩
      · cases h
    · exact fn _ (.inl ha) h
    · exact fn _ (.inr ha) h
  · obtain ⟨t, ht, h⟩ := List.mem_flatMap.1 h
    have ho : Occurs apis t := ((gathers apis).all t).1 ht
    unfold insistType at h
    split at h
    · rename_i t
      obtain ⟨rfl, rfl⟩ := of_insist h
      exact ⟨.box _ t.generics ho (.self _), fun _ => .box t.generics ho⟩
    · rename_i t
      obtain ⟨rfl, rfl⟩ := of_insist h
      exact ⟨.vec _ t.generics ho (.self _), fun hf => by cases hf⟩
    · rename_i l m t
      obtain ⟨rfl, rfl⟩ := of_insist h
      exact ⟨.slice l m _ t.generics ho (.self _), fun _ => .slice l m t.generics ho⟩
    · cases h

theorem required_moved {g : Generator} {apis : List Api} {n : Ident}
    (h : (cxOf g apis).requiresTrivial n = true) : Moved apis n := by
  obtain ⟨⟨m, r⟩, he, hn⟩ := List.any_eq_true.1 h
  have : m = n := by simpa using hn
  subst this
  exact (reason_sound he).1

/-! ### The Rust side -/

/-- **C74** (types of the bridge).  If the generated Rust code compiles, then every opaque Rust type is `Sized` and
`Unpin`, no shared struct implements `Drop`, and no opaque C++ type is `Unpin`. -/
theorem declared_types_fit {g : Generator} {apis : List Api} {s : Scope} (hc : Compiles s (expand (cxOf g apis))) :
    (∀ n, OpaqueRust apis n → (s n).sized = true ∧ (s n).unpin = true) ∧
    (∀ t, Api.struct t ∈ apis → (s t.name.rust).drops = false) ∧
    (∀ n, OpaqueCxx apis n → (s n).unpin = false) := by
  refine ⟨?_, ?_, ?_⟩
  · intro n hn
    obtain ⟨t, ht, rfl⟩ := rust_defined hn
    exact ⟨item hc ht (i := .sized t.name.rust) (by simp [expandApi]),
      item hc ht (i := .unpin t.name.rust) (by simp [expandApi])⟩
  · intro t ht
    have := item hc ht (i := .noDrop t.name.rust) (by simp [expandApi])
    cases hd : (s t.name.rust).drops with
    | false => rfl
    | true => simp [Item.Compiles, hd] at this
  · intro n hn
    obtain ⟨t, ht, rfl⟩ := cxx_defined hn.1
    have hns := not_shared hn.2.1 hn.2.2
    have := item hc ht (i := .notUnpin t.name.rust) (by simp [expandApi, cxOf, hns.1, hns.2])
    cases hd : (s t.name.rust).unpin with
    | false => rfl
    | true => simp [Item.Compiles, hd] at this

/-- **C74** (types from elsewhere), except inside function pointers.  If the bridge is accepted and the generated Rust
code compiles, the implementation of `ExternType` of every aliased type says `Trivial` if Rust code can move values of
the type.  Missing from the full statement: the arguments and return types of function pointers, see
`moved_in_fn_pointer`. -/
theorem moved_aliases_trivial_partial {g : Generator} {apis : List Api} {s : Scope} (h : Accepted g apis)
    (hc : Compiles s (expand (cxOf g apis))) {n : Ident} (hn : Aliased apis n) (hm : Moved apis n) :
    ∃ id, (s n).ext = some (id, .trivial) := by
  obtain ⟨a, ha, rfl⟩ := alias_defined hn.1
  exact item hc ha (i := .kind a.name.rust .trivial) (by simp [expandApi, aliasVerify, moved_required h hn hm])

/-- The bridge declares, and does not import, the Rust type `n` with the C++ name `p`: a shared struct or enum, with
`trivial`, an opaque C++ type, or an opaque Rust type with `#[derive(ExternType)]`. -/
inductive Declares (apis : List Api) (n : Ident) (p : Pair) : Bool → Prop
  | struct (t : Struct) (h : Api.struct t ∈ apis) (hn : t.name.rust = n) (hp : t.name = p) : Declares apis n p true
  | enum (t : Enum) (h : Api.enum t ∈ apis) (hn : t.name.rust = n) (hp : t.name = p) : Declares apis n p true
  | cxx (t : ExternType) (h : Api.cxxType t ∈ apis) (ho : OpaqueCxx apis n) (hn : t.name.rust = n) (hp : t.name = p) :
      Declares apis n p false
  | rust (t : ExternType) (h : Api.rustType t ∈ apis) (hx : Trait.externType ∈ t.derives) (hn : t.name.rust = n)
      (hp : t.name = p) : Declares apis n p false

theorem declares_ext {g : Generator} {apis : List Api} {s : Scope} (hc : Compiles s (expand (cxOf g apis)))
    {n : Ident} {p : Pair} {b : Bool} (hd : Declares apis n p b) :
    (s n).ext = some (pairTypeId p, if b then .trivial else .opaque) := by
  cases hd with
  | struct t h hn hp =>
    subst hn hp
    exact item hc h (i := .impl t.name.rust (pairTypeId t.name) .trivial) (by simp [expandApi])
  | enum t h hn hp =>
    subst hn hp
    exact item hc h (i := .impl t.name.rust (pairTypeId t.name) .trivial) (by simp [expandApi])
  | cxx t h ho hn hp =>
    subst hn hp
    have hns := not_shared ho.2.1 ho.2.2
    exact item hc h (i := .impl t.name.rust (pairTypeId t.name) .opaque) (by simp [expandApi, cxOf, hns.1, hns.2])
  | rust t h hx hn hp =>
    subst hn hp
    exact item hc h (i := .impl t.name.rust (pairTypeId t.name) .opaque) (by simp [expandApi, rustTypeImpl, hx])

/-- **C74** (two bridges), except inside function pointers.  A type declared in one bridge and imported into another
has the same qualified name in C++ in both, and if Rust code can move it in the second then it is a shared struct or
enum in the first. -/
theorem alias_across_bridges_partial {g : Generator} {apis apis' : List Api} {s s' : Scope}
    (hc : Compiles s (expand (cxOf g apis)))
    (h' : Accepted g apis') (hc' : Compiles s' (expand (cxOf g apis')))
    {n : Ident} {p : Pair} {b : Bool} (hd : Declares apis n p b)
    {a : TypeAlias} (ha : Api.typeAlias a ∈ apis') (hs : s' a.name.rust = s n)
    (hp : ∀ x ∈ p.ns ++ [p.cxx], Proper x) (hq : ∀ x ∈ a.name.ns ++ [a.name.cxx], Proper x) :
    (p.ns ++ [p.cxx]).map plainName = (a.name.ns ++ [a.name.cxx]).map plainName ∧
    (Aliased apis' a.name.rust → Moved apis' a.name.rust → b = true) := by
  have hext := declares_ext hc hd
  constructor
  · obtain ⟨k, hk⟩ := item hc' ha (i := .id a.name.rust (pairTypeId a.name)) (by simp [expandApi, aliasVerify])
    rw [hs, hext] at hk
    simp only [Option.some.injEq, Prod.mk.injEq] at hk
    exact (type_id_injective _ _ hp hq).1 hk.1
  · intro hal hm
    obtain ⟨i, hi⟩ := moved_aliases_trivial_partial h' hc' hal hm
    rw [hs, hext] at hi
    cases b with
    | true => rfl
    | false => simp at hi

/-- **C74** (nothing else is demanded).  Only of types that Rust can move does the generated code demand that they be
trivial. -/
theorem trivial_only_if_moved {g : Generator} {apis : List Api} {n : Ident} {k : TKind}
    (h : Item.kind n k ∈ expand (cxOf g apis)) : Moved apis n := by
  obtain ⟨a, ha, h⟩ := List.mem_flatMap.1 h
  cases a <;> simp only [expandApi] at h
  case cxxType t => split at h <;> simp at h
  case rustType t => simp [rustTypeImpl] at h
  case typeAlias a =>
    unfold aliasVerify at h
    split at h
    · rename_i hr
      simp at h
      rw [h.1]; exact required_moved hr
    · simp at h
  all_goals simp at h

/-! ### The C++ side -/

theorem isRelocatable_iff (t : CxxTy) : isRelocatable t = true ↔ Relocatable t := by
  constructor
  · intro h
    match t, h with
    | .plain (some true) m d, _ => exact .declared m d
    | .plain (some false) m d, h => simp [isRelocatable] at h
    | .plain none true true, _ => exact .trivial
    | .plain none false d, h => simp [isRelocatable] at h
    | .plain none true false, h => simp [isRelocatable] at h
    | .array t, h => simp [isRelocatable] at h
  · intro h; cases h <;> simp [isRelocatable]

theorem isRelocatableOrArray_iff (t : CxxTy) : isRelocatableOrArray t = true ↔ RelocatableOrArray t := by
  constructor
  · intro h
    induction t with
    | plain o m d => exact .self ((isRelocatable_iff _).1 h)
    | array t ih => exact .elem (ih h)
  · intro h
    induction h with
    | @self t h =>
      cases t with
      | plain o m d => exact (isRelocatable_iff _).2 h
      | array t => cases h
    | elem h ih => exact ih

/-- **C74** (C++), except inside function pointers.  If the bridge is accepted and the generated source file compiles,
every aliased type that Rust can move is relocatable, or an array of a relocatable type; and it is not an array if it
is used in a way in which C++ treats arrays differently. -/
theorem moved_aliases_relocatable_partial {g : Generator} {apis : List Api} {w : List Ident → CxxTy}
    (h : Accepted g apis) (hw : ∀ a ∈ staticAsserts (cxOf g apis) false, a.Compiles w)
    {a : TypeAlias} (ha : Api.typeAlias a ∈ apis) (hn : Aliased apis a.name.rust) (hm : Moved apis a.name.rust) :
    RelocatableOrArray (w (a.name.ns ++ [a.name.cxx])) ∧
    (NoArray apis a.name.rust → Relocatable (w (a.name.ns ++ [a.name.cxx]))) := by
  have hreq := moved_required h hn hm
  have hc := hw (checkTrivial a (reasonsFor (cxOf g apis) a.name.rust)) (by
    simp only [staticAsserts, Bool.false_eq_true, if_false]
    exact List.mem_flatMap.2 ⟨_, ha, by simp [hreq]⟩)
  change (if (reasonsFor (cxOf g apis) a.name.rust).all allowsArray then isRelocatableOrArray (w (a.name.ns ++ [a.name.cxx]))
    else isRelocatable (w (a.name.ns ++ [a.name.cxx]))) = true at hc
  constructor
  · split at hc
    · exact (isRelocatableOrArray_iff _).1 hc
    · exact .self ((isRelocatable_iff _).1 hc)
  · intro hna
    obtain ⟨r, hr, hf⟩ := noArray_reason hn hna
    rw [if_neg] at hc
    · exact (isRelocatable_iff _).1 hc
    · intro hall
      have := List.all_eq_true.1 hall r (List.mem_map.2 ⟨_, List.mem_filter.2 ⟨hr, by simp⟩, rfl⟩)
      rw [hf] at this; cases this

/-- **C74** (nothing else is asserted).  A static assertion is there for an alias that Rust can move, and excludes
arrays only if some use does; a header has none. -/
theorem asserted_only_if_moved {g : Generator} {apis : List Api} {header : Bool} {sa : StaticAssert}
    (h : sa ∈ staticAsserts (cxOf g apis) header) :
    header = false ∧ ∃ a, Api.typeAlias a ∈ apis ∧ sa.name = a.name.ns ++ [a.name.cxx] ∧ Moved apis a.name.rust ∧
      (sa.orArray = false → NoArray apis a.name.rust) := by
  unfold staticAsserts at h
  split at h
  · cases h
  · rename_i hh
    refine ⟨by simpa using hh, ?_⟩
    obtain ⟨a, ha, h⟩ := List.mem_flatMap.1 h
    cases a <;> try (cases h; done)
    rename_i a
    simp only at h
    split at h
    · rename_i hr
      simp only [List.mem_singleton] at h
      subst h
      refine ⟨a, ha, rfl, required_moved hr, ?_⟩
      intro hf
      obtain ⟨r, hr, hfr⟩ := List.all_eq_false.1 hf
      obtain ⟨⟨m, r'⟩, he, rfl⟩ := List.mem_map.1 hr
      obtain ⟨he, hm⟩ := List.mem_filter.1 he
      have : m = a.name.rust := by simpa using hm
      subst this
      exact (reason_sound he).2 (by simpa using hfr)
    · cases h

/-! ### Samples -/

section Samples

def ns (n : Ident) : Pair := ⟨["lib"], n, n⟩

/-- A bridge that declares a struct, an opaque C++ type and an opaque Rust type. -/
def first : List Api :=
  [.struct ⟨[], ns "S", [], [⟨ns "x", Ty.named "u8"⟩]⟩, .cxxType ⟨.cxx, [], ns "T", [], [], true⟩,
   .rustType ⟨.rust, [.externType], ns "R", [], [], true⟩]

/-- A bridge that imports them, and returns the struct by value. -/
def second : List Api :=
  [.typeAlias ⟨[], ns "S", []⟩, .typeAlias ⟨[], ns "T", []⟩,
   .cxxFunction ⟨.cxx, ns "f", ⟨false, [], none, [⟨ns "t", .ref false none false (Ty.named "T")⟩],
     some (Ty.named "S"), false⟩, true⟩]

def types : Scope := fun n =>
  if n = "S" then ⟨true, true, false, some (pairTypeId (ns "S"), .trivial)⟩
  else if n = "T" then ⟨true, false, false, some (pairTypeId (ns "T"), .opaque)⟩
  else ⟨true, true, true, some (pairTypeId (ns "R"), .opaque)⟩

def cxxTypes : List Ident → CxxTy := fun n =>
  if n = ["lib", "S"] then .plain none true true else .plain none false false

theorem types_compile : Compiles types (expand (cxOf .build first)) ∧ Compiles types (expand (cxOf .build second)) := by
  have h1 : expand (cxOf .build first) = [.impl "S" (pairTypeId (ns "S")) .trivial, .noDrop "S",
    .impl "T" (pairTypeId (ns "T")) .opaque, .notUnpin "T", .unpin "R", .impl "R" (pairTypeId (ns "R")) .opaque,
    .sized "R"] := by decide +kernel
  have h2 : expand (cxOf .build second) = [.id "S" (pairTypeId (ns "S")), .kind "S" .trivial,
    .id "T" (pairTypeId (ns "T"))] := by decide +kernel
  rw [h1, h2]
  constructor <;> intro i hi <;>
    simp only [List.mem_cons, List.not_mem_nil, or_false] at hi
  · rcases hi with rfl | rfl | rfl | rfl | rfl | rfl | rfl <;> simp [Item.Compiles, types]
  · rcases hi with rfl | rfl | rfl <;> simp [Item.Compiles, types]

/-- The hypotheses of `declared_types_fit`. -/
example : OpaqueRust first "R" ∧ OpaqueCxx first "T" ∧ (types "R").unpin = true ∧ (types "S").drops = false ∧
    (types "T").unpin = false := by
  have h : OpaqueRust first "R" ∧ OpaqueCxx first "T" := by
    simp [OpaqueRust, OpaqueCxx, definitions, defines, first, ns]
  exact ⟨h.1, h.2, ((declared_types_fit types_compile.1).1 "R" h.1).2,
    (declared_types_fit types_compile.1).2.1 ⟨[], ns "S", [], [⟨ns "x", Ty.named "u8"⟩]⟩ (by simp [first]),
    (declared_types_fit types_compile.1).2.2 "T" h.2⟩

theorem second_accepted : Accepted .build second := by decide +kernel

theorem second_alias : Aliased second "S" ∧ Aliased second "T" := by
  simp [Aliased, definitions, defines, second, ns]

theorem second_moved : Moved second "S" :=
  .ret ⟨.cxx, ns "f", ⟨false, [], none, [⟨ns "t", .ref false none false (Ty.named "T")⟩],
     some (Ty.named "S"), false⟩, true⟩ (Ty.named "S") [] (.inl (by simp [second])) rfl (.self _)

theorem second_noArray : NoArray second "S" :=
  .ret ⟨.cxx, ns "f", ⟨false, [], none, [⟨ns "t", .ref false none false (Ty.named "T")⟩],
     some (Ty.named "S"), false⟩, true⟩ (Ty.named "S") [] (.inl (by simp [second])) rfl (.inl rfl)

/-- The hypotheses of `moved_aliases_trivial_partial` and of `alias_across_bridges_partial`. -/
example : (∃ i, (types "S").ext = some (i, .trivial)) ∧ Declares first "S" (ns "S") true ∧
    Declares first "T" (ns "T") false ∧ ¬ Moved second "T" := by
  have hd : Declares first "T" (ns "T") false :=
    .cxx ⟨.cxx, [], ns "T", [], [], true⟩ (by simp [first])
      (by simp [OpaqueCxx, definitions, defines, first, ns]) rfl rfl
  refine ⟨moved_aliases_trivial_partial second_accepted types_compile.2 second_alias.1 second_moved,
    .struct ⟨[], ns "S", [], [⟨ns "x", Ty.named "u8"⟩]⟩ (by simp [first]) rfl rfl, hd, ?_⟩
  intro hm
  have hproper : ∀ x ∈ (ns "T").ns ++ [(ns "T").cxx], Proper x := by
    intro x hx
    simp only [ns, List.cons_append, List.nil_append, List.mem_cons, List.not_mem_nil, or_false] at hx
    rcases hx with rfl | rfl <;> unfold Proper <;> decide +kernel
  have := (alias_across_bridges_partial types_compile.1 second_accepted types_compile.2 hd
    (a := ⟨[], ns "T", []⟩) (by simp [second]) rfl hproper hproper).2 second_alias.2 hm
  cases this

/-- The hypotheses of `moved_aliases_relocatable_partial`. -/
example : staticAsserts (cxOf .build second) false = [⟨false, ["lib", "S"]⟩] ∧ Relocatable (cxxTypes ["lib", "S"]) := by
  have h : staticAsserts (cxOf .build second) false = [⟨false, ["lib", "S"]⟩] := by decide +kernel
  refine ⟨h, (moved_aliases_relocatable_partial (a := ⟨[], ns "S", []⟩) second_accepted ?_ (by simp [second])
    second_alias.1 second_moved).2 second_noArray⟩
  rw [h]; intro a ha
  simp only [List.mem_singleton] at ha
  subst ha
  simp [StaticAssert.Compiles, cxxTypes, isRelocatable]

/-- If all that is done with a type is to store it in a struct, it may be a C++ array. -/
example : staticAsserts (cxOf .build [.typeAlias ⟨[], ns "A", []⟩,
      .struct ⟨[], ns "S", [], [⟨ns "x", Ty.named "A"⟩]⟩]) false = [⟨true, ["lib", "A"]⟩] ∧
    RelocatableOrArray (.array (.plain none true true)) ∧ ¬ Relocatable (.array (.plain none true true)) := by
  refine ⟨by decide +kernel, .elem (.self .trivial), ?_⟩
  intro h; cases h

/-- In the arguments and return types of function pointers nothing is demanded: a type from elsewhere that is opaque
may be passed by value there. -/
theorem moved_in_fn_pointer :
    ∃ apis, Accepted .build apis ∧ Aliased apis "A" ∧
      Occurs apis (.fn false [Ty.named "A"] (some (Ty.named "A")) false) ∧
      (∀ s : Scope, (s "A").ext = some (pairTypeId (ns "A"), .opaque) → Compiles s (expand (cxOf .build apis))) ∧
      staticAsserts (cxOf .build apis) false = [] := by
  let fp := Ty.fn false [Ty.named "A"] (some (Ty.named "A")) false
  refine ⟨[.typeAlias ⟨[], ns "A", []⟩, .cxxFunction ⟨.cxx, ns "f", ⟨false, [], none, [⟨ns "a", fp⟩],
    none, false⟩, true⟩], by decide +kernel, by simp [Aliased, definitions, defines, ns], ?_, ?_, by decide +kernel⟩
  · exact ⟨_, List.mem_cons_of_mem _ (List.mem_singleton.2 rfl), fp, by simp [writtenTypes], .self _⟩
  · intro s hs
    have h : expand (cxOf .build [.typeAlias ⟨[], ns "A", []⟩, .cxxFunction ⟨.cxx, ns "f", ⟨false, [], none,
      [⟨ns "a", fp⟩], none, false⟩, true⟩]) = [.id "A" (pairTypeId (ns "A"))] := by decide +kernel
    rw [h]
    intro i hi
    simp only [List.mem_singleton] at hi
    subst hi
    exact ⟨_, hs⟩

end Samples

end Verif.Assert
