import Verif.Thunk.Model
import Verif.Thunk.Spec
import Verif.Mangle.Props
/-!
# Operations of the instantiations, from the call to the library
-/
namespace Verif.Thunk
open Verif.Syntax Verif.Types Verif.Mangle Verif.Check

variable {W : Type}

/-- What the C++ file asserts when it is compiled: the pointees it needs complete are. -/
def AssertsHold (complete : CTy → Bool) (apis : List Api) : Prop :=
  ∀ k ∈ (collect apis).impls.map (·.1), ∀ l, cxxAsserts (collect apis) k = some l → ∀ t ∈ l, complete t = true

/-! ### The functions, by name -/

/-- The function with a given name, of the C++ half. -/
def cxxFn (lib : Lib W) : Wrapper → CName → String → Option (List CPTy × CPTy × (List Nat → Run W Nat))
  | .uniquePtr, n, m => pick "cxxbridge1$unique_ptr$" m (uniqueFns lib (fun _ => true) (.named n) [] true false)
  | .uniquePtrVector, n, m => pick "cxxbridge1$unique_ptr$" m (uniqueFns lib (fun _ => true) (.vector n) [] true false)
  | .sharedPtr, n, m => pick "cxxbridge1$shared_ptr$" m (sharedFns lib (.named n) [] true)
  | .weakPtr, n, m => pick "cxxbridge1$weak_ptr$" m (weakFns lib (.named n) [])
  | .vector, n, m => pick "cxxbridge1$std$vector$" m (vectorFns lib n [] true)
  | _, _, _ => none
where
  pick (pre m : String) (l : List (Thunk CPTy W)) : Option (List CPTy × CPTy × (List Nat → Run W Nat)) :=
    (l.find? fun t => t.sym == written pre [] m).map fun t => (t.params, t.ret, t.body)

/-- The body of `drop` when a conditional delete is of a complete type. -/
theorem drop_body (lib : Lib W) {complete : CTy → Bool} {t : CTy} {c : Bool} (h : c = true → complete t = true) :
    (fun (l : List Nat) => match l with
      | [ptr] => (do let _ ← lib.run (.uniqueDestroy t ptr); unit)
      | _ => (fault : Run W Nat)) =
    (fun l => match l with
      | [ptr] =>
        if c then
          if complete t then (do let _ ← lib.run (.uniqueDestroy t ptr); unit) else unit
        else (do let _ ← lib.run (.uniqueDestroy t ptr); unit)
      | _ => fault) := by
  funext l
  split
  · cases c
    · rfl
    · simp [h rfl]
  · rfl

theorem unique_named (lib : Lib W) {complete : CTy → Bool} {n : CName} {s : Symbol} {v c : Bool}
    (h : c = true → complete (.named n) = true) : ∀ t ∈ uniqueFns lib complete (.named n) s v c,
    ∃ m ∈ members .uniquePtr, t.sym = written "cxxbridge1$unique_ptr$" s m ∧
      cxxFn lib .uniquePtr n m = some (t.params, t.ret, t.body) := by
  intro t ht
  simp only [uniqueFns] at ht
  cases v <;> simp only [Bool.false_eq_true, if_false, if_true, List.append_nil, List.cons_append, List.nil_append, List.mem_cons, List.not_mem_nil, or_false] at ht
  · rcases ht with rfl | rfl | rfl | rfl | rfl
    · exact ⟨"null", by decide, rfl, rfl⟩
    · exact ⟨"raw", by decide, rfl, rfl⟩
    · exact ⟨"get", by decide, rfl, rfl⟩
    · exact ⟨"release", by decide, rfl, rfl⟩
    · exact ⟨"drop", by decide, rfl, congrArg (fun b => some ([CPTy.unique (.named n) false], CPTy.void, b)) (drop_body lib h)⟩
  · rcases ht with rfl | rfl | rfl | rfl | rfl | rfl
    · exact ⟨"null", by decide, rfl, rfl⟩
    · exact ⟨"uninit", by decide, rfl, rfl⟩
    · exact ⟨"raw", by decide, rfl, rfl⟩
    · exact ⟨"get", by decide, rfl, rfl⟩
    · exact ⟨"release", by decide, rfl, rfl⟩
    · exact ⟨"drop", by decide, rfl, congrArg (fun b => some ([CPTy.unique (.named n) false], CPTy.void, b)) (drop_body lib h)⟩

theorem unique_vector (lib : Lib W) {complete : CTy → Bool} {n : CName} {s : Symbol} :
    ∀ t ∈ uniqueFns lib complete (.vector n) s false false,
    ∃ m ∈ members .uniquePtrVector, t.sym = written "cxxbridge1$unique_ptr$" s m ∧
      cxxFn lib .uniquePtrVector n m = some (t.params, t.ret, t.body) := by
  intro t ht
  have h : false = true → complete (.vector n) = true := by simp
  simp only [uniqueFns] at ht
  simp only [Bool.false_eq_true, if_false, if_true, List.append_nil, List.cons_append, List.nil_append, List.mem_cons, List.not_mem_nil, or_false] at ht
  · rcases ht with rfl | rfl | rfl | rfl | rfl
    · exact ⟨"null", by decide, rfl, rfl⟩
    · exact ⟨"raw", by decide, rfl, rfl⟩
    · exact ⟨"get", by decide, rfl, rfl⟩
    · exact ⟨"release", by decide, rfl, rfl⟩
    · exact ⟨"drop", by decide, rfl, congrArg (fun b => some ([CPTy.unique (.vector n) false], CPTy.void, b)) (drop_body lib h)⟩

theorem shared_named (lib : Lib W) {n : CName} {s : Symbol} {v : Bool} :
    ∀ t ∈ sharedFns lib (.named n) s v,
    ∃ m ∈ members .sharedPtr, t.sym = written "cxxbridge1$shared_ptr$" s m ∧
      cxxFn lib .sharedPtr n m = some (t.params, t.ret, t.body) := by
  intro t ht
  simp only [sharedFns] at ht
  cases v <;> simp only [Bool.false_eq_true, if_false, if_true, List.append_nil, List.cons_append, List.nil_append, List.mem_cons, List.not_mem_nil, or_false] at ht
  · rcases ht with rfl | rfl | rfl | rfl
    · exact ⟨"null", by decide, rfl, rfl⟩
    · exact ⟨"clone", by decide, rfl, rfl⟩
    · exact ⟨"get", by decide, rfl, rfl⟩
    · exact ⟨"drop", by decide, rfl, rfl⟩
  · rcases ht with rfl | rfl | rfl | rfl | rfl
    · exact ⟨"null", by decide, rfl, rfl⟩
    · exact ⟨"uninit", by decide, rfl, rfl⟩
    · exact ⟨"clone", by decide, rfl, rfl⟩
    · exact ⟨"get", by decide, rfl, rfl⟩
    · exact ⟨"drop", by decide, rfl, rfl⟩

theorem weak_named (lib : Lib W) {n : CName} {s : Symbol} :
    ∀ t ∈ weakFns lib (.named n) s,
    ∃ m ∈ members .weakPtr, t.sym = written "cxxbridge1$weak_ptr$" s m ∧
      cxxFn lib .weakPtr n m = some (t.params, t.ret, t.body) := by
  intro t ht
  simp only [weakFns] at ht
  simp only [Bool.false_eq_true, if_false, if_true, List.append_nil, List.cons_append, List.nil_append, List.mem_cons, List.not_mem_nil, or_false] at ht
  · rcases ht with rfl | rfl | rfl | rfl | rfl
    · exact ⟨"null", by decide, rfl, rfl⟩
    · exact ⟨"clone", by decide, rfl, rfl⟩
    · exact ⟨"downgrade", by decide, rfl, rfl⟩
    · exact ⟨"upgrade", by decide, rfl, rfl⟩
    · exact ⟨"drop", by decide, rfl, rfl⟩

theorem vector_named (lib : Lib W) {n : CName} {s : Symbol} {v : Bool} :
    ∀ t ∈ vectorFns lib n s v,
    ∃ m ∈ members .vector, t.sym = written "cxxbridge1$std$vector$" s m ∧
      cxxFn lib .vector n m = some (t.params, t.ret, t.body) := by
  intro t ht
  simp only [vectorFns] at ht
  cases v <;> simp only [Bool.false_eq_true, if_false, if_true, List.append_nil, List.cons_append, List.nil_append, List.mem_cons, List.not_mem_nil, or_false] at ht
  · rcases ht with rfl | rfl | rfl
    · exact ⟨"new", by decide, rfl, rfl⟩
    · exact ⟨"size", by decide, rfl, rfl⟩
    · exact ⟨"get_unchecked", by decide, rfl, rfl⟩
  · rcases ht with rfl | rfl | rfl | rfl | rfl
    · exact ⟨"new", by decide, rfl, rfl⟩
    · exact ⟨"size", by decide, rfl, rfl⟩
    · exact ⟨"get_unchecked", by decide, rfl, rfl⟩
    · exact ⟨"push_back", by decide, rfl, rfl⟩
    · exact ⟨"pop_back", by decide, rfl, rfl⟩

theorem vectorMangled_eq {p : Pair} {s : Symbol} (h : toSymbol p = some s) :
    vectorMangled s = some ("std$vector$".toList ++ s) := by
  have hn := toSymbol_ne h
  rw [vectorMangled, join_glue _ _ (by decide)]
  simp [glue]

/-- Every function of the C++ half is the member its symbol names. -/
theorem cxx_named (lib : Lib W) {complete : CTy → Bool} {apis : List Api} (hc : AssertsHold complete apis)
    {k : ImplKey} (hk : k ∈ (collect apis).impls.map (·.1)) {l : List (Thunk CPTy W)}
    (h : cxxFns lib complete (collect apis) k = some l) : ∀ t ∈ l, ∃ w p m, (Entity.member w p m).In apis ∧
      symbolOf (collect apis) (.member w p m) = some t.sym ∧
      cxxFn lib w (cname p) m = some (t.params, t.ret, t.body) := by
  intro t ht
  unfold cxxFns at h
  cases hp : resolve (collect apis) k.rust with
  | none => simp [hp] at h
  | some p =>
    cases hs : toSymbol p with
    | none => simp [hp, hs] at h
    | some s =>
      have hd := (resolve_declared hp).1
      simp only [hp, hs, Option.bind_eq_bind, Option.bind_some] at h
      cases k with
      | rustBox r => cases h; cases ht
      | rustVec r => cases h; cases ht
      | uniquePtr r =>
        cases h
        have hcp : conditionalDelete (collect apis) r = true → complete (.named (cname p)) = true := by
          intro hcd
          refine hc _ hk [.named (cname p)] ?_ _ List.mem_cons_self
          have hp' : resolve (collect apis) r = some p := hp
          simp [cxxAsserts, hp', hcd]
        obtain ⟨m, hm, e1, e2⟩ := unique_named lib hcp t ht
        exact ⟨.uniquePtr, p, m, ⟨hd, hm⟩, by rw [symbolOf, formatted_eq hs, e1]; rfl, e2⟩
      | sharedPtr r =>
        cases h
        obtain ⟨m, hm, e1, e2⟩ := shared_named lib t ht
        exact ⟨.sharedPtr, p, m, ⟨hd, hm⟩, by rw [symbolOf, formatted_eq hs, e1]; rfl, e2⟩
      | weakPtr r =>
        cases h
        obtain ⟨m, hm, e1, e2⟩ := weak_named lib t ht
        exact ⟨.weakPtr, p, m, ⟨hd, hm⟩, by rw [symbolOf, formatted_eq hs, e1]; rfl, e2⟩
      | cxxVector r =>
        simp only [vectorMangled_eq hs, Option.bind_some] at h
        cases h
        rcases List.mem_append.1 ht with ht | ht
        · obtain ⟨m, hm, e1, e2⟩ := vector_named lib t ht
          exact ⟨.vector, p, m, ⟨hd, hm⟩, by rw [symbolOf, formatted_eq hs, e1]; rfl, e2⟩
        · obtain ⟨m, hm, e1, e2⟩ := unique_vector lib t ht
          refine ⟨.uniquePtrVector, p, m, ⟨hd, hm⟩, ?_, e2⟩
          rw [symbolOf, formatted_eq hs, e1]
          simp [Wrapper.pre, written]

theorem mem_allFns {P : Type} {fns : ImplKey → Option (List (Thunk P W))} {ks : List ImplKey} {l : List (Thunk P W)}
    (h : allFns fns ks = some l) : ∀ t ∈ l, ∃ k ∈ ks, ∃ l', fns k = some l' ∧ t ∈ l' := by
  induction ks generalizing l with
  | nil => cases h; simp
  | cons k ks ih =>
    intro t ht
    unfold allFns at h
    cases h1 : fns k with
    | none => simp [h1] at h
    | some l1 =>
      cases h2 : allFns fns ks with
      | none => simp [h1, h2] at h
      | some l2 =>
        simp only [h1, h2, Option.bind_eq_bind, Option.bind_some, Option.some.injEq] at h
        subst h
        rcases List.mem_append.1 ht with ht | ht
        · exact ⟨k, List.mem_cons_self, l1, h1, ht⟩
        · obtain ⟨k', hk', x⟩ := ih h2 t ht
          exact ⟨k', List.mem_cons_of_mem _ hk', x⟩

theorem allFns_some {P : Type} {fns : ImplKey → Option (List (Thunk P W))} {ks : List ImplKey}
    (h : ∀ k ∈ ks, ∃ l, fns k = some l) : ∃ l, allFns fns ks = some l ∧
      ∀ k ∈ ks, ∀ l', fns k = some l' → ∀ t ∈ l', t ∈ l := by
  induction ks with
  | nil => exact ⟨[], rfl, by simp⟩
  | cons k ks ih =>
    obtain ⟨l1, h1⟩ := h k List.mem_cons_self
    obtain ⟨l2, h2, h3⟩ := ih fun k hk => h k (List.mem_cons_of_mem _ hk)
    refine ⟨l1 ++ l2, by simp [allFns, h1, h2], ?_⟩
    intro k' hk' l' hl' t ht
    rcases List.mem_cons.1 hk' with rfl | hk'
    · rw [h1] at hl'; cases hl'
      exact List.mem_append_left _ ht
    · exact List.mem_append_right _ (h3 k' hk' l' hl' t ht)

/-- If the functions of a half with the same symbol are equal, a symbol links to the function that has it. -/
theorem linked_own {P : Type} {fs : List (Thunk P W)} (h : ∀ t ∈ fs, ∀ t' ∈ fs, t.sym = t'.sym → t = t')
    {t : Thunk P W} (ht : t ∈ fs) : linked fs t.sym = some t := by
  unfold linked
  cases hf : fs.find? (fun x => x.sym == t.sym) with
  | none =>
    have := List.find?_eq_none.1 hf t ht
    simp at this
  | some t' =>
    have h1 := List.find?_some hf
    rw [h t' (List.mem_of_find?_eq_some hf) t ht (by simpa using h1)]

theorem resolved {g : Generator} {apis : List Api} (ha : Accepted g apis) (hl : LexicalBridge apis) {k : ImplKey}
    (hk : k ∈ (collect apis).impls.map (·.1)) : ∃ p s, resolve (collect apis) k.rust = some p ∧ toSymbol p = some s ∧
      DeclaresType apis p ∧ p.rust = k.rust := by
  have hr := ((names_resolve ha).2.2 k hk).2
  cases hp : resolve (collect apis) k.rust with
  | none => simp [resolve] at hp; exact absurd hp hr
  | some p =>
    obtain ⟨hd, hpr⟩ := resolve_declared hp
    exact ⟨p, _, rfl, toSymbol_eq p (lexical_type hl hd), hd, hpr⟩

theorem cxxFns_some (lib : Lib W) (complete : CTy → Bool) {g : Generator} {apis : List Api} (ha : Accepted g apis)
    (hl : LexicalBridge apis) : ∀ k ∈ (collect apis).impls.map (·.1),
      ∃ l, cxxFns lib complete (collect apis) k = some l := by
  intro k hk
  obtain ⟨p, s, h1, h2, _⟩ := resolved ha hl hk
  cases k <;> simp [cxxFns, h1, h2, vectorMangled_eq h2]

/-- The C++ half of an accepted bridge links every symbol of an instantiation to its own function. -/
theorem cxx_linked (lib : Lib W) {complete : CTy → Bool} {g : Generator} {apis : List Api} (ha : Accepted g apis)
    (hl : LexicalBridge apis) (hv : ∀ p, DeclaresType apis p → ¬ InsideStdVector p) (hc : AssertsHold complete apis) :
    ∃ fs, allFns (cxxFns lib complete (collect apis)) ((collect apis).impls.map (·.1)) = some fs ∧
      ∀ k ∈ (collect apis).impls.map (·.1), ∀ l, cxxFns lib complete (collect apis) k = some l → ∀ t ∈ l,
        linked fs t.sym = some t := by
  obtain ⟨fs, h1, h2⟩ := allFns_some (cxxFns_some lib complete ha hl)
  refine ⟨fs, h1, fun k hk l hl' t ht => linked_own ?_ (h2 k hk l hl' t ht)⟩
  intro t ht t' ht' he
  obtain ⟨k1, hk1, l1, e1, m1⟩ := mem_allFns h1 t ht
  obtain ⟨k2, hk2, l2, e2, m2⟩ := mem_allFns h1 t' ht'
  obtain ⟨w, p, m, i1, s1, b1⟩ := cxx_named lib hc hk1 e1 t m1
  obtain ⟨w', p', m', i2, s2, b2⟩ := cxx_named lib hc hk2 e2 t' m2
  rw [← he] at s2
  obtain ⟨rfl, ⟨hn, hx⟩, rfl⟩ := symbol_determines_entity ha hl hv i1 i2 s1 s2
  rw [show cname p' = cname p by simp [cname, hn, hx], b1] at b2
  obtain ⟨sy, ps, rt, bd⟩ := t
  obtain ⟨sy', ps', rt', bd'⟩ := t'
  simp only [Option.some.injEq, Prod.mk.injEq] at b2 he
  obtain ⟨rfl, rfl, rfl⟩ := b2
  rw [he]

/-! ### Calls -/

theorem linkName_eq (pre : String) (s : Symbol) (m : String) : linkName pre s m = written pre s m := by
  simp [linkName, written]

theorem callBy_at {P Q : Type} {callers : Option (List (Caller P W))} {fns : Option (List (Thunk Q W))}
    {cs : List (Caller P W)} {fs l : List (Thunk Q W)} (h1 : callers = some cs) (h2 : fns = some fs)
    (hlk : ∀ t ∈ l, linked fs t.sym = some t) {name : String} {c : Caller P W}
    (h3 : cs.find? (fun c => c.name == name) = some c) {t : Thunk Q W} (i : Nat) (h4 : l[i]? = some t)
    (h5 : c.sym = t.sym) {args : List Nat} : callBy callers fns name args = c.body t.body args := by
  subst h1 h2
  simp only [callBy, h3, h5, hlk t (List.mem_of_getElem? h4)]

theorem maybeTrivial_iff (apis : List Api) (T : Ident) :
    isMaybeTrivial (collect apis) T = true ↔ ByValueType apis T := by
  have ga := gathers apis
  simp only [isMaybeTrivial, Bool.or_eq_true, ga.hasStruct, ga.hasEnum, ga.aliases, ByValueType, or_assoc]
  refine or_congr Iff.rfl (or_congr Iff.rfl ?_)
  simp only [definitions, List.mem_map, List.mem_filter, List.mem_filterMap, decide_eq_true_eq]
  constructor
  · rintro ⟨⟨n, kd⟩, ⟨⟨a, ha, hd⟩, rfl⟩, rfl⟩
    cases a <;> simp only [defines, Option.some.injEq, Prod.mk.injEq, reduceCtorEq, and_false] at hd
    · split at hd <;> cases hd.2
    · exact ⟨_, ha, hd.1⟩
  · rintro ⟨a, ha, rfl⟩
    exact ⟨_, ⟨⟨_, ha, rfl⟩, rfl⟩, rfl⟩

/-- **C77**, `UniquePtr<T>`.  In an accepted bridge each method that the runtime calls on the pointee type
performs the one operation of `std::unique_ptr<T>` it is named after, on the representation it was given
or on a new one, whatever the operations of the libraries do.  `value` is stored in the memory the new
pointer owns. -/
theorem unique_ptr_methods (lib : Lib W) {complete : CTy → Bool} {g : Generator} {apis : List Api} (ha : Accepted g apis)
    (hl : LexicalBridge apis) (hv : ∀ p, DeclaresType apis p → ¬ InsideStdVector p) (hc : AssertsHold complete apis)
    {T : Ident} (hk : .uniquePtr T ∈ (collect apis).impls.map (·.1)) :
    ∃ p, DeclaresType apis p ∧ p.rust = T ∧
      let t : CTy := .named ⟨p.ns, p.cxx⟩
      let call := rustCall lib complete apis (.uniquePtr T)
      call "__null" [] = (do
        let h ← lib.run .freshLocal
        let _ ← lib.run (.uniqueNull t h)
        lib.run (.bitsOf h)) ∧
      (∀ raw, call "__raw" [raw] = (do
        let h ← lib.run .freshLocal
        let _ ← lib.run (.uniqueFrom t h raw)
        lib.run (.bitsOf h))) ∧
      (∀ bits, call "__get" [bits] = (do
        let h ← lib.run (.localOf bits)
        lib.run (.uniqueGet t h))) ∧
      (∀ bits, call "__release" [bits] = (do
        let h ← lib.run (.localOf bits)
        lib.run (.uniqueRelease t h))) ∧
      (∀ bits, call "__drop" [bits] = (do
        let h ← lib.run (.localOf bits)
        let _ ← lib.run (.uniqueDestroy t h)
        unit)) ∧
      (ByValueType apis T → ∀ value, call "__new" [value] = (do
        let h ← lib.run .freshLocal
        let memory ← lib.run (.newUninit t)
        let _ ← lib.run (.uniqueFrom t h memory)
        let _ ← lib.run (.store T memory value)
        lib.run (.bitsOf h))) ∧
      (¬ ByValueType apis T → ∀ args, call "__new" args = fault) := by
  obtain ⟨p, s, hp, hs, hd, hpr⟩ := resolved ha hl hk
  obtain ⟨fs, hfs, hlk⟩ := cxx_linked lib ha hl hv hc
  refine ⟨p, hd, hpr, ?_⟩
  have hcp : conditionalDelete (collect apis) T = true → complete (.named (cname p)) = true := by
    intro hcd
    refine hc _ hk [.named (cname p)] ?_ _ List.mem_cons_self
    have hp' : resolve (collect apis) T = some p := hp
    simp [cxxAsserts, hp', hcd]
  have hlk := hlk _ hk (uniqueFns lib complete (.named (cname p)) s (isMaybeTrivial (collect apis) T)
    (conditionalDelete (collect apis) T)) (by simp only [cxxFns, hp, hs, Option.bind_eq_bind, Option.bind_some]; rfl)
  have hcs : rustMethods lib (collect apis) (.uniquePtr T) = uniqueMethods lib p T (isMaybeTrivial (collect apis) T) := by
    simp only [rustMethods, hp, Option.bind_eq_bind, Option.bind_some]; rfl
  rw [← maybeTrivial_iff]
  simp only [rustCall]
  generalize isMaybeTrivial (collect apis) T = v at *
  generalize conditionalDelete (collect apis) T = c at *
  simp only [uniqueMethods, hs, Option.bind_eq_bind, Option.bind_some] at hcs
  cases v
  · refine ⟨?_, ?_, ?_, ?_, ?_, ?_, ?_⟩
    · exact (callBy_at hcs hfs hlk rfl 0 rfl (linkName_eq _ _ _)).trans (funext fun w => rfl)
    · exact fun _ => (callBy_at hcs hfs hlk rfl 1 rfl (linkName_eq _ _ _)).trans (funext fun w => rfl)
    · exact fun _ => (callBy_at hcs hfs hlk rfl 2 rfl (linkName_eq _ _ _)).trans (funext fun w => rfl)
    · exact fun _ => (callBy_at hcs hfs hlk rfl 3 rfl (linkName_eq _ _ _)).trans (funext fun w => rfl)
    · exact fun _ => (callBy_at hcs hfs hlk rfl 4 rfl (linkName_eq _ _ _)).trans (by
        cases c
        · rfl
        · exact funext fun w => by simp only [hcp rfl, if_true]; rfl)
    · simp
    · intro _ args
      rw [hcs, hfs]; rfl
  · refine ⟨?_, ?_, ?_, ?_, ?_, ?_, ?_⟩
    · exact (callBy_at hcs hfs hlk rfl 0 rfl (linkName_eq _ _ _)).trans (funext fun w => rfl)
    · exact fun _ => (callBy_at hcs hfs hlk rfl 2 rfl (linkName_eq _ _ _)).trans (funext fun w => rfl)
    · exact fun _ => (callBy_at hcs hfs hlk rfl 3 rfl (linkName_eq _ _ _)).trans (funext fun w => rfl)
    · exact fun _ => (callBy_at hcs hfs hlk rfl 4 rfl (linkName_eq _ _ _)).trans (funext fun w => rfl)
    · exact fun _ => (callBy_at hcs hfs hlk rfl 5 rfl (linkName_eq _ _ _)).trans (by
        cases c
        · rfl
        · exact funext fun w => by simp only [hcp rfl, if_true]; rfl)
    · exact fun _ _ => (callBy_at hcs hfs hlk rfl 1 rfl (linkName_eq _ _ _)).trans (funext fun w => rfl)
    · simp

/-- **C77**, `SharedPtr<T>`.  `__clone` copies the pointer at its first argument into its second;
`__new` makes the pointer at `new` own new memory and stores the value there. -/
theorem shared_ptr_methods (lib : Lib W) {complete : CTy → Bool} {g : Generator} {apis : List Api} (ha : Accepted g apis)
    (hl : LexicalBridge apis) (hv : ∀ p, DeclaresType apis p → ¬ InsideStdVector p) (hc : AssertsHold complete apis)
    {T : Ident} (hk : .sharedPtr T ∈ (collect apis).impls.map (·.1)) :
    ∃ p, DeclaresType apis p ∧ p.rust = T ∧
      let t : CTy := .named ⟨p.ns, p.cxx⟩
      let call := rustCall lib complete apis (.sharedPtr T)
      (∀ new, call "__null" [new] = (do let _ ← lib.run (.sharedNull t new); unit)) ∧
      (∀ this new, call "__clone" [this, new] = (do let _ ← lib.run (.sharedCopy t new this); unit)) ∧
      (∀ this, call "__get" [this] = lib.run (.sharedGet t this)) ∧
      (∀ this, call "__drop" [this] = (do let _ ← lib.run (.sharedDestroy t this); unit)) ∧
      (ByValueType apis T → ∀ value new, call "__new" [value, new] = (do
        let memory ← lib.run (.newUninit t)
        let _ ← lib.run (.sharedFrom t new memory)
        let _ ← lib.run (.store T memory value)
        unit)) ∧
      (¬ ByValueType apis T → ∀ args, call "__new" args = fault) := by
  obtain ⟨p, s, hp, hs, hd, hpr⟩ := resolved ha hl hk
  obtain ⟨fs, hfs, hlk⟩ := cxx_linked lib ha hl hv hc
  refine ⟨p, hd, hpr, ?_⟩
  have hlk := hlk _ hk (sharedFns lib (.named (cname p)) s (isMaybeTrivial (collect apis) T))
    (by simp only [cxxFns, hp, hs, Option.bind_eq_bind, Option.bind_some]; rfl)
  have hcs : rustMethods lib (collect apis) (.sharedPtr T) = sharedMethods lib p T (isMaybeTrivial (collect apis) T) := by
    simp only [rustMethods, hp, Option.bind_eq_bind, Option.bind_some]; rfl
  rw [← maybeTrivial_iff]
  simp only [rustCall]
  generalize isMaybeTrivial (collect apis) T = v at *
  simp only [sharedMethods, hs, Option.bind_eq_bind, Option.bind_some] at hcs
  cases v
  · refine ⟨?_, ?_, ?_, ?_, ?_, ?_⟩
    · exact fun _ => (callBy_at hcs hfs hlk rfl 0 rfl (linkName_eq _ _ _)).trans (funext fun w => rfl)
    · exact fun _ _ => (callBy_at hcs hfs hlk rfl 1 rfl (linkName_eq _ _ _)).trans (funext fun w => rfl)
    · exact fun _ => (callBy_at hcs hfs hlk rfl 2 rfl (linkName_eq _ _ _)).trans (funext fun w => rfl)
    · exact fun _ => (callBy_at hcs hfs hlk rfl 3 rfl (linkName_eq _ _ _)).trans (funext fun w => rfl)
    · simp
    · intro _ args
      rw [hcs, hfs]; rfl
  · refine ⟨?_, ?_, ?_, ?_, ?_, ?_⟩
    · exact fun _ => (callBy_at hcs hfs hlk rfl 0 rfl (linkName_eq _ _ _)).trans (funext fun w => rfl)
    · exact fun _ _ => (callBy_at hcs hfs hlk rfl 2 rfl (linkName_eq _ _ _)).trans (funext fun w => rfl)
    · exact fun _ => (callBy_at hcs hfs hlk rfl 3 rfl (linkName_eq _ _ _)).trans (funext fun w => rfl)
    · exact fun _ => (callBy_at hcs hfs hlk rfl 4 rfl (linkName_eq _ _ _)).trans (funext fun w => rfl)
    · exact fun _ _ _ => (callBy_at hcs hfs hlk rfl 1 rfl (linkName_eq _ _ _)).trans (funext fun w => rfl)
    · simp

/-- **C77**, `WeakPtr<T>`.  `__downgrade` makes the weak pointer at its second argument from the shared one
at its first, and `__upgrade` locks the weak pointer at its first argument into its second. -/
theorem weak_ptr_methods (lib : Lib W) {complete : CTy → Bool} {g : Generator} {apis : List Api} (ha : Accepted g apis)
    (hl : LexicalBridge apis) (hv : ∀ p, DeclaresType apis p → ¬ InsideStdVector p) (hc : AssertsHold complete apis)
    {T : Ident} (hk : .weakPtr T ∈ (collect apis).impls.map (·.1)) :
    ∃ p, DeclaresType apis p ∧ p.rust = T ∧
      let t : CTy := .named ⟨p.ns, p.cxx⟩
      let call := rustCall lib complete apis (.weakPtr T)
      (∀ new, call "__null" [new] = (do let _ ← lib.run (.weakNull t new); unit)) ∧
      (∀ this new, call "__clone" [this, new] = (do let _ ← lib.run (.weakCopy t new this); unit)) ∧
      (∀ shared weak, call "__downgrade" [shared, weak] = (do let _ ← lib.run (.weakOf t weak shared); unit)) ∧
      (∀ weak shared, call "__upgrade" [weak, shared] = (do let _ ← lib.run (.sharedLock t shared weak); unit)) ∧
      (∀ this, call "__drop" [this] = (do let _ ← lib.run (.weakDestroy t this); unit)) := by
  obtain ⟨p, s, hp, hs, hd, hpr⟩ := resolved ha hl hk
  obtain ⟨fs, hfs, hlk⟩ := cxx_linked lib ha hl hv hc
  refine ⟨p, hd, hpr, ?_⟩
  have hlk := hlk _ hk (weakFns lib (.named (cname p)) s)
    (by simp only [cxxFns, hp, hs, Option.bind_eq_bind, Option.bind_some])
  have hcs : rustMethods lib (collect apis) (.weakPtr T) = weakMethods p := by
    simp only [rustMethods, hp, Option.bind_eq_bind, Option.bind_some]
  simp only [rustCall]
  simp only [weakMethods, hs, Option.bind_eq_bind, Option.bind_some] at hcs
  refine ⟨?_, ?_, ?_, ?_, ?_⟩
  · exact fun _ => (callBy_at hcs hfs hlk rfl 0 rfl (linkName_eq _ _ _)).trans (funext fun w => rfl)
  · exact fun _ _ => (callBy_at hcs hfs hlk rfl 1 rfl (linkName_eq _ _ _)).trans (funext fun w => rfl)
  · exact fun _ _ => (callBy_at hcs hfs hlk rfl 2 rfl (linkName_eq _ _ _)).trans (funext fun w => rfl)
  · exact fun _ _ => (callBy_at hcs hfs hlk rfl 3 rfl (linkName_eq _ _ _)).trans (funext fun w => rfl)
  · exact fun _ => (callBy_at hcs hfs hlk rfl 4 rfl (linkName_eq _ _ _)).trans (funext fun w => rfl)

/-- **C77**, `CxxVector<T>`.  A pushed value is moved into the vector and what is left of it destroyed;
a popped one is moved out of the back and then removed. -/
theorem vector_methods (lib : Lib W) {complete : CTy → Bool} {g : Generator} {apis : List Api} (ha : Accepted g apis)
    (hl : LexicalBridge apis) (hv : ∀ p, DeclaresType apis p → ¬ InsideStdVector p) (hc : AssertsHold complete apis)
    {T : Ident} (hk : .cxxVector T ∈ (collect apis).impls.map (·.1)) :
    ∃ p, DeclaresType apis p ∧ p.rust = T ∧
      let t : CName := ⟨p.ns, p.cxx⟩
      let call := rustCall lib complete apis (.cxxVector T)
      call "__vector_new" [] = lib.run (.vectorNew t) ∧
      (∀ v, call "__vector_size" [v] = lib.run (.vectorSize t v)) ∧
      (∀ v pos, call "__get_unchecked" [v, pos] = lib.run (.vectorAt t v pos)) ∧
      (ByValueType apis T → ∀ v value, call "__push_back" [v, value] = (do
        let _ ← lib.run (.vectorPush t v value)
        let _ ← lib.run (.destroy t value)
        unit)) ∧
      (ByValueType apis T → ∀ v out, call "__pop_back" [v, out] = (do
        let _ ← lib.run (.moveBack t out v)
        let _ ← lib.run (.vectorPop t v)
        unit)) ∧
      (¬ ByValueType apis T → ∀ args, call "__push_back" args = fault ∧ call "__pop_back" args = fault) ∧
      call "__unique_ptr_null" [] = (do
        let h ← lib.run .freshLocal
        let _ ← lib.run (.uniqueNull (.vector t) h)
        lib.run (.bitsOf h)) ∧
      (∀ raw, call "__unique_ptr_raw" [raw] = (do
        let h ← lib.run .freshLocal
        let _ ← lib.run (.uniqueFrom (.vector t) h raw)
        lib.run (.bitsOf h))) ∧
      (∀ bits, call "__unique_ptr_get" [bits] = (do
        let h ← lib.run (.localOf bits)
        lib.run (.uniqueGet (.vector t) h))) ∧
      (∀ bits, call "__unique_ptr_release" [bits] = (do
        let h ← lib.run (.localOf bits)
        lib.run (.uniqueRelease (.vector t) h))) ∧
      (∀ bits, call "__unique_ptr_drop" [bits] = (do
        let h ← lib.run (.localOf bits)
        let _ ← lib.run (.uniqueDestroy (.vector t) h)
        unit)) := by
  obtain ⟨p, s, hp, hs, hd, hpr⟩ := resolved ha hl hk
  obtain ⟨fs, hfs, hlk⟩ := cxx_linked lib ha hl hv hc
  refine ⟨p, hd, hpr, ?_⟩
  have hlk := hlk _ hk (vectorFns lib (cname p) s (isMaybeTrivial (collect apis) T) ++
      uniqueFns lib complete (.vector (cname p)) ("std$vector$".toList ++ s) false false)
    (by simp only [cxxFns, hp, hs, vectorMangled_eq hs, Option.bind_eq_bind, Option.bind_some]; rfl)
  have hcs : rustMethods lib (collect apis) (.cxxVector T) = vectorMethods lib p T (isMaybeTrivial (collect apis) T) := by
    simp only [rustMethods, hp, Option.bind_eq_bind, Option.bind_some]; rfl
  rw [← maybeTrivial_iff]
  simp only [rustCall]
  generalize isMaybeTrivial (collect apis) T = v at *
  simp only [vectorMethods, hs, Option.bind_eq_bind, Option.bind_some] at hcs
  have hu : ∀ m, linkName "cxxbridge1$unique_ptr$std$vector$" s m =
      written "cxxbridge1$unique_ptr$" ("std$vector$".toList ++ s) m := by
    intro m; simp [linkName, written]
  cases v
  · refine ⟨?_, ?_, ?_, ?_, ?_, ?_, ?_, ?_, ?_, ?_, ?_⟩
    · exact (callBy_at hcs hfs hlk rfl 0 rfl (linkName_eq _ _ _)).trans (funext fun w => rfl)
    · exact fun _ => (callBy_at hcs hfs hlk rfl 1 rfl (linkName_eq _ _ _)).trans (funext fun w => rfl)
    · exact fun _ _ => (callBy_at hcs hfs hlk rfl 2 rfl (linkName_eq _ _ _)).trans (funext fun w => rfl)
    · simp
    · simp
    · intro _ args
      rw [hcs, hfs]; exact ⟨rfl, rfl⟩
    · exact (callBy_at hcs hfs hlk rfl 3 rfl (hu _)).trans (funext fun w => rfl)
    · exact fun _ => (callBy_at hcs hfs hlk rfl 4 rfl (hu _)).trans (funext fun w => rfl)
    · exact fun _ => (callBy_at hcs hfs hlk rfl 5 rfl (hu _)).trans (funext fun w => rfl)
    · exact fun _ => (callBy_at hcs hfs hlk rfl 6 rfl (hu _)).trans (funext fun w => rfl)
    · exact fun _ => (callBy_at hcs hfs hlk rfl 7 rfl (hu _)).trans (funext fun w => rfl)
  · refine ⟨?_, ?_, ?_, ?_, ?_, ?_, ?_, ?_, ?_, ?_, ?_⟩
    · exact (callBy_at hcs hfs hlk rfl 0 rfl (linkName_eq _ _ _)).trans (funext fun w => rfl)
    · exact fun _ => (callBy_at hcs hfs hlk rfl 1 rfl (linkName_eq _ _ _)).trans (funext fun w => rfl)
    · exact fun _ _ => (callBy_at hcs hfs hlk rfl 2 rfl (linkName_eq _ _ _)).trans (funext fun w => rfl)
    · exact fun _ _ _ => (callBy_at hcs hfs hlk rfl 3 rfl (linkName_eq _ _ _)).trans (funext fun w => rfl)
    · exact fun _ _ _ => (callBy_at hcs hfs hlk rfl 4 rfl (linkName_eq _ _ _)).trans (funext fun w => rfl)
    · simp
    · exact (callBy_at hcs hfs hlk rfl 5 rfl (hu _)).trans (funext fun w => rfl)
    · exact fun _ => (callBy_at hcs hfs hlk rfl 6 rfl (hu _)).trans (funext fun w => rfl)
    · exact fun _ => (callBy_at hcs hfs hlk rfl 7 rfl (hu _)).trans (funext fun w => rfl)
    · exact fun _ => (callBy_at hcs hfs hlk rfl 8 rfl (hu _)).trans (funext fun w => rfl)
    · exact fun _ => (callBy_at hcs hfs hlk rfl 9 rfl (hu _)).trans (funext fun w => rfl)

/-! ### `Box` and `Vec` -/

/-- No two Rust types of the bridge have one C++ name. -/
def DistinctCxxNames (apis : List Api) : Prop :=
  ∀ p q, DeclaresType apis p → DeclaresType apis q → SameType p q → p.rust = q.rust

/-- The function with a given name, of the Rust half. -/
def rustFn (lib : Lib W) : Wrapper → Ident → String → Option (List RPTy × RPTy × (List Nat → Run W Nat))
  | .box, r, m => (boxFns lib ⟨[], "T", "T"⟩ r).bind (pick "cxxbridge1$box$" m)
  | .vec, r, m => (vecFns lib ⟨[], "T", "T"⟩ r).bind (pick "cxxbridge1$rust_vec$" m)
  | _, _, _ => none
where
  pick (pre m : String) (l : List (Thunk RPTy W)) : Option (List RPTy × RPTy × (List Nat → Run W Nat)) :=
    (l.find? fun t => t.sym == linkName pre "T".toList m).map fun t => (t.params, t.ret, t.body)

/-- Every function of the Rust half is the member its symbol names. -/
theorem rust_named (lib : Lib W) {apis : List Api} {k : ImplKey} {l : List (Thunk RPTy W)}
    (h : rustFns lib (collect apis) k = some l) : ∀ t ∈ l, ∃ w p m, (Entity.member w p m).In apis ∧
      symbolOf (collect apis) (.member w p m) = some t.sym ∧
      rustFn lib w p.rust m = some (t.params, t.ret, t.body) := by
  intro t ht
  unfold rustFns at h
  cases hp : resolve (collect apis) k.rust with
  | none => simp [hp] at h
  | some p =>
    have hd := (resolve_declared hp).1
    simp only [hp, Option.bind_eq_bind, Option.bind_some] at h
    cases k with
    | uniquePtr r => cases h; cases ht
    | sharedPtr r => cases h; cases ht
    | weakPtr r => cases h; cases ht
    | cxxVector r => cases h; cases ht
    | rustBox r =>
      have hpr : r = p.rust := (resolve_declared hp).2.symm
      subst hpr
      simp only [boxFns] at h
      cases hs : toSymbol p with
      | none => simp [hs] at h
      | some s =>
        simp only [hs, Option.bind_eq_bind, Option.bind_some, Option.some.injEq] at h
        subst h
        have key : ∀ m, m ∈ members .box → ∀ x, rustFn lib .box p.rust m = some x →
            symbolOf (collect apis) (.member .box p m) = some (linkName "cxxbridge1$box$" s m) := by
          intro m _ _ _
          rw [symbolOf, formatted_eq hs, linkName_eq]; rfl
        simp only [List.mem_cons, List.not_mem_nil, or_false] at ht
        rcases ht with rfl | rfl | rfl
        · exact ⟨.box, p, "alloc", ⟨hd, by decide⟩, key _ (by decide) _ rfl, rfl⟩
        · exact ⟨.box, p, "dealloc", ⟨hd, by decide⟩, key _ (by decide) _ rfl, rfl⟩
        · exact ⟨.box, p, "drop", ⟨hd, by decide⟩, key _ (by decide) _ rfl, rfl⟩
    | rustVec r =>
      have hpr : r = p.rust := (resolve_declared hp).2.symm
      subst hpr
      simp only [vecFns] at h
      cases hs : toSymbol p with
      | none => simp [hs] at h
      | some s =>
        simp only [hs, Option.bind_eq_bind, Option.bind_some, Option.some.injEq] at h
        subst h
        have key : ∀ m, m ∈ members .vec → ∀ x, rustFn lib .vec p.rust m = some x →
            symbolOf (collect apis) (.member .vec p m) = some (linkName "cxxbridge1$rust_vec$" s m) := by
          intro m _ _ _
          rw [symbolOf, formatted_eq hs, linkName_eq]; rfl
        simp only [List.mem_cons, List.not_mem_nil, or_false] at ht
        rcases ht with rfl | rfl | rfl | rfl | rfl | rfl | rfl | rfl
        · exact ⟨.vec, p, "new", ⟨hd, by decide⟩, key _ (by decide) _ rfl, rfl⟩
        · exact ⟨.vec, p, "drop", ⟨hd, by decide⟩, key _ (by decide) _ rfl, rfl⟩
        · exact ⟨.vec, p, "len", ⟨hd, by decide⟩, key _ (by decide) _ rfl, rfl⟩
        · exact ⟨.vec, p, "capacity", ⟨hd, by decide⟩, key _ (by decide) _ rfl, rfl⟩
        · exact ⟨.vec, p, "data", ⟨hd, by decide⟩, key _ (by decide) _ rfl, rfl⟩
        · exact ⟨.vec, p, "reserve_total", ⟨hd, by decide⟩, key _ (by decide) _ rfl, rfl⟩
        · exact ⟨.vec, p, "set_len", ⟨hd, by decide⟩, key _ (by decide) _ rfl, rfl⟩
        · exact ⟨.vec, p, "truncate", ⟨hd, by decide⟩, key _ (by decide) _ rfl, rfl⟩

theorem rustFns_some (lib : Lib W) {g : Generator} {apis : List Api} (ha : Accepted g apis)
    (hl : LexicalBridge apis) : ∀ k ∈ (collect apis).impls.map (·.1), ∃ l, rustFns lib (collect apis) k = some l := by
  intro k hk
  obtain ⟨p, s, h1, h2, _⟩ := resolved ha hl hk
  cases k <;> simp [rustFns, h1, boxFns, vecFns, h2]

/-- The Rust half of an accepted bridge links every symbol of an instantiation to its own function. -/
theorem rust_linked (lib : Lib W) {g : Generator} {apis : List Api} (ha : Accepted g apis)
    (hl : LexicalBridge apis) (hv : ∀ p, DeclaresType apis p → ¬ InsideStdVector p) (hu : DistinctCxxNames apis) :
    ∃ fs, allFns (rustFns lib (collect apis)) ((collect apis).impls.map (·.1)) = some fs ∧
      ∀ k ∈ (collect apis).impls.map (·.1), ∀ l, rustFns lib (collect apis) k = some l → ∀ t ∈ l,
        linked fs t.sym = some t := by
  obtain ⟨fs, h1, h2⟩ := allFns_some (rustFns_some lib ha hl)
  refine ⟨fs, h1, fun k hk l hl' t ht => linked_own ?_ (h2 k hk l hl' t ht)⟩
  intro t ht t' ht' he
  obtain ⟨k1, hk1, l1, e1, m1⟩ := mem_allFns h1 t ht
  obtain ⟨k2, hk2, l2, e2, m2⟩ := mem_allFns h1 t' ht'
  obtain ⟨w, p, m, i1, s1, b1⟩ := rust_named lib e1 t m1
  obtain ⟨w', p', m', i2, s2, b2⟩ := rust_named lib e2 t' m2
  rw [← he] at s2
  obtain ⟨rfl, hst, rfl⟩ := symbol_determines_entity ha hl hv i1 i2 s1 s2
  rw [← hu p p' i1.1 i2.1 hst, b1] at b2
  obtain ⟨sy, ps, rt, bd⟩ := t
  obtain ⟨sy', ps', rt', bd'⟩ := t'
  simp only [Option.some.injEq, Prod.mk.injEq] at b2 he
  obtain ⟨rfl, rfl, rfl⟩ := b2
  rw [he]

/-- **C77**, `rust::Box<T>` in C++. -/
theorem box_members (lib : Lib W) {g : Generator} {apis : List Api} (ha : Accepted g apis)
    (hl : LexicalBridge apis) (hv : ∀ p, DeclaresType apis p → ¬ InsideStdVector p) (hu : DistinctCxxNames apis)
    {T : Ident} (hk : .rustBox T ∈ (collect apis).impls.map (·.1)) :
    let call := cxxCall lib apis (.rustBox T)
    call "allocation::alloc" [] = lib.run (.boxUninit T) ∧
    (∀ ptr, call "allocation::dealloc" [ptr] = (do let _ ← lib.run (.boxFree T ptr); unit)) ∧
    (∀ this, call "drop" [this] = (do let _ ← lib.run (.boxDrop T this); unit)) := by
  obtain ⟨p, s, hp, hs, hd, hpr⟩ := resolved ha hl hk
  obtain ⟨fs, hfs, hlk⟩ := rust_linked lib ha hl hv hu
  have hlk := hlk _ hk _ (by simp only [rustFns, hp, boxFns, hs, Option.bind_eq_bind, Option.bind_some]; rfl)
  have hcs : cxxMembers (W := W) (collect apis) (.rustBox T) = some (boxMembers (cname p) s) := by
    simp only [cxxMembers, hp, hs, Option.bind_eq_bind, Option.bind_some]
  simp only [cxxCall]
  refine ⟨?_, ?_, ?_⟩
  · exact (callBy_at hcs hfs hlk rfl 0 rfl (linkName_eq _ _ _).symm).trans (funext fun w => rfl)
  · exact fun _ => (callBy_at hcs hfs hlk rfl 1 rfl (linkName_eq _ _ _).symm).trans (funext fun w => rfl)
  · exact fun _ => (callBy_at hcs hfs hlk rfl 2 rfl (linkName_eq _ _ _).symm).trans (funext fun w => rfl)

/-- **C77**, `rust::Vec<T>` in C++. -/
theorem vec_members (lib : Lib W) {g : Generator} {apis : List Api} (ha : Accepted g apis)
    (hl : LexicalBridge apis) (hv : ∀ p, DeclaresType apis p → ¬ InsideStdVector p) (hu : DistinctCxxNames apis)
    {T : Ident} (hk : .rustVec T ∈ (collect apis).impls.map (·.1)) :
    let call := cxxCall lib apis (.rustVec T)
    (∀ this, call "Vec" [this] = (do let _ ← lib.run (.vecNew T this); unit)) ∧
    (∀ this, call "drop" [this] = (do let _ ← lib.run (.vecDrop T this); unit)) ∧
    (∀ this, call "size" [this] = lib.run (.vecLen T this)) ∧
    (∀ this, call "capacity" [this] = lib.run (.vecCapacity T this)) ∧
    (∀ this, call "data" [this] = lib.run (.vecData T this)) ∧
    (∀ this n, call "reserve_total" [this, n] = (do let _ ← lib.run (.vecReserveTotal T this n); unit)) ∧
    (∀ this n, call "set_len" [this, n] = (do let _ ← lib.run (.vecSetLen T this n); unit)) ∧
    (∀ this n, call "truncate" [this, n] = (do let _ ← lib.run (.vecTruncate T this n); unit)) := by
  obtain ⟨p, s, hp, hs, hd, hpr⟩ := resolved ha hl hk
  obtain ⟨fs, hfs, hlk⟩ := rust_linked lib ha hl hv hu
  have hlk := hlk _ hk _ (by simp only [rustFns, hp, vecFns, hs, Option.bind_eq_bind, Option.bind_some]; rfl)
  have hcs : cxxMembers (W := W) (collect apis) (.rustVec T) = some (vecMembers (cname p) s) := by
    simp only [cxxMembers, hp, hs, Option.bind_eq_bind, Option.bind_some]
  simp only [cxxCall]
  refine ⟨?_, ?_, ?_, ?_, ?_, ?_, ?_, ?_⟩
  · exact fun _ => (callBy_at hcs hfs hlk rfl 0 rfl (linkName_eq _ _ _).symm).trans (funext fun w => rfl)
  · exact fun _ => (callBy_at hcs hfs hlk rfl 1 rfl (linkName_eq _ _ _).symm).trans (funext fun w => rfl)
  · exact fun _ => (callBy_at hcs hfs hlk rfl 2 rfl (linkName_eq _ _ _).symm).trans (funext fun w => rfl)
  · exact fun _ => (callBy_at hcs hfs hlk rfl 3 rfl (linkName_eq _ _ _).symm).trans (funext fun w => rfl)
  · exact fun _ => (callBy_at hcs hfs hlk rfl 4 rfl (linkName_eq _ _ _).symm).trans (funext fun w => rfl)
  · exact fun _ _ => (callBy_at hcs hfs hlk rfl 5 rfl (linkName_eq _ _ _).symm).trans (funext fun w => rfl)
  · exact fun _ _ => (callBy_at hcs hfs hlk rfl 6 rfl (linkName_eq _ _ _).symm).trans (funext fun w => rfl)
  · exact fun _ _ => (callBy_at hcs hfs hlk rfl 7 rfl (linkName_eq _ _ _).symm).trans (funext fun w => rfl)

/-! ### Declarations -/

theorem each_append {α β : Type} {R : α → β → Prop} {a a' : List α} {b b' : List β} (h : Each R a b) (h' : Each R a' b') :
    Each R (a ++ a') (b ++ b') := by
  induction h with
  | nil => exact h'
  | cons h _ ih => exact .cons h ih

theorem each_ite {α β : Type} {R : α → β → Prop} {c : Bool} {a : List α} {b : List β} (h : Each R a b) :
    Each R (if c = true then a else []) (if c = true then b else []) := by
  cases c
  · exact .nil
  · exact h

/-- **C77**: the Rust declaration of every C++ function of an instantiation fits its definition: as many
parameters, each passed as what it is taken for, and the result likewise. -/
theorem rust_declarations_fit (lib : Lib W) {complete : CTy → Bool} {g : Generator} {apis : List Api} (ha : Accepted g apis)
    (hl : LexicalBridge apis) (hv : ∀ p, DeclaresType apis p → ¬ InsideStdVector p) (hc : AssertsHold complete apis)
    {k : ImplKey} (hk : k ∈ (collect apis).impls.map (·.1)) :
    ∃ p cs fs, DeclaresType apis p ∧ p.rust = k.rust ∧ rustMethods lib (collect apis) k = some cs ∧
      allFns (cxxFns lib complete (collect apis)) ((collect apis).impls.map (·.1)) = some fs ∧
      ∀ c ∈ cs, ∃ t, linked fs c.sym = some t ∧ Each (Passed p) c.params t.params ∧ Returned p c.ret t.ret := by
  obtain ⟨p, s, hp, hs, hd, hpr⟩ := resolved ha hl hk
  obtain ⟨fs, hfs, hlk⟩ := cxx_linked lib ha hl hv hc
  obtain ⟨l, hl'⟩ := cxxFns_some lib complete ha hl k hk
  have hlk := hlk k hk l hl'
  have fin : ∀ cs, rustMethods lib (collect apis) k = some cs →
      Each (fun (c : Caller RPTy W) (t : Thunk CPTy W) => c.sym = t.sym ∧
        Each (Passed p) c.params t.params ∧ Returned p c.ret t.ret) cs l → 
      ∃ p cs fs, DeclaresType apis p ∧ p.rust = k.rust ∧ rustMethods lib (collect apis) k = some cs ∧
      allFns (cxxFns lib complete (collect apis)) ((collect apis).impls.map (·.1)) = some fs ∧
      ∀ c ∈ cs, ∃ t, linked fs c.sym = some t ∧ Each (Passed p) c.params t.params ∧ Returned p c.ret t.ret := by
    intro cs hcs hf
    refine ⟨p, cs, fs, hd, hpr, hcs, hfs, ?_⟩
    clear hcs hl'
    induction hf with
    | nil => simp
    | cons h _ ih =>
      intro c hc
      rcases List.mem_cons.1 hc with rfl | hc
      · exact ⟨_, by rw [h.1]; exact hlk _ List.mem_cons_self, h.2⟩
      · exact ih (fun t ht => hlk t (List.mem_cons_of_mem _ ht)) c hc
  have pn : Is p (.named (cname p)) := rfl
  have pv : IsVector p (.vector (cname p)) := rfl
  have mt : (false = true ∨ true = true) := .inr rfl
  have tm : ∀ c : Bool, (true = true ∨ c = true) := fun _ => .inl rfl
  have rt : (true = true → false = false) := fun _ => rfl
  have rf : ∀ c : Bool, (false = true → c = false) := fun _ h => by cases h
  simp only [cxxFns, hp, hs, vectorMangled_eq hs, Option.bind_eq_bind, Option.bind_some] at hl'
  cases k with
  | rustBox r => cases hl'; exact fin [] (by simp only [rustMethods, hp]; rfl) .nil
  | rustVec r => cases hl'; exact fin [] (by simp only [rustMethods, hp]; rfl) .nil
  | uniquePtr r =>
    cases hl'
    refine fin _ (by simp only [rustMethods, hp, uniqueMethods, hs, Option.bind_eq_bind, Option.bind_some]; rfl) ?_
    show Each _ (_ ++ (if isMaybeTrivial (collect apis) r = true then _ else _) ++ _)
      (_ ++ (if isMaybeTrivial (collect apis) r = true then _ else _) ++ _)
    refine each_append (each_append ?_ ?_) ?_
    · exact .cons ⟨linkName_eq _ _ _, .cons (.repr (.inl pn) (tm _)) .nil, .unit⟩ .nil
    · refine each_ite ?_
      exact .cons ⟨linkName_eq _ _ _, .cons (.repr (.inl pn) (tm _)) .nil, .obj pn rt⟩ .nil
    · exact .cons ⟨linkName_eq _ _ _, .cons (.repr (.inl pn) (tm _)) (.cons (.obj pn (tm _)) .nil), .unit⟩
        (.cons ⟨linkName_eq _ _ _, .cons (.repr (.inl pn) mt) .nil, .obj pn (rf _)⟩
        (.cons ⟨linkName_eq _ _ _, .cons (.repr (.inl pn) (tm _)) .nil, .obj pn rt⟩
        (.cons ⟨linkName_eq _ _ _, .cons (.repr (.inl pn) (tm _)) .nil, .unit⟩ .nil)))
  | sharedPtr r =>
    cases hl'
    refine fin _ (by simp only [rustMethods, hp, sharedMethods, hs, Option.bind_eq_bind, Option.bind_some]; rfl) ?_
    show Each _ (_ ++ (if isMaybeTrivial (collect apis) r = true then _ else _) ++ _)
      (_ ++ (if isMaybeTrivial (collect apis) r = true then _ else _) ++ _)
    refine each_append (each_append ?_ ?_) ?_
    · exact .cons ⟨linkName_eq _ _ _, .cons (.shared pn (tm _)) .nil, .unit⟩ .nil
    · refine each_ite ?_
      exact .cons ⟨linkName_eq _ _ _, .cons (.shared pn (tm _)) .nil, .obj pn rt⟩ .nil
    · exact .cons ⟨linkName_eq _ _ _, .cons (.shared pn mt) (.cons (.shared pn (tm _)) .nil), .unit⟩
        (.cons ⟨linkName_eq _ _ _, .cons (.shared pn mt) .nil, .obj pn (rf _)⟩
        (.cons ⟨linkName_eq _ _ _, .cons (.shared pn (tm _)) .nil, .unit⟩ .nil))
  | weakPtr r =>
    cases hl'
    refine fin _ (by simp only [rustMethods, hp, weakMethods, hs, Option.bind_eq_bind, Option.bind_some]; rfl) ?_
    exact .cons ⟨linkName_eq _ _ _, .cons (.weak pn (tm _)) .nil, .unit⟩
        (.cons ⟨linkName_eq _ _ _, .cons (.weak pn mt) (.cons (.weak pn (tm _)) .nil), .unit⟩
        (.cons ⟨linkName_eq _ _ _, .cons (.shared pn mt) (.cons (.weak pn (tm _)) .nil), .unit⟩
        (.cons ⟨linkName_eq _ _ _, .cons (.weak pn mt) (.cons (.shared pn (tm _)) .nil), .unit⟩
        (.cons ⟨linkName_eq _ _ _, .cons (.weak pn (tm _)) .nil, .unit⟩ .nil))))
  | cxxVector r =>
    cases hl'
    have hr : r = p.rust := hpr.symm
    subst hr
    have hu : ∀ m, linkName "cxxbridge1$unique_ptr$std$vector$" s m =
        written "cxxbridge1$unique_ptr$" ("std$vector$".toList ++ s) m := by
      intro m; simp [linkName, written]
    refine fin _ (by simp only [rustMethods, hp, vectorMethods, hs, Option.bind_eq_bind, Option.bind_some]; rfl) ?_
    show Each _ (_ ++ (if isMaybeTrivial (collect apis) p.rust = true then _ else _) ++ _)
      (_ ++ (if isMaybeTrivial (collect apis) p.rust = true then _ else _) ++ _)
    refine each_append (each_append ?_ ?_) ?_
    · exact .cons ⟨linkName_eq _ _ _, .nil, .vector pv rt⟩
        (.cons ⟨linkName_eq _ _ _, .cons (.vector pv mt) .nil, .size⟩
        (.cons ⟨linkName_eq _ _ _, .cons (.vector pv (tm _)) (.cons .size .nil), .obj pn rt⟩ .nil))
    · refine each_ite ?_
      exact .cons ⟨linkName_eq _ _ _, .cons (.vector pv (tm _)) (.cons (.obj pn (tm _)) .nil), .unit⟩
        (.cons ⟨linkName_eq _ _ _, .cons (.vector pv (tm _)) (.cons (.obj pn (tm _)) .nil), .unit⟩ .nil)
    · exact .cons ⟨hu _, .cons (.repr (.inr pv) (tm _)) .nil, .unit⟩
        (.cons ⟨hu _, .cons (.repr (.inr pv) (tm _)) (.cons (.vector pv (tm _)) .nil), .unit⟩
        (.cons ⟨hu _, .cons (.repr (.inr pv) mt) .nil, .vector pv (rf _)⟩
        (.cons ⟨hu _, .cons (.repr (.inr pv) (tm _)) .nil, .vector pv rt⟩
        (.cons ⟨hu _, .cons (.repr (.inr pv) (tm _)) .nil, .unit⟩ .nil))))

/-- **C77**: the C++ declaration of every Rust function of an instantiation fits its definition. -/
theorem cxx_declarations_fit (lib : Lib W) {g : Generator} {apis : List Api} (ha : Accepted g apis)
    (hl : LexicalBridge apis) (hv : ∀ p, DeclaresType apis p → ¬ InsideStdVector p) (hu : DistinctCxxNames apis)
    {k : ImplKey} (hk : k ∈ (collect apis).impls.map (·.1)) :
    ∃ p cs fs, DeclaresType apis p ∧ p.rust = k.rust ∧ cxxMembers (W := W) (collect apis) k = some cs ∧
      allFns (rustFns lib (collect apis)) ((collect apis).impls.map (·.1)) = some fs ∧
      ∀ c ∈ cs, ∃ t, linked fs c.sym = some t ∧ Each (Given p) c.params t.params ∧ Received p c.ret t.ret := by
  obtain ⟨p, s, hp, hs, hd, hpr⟩ := resolved ha hl hk
  obtain ⟨fs, hfs, hlk⟩ := rust_linked lib ha hl hv hu
  obtain ⟨l, hl'⟩ := rustFns_some lib ha hl k hk
  have hlk := hlk k hk l hl'
  have fin : ∀ cs, cxxMembers (W := W) (collect apis) k = some cs →
      Each (fun (c : Caller CPTy W) (t : Thunk RPTy W) => c.sym = t.sym ∧
        Each (Given p) c.params t.params ∧ Received p c.ret t.ret) cs l →
      ∃ p cs fs, DeclaresType apis p ∧ p.rust = k.rust ∧ cxxMembers (W := W) (collect apis) k = some cs ∧
      allFns (rustFns lib (collect apis)) ((collect apis).impls.map (·.1)) = some fs ∧
      ∀ c ∈ cs, ∃ t, linked fs c.sym = some t ∧ Each (Given p) c.params t.params ∧ Received p c.ret t.ret := by
    intro cs hcs hf
    refine ⟨p, cs, fs, hd, hpr, hcs, hfs, ?_⟩
    clear hcs hl'
    induction hf with
    | nil => simp
    | cons h _ ih =>
      intro c hc
      rcases List.mem_cons.1 hc with rfl | hc
      · exact ⟨_, by rw [h.1]; exact hlk _ List.mem_cons_self, h.2⟩
      · exact ih (fun t ht => hlk t (List.mem_cons_of_mem _ ht)) c hc
  have pn : Is p (.named (cname p)) := rfl
  have lk : ∀ pre m, written pre s m = linkName pre s m := fun _ _ => (linkName_eq _ _ _).symm
  simp only [rustFns, hp, boxFns, vecFns, hs, Option.bind_eq_bind, Option.bind_some] at hl'
  have hcs : cxxMembers (W := W) (collect apis) k = (match k with
      | .rustBox _ => some (boxMembers (cname p) s)
      | .rustVec _ => some (vecMembers (cname p) s)
      | _ => some []) := by
    simp only [cxxMembers, hp, hs, Option.bind_eq_bind, Option.bind_some]
    cases k <;> rfl
  cases k with
  | uniquePtr r => cases hl'; exact fin [] hcs .nil
  | sharedPtr r => cases hl'; exact fin [] hcs .nil
  | weakPtr r => cases hl'; exact fin [] hcs .nil
  | cxxVector r => cases hl'; exact fin [] hcs .nil
  | rustBox r =>
    cases hl'
    have hr : r = p.rust := hpr.symm
    subst hr
    refine fin _ hcs ?_
    exact .cons ⟨lk _ _, .nil, .obj pn (fun _ => rfl)⟩
      (.cons ⟨lk _ _, .cons (.obj pn) .nil, .void⟩
      (.cons ⟨lk _ _, .cons .box .nil, .void⟩ .nil))
  | rustVec r =>
    cases hl'
    have hr : r = p.rust := hpr.symm
    subst hr
    refine fin _ hcs ?_
    exact .cons ⟨lk _ _, .cons .vec .nil, .void⟩
      (.cons ⟨lk _ _, .cons .vec .nil, .void⟩
      (.cons ⟨lk _ _, .cons .vec .nil, .size⟩
      (.cons ⟨lk _ _, .cons .vec .nil, .size⟩
      (.cons ⟨lk _ _, .cons .vec .nil, .obj pn (fun h => by cases h)⟩
      (.cons ⟨lk _ _, .cons .vec (.cons .size .nil), .void⟩
      (.cons ⟨lk _ _, .cons .vec (.cons .size .nil), .void⟩
      (.cons ⟨lk _ _, .cons .vec (.cons .size .nil), .void⟩ .nil)))))))

/-! ### A concrete case -/

section Demo

/-- A struct, an opaque C++ type and an opaque Rust type, each behind the pointers it may be behind. -/
def demo : List Api :=
  [.cxxType ⟨.cxx, [], pr ["org", "rust"] "T", [], [], true⟩,
   .rustType ⟨.rust, [], pr ["org"] "R", [], [], true⟩,
   .struct ⟨[], ⟨["org"], "S2", "S"⟩, [], [⟨pr [] "x", .named "u8"⟩]⟩,
   .cxxFunction (free (pr [] "make") [⟨pr [] "a", .uniquePtr (.named "T")⟩, ⟨pr [] "b", .rustVec (.named "S")⟩,
     ⟨pr [] "c", .ref false none false (.cxxVector (.named "S"))⟩, ⟨pr [] "d", .sharedPtr (.named "S")⟩,
     ⟨pr [] "e", .weakPtr (.named "S")⟩, ⟨pr [] "f", .rustBox (.named "R")⟩,
     ⟨pr [] "g", .uniquePtr (.named "S")⟩])]

theorem demo_accepted : Accepted .build demo ∧ LexicalBridge demo := by decide +kernel

theorem demo_impls : (collect demo).impls.map (·.1) = [.uniquePtr "T", .rustVec "S", .cxxVector "S",
    .sharedPtr "S", .weakPtr "S", .rustBox "R", .uniquePtr "S"] := by decide +kernel

theorem demo_types {p : Pair} (h : DeclaresType demo p) :
    p = pr ["org", "rust"] "T" ∨ p = pr ["org"] "R" ∨ p = ⟨["org"], "S2", "S"⟩ := by
  obtain ⟨a, ha, g, hr⟩ := h
  simp only [demo, List.mem_cons, List.not_mem_nil, or_false] at ha
  rcases ha with rfl | rfl | rfl | rfl <;> simp [resolves] at hr
  · exact .inl hr.1.symm
  · exact .inr (.inl hr.1.symm)
  · exact .inr (.inr hr.1.symm)

theorem demo_outside : ∀ p, DeclaresType demo p → ¬ InsideStdVector p := by
  rintro p h ⟨rest, e⟩
  rcases demo_types h with rfl | rfl | rfl <;> simp [pr] at e

theorem demo_distinct : DistinctCxxNames demo := by
  intro p q hp hq h
  rcases demo_types hp with rfl | rfl | rfl <;> rcases demo_types hq with rfl | rfl | rfl <;>
    simp [SameType, pr] at h ⊢

/-- An interpretation that writes down what is done and gives each result a new number. -/
def trace : Lib (List LibOp) := fun o w => (w.length, w ++ [o])

/-- The type of an opaque C++ class is complete where it is deleted; the file asserts it. -/
example : AssertsHold (fun t => decide (t = .named ⟨["org", "rust"], "T"⟩)) demo := by
  intro k hk l h t ht
  rw [demo_impls] at hk
  simp only [List.mem_cons, List.not_mem_nil, or_false] at hk
  have e : ∀ k l, cxxAsserts (collect demo) k = some l → ∀ l', cxxAsserts (collect demo) k = some l' → l = l' := by
    intro k l h l' h'; rw [h] at h'; exact Option.some.inj h'
  rcases hk with rfl | rfl | rfl | rfl | rfl | rfl | rfl
  · cases e _ _ h [.named ⟨["org", "rust"], "T"⟩] (by decide +kernel)
    simp only [List.mem_cons, List.not_mem_nil, or_false] at ht
    simp [ht]
  · cases h; cases ht
  · cases h; cases ht
  · cases h; cases ht
  · cases h; cases ht
  · cases h; cases ht
  · cases e _ _ h [] (by decide +kernel); cases ht

theorem demo_asserts : AssertsHold (fun _ => true) demo := fun _ _ _ _ _ _ => rfl

example : ByValueType demo "S" ∧ ¬ ByValueType demo "T" := by
  constructor
  · exact .inl ⟨_, List.mem_cons_of_mem _ (List.mem_cons_of_mem _ List.mem_cons_self), rfl⟩
  · rw [← maybeTrivial_iff]; decide +kernel

/-- A clone reads from its first argument and constructs at its second. -/
example : (rustCall trace (fun _ => true) demo (.sharedPtr "S") "__clone" [40, 80] []).map (·.2) =
    some [.sharedCopy (.named ⟨["org"], "S2"⟩) 80 40] := by
  obtain ⟨p, hd, hp, _, h, _⟩ := shared_ptr_methods trace demo_accepted.1 demo_accepted.2 demo_outside demo_asserts
    (T := "S") (by rw [demo_impls]; decide)
  rcases demo_types hd with rfl | rfl | rfl
  · simp [pr] at hp
  · simp [pr] at hp
  · rw [h]; rfl

/-- A new unique pointer to a struct: storage is allocated, owned, and then filled. -/
example : (rustCall trace (fun _ => true) demo (.uniquePtr "S") "__new" [7] []).map (·.2) =
    some [.freshLocal, .newUninit (.named ⟨["org"], "S2"⟩), .uniqueFrom (.named ⟨["org"], "S2"⟩) 0 1,
      .store "S" 1 7, .bitsOf 0] := by
  obtain ⟨p, hd, hp, _, _, _, _, _, h, _⟩ := unique_ptr_methods trace demo_accepted.1 demo_accepted.2 demo_outside
    demo_asserts (T := "S") (by rw [demo_impls]; decide)
  rcases demo_types hd with rfl | rfl | rfl
  · simp [pr] at hp
  · simp [pr] at hp
  · rw [h (.inl ⟨_, List.mem_cons_of_mem _ (List.mem_cons_of_mem _ List.mem_cons_self), rfl⟩)]; rfl

/-- An opaque C++ type cannot be made from a value. -/
example : rustCall trace (fun _ => true) demo (.uniquePtr "T") "__new" [7] [] = none := by
  obtain ⟨p, hd, hp, _, _, _, _, _, _, h⟩ := unique_ptr_methods trace demo_accepted.1 demo_accepted.2 demo_outside
    demo_asserts (T := "T") (by rw [demo_impls]; decide)
  rw [h (by rw [← maybeTrivial_iff]; decide +kernel)]; rfl

example : (rustCall trace (fun _ => true) demo (.weakPtr "S") "__upgrade" [40, 80] []).map (·.2) =
    some [.sharedLock (.named ⟨["org"], "S2"⟩) 80 40] := by
  obtain ⟨p, hd, hp, _, _, _, h, _⟩ := weak_ptr_methods trace demo_accepted.1 demo_accepted.2 demo_outside demo_asserts
    (T := "S") (by rw [demo_impls]; decide)
  rcases demo_types hd with rfl | rfl | rfl
  · simp [pr] at hp
  · simp [pr] at hp
  · rw [h]; rfl

example : (rustCall trace (fun _ => true) demo (.cxxVector "S") "__pop_back" [40, 80] []).map (·.2) =
    some [.moveBack ⟨["org"], "S2"⟩ 80 40, .vectorPop ⟨["org"], "S2"⟩ 40] := by
  obtain ⟨p, hd, hp, _, _, _, _, h, _⟩ := vector_methods trace demo_accepted.1 demo_accepted.2 demo_outside demo_asserts
    (T := "S") (by rw [demo_impls]; decide)
  rcases demo_types hd with rfl | rfl | rfl
  · simp [pr] at hp
  · simp [pr] at hp
  · rw [h (.inl ⟨_, List.mem_cons_of_mem _ (List.mem_cons_of_mem _ List.mem_cons_self), rfl⟩)]; rfl

example : (cxxCall trace demo (.rustBox "R") "allocation::dealloc" [40] []).map (·.2) = some [.boxFree "R" 40] := by
  rw [(box_members trace demo_accepted.1 demo_accepted.2 demo_outside demo_distinct
    (T := "R") (by rw [demo_impls]; decide)).2.1]
  rfl

example : (cxxCall trace demo (.rustVec "S") "truncate" [40, 3] []).map (·.2) = some [.vecTruncate "S" 40 3] := by
  obtain ⟨_, _, _, _, _, _, _, h⟩ := vec_members trace demo_accepted.1 demo_accepted.2 demo_outside demo_distinct
    (T := "S") (by rw [demo_impls]; decide)
  rw [h]; rfl

example : ∃ p cs, rustMethods trace (collect demo) (.weakPtr "S") = some cs ∧ cs.length = 5 ∧ p.rust = "S" ∧ DeclaresType demo p := by
  obtain ⟨p, cs, fs, hd, hp, h, _⟩ := rust_declarations_fit trace demo_accepted.1 demo_accepted.2 demo_outside demo_asserts
    (k := .weakPtr "S") (by rw [demo_impls]; decide)
  refine ⟨p, cs, h, ?_, hp, hd⟩
  have : ((rustMethods trace (collect demo) (.weakPtr "S")).map List.length) = some 5 := by decide +kernel
  rw [h] at this; exact Option.some.inj this

end Demo

end Verif.Thunk
