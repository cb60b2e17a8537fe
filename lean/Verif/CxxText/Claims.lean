import Verif.CxxText.Props
/-!
# C83: the C++ text of types and declarations
-/
namespace Verif.CxxText
open Verif.Syntax Verif.Types Verif.Abi Verif.Check Verif.Mangle

variable {g : Generator} {apis : List Api}

theorem writeTypes_get {ts : Types} {as : List Ty} {cs : List CTok} (h : writeTypes ts as = some cs) :
    cs.length = as.length ∧ ∀ (i : Nat) t c, as[i]? = some t → cs[i]? = some c → writeType ts t = some c := by
  induction as generalizing cs with
  | nil => simp only [writeTypes, Option.some.injEq] at h; subst h; simp
  | cons a as ih =>
    simp only [writeTypes] at h
    split at h
    · next c' cs' h1 h2 =>
      cases h
      obtain ⟨e, ih⟩ := ih h2
      refine ⟨by simp [e], ?_⟩
      intro i t c ht hc
      cases i with
      | zero => simp only [List.getElem?_cons_zero, Option.some.injEq] at ht hc; rw [← ht, ← hc]; exact h1
      | succ i => exact ih i t c (by simpa using ht) (by simpa using hc)
    · cases h

theorem writeTypes_mem {ts : Types} {as : List Ty} {cs : List CTok} (h : writeTypes ts as = some cs) {c : CTok} (hc : c ∈ cs) :
    ∃ t ∈ as, writeType ts t = some c := by
  obtain ⟨hl, hg⟩ := writeTypes_get h
  obtain ⟨i, hi, rfl⟩ := List.mem_iff_getElem.1 hc
  have h2 : i < as.length := by omega
  exact ⟨as[i], List.getElem_mem h2, hg i _ _ (List.getElem?_eq_getElem h2) (List.getElem?_eq_getElem hi)⟩

theorem denoteArgs_get (cs : List CTok) : denoteArgs cs = cs.map denote := denoteArgs_map cs

theorem okArgs {cs : List CTok} (h : ∀ c ∈ cs, Ok c) : OkArgs cs := by
  induction cs with
  | nil => simp only [OkArgs]
  | cons c cs ih => simp only [OkArgs]; exact ⟨h c (by simp), ih fun d hd => h d (List.mem_cons_of_mem _ hd)⟩

/-- What is written for a type stands for the C++ type of the table. -/
theorem means_of_write (t : Ty) : ∀ c, writeType (collect apis) t = some c → Means apis t (denote c) := by
  induction t using Ty.induct with
  | ident t =>
    intro c h
    simp only [writeType] at h
    split at h
    · next a ha => cases h; exact .atom _ _ ha
    · next ha =>
      obtain ⟨p, hp, rfl⟩ := Option.map_eq_some_iff.1 h
      exact .named _ _ ha (names_of_resolve hp)
  | rustBox t ih | rustVec t ih | uniquePtr t ih | sharedPtr t ih | weakPtr t ih | cxxVector t ih | ref p l m t ih
  | ptr m t ih | sliceRef l m t ih | array t n ih =>
    intro c h
    simp only [writeType, Option.map_eq_some_iff] at h
    obtain ⟨c', h, rfl⟩ := h
    constructor
    exact ih _ h
  | str p l m t ih => intro c h; cases h; constructor
  | void => intro c h; cases h
  | fn u args ret throws iha ihr =>
    intro c h
    simp only [writeType] at h
    split at h
    · next r as h1 h2 =>
      cases h
      obtain ⟨w1, w2⟩ := writeTypes_get h2
      refine .fn _ _ _ _ (denoteArgs as) (denoteRet r) (by simpa [denoteArgs_map] using w1) ?_ ?_ ?_
      · intro i t c ht hc
        rw [denoteArgs_map, List.getElem?_map, Option.map_eq_some_iff] at hc
        obtain ⟨x, hx, rfl⟩ := hc
        exact iha t (List.mem_of_getElem? ht) x (w2 i t x ht hx)
      · rintro rfl
        simp only [writeOpt, Option.some.injEq] at h1
        subst h1; rfl
      · rintro t rfl
        simp only [writeOpt, Option.map_eq_some_iff] at h1
        obtain ⟨x, hx, rfl⟩ := h1
        exact ihr t rfl x hx
    · cases h

/-- In an accepted bridge whose names are legal, no type is written that the reader cannot read. -/
theorem ok_of_write (h : Accepted g apis) (hl : LegalNames apis) (t : Ty) :
    Occurs apis t → ∀ c, writeType (collect apis) t = some c → Ok c := by
  induction t using Ty.induct with
  | ident t =>
    intro _ c hc
    simp only [writeType] at hc
    split at hc
    · cases hc; simp only [Ok]
    · obtain ⟨p, hp, rfl⟩ := Option.map_eq_some_iff.1 hc
      simp only [Ok]
      exact hl _ _ (names_of_resolve hp)
  | rustBox t ih | rustVec t ih | uniquePtr t ih | sharedPtr t ih | weakPtr t ih | cxxVector t ih
  | ptr m t ih | sliceRef l m t ih | array t n ih =>
    intro ho c hc
    simp only [writeType, Option.map_eq_some_iff] at hc
    obtain ⟨c', hc, rfl⟩ := hc
    simp only [Ok]
    exact ih (occurs_part ho (by constructor)) _ hc
  | ref p l m t ih =>
    intro ho c hc
    simp only [writeType, Option.map_eq_some_iff] at hc
    obtain ⟨c', hc, rfl⟩ := hc
    simp only [Ok]
    refine ⟨ih (occurs_part ho (by constructor)) _ hc, ?_⟩
    rintro m' u rfl
    have hchk := accepted_type h ho
    simp only [checkType, checkTypeRef, List.append_eq_nil_iff] at hchk
    cases t with
    | ref => simp at hchk
    | ident t => simp only [writeType] at hc; split at hc <;> simp at hc
    | fn u as r th => simp only [writeType] at hc; split at hc <;> simp at hc
    | void | str => simp [writeType] at hc
    | rustBox | rustVec | uniquePtr | sharedPtr | weakPtr | cxxVector | ptr | sliceRef | array =>
      simp [writeType] at hc
  | str p l m t ih => intro _ c hc; cases hc; simp only [Ok]
  | void => intro _ c hc; cases hc
  | fn u args ret throws iha ihr =>
    intro ho c hc
    simp only [writeType] at hc
    split at hc
    · next r as h1 h2 =>
      cases hc
      simp only [Ok]
      refine ⟨?_, okArgs fun c hc => ?_⟩
      · cases ret with
        | none => simp only [writeOpt, Option.some.injEq] at h1; subst h1; simp only [OkRet]
        | some t =>
          simp only [writeOpt, Option.map_eq_some_iff] at h1
          obtain ⟨x, hx, rfl⟩ := h1
          simp only [OkRet]
          exact ihr t rfl (occurs_part ho (.fnRet ..)) x hx
      · obtain ⟨t, ht, hw⟩ := writeTypes_mem h2 hc
        exact iha t ht (occurs_part ho (.fnArg _ _ _ _ ht)) c hw
    · cases hc

/-- **C83**.  Whatever type an accepted bridge has, if its names are names of C++, its text is read as the C++ type that the
book says. -/
theorem types_read (h : Accepted g apis) (hu : NoUnit apis) (hl : LegalNames apis) {ty : Ty} (ho : Occurs apis ty)
    (hv : ty ≠ .void) : ∃ c t, writeType (collect apis) ty = some c ∧ typeOf (text c) = some t ∧ Means apis ty t := by
  obtain ⟨c, hc⟩ := write_total_partial h hu ty ho hv
  exact ⟨c, denote c, hc, typeOf_text c (ok_of_write h hl ty ho c hc), means_of_write ty c hc⟩

/-! ### Well-formed types -/

theorem object_of_write {ts : Types} {t : Ty} {c : CTok} (hc : writeType ts t = some c) (hr : ∀ p l m u, t ≠ .ref p l m u) :
    (denote c).object = true ∧ ∀ u, denote c ≠ .const u := by
  cases t with
  | ref p l m u => exact absurd rfl (hr p l m u)
  | ident t =>
    simp only [writeType] at hc
    split at hc
    · next a _ => cases hc; cases a <;> exact ⟨by decide, fun u h => by cases h⟩
    · obtain ⟨p, _, rfl⟩ := Option.map_eq_some_iff.1 hc
      exact ⟨rfl, fun u h => by cases h⟩
  | fn u as r th =>
    simp only [writeType] at hc
    split at hc
    · cases hc; exact ⟨rfl, fun u h => by cases h⟩
    · cases hc
  | void => cases hc
  | str => cases hc; exact ⟨rfl, fun u h => by cases h⟩
  | rustBox | rustVec | uniquePtr | sharedPtr | weakPtr | cxxVector | ptr | sliceRef | array =>
    simp only [writeType, Option.map_eq_some_iff] at hc
    obtain ⟨c', _, rfl⟩ := hc
    exact ⟨rfl, fun u h => by cases h⟩

theorem wfArgs_object {b : Bool} {t : CType} (h : t.object = true) (rest : List CType) :
    CType.wfArgs b (t :: rest) = (t.wf && CType.wfArgs b rest) := by
  cases t with
  | number | fn => simp [CType.object] at h
  | prim | path | const | ptr | ref => rw [CType.wfArgs.eq_def]; simp only [h, Bool.true_and]

theorem wf_unless {t : CType} (h : t.object = true) (hc : ∀ u, t ≠ .const u) (hw : t.wf = true) (m : Bool) :
    (t.unless m).object = true ∧ (t.unless m).wf = true := by
  cases m with
  | true => exact ⟨h, hw⟩
  | false =>
    refine ⟨rfl, ?_⟩
    change CType.wf (.const t) = true
    rw [CType.wf]
    · simp [h, hw]
    · intro u hu; exact absurd hu (hc u)

theorem wf_inst (p : List (List Char)) {t : CType} (h : t.object = true) (hw : t.wf = true) :
    CType.wf (.path p [t]) = true := by
  rw [CType.wf, wfArgs_object h, hw]; rfl

theorem noRef_part {t u : Ty} (h : NoRefElements u) (hp : Part t u) : NoRefElements t := fun p l m w =>
  ⟨fun ⟨l', m', hw⟩ => (h p l m w).1 ⟨l', m', .part hp hw⟩, fun ⟨n, hw⟩ => (h p l m w).2 ⟨n, .part hp hw⟩⟩

/-- **C83** (without slices and arrays of references).  The C++ type is one that C++ allows.  Missing: `slice_of_references`,
`array_of_references`. -/
theorem types_well_formed_partial (h : Accepted g apis) (ty : Ty) : Occurs apis ty → NoRefElements ty →
    ∀ c, writeType (collect apis) ty = some c → (denote c).wf = true := by
  induction ty using Ty.induct with
  | ident t =>
    intro _ _ c hc
    simp only [writeType] at hc
    split at hc
    · next a _ => cases hc; cases a <;> decide
    · obtain ⟨p, _, rfl⟩ := Option.map_eq_some_iff.1 hc
      rfl
  | rustBox t ih | rustVec t ih | uniquePtr t ih | sharedPtr t ih | weakPtr t ih | cxxVector t ih =>
    intro ho hn c hc
    have hchk := accepted_type h ho
    simp only [writeType, Option.map_eq_some_iff] at hc
    obtain ⟨c', hc, rfl⟩ := hc
    refine wf_inst _ (object_of_write hc ?_).1 (ih (occurs_part ho (by constructor)) (noRef_part hn (by constructor)) _ hc)
    rintro p l m u rfl
    simp [checkType, checkTypeBox, checkTypeRustVec, checkTypeUniquePtr, checkTypeSharedPtr, checkTypeWeakPtr,
      checkTypeCxxVector] at hchk
  | ref p l m t ih =>
    intro ho hn c hc
    have hchk := accepted_type h ho
    simp only [writeType, Option.map_eq_some_iff] at hc
    obtain ⟨c', hc, rfl⟩ := hc
    obtain ⟨h1, h2⟩ := object_of_write hc (by
      rintro p l m u rfl
      simp [checkType, checkTypeRef] at hchk)
    have h3 := wf_unless h1 h2 (ih (occurs_part ho (by constructor)) (noRef_part hn (by constructor)) _ hc) m
    change CType.wf (.ref _) = true
    rw [CType.wf, h3.1, h3.2]; rfl
  | ptr m t ih =>
    intro ho hn c hc
    have hchk := accepted_type h ho
    simp only [writeType, Option.map_eq_some_iff] at hc
    obtain ⟨c', hc, rfl⟩ := hc
    obtain ⟨h1, h2⟩ := object_of_write hc (by
      rintro p l m u rfl
      simp [checkType, checkTypePtr] at hchk)
    have h3 := wf_unless h1 h2 (ih (occurs_part ho (by constructor)) (noRef_part hn (by constructor)) _ hc) m
    change CType.wf (.ptr _) = true
    rw [CType.wf, h3.1, h3.2]; rfl
  | sliceRef l m t ih =>
    intro ho hn c hc
    simp only [writeType, Option.map_eq_some_iff] at hc
    obtain ⟨c', hc, rfl⟩ := hc
    obtain ⟨h1, h2⟩ := object_of_write hc (by
      rintro p l' m' u rfl
      exact (hn p l' m' u).1 ⟨l, m, .self _⟩)
    have h3 := wf_unless h1 h2 (ih (occurs_part ho (by constructor)) (noRef_part hn (by constructor)) _ hc) m
    exact wf_inst _ h3.1 h3.2
  | array t n ih =>
    intro ho hn c hc
    simp only [writeType, Option.map_eq_some_iff] at hc
    obtain ⟨c', hc, rfl⟩ := hc
    obtain ⟨h1, h2⟩ := object_of_write hc (by
      rintro p l' m' u rfl
      exact (hn p l' m' u).2 ⟨n, .self _⟩)
    have h3 := ih (occurs_part ho (by constructor)) (noRef_part hn (by constructor)) _ hc
    change CType.wf (.path _ [_, _]) = true
    rw [CType.wf, wfArgs_object h1, h3]; rfl
  | str p l m t ih => intro _ _ c hc; cases hc; rfl
  | void => intro _ _ c hc; cases hc
  | fn u args ret throws iha ihr =>
    intro ho hn c hc
    simp only [writeType] at hc
    split at hc
    · next r as h1 h2 =>
      cases hc
      have hr : (denoteRet r).wf = true := by
        cases ret with
        | none => simp only [writeOpt, Option.some.injEq] at h1; subst h1; rfl
        | some t =>
          simp only [writeOpt, Option.map_eq_some_iff] at h1
          obtain ⟨x, hx, rfl⟩ := h1
          exact ihr t rfl (occurs_part ho (.fnRet ..)) (noRef_part hn (.fnRet ..)) x hx
      have hps : CType.wfParams (denoteArgs as) = true := by
        have key : ∀ c ∈ as, (match denote c with | .ref _ => true | _ => (denote c).object) = true ∧ (denote c).wf = true := by
          intro c hc
          obtain ⟨t, ht, hw⟩ := writeTypes_mem h2 hc
          refine ⟨?_, iha t ht (occurs_part ho (.fnArg _ _ _ _ ht)) (noRef_part hn (.fnArg _ _ _ _ ht)) c hw⟩
          split
          · rfl
          · next hx =>
            refine (object_of_write hw ?_).1
            rintro p l m u rfl
            simp only [writeType, Option.map_eq_some_iff] at hw
            obtain ⟨c', _, rfl⟩ := hw
            exact hx _ rfl
        clear h2 hr
        induction as with
        | nil => rfl
        | cons c as ih =>
          simp only [denoteArgs, CType.wfParams, Bool.and_eq_true]
          exact ⟨key c (by simp), ih fun d hd => key d (List.mem_cons_of_mem _ hd)⟩
      have hf : CType.wf (.fn (denoteRet r) (denoteArgs as)) = true := by rw [CType.wf, hr, hps]; rfl
      change CType.wf (.path _ [_]) = true
      rw [CType.wf, CType.wfArgs, hf]; rfl
    · cases hc

/-! ### Functions -/

theorem mapM_get {α β : Type} {f : α → Option β} {l : List α} {r : List β} (h : l.mapM f = some r) :
    r.length = l.length ∧ ∀ (i : Nat) a b, l[i]? = some a → r[i]? = some b → f a = some b := by
  induction l generalizing r with
  | nil => simp only [List.mapM_nil] at h; cases h; simp
  | cons a l ih =>
    simp only [List.mapM_cons, Option.bind_eq_bind, Option.bind_eq_some_iff] at h
    obtain ⟨b, hb, r', hr, h⟩ := h
    cases h
    obtain ⟨e, ih⟩ := ih hr
    refine ⟨by simp [e], ?_⟩
    intro i x y hx hy
    cases i with
    | zero => simp only [List.getElem?_cons_zero, Option.some.injEq] at hx hy; rw [← hx, ← hy]; exact hb
    | succ i => exact ih i x y (by simpa using hx) (by simpa using hy)

theorem mapM_mem {α β : Type} {f : α → Option β} {l : List α} {r : List β} (h : l.mapM f = some r) {b : β} (hb : b ∈ r) :
    ∃ a ∈ l, f a = some b := by
  obtain ⟨hl, hg⟩ := mapM_get h
  obtain ⟨i, hi, rfl⟩ := List.mem_iff_getElem.1 hb
  have h2 : i < l.length := by omega
  exact ⟨l[i], List.getElem_mem h2, hg i _ _ (List.getElem?_eq_getElem h2) (List.getElem?_eq_getElem hi)⟩

theorem okRet_of_write (h : Accepted g apis) (hl : LegalNames apis) {f : ExternFn} (hf : HasFn apis f) {r : Option CTok}
    (hr : writeOpt (collect apis) f.sig.ret = some r) : OkRet r ∧ (f.sig.ret = none → denoteRet r = .prim "void".toList) ∧
      ∀ t, f.sig.ret = some t → Means apis t (denoteRet r) := by
  cases ht : f.sig.ret with
  | none =>
    rw [ht] at hr; simp only [writeOpt, Option.some.injEq] at hr; subst hr
    exact ⟨by simp only [OkRet], fun _ => rfl, fun t h => by cases h⟩
  | some t =>
    rw [ht] at hr
    simp only [writeOpt, Option.map_eq_some_iff] at hr
    obtain ⟨x, hx, rfl⟩ := hr
    refine ⟨?_, fun h => (by cases h), ?_⟩
    · simp only [OkRet]; exact ok_of_write h hl t (ret_occurs hf ht) x hx
    · intro t' e; cases e; exact means_of_write t x hx

/-- **C83**.  The C++ declaration of a function that is implemented in Rust is read as the declaration of that function; a
method is declared in its class by its own name, and defined behind the name of the class. -/
theorem functions_read (h : Accepted g apis) (hl : LegalNames apis) {f : ExternFn} (hf : HasFn apis f) (hn : LegalFn f)
    {inClass : Bool} {s : List Char} (hs : shimLine (collect apis) inClass f = some s) :
    ∃ d, declOf s = some d ∧ DeclaredAs apis d f ∧
      (f.sig.receiver = none ∨ inClass = true → d.name = [f.name.cxx.toList]) ∧
      ∀ r, f.sig.receiver = some r → inClass = false →
        ∃ p, Names apis r.ty.rust p ∧ d.name = [p.cxx.toList, f.name.cxx.toList] := by
  simp only [shimLine, Option.bind_eq_bind, Option.bind_eq_some_iff] at hs
  obtain ⟨params, hps, ret, hr, name, hname, hs⟩ := hs
  cases hs
  obtain ⟨r1, r2, r3⟩ := okRet_of_write h hl hf hr
  obtain ⟨hlen, hget⟩ := mapM_get hps
  have hcxx : isName f.name.cxx.toList = true := List.all_eq_true.1 hn.name _ (by simp [pathOf])
  have hnm : name ≠ [] ∧ (name.map String.toList).all isName = true ∧
      (f.sig.receiver = none ∨ inClass = true → name = [f.name.cxx]) ∧
      ∀ r, f.sig.receiver = some r → inClass = false → ∃ p, Names apis r.ty.rust p ∧ name = [p.cxx, f.name.cxx] := by
    cases hrec : f.sig.receiver with
    | none =>
      simp only [declName, hrec, Option.some.injEq] at hname
      subst hname
      exact ⟨by simp, by simpa using hcxx, fun _ => rfl, fun r hr => by cases hr⟩
    | some r =>
      simp only [declName, hrec] at hname
      cases inClass with
      | true =>
        simp only [if_true, Option.some.injEq] at hname
        subst hname
        exact ⟨by simp, by simpa using hcxx, fun _ => rfl, fun r _ h => by cases h⟩
      | false =>
        simp only [Bool.false_eq_true, if_false, Option.map_eq_some_iff] at hname
        obtain ⟨p, hp, rfl⟩ := hname
        have hN := names_of_resolve hp
        have := hl _ _ hN
        refine ⟨by simp, ?_, ?_, fun r' hr' _ => ?_⟩
        · have h1 : isName p.cxx.toList = true := List.all_eq_true.1 this _ (by simp [pathOf])
          simp [h1, hcxx]
        · rintro (h | h) <;> cases h
        · cases hr'; exact ⟨p, hN, rfl⟩
  obtain ⟨n1, n2, n3, n4⟩ := hnm
  refine ⟨_, shim_reads name params ret false _ _ n1 n2 r1 ?_, ⟨?_, ?_, r2, r3, ?_, ?_⟩, ?_, ?_⟩
  · intro p hp
    obtain ⟨a, ha, he⟩ := mapM_mem hps hp
    obtain ⟨c, hc, rfl⟩ := Option.map_eq_some_iff.1 he
    exact ⟨ok_of_write h hl _ (arg_occurs hf ha) c hc, hn.args a ha⟩
  · simpa using hlen
  · intro i a p ha hp
    simp only [Bool.false_eq_true, if_false, List.append_nil, List.getElem?_map, Option.map_eq_some_iff] at hp
    obtain ⟨x, hx, rfl⟩ := hp
    have := hget i a x ha hx
    obtain ⟨c, hc, rfl⟩ := Option.map_eq_some_iff.1 this
    exact ⟨means_of_write _ _ hc, rfl⟩
  · cases hrec : f.sig.receiver with
    | none => simp
    | some r => simp
  · simp
  · intro hh; simp [n3 hh]
  · intro r hr hi
    obtain ⟨p, hp, e⟩ := n4 r hr hi
    exact ⟨p, hp, by simp [e]⟩

theorem selfOf_get {cx : Ctx} (hcx : cx.types = collect apis) (hl : LegalNames apis) {r : Option Receiver}
    {s : Option (Pair × Bool)} (h : selfOf cx r = some s) :
    (r = none → s = none) ∧ ∀ x, r = some x → ∃ p, s = some (p, x.mutable) ∧ Names apis x.ty.rust p ∧
      (pathOf p).all isName = true := by
  cases r with
  | none => simp only [selfOf, Option.some.injEq] at h; exact ⟨fun _ => h.symm, fun x hx => by cases hx⟩
  | some x =>
    simp only [selfOf, Option.map_eq_some_iff, hcx] at h
    obtain ⟨p, hp, rfl⟩ := h
    have := names_of_resolve hp
    exact ⟨fun h => (by cases h), fun y hy => by cases hy; exact ⟨p, rfl, this, hl _ _ this⟩⟩

/-- **C83**.  The shim of a C++ function calls it through a pointer that is read as one to the function or member function of
that name, of the declared type: of several overloads it selects that one. -/
theorem pointers_read (h : Accepted g apis) (hl : LegalNames apis) {cx : Ctx} (hcx : cx.types = collect apis) {f : ExternFn}
    (hf : HasFn apis f) (hn : LegalFn f) {s : List Char}
    (hs : pointerLineOf cx f = some s) : ∃ d, pointerOf s = some d ∧ PointsTo apis d f := by
  simp only [pointerLineOf, Option.bind_eq_bind, Option.bind_eq_some_iff, hcx] at hs
  obtain ⟨self, hself, params, hps, ret, hr, hs⟩ := hs
  cases hs
  obtain ⟨r1, r2, r3⟩ := okRet_of_write h hl hf hr
  obtain ⟨hlen, hget⟩ := writeTypes_get hps
  obtain ⟨s1, s2⟩ := selfOf_get hcx hl hself
  have hok : ∀ p ∈ params, Ok p := by
    intro p hp
    obtain ⟨t, ht, hwr⟩ := writeTypes_mem hps hp
    obtain ⟨a, ha, rfl⟩ := List.mem_map.1 ht
    exact ok_of_write h hl _ (arg_occurs hf ha) p hwr
  have hparams : ∀ (i : Nat) a p, f.sig.args[i]? = some a → (params.map denote)[i]? = some p → Means apis a.ty p := by
    intro i a p ha hp
    rw [List.getElem?_map, Option.map_eq_some_iff] at hp
    obtain ⟨x, hx, rfl⟩ := hp
    exact means_of_write _ _ (hget i a.ty x (by rw [List.getElem?_map, ha]; rfl) hx)
  cases hrec : f.sig.receiver with
  | none =>
    cases s1 hrec
    exact ⟨_, pointer_fn_reads _ _ _ _ hn.rust hn.name r1 hok, ⟨by simpa using hlen, hparams, r2, r3, fun _ => ⟨rfl, rfl, rfl, rfl⟩,
      fun r h => (by rw [hrec] at h; cases h)⟩⟩
  | some r =>
    obtain ⟨p, rfl, hN, hp⟩ := s2 r hrec
    refine ⟨_, pointer_method_reads _ _ _ _ _ _ hn.rust (List.all_eq_true.1 hn.name _ (by simp [pathOf])) hp r1 hok,
      ⟨by simpa using hlen, hparams, r2, r3, fun h => (by rw [hrec] at h; cases h), fun r' h => ?_⟩⟩
    rw [hrec] at h; cases h
    exact ⟨p, hN, rfl, by simp, rfl, rfl⟩

/-! ### The `extern "C"` functions -/

theorem ok_part (h : Accepted g apis) (hl : LegalNames apis) {cx : Ctx} (hcx : cx.types = collect apis) {t u : Ty}
    (ho : Occurs apis t) (hp : Part u t) {c : CTok} (hc : writeType cx.types u = some c) : Ok c :=
  ok_of_write h hl u (occurs_part ho hp) c (hcx ▸ hc)

theorem ok_base (h : Accepted g apis) (hl : LegalNames apis) {cx : Ctx} (hcx : cx.types = collect apis) {t : Ty}
    (ho : Occurs apis t) {c : CTok} (hc : externArgBase cx t = some c) : Ok c := by
  unfold externArgBase at hc
  split at hc
  · obtain ⟨x, hx, rfl⟩ := Option.map_eq_some_iff.1 hc
    simp only [Ok]; exact ok_part h hl hcx ho (by constructor) hx
  · obtain ⟨x, hx, rfl⟩ := Option.map_eq_some_iff.1 hc
    simp only [Ok]; exact ok_part h hl hcx ho (by constructor) hx
  · obtain ⟨x, hx, rfl⟩ := Option.map_eq_some_iff.1 hc
    simp only [Ok]; exact ok_part h hl hcx ho (by constructor) hx
  · exact ok_of_write h hl t ho c (hcx ▸ hc)

theorem ok_externArg (h : Accepted g apis) (hl : LegalNames apis) {cx : Ctx} (hcx : cx.types = collect apis) {t : Ty}
    (ho : Occurs apis t) {c : CTok} (hc : externArg cx t = some c) : Ok c := by
  unfold externArg at hc
  split at hc
  · obtain ⟨x, hx, rfl⟩ := Option.map_eq_some_iff.1 hc
    simp only [Ok]; exact ok_base h hl hcx ho hx
  · exact ok_base h hl hcx ho hc

theorem ok_cxxParam (h : Accepted g apis) (hl : LegalNames apis) {cx : Ctx} (hcx : cx.types = collect apis) {t : Ty}
    (ho : Occurs apis t) {c : CTok} (hc : cxxParamC cx t = some c) : Ok c := by
  unfold cxxParamC at hc
  split at hc
  · obtain ⟨x, hx, rfl⟩ := Option.map_eq_some_iff.1 hc
    simp only [Ok]; exact ok_of_write h hl t ho x (hcx ▸ hx)
  · split at hc
    · obtain ⟨x, hx, rfl⟩ := Option.map_eq_some_iff.1 hc
      simp only [Ok]; exact ok_of_write h hl _ ho x (hcx ▸ hx)
    · exact ok_externArg h hl hcx ho hc

theorem ok_return (h : Accepted g apis) (hl : LegalNames apis) {cx : Ctx} (hcx : cx.types = collect apis) {t : Option Ty}
    (ho : ∀ x, t = some x → Occurs apis x) {throws : Bool} {c : Option CTok} (hc : returnC cx t throws = some c) : OkRet c := by
  unfold returnC at hc
  split at hc
  · cases hc; simp only [OkRet, Ok]
  · unfold externReturnC at hc
    split at hc
    · cases hc; simp only [OkRet]
    · obtain ⟨x, hx, rfl⟩ := Option.map_eq_some_iff.1 hc
      simp only [OkRet, Ok]; exact ok_part h hl hcx (ho _ rfl) (by constructor) hx
    · obtain ⟨x, hx, rfl⟩ := Option.map_eq_some_iff.1 hc
      simp only [OkRet, Ok]; exact ok_part h hl hcx (ho _ rfl) (by constructor) hx
    · obtain ⟨x, hx, rfl⟩ := Option.map_eq_some_iff.1 hc
      simp only [OkRet, Ok]; exact ok_part h hl hcx (ho _ rfl) (by constructor) hx
    · cases hc; simp only [OkRet, Ok]
    · cases hc; simp only [OkRet, Ok]
    · split at hc
      · cases hc; simp only [OkRet]
      · obtain ⟨x, hx, rfl⟩ := Option.map_eq_some_iff.1 hc
        simp only [OkRet]; exact ok_of_write h hl _ (ho _ rfl) x (hcx ▸ hx)

theorem ok_cxxSlot (h : Accepted g apis) (hl : LegalNames apis) {cx : Ctx} (hcx : cx.types = collect apis) {t : Option Ty}
    (ho : ∀ x, t = some x → Occurs apis x) {throws : Bool} {c : Option CTok} (hc : cxxSlot cx t throws = some c) :
    OkRet c ∧ cxxOutC cx t throws = some (c.toList.map (.star true)) := by
  cases t with
  | none => simp only [cxxSlot, Option.some.injEq] at hc; subst hc; exact ⟨by simp only [OkRet], rfl⟩
  | some t =>
    simp only [cxxSlot] at hc
    simp only [cxxOutC]
    split at hc
    · next hi =>
      obtain ⟨x, hx, rfl⟩ := Option.map_eq_some_iff.1 hc
      refine ⟨?_, by simp [hi, hx]⟩
      simp only [OkRet]
      unfold indirectReturnType at hx
      split at hx
      · obtain ⟨y, hy, rfl⟩ := Option.map_eq_some_iff.1 hx
        simp only [Ok]; exact ok_part h hl hcx (ho _ rfl) (by constructor) hy
      · obtain ⟨y, hy, rfl⟩ := Option.map_eq_some_iff.1 hx
        simp only [Ok]; exact ok_part h hl hcx (ho _ rfl) (by constructor) hy
      · obtain ⟨y, hy, rfl⟩ := Option.map_eq_some_iff.1 hx
        simp only [Ok]; exact ok_part h hl hcx (ho _ rfl) (by constructor) hy
      · exact ok_of_write h hl _ (ho _ rfl) x (hcx ▸ hx)
    · next hi => cases hc; exact ⟨by simp only [OkRet], by simp [hi]⟩

theorem ok_rustSlot (h : Accepted g apis) (hl : LegalNames apis) {cx : Ctx} (hcx : cx.types = collect apis) {t : Option Ty}
    (ho : ∀ x, t = some x → Occurs apis x) {throws : Bool} {c : Option CTok} (hc : rustSlot cx t throws = some c) :
    OkRet c ∧ rustOutC cx t throws = some (c.toList.map (.star true)) := by
  cases t with
  | none => simp only [rustSlot, Option.some.injEq] at hc; subst hc; exact ⟨by simp only [OkRet], rfl⟩
  | some t =>
    simp only [rustSlot] at hc
    simp only [rustOutC]
    split at hc
    · next hi =>
      obtain ⟨x, hx, rfl⟩ := Option.map_eq_some_iff.1 hc
      refine ⟨?_, by simp [hi, hx]⟩
      simp only [OkRet]
      unfold rustReturnPointee at hx
      split at hx
      · obtain ⟨y, hy, rfl⟩ := Option.map_eq_some_iff.1 hx
        simp only [Ok]; exact ok_part h hl hcx (ho _ rfl) (by constructor) hy
      · exact ok_of_write h hl _ (ho _ rfl) x (hcx ▸ hx)
    · next hi => cases hc; exact ⟨by simp only [OkRet], by simp [hi]⟩

theorem receivers_of {cx : Ctx} {r : Option Receiver} {s : Option (Pair × Bool)} (h : selfOf cx r = some s) :
    r.toList.mapM (receiverC cx) = some (s.toList.map fun s => .lref s.2 (.named s.1)) := by
  cases r with
  | none => simp only [selfOf, Option.some.injEq] at h; subst h; rfl
  | some r =>
    simp only [selfOf, Option.map_eq_some_iff] at h
    obtain ⟨p, hp, rfl⟩ := h
    simp [receiverC, hp]

theorem mapM_fst {F : Ty → Option CTok} {args : List Var} {ps : List (CTok × Ident)}
    (h : args.mapM (fun a => (F a.ty).map (·, a.name.cxx)) = some ps) :
    args.mapM (fun a => F a.ty) = some (ps.map (·.1)) ∧ ps.map (·.2) = args.map (·.name.cxx) := by
  induction args generalizing ps with
  | nil => simp only [List.mapM_nil] at h; cases h; exact ⟨rfl, rfl⟩
  | cons a l ih =>
    simp only [List.mapM_cons, Option.bind_eq_bind, Option.bind_eq_some_iff] at h
    obtain ⟨b, hb, r', hr, h⟩ := h
    cases h
    obtain ⟨c, hc, rfl⟩ := Option.map_eq_some_iff.1 hb
    obtain ⟨h1, h2⟩ := ih hr
    simp [List.mapM_cons, hc, h1, h2]

theorem push_eq {sym seg s : List Char} (h : Mangle.push sym seg = some s) :
    s = (if sym.isEmpty then sym else sym ++ ['$']) ++ seg := by
  unfold Mangle.push at h
  generalize (if sym.isEmpty then sym else sym ++ ['$']) ++ seg = u at h ⊢
  by_cases hu : u.length > sym.length
  · simp only [hu, if_true, Option.some.injEq] at h; exact h.symm
  · simp only [hu, if_false] at h; cases h

theorem pushAll_word {segs : List (List Char)} : ∀ {sym s : List Char}, Mangle.pushAll sym segs = some s →
    (isWord sym = true ∧ '$' ∈ sym) → (∀ x ∈ segs, x.all isWordChar = true) → isWord s = true ∧ '$' ∈ s := by
  induction segs with
  | nil => intro sym s h hs _; simp only [Mangle.pushAll] at h; cases h; exact hs
  | cons x l ih =>
    intro sym s h hs hx
    simp only [Mangle.pushAll, Option.bind_eq_bind, Option.bind_eq_some_iff] at h
    obtain ⟨y, hy, h⟩ := h
    refine ih h ?_ fun z hz => hx z (.tail _ hz)
    rw [push_eq hy]
    obtain ⟨h1, h2⟩ := hs
    cases sym with
    | nil => cases h2
    | cons c r =>
      have := hx x (.head _)
      simp only [isWord, Bool.and_eq_true, List.all_cons] at h1
      refine ⟨?_, by simp only [List.isEmpty_cons, Bool.false_eq_true, if_false, List.mem_append]; exact .inl (.inl h2)⟩
      simp only [isWord, List.isEmpty_cons, Bool.false_eq_true, if_false, List.cons_append, Bool.and_eq_true, List.all_cons,
        List.all_append, this, h1.1.2.1, h1.1.2.2]
      exact ⟨⟨rfl, by decide⟩, h1.2⟩

theorem dollar_name {s : List Char} (h : isWord s = true) (hd : '$' ∈ s) : isName s = true := by
  simp only [isWord, Bool.and_eq_true] at h
  have hk : ∀ k ∈ keywords, '$' ∉ k.toList := by decide +kernel
  simp only [isName, h.1.1, h.1.2, h.2, Bool.true_and, Bool.not_eq_true', List.any_eq_false, beq_iff_eq]
  rintro k hk' rfl
  exact hk k hk' hd

theorem join_name {a b : List Char} {segs : List (List Char)} {s : List Char} (h : Mangle.join (a :: b :: segs) = some s)
    (ha : isWord a = true) (hb : b.all isWordChar = true) (hs : ∀ x ∈ segs, x.all isWordChar = true) : isName s = true := by
  simp only [Mangle.join, Option.bind_eq_bind, Option.bind_eq_some_iff] at h
  obtain ⟨y, hy, h⟩ := h
  split at h
  · cases h
  cases h
  simp only [Mangle.pushAll, Option.bind_eq_bind, Option.bind_eq_some_iff] at hy
  obtain ⟨u, hu, v, hv, hy⟩ := hy
  have e1 := push_eq hu
  have e2 := push_eq hv
  simp only [List.isEmpty_nil, if_true, List.nil_append] at e1
  subst e1
  have : isWord v = true ∧ '$' ∈ v := by
    cases u with
    | nil => cases ha
    | cons c r =>
      rw [e2]
      simp only [isWord, Bool.and_eq_true, List.all_cons] at ha
      refine ⟨?_, by simp⟩
      simp only [isWord, List.isEmpty_cons, Bool.false_eq_true, if_false, List.cons_append, Bool.and_eq_true, List.all_cons,
        List.all_append, hb, ha.1.2.1, ha.1.2.2]
      exact ⟨⟨rfl, by decide⟩, ha.2⟩
  obtain ⟨k1, k2⟩ := pushAll_word hy this hs
  exact dollar_name k1 k2

/-- The symbol of a function is a name of C++. -/
theorem symbol_name {cx : Ctx} (hcx : cx.types = collect apis) (hl : LegalNames apis) {f : ExternFn} (hn : LegalFn f)
    {sym : List Char} (h : externFn cx.types f = some sym) : isName sym = true := by
  have hrust : (f.name.rust.toList).all isWordChar = true := by
    have := hn.rust; simp only [isWord, Bool.and_eq_true] at this; exact this.1.2
  have hb : isWord Mangle.CXXBRIDGE = true := by decide +kernel
  have hb' : Mangle.CXXBRIDGE.all isWordChar = true := by decide +kernel
  have hns : ∀ s ∈ f.name.ns, isWord s.toList = true ∧ s.toList.all isWordChar = true := by
    intro s hs
    have := hn.name
    simp only [pathOf, List.all_append, Bool.and_eq_true, List.all_map, List.all_eq_true, Function.comp_def] at this
    have := this.1 s hs
    simp only [isName, Bool.and_eq_true] at this
    exact ⟨by simp only [isWord, this.1.1.1, this.1.1.2, this.1.2]; rfl, this.1.1.2⟩
  have key : ∀ tail : List (List Char), tail ≠ [] → (∀ x ∈ tail, x.all isWordChar = true) →
      Mangle.join (Mangle.nsSegs f.name.ns ++ Mangle.CXXBRIDGE :: tail) = some sym → isName sym = true := by
    intro tail ht hx hj
    cases hcase : f.name.ns with
    | nil =>
      cases tail with
      | nil => exact absurd rfl ht
      | cons x l =>
        rw [hcase] at hj
        exact join_name hj hb (hx x (.head _)) fun y hy => hx y (.tail _ hy)
    | cons n ns =>
      rw [hcase] at hj hns
      cases ns with
      | nil => exact join_name hj (hns n (.head _)).1 hb' hx
      | cons n' ns =>
        refine join_name hj (hns n (.head _)).1 (hns n' (.tail _ (.head _))).2 ?_
        intro x hx'
        rcases List.mem_append.1 hx' with hx' | hx'
        · obtain ⟨y, hy, rfl⟩ := List.mem_map.1 hx'
          exact (hns y (.tail _ (.tail _ hy))).2
        · rcases List.mem_cons.1 hx' with rfl | hx'
          · exact hb'
          · exact hx x hx'
  simp only [externFn] at h
  cases hr : f.sig.receiver with
  | none =>
    rw [hr] at h
    exact key [_] (by simp) (fun x hx => by rw [List.mem_singleton.1 hx]; exact hrust) h
  | some r =>
    rw [hr] at h
    simp only [Option.bind_eq_bind, Option.bind_eq_some_iff] at h
    obtain ⟨p, hp, h⟩ := h
    refine key [_, _] (by simp) ?_ h
    have hp := hl _ _ (names_of_resolve (hcx ▸ hp))
    simp only [pathOf, List.all_append, Bool.and_eq_true, List.all_cons, List.all_nil, isName] at hp
    intro x hx
    simp only [List.mem_cons, List.not_mem_nil, or_false] at hx
    rcases hx with rfl | rfl
    · exact hp.2.1.1.1.2
    · exact hrust

/-- The names of the parameters: `self`, those of the arguments, and `return$` for the place of the result. -/
def paramNames (f : ExternFn) (slot : Bool) : List (Option (List Char)) :=
  (f.sig.receiver.toList.map fun _ => some "self".toList) ++ (f.sig.args.map fun a => some a.name.cxx.toList) ++
    (if slot then [some "return$".toList] else [])

/-- The declaration is read as the one of the symbol, with the types of `d`. -/
structure Prototype (r : FnDecl) (d : CDecl) (f : ExternFn) : Prop where
  name : ∃ sym, d.symbol = some sym ∧ r.name = [sym]
  ret : r.ret = denoteRet d.ret
  params : r.params.map (·.1) = d.params.map denote
  names : ∃ slot, r.params.map (·.2) = paramNames f slot
  noexcept : r.isNoexcept = true
  plain : r.isConst = false

theorem self_names {cx : Ctx} {r : Option Receiver} {s : Option (Pair × Bool)} (h : selfOf cx r = some s) :
    (s.toList.map fun _ => some "self".toList) = (r.toList.map fun _ => some "self".toList) := by
  cases r with
  | none => simp only [selfOf, Option.some.injEq] at h; subst h; rfl
  | some r =>
    simp only [selfOf, Option.map_eq_some_iff] at h
    obtain ⟨p, hp, rfl⟩ := h
    rfl

theorem slot_names (slot : Option CTok) : (slot.toList.map fun _ => some "return$".toList) =
    (if slot.isSome then [some "return$".toList] else []) := by cases slot <;> rfl

theorem denote_star (t : CTok) : denote (.star true t) = .ptr (denote t) := rfl

theorem denote_self (p : Pair) (m : Bool) : denote (.lref m (.named p)) = .ref ((CType.path (pathOf p) []).unless m) := rfl

/-- **C83**.  The head of the shim of a C++ function is read as a declaration of its symbol with the parameters and the result
that `abi_agrees` compares with the Rust side. -/
theorem cxx_prototype_reads (h : Accepted g apis) (hl : LegalNames apis) {cx : Ctx} (hcx : cx.types = collect apis)
    {f : ExternFn} (hf : HasFn apis f) (hn : LegalFn f) {s : List Char} (hs : cxxLine cx f = some s) :
    ∃ d r, cxxFunctionC cx f = some d ∧ declOf s = some r ∧ Prototype r d f := by
  simp only [cxxLine, Option.bind_eq_bind, Option.bind_eq_some_iff] at hs
  obtain ⟨self, hself, params, hps, slot, hslot, ret, hret, link, hlink, hs⟩ := hs
  cases hs
  obtain ⟨s1, s2⟩ := selfOf_get hcx hl hself
  obtain ⟨k1, k2⟩ := ok_cxxSlot h hl hcx (fun x hx => ret_occurs hf hx) hslot
  obtain ⟨m1, m2⟩ := mapM_fst (F := cxxParamC cx) hps
  have hr := ok_return h hl hcx (fun x hx => ret_occurs hf hx) hret
  refine ⟨⟨some link, (self.toList.map fun s => CTok.lref s.2 (.named s.1)) ++ params.map (·.1) ++ slot.toList.map (CTok.star true), ret⟩, _, ?_, extern_reads link self params ret slot false (symbol_name hcx hl hn hlink) hr k1 ?_ ?_, ?_⟩
  · simp only [cxxFunctionC, receivers_of hself, m1, k2, hret, hlink]; rfl
  · intro x hx
    cases hrec : f.sig.receiver with
    | none => rw [s1 hrec] at hx; cases hx
    | some r => obtain ⟨p, e, _, hp⟩ := s2 r hrec; rw [e] at hx; cases hx; exact hp
  · intro p hp
    obtain ⟨a, ha, he⟩ := mapM_mem hps hp
    obtain ⟨c, hc, rfl⟩ := Option.map_eq_some_iff.1 he
    exact ⟨ok_cxxParam h hl hcx (arg_occurs hf ha) hc, hn.args a ha⟩
  · refine ⟨⟨link, rfl, rfl⟩, rfl, ?_, ⟨slot.isSome, ?_⟩, rfl, rfl⟩
    · simp only [Bool.false_eq_true, if_false, List.append_nil, List.map_append, List.map_map, Function.comp_def, denote_star, denote_self]
    · simp only [Bool.false_eq_true, if_false, List.append_nil, List.map_append, List.map_map, Function.comp_def, paramNames,
        self_names hself, slot_names]
      congr 2
      have := congrArg (List.map fun x : Ident => some x.toList) m2
      simpa only [List.map_map, Function.comp_def] using this

/-- **C83**.  So is the declaration of a Rust function. -/
theorem rust_prototype_reads (h : Accepted g apis) (hl : LegalNames apis) {cx : Ctx} (hcx : cx.types = collect apis)
    {f : ExternFn} (hf : HasFn apis f) (hn : LegalFn f) {s : List Char} (hs : rustLine cx f = some s) :
    ∃ d r, rustFunctionC cx f = some d ∧ declOf s = some r ∧ Prototype r d f := by
  simp only [rustLine, Option.bind_eq_bind, Option.bind_eq_some_iff] at hs
  obtain ⟨self, hself, params, hps, slot, hslot, ret, hret, link, hlink, hs⟩ := hs
  cases hs
  obtain ⟨s1, s2⟩ := selfOf_get hcx hl hself
  obtain ⟨k1, k2⟩ := ok_rustSlot h hl hcx (fun x hx => ret_occurs hf hx) hslot
  obtain ⟨m1, m2⟩ := mapM_fst (F := externArg cx) hps
  have m3 : (f.sig.args.map (·.ty)).mapM (externArg cx) = some (params.map (·.1)) := by
    rw [List.mapM_map]; exact m1
  have hr := ok_return h hl hcx (fun x hx => ret_occurs hf hx) hret
  refine ⟨⟨some link, (self.toList.map fun s => CTok.lref s.2 (.named s.1)) ++ params.map (·.1) ++ slot.toList.map (CTok.star true), ret⟩, _, ?_, extern_reads link self params ret slot false (symbol_name hcx hl hn hlink) hr k1 ?_ ?_, ?_⟩
  · simp only [rustFunctionC, rustDeclC, receivers_of hself, m3, k2, hret, hlink, Bool.false_eq_true, if_false, List.append_nil]; rfl
  · intro x hx
    cases hrec : f.sig.receiver with
    | none => rw [s1 hrec] at hx; cases hx
    | some r => obtain ⟨p, e, _, hp⟩ := s2 r hrec; rw [e] at hx; cases hx; exact hp
  · intro p hp
    obtain ⟨a, ha, he⟩ := mapM_mem hps hp
    obtain ⟨c, hc, rfl⟩ := Option.map_eq_some_iff.1 he
    exact ⟨ok_externArg h hl hcx (arg_occurs hf ha) hc, hn.args a ha⟩
  · refine ⟨⟨link, rfl, rfl⟩, rfl, ?_, ⟨slot.isSome, ?_⟩, rfl, rfl⟩
    · simp only [Bool.false_eq_true, if_false, List.append_nil, List.map_append, List.map_map, Function.comp_def, denote_star, denote_self]
    · simp only [Bool.false_eq_true, if_false, List.append_nil, List.map_append, List.map_map, Function.comp_def, paramNames,
        self_names hself, slot_names]
      congr 2
      have := congrArg (List.map fun x : Ident => some x.toList) m2
      simpa only [List.map_map, Function.comp_def] using this

/-- **C83**.  The line of a field of a struct is read as a field of that type and name. -/
theorem fields_read (h : Accepted g apis) (hl : LegalNames apis) {v : Var} (ho : Occurs apis v.ty)
    (hn : isName v.name.cxx.toList = true) {c : CTok} (hc : writeType (collect apis) v.ty = some c) :
    ∃ t, fieldOf (paramText c v.name.cxx) = some (t, v.name.cxx.toList) ∧ Means apis v.ty t :=
  ⟨denote c, field_reads (ok_of_write h hl _ ho c hc) hn, means_of_write _ c hc⟩

end Verif.CxxText
