import Verif.Unit.Props
/-!
# The header offers what the bridge says, and the source file defines it
-/
namespace Verif.Unit
open Verif.Syntax Verif.Types Verif.Abi Verif.Mangle Verif.Layout Verif.Check

variable {header : Bool} {cx : Ctx} {sorted : List Struct} {apis : List Api} {hs ss : List Decl} {g : Generator}

/-! ### Types -/

theorem writeTypes_get {ts : Types} {as : List Ty} {cs : List CTok} (h : writeTypes ts as = some cs) :
    cs.length = as.length ∧ ∀ (i : Nat) t c, as[i]? = some t → cs[i]? = some c → writeType ts t = some c := by
  induction as generalizing cs with
  | nil => simp only [writeTypes, Option.some.injEq] at h; subst h; simp
  | cons a as ih =>
    simp only [writeTypes] at h
    split at h
    · next c' cs' h1 h2 =>
      cases h
      obtain ⟨e, ih⟩ := ih h2
      refine ⟨by simp [e], ?_⟩
      intro i t c ht hc
      cases i with
      | zero => simp only [List.getElem?_cons_zero, Option.some.injEq] at ht hc; rw [← ht, ← hc]; exact h1
      | succ i => exact ih i t c (by simpa using ht) (by simpa using hc)
    · cases h

theorem writeOpt_get {ts : Types} {r : Option Ty} {c : Option CTok} (h : writeOpt ts r = some c) :
    (c = none ↔ r = none) ∧ ∀ t x, r = some t → c = some x → writeType ts t = some x := by
  cases r with
  | none => simp only [writeOpt, Option.some.injEq] at h; subst h; simp
  | some t =>
    simp only [writeOpt, Option.map_eq_some_iff] at h
    obtain ⟨x, hx, rfl⟩ := h
    simp [hx]

/-- What the generator writes for a type is what is documented. -/
theorem spells (t : Ty) : ∀ c, writeType (collect apis) t = some c → Spells apis t c := by
  induction t using Ty.induct with
  | ident t =>
    intro c h
    simp only [writeType] at h
    split at h
    · next a ha => cases h; exact .atom _ _ ha
    · next ha =>
      obtain ⟨p, hp, rfl⟩ := Option.map_eq_some_iff.1 h
      exact .named _ _ ha (names_of_resolve hp)
  | rustBox t ih | rustVec t ih | uniquePtr t ih | sharedPtr t ih | weakPtr t ih | cxxVector t ih | ref p l m t ih
  | ptr m t ih | sliceRef l m t ih | array t n ih =>
    intro c h
    simp only [writeType, Option.map_eq_some_iff] at h
    obtain ⟨c', h, rfl⟩ := h
    constructor
    exact ih _ h
  | str p l m t ih => intro c h; cases h; constructor
  | void => intro c h; cases h
  | fn u args ret throws iha ihr =>
    intro c h
    simp only [writeType] at h
    split at h
    · next r as h1 h2 =>
      cases h
      obtain ⟨w1, w2⟩ := writeTypes_get h2
      obtain ⟨w3, w4⟩ := writeOpt_get h1
      exact .fn _ _ _ _ _ _ w1 (fun i t c ht hc => iha t (List.mem_of_getElem? ht) c (w2 i t c ht hc)) w3
        (fun t c ht hc => ihr t ht c (w4 t c ht hc))
    · cases h

theorem sig_of {f : ExternFn} {params : List CTok} {ret : Option CTok} (ne : Bool)
    (h1 : writeTypes (collect apis) (f.sig.args.map (·.ty)) = some params)
    (h2 : writeOpt (collect apis) f.sig.ret = some ret) : FnSig.Of apis ⟨params, ret, isConst f.sig.receiver, ne⟩ f := by
  obtain ⟨w1, w2⟩ := writeTypes_get h1
  obtain ⟨w3, w4⟩ := writeOpt_get h2
  refine ⟨by simpa using w1, ?_, w3, fun t c ht hc => spells _ _ (w4 t c ht hc), ?_⟩
  · intro i a c ha hc
    exact spells _ _ (w2 i a.ty c (by simp [List.getElem?_map, ha]) hc)
  · cases f.sig.receiver <;> simp [isConst]

theorem shimSig_of {f : ExternFn} {s : FnSig}
    (h : shimSig (collect apis) f.sig.receiver (f.sig.args.map (·.ty)) f.sig.ret f.sig.throws = some s) :
    s.Of apis f ∧ s.NoexceptFor f := by
  unfold shimSig at h
  split at h
  · next r ps h1 h2 =>
    cases h
    exact ⟨sig_of _ h2 h1, by simp [FnSig.NoexceptFor]⟩
  · cases h

/-! ### Header and source file -/

theorem forward_types {ts : Types} {a : Api} {d : Decl} (h : d ∈ forward ts a) : aboutTypes d = true := by
  cases a <;> simp only [forward, List.mem_cons, List.not_mem_nil, or_false] at h
  case enum e => split at h <;> simp at h; subst h; rfl
  all_goals subst h; rfl

theorem data_types {ts : Types} {i : Item} {d : Decl} (h : dataDecl ts i = some d) : aboutTypes d = true := by
  cases i with
  | struct s ms => simp only [dataDecl] at h; split at h <;> cases h; rfl
  | «opaque» t ms => obtain ⟨_, _, rfl⟩ := Option.map_eq_some_iff.1 h; rfl
  | enum e => cases h; rfl
  | checkEnum e => cases h; rfl

theorem first_types {a : Api} {l : List Decl} (h : firstLoop cx a = some l) {d : Decl} (hd : d ∈ l) : aboutTypes d = false := by
  rcases first_cases h hd with ⟨s, rfl, l', hl, hd'⟩ | ⟨t, sym, op, rfl, rfl, _⟩ | ⟨f, rfl, hw⟩ | ⟨f, v, lt, rfl, _, hw, hd'⟩ |
    ⟨f, rfl, hw⟩
  · obtain ⟨_, _, _, _, _, _, rfl⟩ := operatorProto_mem hl hd'
    rfl
  · rfl
  · obtain ⟨_, _, _, _, _, _, _, _, _, _, rfl⟩ := cxxShim_cases hw
    rfl
  · rcases trampoline_cases hw with rfl | ⟨_, _, _, _, _, _, _, _, _, _, _, rfl⟩
    · cases hd'
    · simp only [List.mem_cons, List.not_mem_nil, or_false] at hd'
      rcases hd' with rfl | rfl <;> rfl
  · unfold rustProto at hw
    split at hw <;> cases hw
    rfl

theorem second_types {a : Api} {l : List Decl} (h : secondLoop header cx a = some l) {d : Decl} (hd : d ∈ l) :
    aboutTypes d = false := by
  rcases second_cases h hd with ⟨s, op, cs, rfl, _, rfl, _⟩ | ⟨t, fn, cs, rfl, _, rfl⟩ |
    ⟨f, sym, s, rfl, _, hs, ⟨_, rfl⟩ | ⟨r, q, _, _, _, rfl⟩⟩ <;> rfl

/-- The declarations about types of a file are the forward declarations and the definitions. -/
theorem types_of_file (h : file header cx sorted apis = some hs) :
    ∃ data, all (dataDecl cx.types) (dataStructures cx.types sorted apis) = some data ∧
      hs.filter aboutTypes = apis.flatMap (forward cx.types) ++ data := by
  obtain ⟨data, fst, spec, snd, inst, P, rfl⟩ := file_parts h
  refine ⟨data, P.data, ?_⟩
  have e1 : (apis.flatMap (forward cx.types)).filter aboutTypes = apis.flatMap (forward cx.types) :=
    List.filter_eq_self.2 fun d hd => by
      obtain ⟨a, _, h⟩ := List.mem_flatMap.1 hd
      exact forward_types h
  have e2 : data.filter aboutTypes = data := List.filter_eq_self.2 fun d hd => by
    obtain ⟨i, _, h⟩ := all_mem P.data hd
    exact data_types h
  have e3 : fst.flatten.filter aboutTypes = [] := List.filter_eq_nil_iff.2 fun d hd => by
    obtain ⟨l, hl, hd⟩ := List.mem_flatten.1 hd
    obtain ⟨_, a, _, h⟩ := fst_mem P hl
    simp [first_types h hd]
  have e4 : spec.flatten.filter aboutTypes = [] := List.filter_eq_nil_iff.2 fun d hd => by
    obtain ⟨l, hl, hd⟩ := List.mem_flatten.1 hd
    obtain ⟨_, a, _, h⟩ := spec_mem P hl
    obtain ⟨s, sym, _, _, _, rfl⟩ := spec_cases h hd
    simp [aboutTypes]
  have e5 : snd.flatten.filter aboutTypes = [] := List.filter_eq_nil_iff.2 fun d hd => by
    obtain ⟨l, hl, hd⟩ := List.mem_flatten.1 hd
    obtain ⟨a, _, h⟩ := all_mem P.snd hl
    simp [second_types h hd]
  have e6 : inst.filter aboutTypes = [] := List.filter_eq_nil_iff.2 fun d hd => by
    obtain ⟨_, e, _, q, _, rfl⟩ := inst_mem P hd
    simp [aboutTypes]
  simp only [List.filter_append, e1, e2, e3, e4, e5, e6, List.append_nil]

theorem mem_of_types (h : file header cx sorted apis = some hs) {d : Decl} (hd : aboutTypes d = true) :
    d ∈ hs ↔ ∃ data, all (dataDecl cx.types) (dataStructures cx.types sorted apis) = some data ∧
      d ∈ apis.flatMap (forward cx.types) ++ data := by
  obtain ⟨data, h1, h2⟩ := types_of_file h
  constructor
  · intro hm
    exact ⟨data, h1, by rw [← h2]; exact List.mem_filter.2 ⟨hm, hd⟩⟩
  · rintro ⟨data', h1', hm⟩
    rw [h1] at h1'; cases h1'
    rw [← h2] at hm
    exact (List.mem_filter.1 hm).1

/-- **C80**.  The header has the same declarations and definitions of types as the source file, in the same order.
Besides these it only declares functions, and each of them is defined in the source file, with the same signature; so it
may be included in any number of files. -/
theorem header_agrees (hh : file true cx sorted apis = some hs) (hc : file false cx sorted apis = some ss) :
    hs.filter aboutTypes = ss.filter aboutTypes ∧
    ∀ d ∈ hs, aboutTypes d = true ∨
      ∃ ns name sig, d = .function ns name sig none ∧ ∃ calls, .function ns name sig (some calls) ∈ ss := by
  obtain ⟨d1, e1, f1⟩ := types_of_file hh
  obtain ⟨d2, e2, f2⟩ := types_of_file hc
  rw [e1] at e2; cases e2
  refine ⟨by rw [f1, f2], ?_⟩
  obtain ⟨data, fst, spec, snd, inst, P, rfl⟩ := file_parts hh
  obtain ⟨data', fst', spec', snd', inst', P', rfl⟩ := file_parts hc
  intro d hd
  by_cases ht : aboutTypes d = true
  · exact .inl ht
  right
  simp only [List.mem_append] at hd
  rcases hd with ((((hd | hd) | hd) | hd) | hd) | hd
  · obtain ⟨a, _, h⟩ := List.mem_flatMap.1 hd
    exact absurd (forward_types h) ht
  · obtain ⟨i, _, h⟩ := all_mem P.data hd
    exact absurd (data_types h) ht
  · obtain ⟨l, hl, hd⟩ := List.mem_flatten.1 hd
    exact absurd (fst_mem P hl).1 (by simp)
  · obtain ⟨l, hl, hd⟩ := List.mem_flatten.1 hd
    exact absurd (spec_mem P hl).1 (by simp)
  · obtain ⟨l, hl, hd⟩ := List.mem_flatten.1 hd
    obtain ⟨a, hin, h⟩ := all_mem P.snd hl
    rcases second_cases h hd with ⟨_, _, _, _, e, _⟩ | ⟨_, _, _, _, e, _⟩ | ⟨f, sym, s, rfl, e1, hsig, ⟨hr, rfl⟩ | ⟨_, _, e, _⟩⟩
    · cases e
    · cases e
    · refine ⟨_, _, s, rfl, [sym], ?_⟩
      obtain ⟨l', hl', hw⟩ := all_image P'.snd hin
      have hw' : some [Decl.function f.name.ns f.name.cxx s (some [sym])] = some l' := by
        rw [hr] at hsig
        rw [← hw]; simp only [secondLoop, rustShim, e1, hr, hsig]; rfl
      cases hw'
      have : Decl.function f.name.ns f.name.cxx s (some [sym]) ∈ snd'.flatten := List.mem_flatten.2 ⟨_, hl', by simp⟩
      simp [this]
    · cases e
  · exact absurd (inst_mem P hd).1 (by simp)

/-- **C80**, functions.  In the header, every Rust function of the bridge is declared, in its namespace and under its
C++ name, with the signature that is documented, and `noexcept` unless it returns a `Result`; every method is declared
like that in the class of its type, if that class is generated; and the source file has, for every C++ function of the
bridge, a function for Rust that calls it through a pointer of the documented type. -/
theorem functions_offered (hcx : cx.types = collect apis) (ha : Accepted g apis) (hperm : sorted.Perm (Pod.structsOf apis))
    (hh : file true cx sorted apis = some hs) (hc : file false cx sorted apis = some ss) :
    (∀ f, Api.rustFunction f ∈ apis → f.sig.receiver = none →
      ∃ sig, sig.Of apis f ∧ sig.NoexceptFor f ∧ Decl.function f.name.ns f.name.cxx sig none ∈ hs) ∧
    (∀ f r, Api.cxxFunction f ∈ apis ∨ Api.rustFunction f ∈ apis → f.sig.receiver = some r → ¬ FromCxx apis r.ty.rust →
      ∃ p base fields members inner sig, Names apis r.ty.rust p ∧ Decl.classDef p base fields members inner ∈ hs ∧
        ⟨f.name.cxx, sig⟩ ∈ members ∧ sig.Of apis f ∧ sig.NoexceptFor f) ∧
    (∀ f, Api.cxxFunction f ∈ apis → ∃ params ret self sig, Decl.shim params ret self f.name sig ∈ ss ∧ sig.Of apis f ∧
      (self = none ↔ f.sig.receiver = none) ∧ ∀ r p, f.sig.receiver = some r → self = some p → Names apis r.ty.rust p) := by
  obtain ⟨data, fst, spec, snd, inst, P, rfl⟩ := file_parts hh
  obtain ⟨data', fst', spec', snd', inst', P', rfl⟩ := file_parts hc
  have hdata := P.data
  rw [hcx] at hdata
  refine ⟨?_, ?_, ?_⟩
  · intro f hin hr
    obtain ⟨l', hl', hw⟩ := all_image P.snd hin
    simp only [secondLoop, rustShim] at hw
    split at hw
    · next sym s h1 h2 =>
      simp only [hr, Option.some.injEq] at hw
      rw [hcx] at h2
      have := shimSig_of h2
      refine ⟨s, this.1, this.2, ?_⟩
      have : Decl.function f.name.ns f.name.cxx s none ∈ snd.flatten := List.mem_flatten.2 ⟨_, hl', by simp [← hw]⟩
      simp [this]
    · cases hw
  · intro f r hf hr hcx'
    obtain ⟨q, hq⟩ := receiver_some hcx ha hf hr
    rw [hcx] at hq
    have hN := names_of_resolve hq
    obtain ⟨b, fs, ms, i, m, h1, h2, h3⟩ := method_declared ha hperm hdata hf hr hN hcx'
    obtain ⟨e, hs⟩ := methodDecl_sig h3
    have := shimSig_of hs
    exact ⟨q, b, fs, ms, i, m.sig, hN, by simp [h1], by rw [← e]; exact h2, this.1, this.2⟩
  · intro f hin
    have hfst := P'.fst
    simp only [Bool.false_eq_true, if_false] at hfst
    obtain ⟨l, hl, hw⟩ := all_image hfst hin
    simp only [firstLoop] at hw
    split at hw
    · next d ts h1 h2 =>
      cases hw
      obtain ⟨c, params, ret, self, _, w2, w3, w4, w5, w6, rfl⟩ := cxxShim_cases h1
      rw [hcx] at w2 w3
      refine ⟨c.params, c.ret, self, _, ?_, sig_of false w3 w2, ?_, ?_⟩
      · have : Decl.shim c.params c.ret self f.name ⟨params, ret, isConst f.sig.receiver, false⟩ ∈ fst'.flatten :=
          List.mem_flatten.2 ⟨_, hl, by simp⟩
        simp [this]
      · refine ⟨?_, w5⟩
        intro hn
        cases hr : f.sig.receiver with
        | none => rfl
        | some r => rw [hn] at w6; cases w6 r hr
      · rintro r p hr rfl
        obtain ⟨r', hr', hp⟩ := w4 p rfl
        rw [hr] at hr'; cases hr'
        rw [hcx] at hp
        exact names_of_resolve hp
    · cases hw

theorem writeFields_get {ts : Types} {fs : List Var} {cs : List (Ident × CTok)} (h : writeFields ts fs = some cs) :
    cs.map (·.1) = fs.map (·.name.cxx) ∧
      ∀ (i : Nat) f c, fs[i]? = some f → cs[i]? = some c → writeType ts f.ty = some c.2 := by
  induction fs generalizing cs with
  | nil => cases h; simp
  | cons f fs ih =>
    simp only [writeFields] at h
    split at h
    · next c' cs' h1 h2 =>
      cases h
      obtain ⟨e, ih⟩ := ih h2
      refine ⟨by simp [e], ?_⟩
      intro i t c ht hc
      cases i with
      | zero => simp only [List.getElem?_cons_zero, Option.some.injEq] at ht hc; rw [← ht, ← hc]; exact h1
      | succ i => exact ih i t c (by simpa using ht) (by simpa using hc)
    · cases h

/-- **C80**, types.  In the header, every shared struct and enum is defined that does not come from C++, a struct with
its fields in order, under their names and with the documented types, and with the operators it derives; every opaque Rust type is a class that derives from
`::rust::Opaque`; and every C++ type is declared with `using`. -/
theorem types_offered (hcx : cx.types = collect apis) (ha : Accepted g apis) (hperm : sorted.Perm (Pod.structsOf apis))
    (hh : file true cx sorted apis = some hs) :
    (∀ s, Api.struct s ∈ apis → ¬ FromCxx apis s.name.rust →
      ∃ fields members inner, Decl.classDef s.name false fields members inner ∈ hs ∧
        fields.map (·.1) = s.fields.map (·.name.cxx) ∧
        (∀ (i : Nat) v c, s.fields[i]? = some v → fields[i]? = some c → Spells apis v.ty c.2) ∧
        ∀ op, Derives s op → ∃ m ∈ members, Compares s.name op m) ∧
    (∀ e, Api.enum e ∈ apis → ¬ FromCxx apis e.name.rust → Decl.enumDef e.name e.repr ∈ hs) ∧
    (∀ t, Api.rustType t ∈ apis → ∃ members inner, Decl.classDef t.name true [] members inner ∈ hs) ∧
    (∀ t, Api.cxxType t ∈ apis → Decl.using t.name ∈ hs) := by
  obtain ⟨data, fst, spec, snd, inst, P, rfl⟩ := file_parts hh
  have hdata := P.data
  rw [hcx] at hdata
  refine ⟨?_, ?_, ?_, ?_⟩
  · intro s hs hc
    obtain ⟨b, fs, ms, i, h⟩ := struct_defined ha hperm hdata hs hc
    obtain ⟨it, hi, hw⟩ := all_mem hdata h
    cases it with
    | struct s' ms' =>
      obtain ⟨h1, h2, rfl⟩ := item_struct hi
      simp only [dataDecl] at hw
      split at hw
      · next w1 w2 =>
        simp only [Option.some.injEq, Decl.classDef.injEq] at hw
        obtain ⟨hn, hb, hf, hm, hi⟩ := hw
        have hs' : Api.struct s' ∈ apis := (Pod.mem_structsOf _ _).1 (hperm.mem_iff.1 h1)
        have : Api.struct s' = .struct s := only_eq (only_of_own ha.1 hc) hs' hs (by rw [← hn]; rfl) rfl
        cases this
        obtain ⟨e1, e2⟩ := writeFields_get w1
        rw [← hb] at h
        refine ⟨fs, ms, i, by simp [h], hf ▸ e1, fun i v c hv hc => spells _ _ (e2 i v c hv (hf ▸ hc)), fun op hop => ?_⟩
        rw [← hm]
        refine ⟨comparison s.name op, List.mem_append.2 (.inr ?_), rfl, rfl, rfl, rfl, rfl⟩
        cases hop <;> next hd => simp [operatorMembers, hd]
      · cases hw
    | «opaque» t ms' =>
      obtain ⟨h1, rfl⟩ := dataLoop_opaque.1 hi
      obtain ⟨_, w1, w2⟩ := Option.map_eq_some_iff.1 hw
      simp only [Decl.classDef.injEq] at w2
      have : Api.rustType t = .struct s := only_eq (only_of_own ha.1 hc) h1 hs (by rw [← w2.1]; rfl) rfl
      cases this
    | enum e => cases hw
    | checkEnum e => cases hw
  · intro e he hc
    obtain ⟨d, hd, hw⟩ := all_image hdata (dataLoop_enum.2 ⟨he, by rwa [fromCxx_iff]⟩)
    cases hw
    simp [hd]
  · intro t ht
    obtain ⟨d, hd, hw⟩ := all_image hdata (dataLoop_opaque.2 ⟨ht, rfl⟩)
    obtain ⟨ms, _, rfl⟩ := Option.map_eq_some_iff.1 hw
    exact ⟨ms, ["layout"], by simp [hd]⟩
  · intro t ht
    have : Decl.using t.name ∈ apis.flatMap (forward cx.types) := List.mem_flatMap.2 ⟨_, ht, by simp [forward]⟩
    simp [this]

/-- The operators that a class declares are defined. -/
theorem operator_defined {s : Struct} {l : List Decl} (h : operatorDefs s = some l) {m : Member} (hm : m ∈ operatorMembers s) :
    ∃ calls, Decl.member s.name.ns s.name.cxx m calls ∈ l := by
  have key : ∀ (op : String) (callee : Option String), (op, callee) ∈
      ((if Trait.partialEq ∈ s.derives then
        [("operator==", some "eq"), ("operator!=", if Trait.eq ∈ s.derives then none else some "ne")] else []) ++
     (if Trait.partialOrd ∈ s.derives then
        [("operator<", some "lt"), ("operator<=", some "le"),
         ("operator>", if Trait.ord ∈ s.derives then none else some "gt"),
         ("operator>=", if Trait.ord ∈ s.derives then none else some "ge")] else [])) →
      ∃ calls, Decl.member s.name.ns s.name.cxx (comparison s.name op) calls ∈ l := by
    intro op callee hin
    obtain ⟨d, hd, hw⟩ := all_image h hin
    obtain ⟨cs, _, rfl⟩ := Option.map_eq_some_iff.1 hw
    exact ⟨cs, hd⟩
  simp only [operatorMembers, List.mem_append] at hm
  rcases hm with hm | hm
  · split at hm
    · next hd =>
      simp only [List.mem_cons, List.not_mem_nil, or_false] at hm
      rcases hm with rfl | rfl <;> exact key _ _ (List.mem_append_left _ (by rw [if_pos hd]; simp; try rfl))
    · cases hm
  · split at hm
    · next hd =>
      simp only [List.mem_cons, List.not_mem_nil, or_false] at hm
      rcases hm with rfl | rfl | rfl | rfl <;> exact key _ _ (List.mem_append_right _ (by rw [if_pos hd]; simp; try rfl))
    · cases hm

/-- **C80**, definitions.  Every member function that the header declares is defined in the source file, or is a method
that the bridge expects from C++; so are both functions of the layout of an opaque type.
Missing: methods in another namespace than their type, `method_elsewhere`. -/
theorem members_defined_partial (hcx : cx.types = collect apis) (ha : Accepted g apis)
    (hperm : sorted.Perm (Pod.structsOf apis)) (hns : ∀ a ∈ apis, Call.InNamespaceOfType apis a)
    (hh : file true cx sorted apis = some hs) (hc : file false cx sorted apis = some ss) :
    ∀ p base fields members inner, Decl.classDef p base fields members inner ∈ hs →
      (∀ m ∈ members, (∃ calls, Decl.member p.ns p.cxx m calls ∈ ss) ∨
        ∃ f r, Api.cxxFunction f ∈ apis ∧ f.sig.receiver = some r ∧ Names apis r.ty.rust p ∧ f.name.cxx = m.name ∧
          m.sig.Of apis f) ∧
      ("layout" ∈ inner → ∀ x ∈ [("size", "sizeof"), ("align", "alignof")], ∃ sym,
        operator p x.2 = some sym ∧ Decl.layout p.ns p.cxx x.1 [sym] ∈ ss) := by
  intro p base fields members inner hcl
  obtain ⟨data, h1, h2⟩ := (mem_of_types hh rfl).1 hcl
  obtain ⟨data', fst, spec, snd, inst, P, rfl⟩ := file_parts hc
  rw [hcx] at h1
  have hin : Decl.classDef p base fields members inner ∈ data := by
    rcases List.mem_append.1 h2 with h | h
    · obtain ⟨a, _, h⟩ := List.mem_flatMap.1 h
      cases a <;> simp [forward] at h
    · exact h
  have up : ∀ {a : Api}, a ∈ apis → ∃ l, secondLoop false cx a = some l ∧ ∀ d ∈ l,
      d ∈ apis.flatMap (forward cx.types) ++ data' ++ fst.flatten ++ spec.flatten ++ snd.flatten ++ inst := by
    intro a ha
    obtain ⟨l, hl, hw⟩ := all_image P.snd ha
    refine ⟨l, hw, fun d hd => ?_⟩
    have : d ∈ snd.flatten := List.mem_flatten.2 ⟨l, hl, hd⟩
    simp [this]
  have methods : ∀ {n : Ident} {ms : List Member}, p.rust = n → (∃ a ∈ apis, ∃ g, resolves a = some (p, g)) →
      ¬ FromCxx apis n → all (methodDecl (collect apis)) (methodsFor apis n) = some ms → ∀ m ∈ ms,
      (∃ calls, Decl.member p.ns p.cxx m calls ∈
        apis.flatMap (forward cx.types) ++ data' ++ fst.flatten ++ spec.flatten ++ snd.flatten ++ inst) ∨
        ∃ f r, Api.cxxFunction f ∈ apis ∧ f.sig.receiver = some r ∧ Names apis r.ty.rust p ∧ f.name.cxx = m.name ∧
          m.sig.Of apis f := by
    intro n ms hpn hres hown hms m hm
    obtain ⟨f, hf, hw⟩ := all_mem hms hm
    obtain ⟨hfin, r, hr, hrn⟩ := methodsFor_mem hf
    obtain ⟨e, hsig⟩ := methodDecl_sig hw
    have hN : Names apis r.ty.rust p := ⟨by rw [hrn]; exact hpn, hres⟩
    rcases hfin with hfin | hfin
    · exact .inr ⟨f, r, hfin, hr, hN, e.symm, (shimSig_of hsig).1⟩
    · left
      obtain ⟨l, hl, hsub⟩ := up hfin
      obtain ⟨q, hq⟩ := receiver_some hcx ha (.inr hfin) hr
      have hqp : q = p := by
        have hq' := hq
        rw [hcx] at hq'
        have hN' := names_of_resolve hq'
        obtain ⟨hp1, a, hina, g1, hr1⟩ := hN
        obtain ⟨hq1, b, hinb, g2, hr2⟩ := hN'
        have hn : q.rust = p.rust := by rw [hq1, hp1]
        obtain ⟨k1, e1⟩ := resolves_defines hr1
        obtain ⟨k2, e2⟩ := resolves_defines hr2
        have := only_eq (only_of_own ha.1 hown) hina hinb (by rw [e1, hpn]) (by rw [e2, hn, hpn])
        subst this
        rw [hr1] at hr2; cases hr2; rfl
      subst hqp
      have hsig' := hsig
      rw [← hcx, hr] at hsig'
      simp only [secondLoop, rustShim, hr, hq, hsig'] at hl
      split at hl
      · next sym s h3 h4 =>
        cases h4
        simp only [Option.map_some, Bool.false_eq_true, if_false, Option.some.injEq] at hl
        subst hl
        have := hsub _ (List.mem_singleton.2 rfl)
        rw [hns _ hfin r q hr hN, ← e] at this
        exact ⟨[sym], this⟩
      · cases hl
  rcases class_origin hperm h1 hin with ⟨s, ms', hs, hown, rfl, rfl, _, hms, rfl⟩ | ⟨t, ht, rfl, rfl, _, hms⟩
  · refine ⟨?_, by simp⟩
    intro m hm
    rcases List.mem_append.1 hm with hm | hm
    · exact methods rfl ⟨_, hs, _, rfl⟩ hown hms m hm
    · left
      obtain ⟨l, hl, hsub⟩ := up hs
      simp only [secondLoop, Bool.false_eq_true, if_false] at hl
      obtain ⟨calls, hc⟩ := operator_defined hl hm
      exact ⟨calls, hsub _ hc⟩
  · refine ⟨methods rfl ⟨_, ht, _, rfl⟩ (rust_own ha.1 ht) hms, ?_⟩
    intro _ x hx
    obtain ⟨l, hl, hsub⟩ := up ht
    simp only [secondLoop, Bool.false_eq_true, if_false] at hl
    obtain ⟨d, hd, hw⟩ := all_image (f := fun (x : String × String) => (operator t.name x.2).map fun sym =>
      Decl.layout t.name.ns t.name.cxx x.1 [sym]) hl hx
    obtain ⟨sym, hsym, rfl⟩ := Option.map_eq_some_iff.1 hw
    exact ⟨sym, hsym, hsub _ hd⟩

/-- The theorems apply to the bridge `shown`, and its header declares six methods and operators. -/
example : ∃ hs ss, file true shownCtx [inner, outer] shown = some hs ∧ file false shownCtx [inner, outer] shown = some ss ∧
    hs.filter aboutTypes = ss.filter aboutTypes ∧
    (∃ p base fields members inner sig, Names shown "R" p ∧ Decl.classDef p base fields members inner ∈ hs ∧
      ⟨"get", sig⟩ ∈ members ∧ sig.Of shown get ∧ sig.NoexceptFor get) ∧
    (∃ fields members inner, Decl.classDef outer.name false fields members inner ∈ hs ∧
      fields.map (·.1) = ["inner", "kind", "ext"]) ∧
    (∀ p base fields members inner, Decl.classDef p base fields members inner ∈ hs → ∀ m ∈ members,
      (∃ calls, Decl.member p.ns p.cxx m calls ∈ ss) ∨ m.name ∈ ["norm", "size"]) ∧
    (hs.flatMap fun | .classDef _ _ _ ms _ => ms.map (·.name) | _ => []) =
      ["sum", "norm", "operator==", "operator!=", "get", "get"] := by
  have hperm : [inner, outer].Perm (Pod.structsOf shown) := List.Perm.swap _ _ _
  obtain ⟨hs, h1⟩ := Option.isSome_iff_exists.1 (show (file true shownCtx [inner, outer] shown).isSome = true by decide +kernel)
  obtain ⟨ss, h2⟩ := Option.isSome_iff_exists.1 shown_ok.2.2.2.1
  have own : ∀ n ∈ ["R", "Outer"], ¬ FromCxx shown n := by
    intro n hn hc
    rw [← fromCxx_iff] at hc
    have : (collect shown).cxx = ["Ext"] := by decide +kernel
    rw [this] at hc
    simp only [List.mem_cons, List.not_mem_nil, or_false] at hn hc
    rcases hn with rfl | rfl <;> exact absurd hc (by decide)
  refine ⟨hs, ss, h1, h2, (header_agrees h1 h2).1, ?_, ?_, ?_, ?_⟩
  · exact (functions_offered rfl shown_ok.1 hperm h1 h2).2.1 get _ (.inr (by simp [shown])) rfl (own _ (by simp))
  · obtain ⟨f, m, i, h, e, _⟩ := (types_offered rfl shown_ok.1 hperm h1).1 outer (by simp [shown]) (own _ (by simp [outer, pr]))
    exact ⟨f, m, i, h, e.trans rfl⟩
  · intro p b fs ms i hcl m hm
    rcases (members_defined_partial rfl shown_ok.1 hperm shown_inside h1 h2 p b fs ms i hcl).1 m hm with h | ⟨f, r, hf, hr, hN, e, _⟩
    · exact .inl h
    · right
      rw [← e]
      have hf' := hf
      simp only [shown, List.mem_cons, Api.cxxFunction.injEq, reduceCtorEq, List.not_mem_nil, or_false, false_or] at hf'
      rcases hf' with rfl | rfl | rfl
      · decide
      · decide
      · cases hr
  · have : (file true shownCtx [inner, outer] shown).map
      (fun hs => hs.flatMap fun | .classDef _ _ _ ms _ => ms.map (·.name) | _ => []) =
      some ["sum", "norm", "operator==", "operator!=", "get", "get"] := by decide +kernel
    rw [h1] at this; simpa using this

end Verif.Unit
