import Verif.Panics.Spec
import Verif.Unit.Props
import Verif.Check.Exact
/-!
# An accepted bridge is generated without a panic
-/
namespace Verif.Panics
open Verif.Syntax Verif.Types Verif.Check Verif.Check.Rules Verif.Mangle Verif.Abi

/-! ### The macro -/

theorem newIdent_iff (u : Chars) (s : List Char) : newIdent u s = true ↔ IsIdent u s := by
  cases s with
  | nil => simp [newIdent, IsIdent]
  | cons c cs =>
    simp only [newIdent, IsIdent, Bool.and_eq_true, List.all_eq_true]
    constructor
    · intro h; exact ⟨c, cs, rfl, h.1, h.2⟩
    · rintro ⟨c', cs', he, h1, h2⟩
      cases he; exact ⟨h1, h2⟩

/-- A raw identifier is not an identifier for `Ident::new`. -/
theorem raw_not {u : Chars} (hash : u.cont '#' = false) {s : List Char} (h : IsRaw s) : ¬ IsIdent u s := by
  obtain ⟨rest, rfl⟩ := h
  rintro ⟨c, cs, he, _, h2⟩
  cases he
  have := h2 '#' (by simp)
  rw [hash] at this; cases this

theorem outparam_ok (needs : Ty → Bool) (ret : Option Ty) (throws : Bool) : outparam needs ret throws = true := by
  cases ret <;> simp [outparam, indirectReturn]

section
variable {g : Generator} {apis : List Api}

theorem operator_ok (hl : LexicalBridge apis) {a : Api} {p : Pair} {gs : List Ident} (hm : a ∈ apis)
    (hr : resolves a = some (p, gs)) (op : String) : (operator p op).isSome = true := by
  have hlp : LexicalPair p := lexical_type hl ⟨a, hm, gs, hr⟩
  simp only [operator, join_user hlp.1]; rfl

theorem defined {a : Api} (hm : a ∈ apis) {n : Ident} {k : Kind} (h : defines a = some (n, k)) : k ∈ definitions apis n := by
  simp only [definitions, List.mem_map, List.mem_filter, List.mem_filterMap, decide_eq_true_eq]
  exact ⟨(n, k), ⟨⟨a, hm, h⟩, rfl⟩, rfl⟩

theorem declared_known {a : Api} {p : Pair} {gs : List Ident} (hm : a ∈ apis) (hr : resolves a = some (p, gs)) :
    known (collect apis) p.rust = true := by
  have hd : ∃ k, defines a = some (p.rust, k) := by
    cases a <;> simp only [resolves, Option.some.injEq, Prod.mk.injEq, reduceCtorEq] at hr
    all_goals (rw [← hr.1]; exact ⟨_, rfl⟩)
  obtain ⟨k, hk⟩ := hd
  have := Check.resolved (List.ne_nil_of_mem (defined hm hk))
  simp only [known, resolve, Option.isSome_map]
  exact Option.isSome_iff_ne_none.2 this

theorem shared_iff {n : Ident} : (!mapHas (collect apis).structs n && !mapHas (collect apis).enums n) = true ↔
    (∀ s, .struct s ∈ apis → s.name.rust ≠ n) ∧ ∀ e, .enum e ∈ apis → e.name.rust ≠ n := by
  have h := no_shared (g := .macro) (apis := apis) n
  rw [Bool.and_eq_true, Bool.not_eq_true', Bool.not_eq_true']
  refine Iff.trans h ⟨fun hn => ⟨?_, ?_⟩, ?_⟩
  · rintro s hs rfl
    exact hn ⟨_, defined hs rfl, .inl rfl⟩
  · rintro e he rfl
    refine hn ⟨_, defined he rfl, ?_⟩
    split
    · exact .inr rfl
    · exact .inl rfl
  · rintro ⟨h1, h2⟩ ⟨k, hk, h⟩
    simp only [definitions, List.mem_map, List.mem_filter, List.mem_filterMap, decide_eq_true_eq] at hk
    obtain ⟨⟨m, k'⟩, ⟨⟨a, hm, ha⟩, hn⟩, rfl⟩ := hk
    cases a <;> simp only [defines, Option.some.injEq, Prod.mk.injEq, reduceCtorEq] at ha
    · exact h1 _ hm (ha.1.trans hn)
    · exact h2 _ hm (ha.1.trans hn)
    all_goals (obtain ⟨_, rfl⟩ := ha; simp at h)

theorem fn_ok (ha : Accepted g apis) (hl : LexicalBridge apis) {f : ExternFn} (h : DeclaresFn apis f) :
    (externFn (collect apis) f).isSome = true := by
  obtain ⟨s, hs⟩ := symbol_exists ha hl (e := .fn f) h
  have hs : externFn (collect apis) f = some s := hs
  rw [hs]; rfl

/-- The second loop runs for an item exactly when no type id is written for a raw name. -/
theorem second_ok (u : Chars) (needs : Ty → Bool) (ha : Accepted g apis) (hl : LexicalBridge apis) {a : Api} (hm : a ∈ apis) :
    secondLoop u (collect apis) needs a = true ↔
      (Identified apis a → ∀ n, cxxName a = some n → IsIdent u n.toList) := by
  have hi := ((accepted_exact g apis).1 ha).items a hm
  cases a with
  | «include» p => simp [secondLoop, Identified]
  | impl i => simp [secondLoop, Identified]
  | struct s =>
    have hops : expandStructOperators s = true := by
      simp only [expandStructOperators, List.all_eq_true]
      intro d _ op _
      exact operator_ok hl hm rfl op
    have hd : s.derives.all structDerive = true := by
      rw [List.all_eq_true]
      intro d hd
      have : d ≠ .externType := by rintro rfl; exact hi.derives hd
      cases d <;> first | rfl | exact absurd rfl this
    simp [secondLoop, expandStruct, hops, hd, typeId, newIdent_iff, Identified, cxxName]
  | enum e =>
    have hd : e.derives.all enumDerive = true := by
      rw [List.all_eq_true]
      intro d hd
      have h1 : d ≠ .externType := by rintro rfl; exact hi.derives.2 hd
      have h2 : d ≠ .default := by rintro rfl; exact hi.derives.1 hd
      cases d <;> first | rfl | exact absurd rfl h1 | exact absurd rfl h2
    simp [secondLoop, expandEnum, hd, typeId, newIdent_iff, Identified, cxxName]
  | cxxType t =>
    have hr := declared_known hm (p := t.name) rfl
    simp only [secondLoop]
    split
    · next h =>
      have h' := shared_iff.1 h
      simp only [expandCxxType, assertPinned, hr, typeId, newIdent_iff, Identified, cxxName, Bool.and_true, Option.some.injEq,
        forall_eq']
      exact ⟨fun hx _ => hx, fun hx => hx h'⟩
    · next h =>
      rw [shared_iff] at h
      simp only [Identified, true_iff]
      intro h'; exact absurd h' h
  | rustType t =>
    have hr := declared_known hm (p := t.name) rfl
    have h1 := operator_ok hl hm (p := t.name) rfl "sizeof"
    have h2 := operator_ok hl hm (p := t.name) rfl "alignof"
    simp only [secondLoop, expandRustTypeLayout, h1, h2, hr, Bool.and_self, Bool.and_true, expandRustTypeImpl, List.all_eq_true,
      Identified, cxxName, Option.some.injEq, forall_eq']
    constructor
    · intro h hd
      have := h _ hd
      rwa [if_pos rfl, typeId, newIdent_iff] at this
    · intro h d hd
      split
      · next he => subst he; rw [typeId, newIdent_iff]; exact h hd
      · rfl
  | cxxFunction f =>
    have h1 := fn_ok ha hl (f := f) (.inl hm)
    have h2 : f.sig.args.all (expandTrampoline (collect apis) needs f) = true := by
      rw [List.all_eq_true]
      intro a hma
      unfold expandTrampoline
      split
      · obtain ⟨s1, m1⟩ := symbol_exists ha hl (e := .trampoline f a.name .rust) ⟨.inl hm, a, hma, rfl⟩
        obtain ⟨s2, m2⟩ := symbol_exists ha hl (e := .trampoline f a.name .c) ⟨.inl hm, a, hma, rfl⟩
        have m1 : rTrampoline (collect apis) f a.name = some s1 := m1
        have m2 : cTrampoline (collect apis) f a.name = some s2 := m2
        rw [m1, m2, outparam_ok]; rfl
      · rfl
    have h3 : f.sig.receiver.toList.all (fun r => known (collect apis) r.ty.rust) = true := by
      rw [List.all_eq_true]
      intro r hr
      obtain ⟨p, hp⟩ := Unit.receiver_some (cx := ⟨collect apis, [], 0⟩) rfl ha (.inl hm) (by simpa using hr)
      have hp : resolve (collect apis) r.ty.rust = some p := hp
      rw [known, hp]; rfl
    simp [secondLoop, expandCxxFunction, expandCxxFunctionDecl, outparam_ok, h1, h2, h3, Identified]
  | rustFunction f =>
    have h1 := fn_ok ha hl (f := f) (.inr hm)
    simp [secondLoop, expandRustFunction, outparam_ok, h1, Identified]
  | typeAlias a => simp [secondLoop, expandAliasVerify, typeId, newIdent_iff, Identified, cxxName]

/-- **C114** for the macro.  The expansion of an accepted bridge panics exactly when it writes the type id of a type whose
C++ name is a raw identifier. -/
theorem macro_panics_exact (u : Chars) (hash : u.cont '#' = false) (needs : Ty → Bool) (ha : Accepted g apis)
    (hl : LexicalBridge apis) (hs : Spelled u apis) :
    expand u (collect apis) needs apis = false ↔ RawName apis := by
  have h1 : apis.all (firstLoop (collect apis)) = true := by
    rw [List.all_eq_true]
    intro a hm
    cases a <;> try rfl
    exact declared_known hm rfl
  have h3 : ((collect apis).impls.map (·.1)).all (fun k => (rustInst (collect apis) k).isSome) = true := by
    rw [List.all_eq_true]
    intro k hk
    obtain ⟨l, hl, _⟩ := instantiation_members ha hl hk
    rw [hl]; rfl
  simp only [expand, h1, h3, Bool.true_and, Bool.and_true]
  rw [← Bool.not_eq_true, List.all_eq_true]
  constructor
  · intro h
    apply Classical.byContradiction
    intro hn
    apply h
    intro a hm
    rw [second_ok u needs ha hl hm]
    intro hid n hc
    rcases hs a hm n hc with h | h
    · exact h
    · exact absurd ⟨a, hm, hid, n, hc, h⟩ hn
  · rintro ⟨a, hm, hid, n, hc, hr⟩ h
    exact raw_not hash hr ((second_ok u needs ha hl hm).1 (h a hm) hid n hc)

/-- **C114** for the macro, as far as it is true.  The macro expands every accepted bridge without a panic.
Missing: types whose C++ name is a raw identifier, `raw_name_panics`. -/
theorem macro_runs_partial (u : Chars) (hash : u.cont '#' = false) (needs : Ty → Bool) (ha : Accepted g apis)
    (hl : LexicalBridge apis) (hs : Spelled u apis)
    (hr : ∀ a ∈ apis, ∀ n, cxxName a = some n → ¬ IsRaw n.toList) : expand u (collect apis) needs apis = true := by
  rw [← Bool.not_eq_false, macro_panics_exact u hash needs ha hl hs]
  rintro ⟨a, hm, _, n, hc, h⟩
  exact hr a hm n hc h

/-! ### The C++ generator -/

theorem writeTypes_mem {ts : Types} {as : List Ty} {cs : List CTok} (h : writeTypes ts as = some cs) {t : Ty} (ht : t ∈ as) :
    ∃ c, writeType ts t = some c := by
  induction as generalizing cs with
  | nil => cases ht
  | cons a as ih =>
    simp only [writeTypes] at h
    split at h
    · next c cs' h1 h2 =>
      rcases List.mem_cons.1 ht with rfl | ht
      · exact ⟨_, h1⟩
      · exact ih h2 ht
    · cases h

/-- A type is printed only if all types written in it can be. -/
theorem printed_parts {ts : Types} {t w : Ty} (h : Within t w) {c : CTok} (hw : writeType ts w = some c) :
    ∃ c', writeType ts t = some c' := by
  induction h generalizing c with
  | self => exact ⟨c, hw⟩
  | part hp _ ih =>
    cases hp with
    | fnArg u as r th hm =>
      simp only [writeType] at hw
      split at hw
      · next h1 h2 => obtain ⟨c', hc⟩ := writeTypes_mem h2 hm; exact ih hc
      · cases hw
    | fnRet u as r th =>
      simp only [writeType] at hw
      split at hw
      · next h1 h2 =>
        simp only [writeOpt, Option.map_eq_some_iff] at h1
        obtain ⟨c', hc, _⟩ := h1
        exact ih hc
      · cases hw
    | _ =>
      simp only [writeType, Option.map_eq_some_iff] at hw
      obtain ⟨c', hc, _⟩ := hw
      exact ih hc

theorem unit_unprinted {ts : Types} {u : Bool} {as : List Ty} {r : Option Ty} {th : Bool} (h : .void ∈ as ∨ r = some .void) :
    writeType ts (.fn u as r th) = none := by
  cases hw : writeType ts (.fn u as r th) with
  | none => rfl
  | some c =>
    rcases h with h | rfl
    · obtain ⟨_, hc⟩ := printed_parts (.part (.fnArg u as r th h) (.self _)) hw
      simp [writeType] at hc
    · obtain ⟨_, hc⟩ := printed_parts (.part (.fnRet u as .void th) (.self _)) hw
      simp [writeType] at hc

theorem writeFields_mem {ts : Types} {fs : List Var} {cs} (h : Layout.writeFields ts fs = some cs) {f : Var} (hf : f ∈ fs) :
    ∃ c, writeType ts f.ty = some c := by
  induction fs generalizing cs with
  | nil => cases hf
  | cons a as ih =>
    simp only [Layout.writeFields] at h
    split at h
    · next c cs' h1 h2 =>
      rcases List.mem_cons.1 hf with rfl | ht
      · exact ⟨_, h1⟩
      · exact ih h2 ht
    · cases h

/-- What is written in a function of a bridge is printed in its source file. -/
theorem function_printed {cx : Ctx} {sorted : List Struct} {ds : List Unit.Decl}
    (h : Unit.file false cx sorted apis = some ds) {f : ExternFn} (hf : HasFn apis f) :
    (∃ cs, writeTypes cx.types (f.sig.args.map (·.ty)) = some cs) ∧ ∃ c, writeOpt cx.types f.sig.ret = some c := by
  unfold Unit.file at h
  split at h
  · next ds' fs hs ss is h1 h2 h3 h4 h5 =>
    rcases hf with hf | hf
    · obtain ⟨b, _, hb⟩ := Unit.all_image (by simpa using h2) hf
      simp only [Unit.firstLoop] at hb
      split at hb
      · next d ts hd ht =>
        unfold Unit.cxxShim at hd
        split at hd
        · next e1 e2 e3 e4 => exact ⟨⟨_, e3⟩, _, e2⟩
        · cases hd
      · cases hb
    · obtain ⟨b, _, hb⟩ := Unit.all_image h4 hf
      simp only [Unit.secondLoop, Unit.rustShim] at hb
      split at hb
      · next sym s e1 e2 =>
        unfold Unit.shimSig at e2
        split at e2
        · next e3 e4 => exact ⟨⟨_, e4⟩, _, e3⟩
        · cases e2
      · cases hb
  · cases h

/-- **C114** for the C++ generator.  Writing the two files of an accepted bridge panics exactly when some function pointer
in it takes or returns `()`; then the source file is one that is not written. -/
theorem generator_panics_exact {cx : Ctx} {sorted : List Struct} (hcx : cx.types = collect apis) (ha : Accepted g apis)
    (hl : LexicalBridge apis) (hperm : sorted.Perm (Pod.structsOf apis)) :
    ((Unit.file true cx sorted apis = none ∨ Unit.file false cx sorted apis = none) ↔ UnitInPointer apis) ∧
    (Unit.file true cx sorted apis = none → Unit.file false cx sorted apis = none) := by
  have key : ∀ header, Unit.file header cx sorted apis = none → UnitInPointer apis := by
    intro header h
    apply Classical.byContradiction
    intro hn
    have hu : NoUnit apis := by
      intro u as r th ho
      refine ⟨fun h => hn ⟨u, as, r, th, ho, .inl h⟩, fun h => hn ⟨u, as, r, th, ho, .inr h⟩⟩
    obtain ⟨ds, hd⟩ := Unit.file_written_partial (cx := cx) hcx ha hl hu hperm header
    rw [h] at hd; cases hd
  have back : UnitInPointer apis → Unit.file false cx sorted apis = none := by
    rintro ⟨u, as, r, th, ⟨a, hm, w, hw, hin⟩, hv⟩
    cases hfile : Unit.file false cx sorted apis with
    | none => rfl
    | some ds =>
      exfalso
      have stop : ∀ {c}, writeType (collect apis) w = some c → False := by
        intro c hc
        obtain ⟨c', hc'⟩ := printed_parts hin hc
        rw [unit_unprinted hv] at hc'; cases hc'
      have fn : ∀ f, HasFn apis f → w ∈ f.sig.args.map (·.ty) ++ f.sig.ret.toList → False := by
        intro f hf hw
        obtain ⟨⟨cs, h1⟩, ⟨c, h2⟩⟩ := function_printed hfile hf
        rw [hcx] at h1 h2
        rcases List.mem_append.1 hw with hw | hw
        · obtain ⟨c, hc⟩ := writeTypes_mem h1 hw; exact stop hc
        · have hr : f.sig.ret = some w := by simpa using hw
          rw [hr] at h2
          simp only [writeOpt, Option.map_eq_some_iff] at h2
          obtain ⟨c', hc, _⟩ := h2
          exact stop hc
      cases a with
      | struct s =>
        obtain ⟨d, hd⟩ := Layout.writeStruct_some ha hl hm
        unfold Layout.writeStruct at hd
        split at hd
        · next hf =>
          obtain ⟨f, hf', rfl⟩ := List.mem_map.1 hw
          obtain ⟨c, hc⟩ := writeFields_mem (by assumption) hf'
          exact stop hc
        · cases hd
      | enum e =>
        simp only [writtenTypes, List.mem_singleton] at hw
        subst hw
        cases hin with
        | part hp _ => cases hp
      | cxxFunction f => exact fn f (.inl hm) hw
      | rustFunction f => exact fn f (.inr hm) hw
      | impl i =>
        simp only [writtenTypes, List.mem_singleton] at hw
        subst hw
        have hi : ImplOk g i := ((accepted_exact g apis).1 ha).items _ hm
        obtain ⟨n, hn, _⟩ := hi.ty
        generalize i.ty = w at hn hin
        cases hn <;> (cases hin with
          | part hp hin => cases hp; cases hin with
            | part hp _ => cases hp)
      | _ => simp [writtenTypes] at hw
  refine ⟨⟨?_, fun h => .inr (back h)⟩, fun h => back (key true h)⟩
  rintro (h | h)
  · exact key true h
  · exact key false h

end

/-! ### Bridges that meet the hypotheses, and bridges that make the generators panic -/

section Witness

/-- The ASCII part of the tables. -/
def ascii : Chars := ⟨fun c => c.isAlpha || c == '_', fun c => c.isAlphanum || c == '_'⟩

def nm (s : Ident) : Pair := ⟨["ns"], s, s⟩

/-- A shared struct with operators, an opaque type of each language, an alias, a method, a fallible function that returns a
value, a function with a callback, and an instantiation. -/
def bridge : List Api :=
  [.struct ⟨[.partialEq, .partialOrd, .hash, .clone], nm "S", [], [⟨nm "x", .named "u32"⟩]⟩,
   .cxxType ⟨.cxx, [], nm "T", [], [], false⟩, .rustType ⟨.rust, [.externType], nm "R", [], [], false⟩,
   .typeAlias ⟨[], nm "A", []⟩,
   .cxxFunction ⟨.cxx, nm "m", ⟨false, [], some ⟨false, none, false, ⟨"T", []⟩, true⟩,
     [⟨nm "cb", .fn false [.named "u32"] (some (.named "u32")) false⟩], some (.named "S"), true⟩, false⟩,
   .rustFunction ⟨.rust, nm "f", ⟨false, [], none, [⟨nm "x", .rustBox (.named "R")⟩], some (.uniquePtr (.named "T")), true⟩,
     false⟩]

theorem bridge_accepted : Accepted .macro bridge ∧ Accepted .build bridge ∧ LexicalBridge bridge := by decide +kernel

theorem ident_of {u : Chars} {s : List Char} (h : newIdent u s = true) : IsIdent u s := (newIdent_iff u s).1 h

theorem bridge_spelled : Spelled ascii bridge ∧ ∀ a ∈ bridge, ∀ n, cxxName a = some n → ¬ IsRaw n.toList := by
  have h : ∀ a ∈ bridge, ∀ n, cxxName a = some n → newIdent ascii n.toList = true := by
    intro a ha n hn
    simp only [bridge, List.mem_cons, List.not_mem_nil, or_false] at ha
    rcases ha with rfl | rfl | rfl | rfl | rfl | rfl <;> simp only [cxxName, reduceCtorEq, Option.some.injEq] at hn
    all_goals (subst hn; decide +kernel)
  refine ⟨fun a ha n hn => .inl (ident_of (h a ha n hn)), fun a ha n hn hr => raw_not (u := ascii) (by decide) hr (ident_of (h a ha n hn))⟩

example : expand ascii (collect bridge) (fun _ => false) bridge = true :=
  macro_runs_partial ascii (by decide) _ bridge_accepted.1 bridge_accepted.2.2 bridge_spelled.1 bridge_spelled.2

/-- `type r#box;` in a block of C++. -/
def rawType : List Api := [.cxxType ⟨.cxx, [], nm "r#box", [], [], false⟩]

/-- The full **C114** is false of the code: `type r#box;` is accepted, and the macro panics on it. -/
theorem raw_name_panics (needs : Ty → Bool) : Accepted .macro rawType ∧ LexicalBridge rawType ∧ Spelled ascii rawType ∧
    expand ascii (collect rawType) needs rawType = false := by
  have hs : Spelled ascii rawType := by
    intro a ha n hn
    simp only [rawType, List.mem_singleton] at ha
    subst ha
    cases hn
    exact .inr ⟨"box".toList, by decide +kernel⟩
  refine ⟨by decide +kernel, by decide +kernel, hs, ?_⟩
  rw [macro_panics_exact ascii (by decide) needs (g := .macro) (by decide +kernel) (by decide +kernel) hs]
  exact ⟨_, .head _, ⟨by simp [rawType], by simp [rawType]⟩, _, rfl, "box".toList, by decide +kernel⟩

/-- The same name on a type for which no type id is written does no harm to the macro. -/
example (needs : Ty → Bool) : expand ascii (collect [.rustType ⟨.rust, [], nm "r#box", [], [], false⟩]) needs
    [.rustType ⟨.rust, [], nm "r#box", [], [], false⟩] = true := by
  rw [← Bool.not_eq_false, macro_panics_exact ascii (by decide) needs (g := .macro) (by decide +kernel) (by decide +kernel)]
  · rintro ⟨a, ha, hi, _⟩
    simp only [List.mem_singleton] at ha
    subst ha
    simp [Identified] at hi
  · intro a ha n hn
    simp only [List.mem_singleton] at ha
    subst ha
    cases hn
    exact .inr ⟨"box".toList, by decide +kernel⟩

/-- `fn f(cb: fn(()));` is accepted, and the C++ generator panics on it. -/
def unitArg : List Api :=
  [.cxxFunction ⟨.cxx, nm "f", ⟨false, [], none, [⟨nm "cb", .fn false [.void] none false⟩], none, false⟩, false⟩]

theorem unit_pointer_panics : Accepted .build unitArg ∧ LexicalBridge unitArg ∧
    Unit.file false ⟨collect unitArg, [], 0⟩ [] unitArg = none := by
  refine ⟨by decide +kernel, by decide +kernel, ?_⟩
  have h := generator_panics_exact (cx := ⟨collect unitArg, [], 0⟩) (sorted := []) (g := .build) (apis := unitArg) rfl
    (by decide +kernel) (by decide +kernel) (.nil)
  rcases h.1.2 ⟨false, [.void], none, false, ⟨_, .head _, _, .head _, .self _⟩, .inl (.head _)⟩ with h' | h'
  · exact h.2 h'
  · exact h'

/-- The other bridge is written. -/
example : ∀ header, ∃ ds, Unit.file header ⟨collect bridge, [], 0⟩
    [⟨[.partialEq, .partialOrd, .hash, .clone], nm "S", [], [⟨nm "x", .named "u32"⟩]⟩] bridge = some ds := by
  have h := generator_panics_exact (cx := ⟨collect bridge, [], 0⟩)
    (sorted := [⟨[.partialEq, .partialOrd, .hash, .clone], nm "S", [], [⟨nm "x", .named "u32"⟩]⟩]) (g := .build) (apis := bridge)
    rfl bridge_accepted.2.1 bridge_accepted.2.2 (.refl _)
  have hn : ¬ UnitInPointer bridge := by
    rintro ⟨u, as, r, th, ⟨a, ha, w, hw, hin⟩, hv⟩
    have hc : ∃ c, writeType (collect bridge) w = some c := by
      apply Option.isSome_iff_exists.1
      have : ∀ a ∈ bridge, ∀ w ∈ writtenTypes a, (writeType (collect bridge) w).isSome = true := by
        have : (bridge.all fun a => (writtenTypes a).all fun w => (writeType (collect bridge) w).isSome) = true := by decide +kernel
        simpa only [List.all_eq_true] using this
      exact this a ha w hw
    obtain ⟨c, hc⟩ := hc
    obtain ⟨c', hc'⟩ := printed_parts hin hc
    rw [unit_unprinted hv] at hc'; cases hc'
  intro header
  apply Option.ne_none_iff_exists'.1
  intro hf
  apply hn
  cases header
  · exact h.1.1 (.inr hf)
  · exact h.1.1 (.inl hf)

end Witness

end Verif.Panics
