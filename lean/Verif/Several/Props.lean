import Verif.Several.Spec
import Verif.Prototype.Claims
/-!
# C109: the bridges of a file do not disturb each other
-/
namespace Verif.Several
open Verif.Syntax Verif.Types Verif.Check Verif.Parse Verif.Abi Verif.RustSig Verif.CxxText Verif.Mangle Verif.Prototype

/-! ### One bridge among others -/

theorem definitions_append (a b : List Api) (n : Ident) : definitions (a ++ b) n = definitions a n ++ definitions b n := by
  simp [definitions]

theorem definitions_flatten_nil {l : List (List Api)} {n : Ident} (h : ∀ b ∈ l, definitions b n = []) :
    definitions l.flatten n = [] := by
  induction l with
  | nil => rfl
  | cons b l ih =>
    rw [List.flatten_cons, definitions_append, h b List.mem_cons_self, ih fun c hc => h c (List.mem_cons_of_mem _ hc)]; rfl

/-- `b` stands between other items that define no name that `b` defines. -/
structure Inside (b all : List Api) : Prop where
  parts : ∃ pre post, all = pre ++ b ++ post ∧
    ∀ n, definitions b n ≠ [] → definitions pre n = [] ∧ definitions post n = []

theorem inside {bs : List (List Api)} (ha : Apart bs) {b : List Api} (hb : b ∈ bs) : Inside b (file bs) := by
  obtain ⟨l, r, rfl⟩ := List.append_of_mem hb
  refine ⟨l.flatten, r.flatten, by simp [file], fun n hn => ?_⟩
  rw [Apart, List.pairwise_append, List.pairwise_cons] at ha
  refine ⟨definitions_flatten_nil fun c hc => ?_, definitions_flatten_nil fun c hc => ?_⟩
  · exact (ha.2.2 c hc b List.mem_cons_self n).resolve_right hn
  · exact (ha.2.1.1 c hc n).resolve_left hn

theorem defines_of_mem {apis : List Api} {a : Api} (ha : a ∈ apis) {d : Ident × Kind} (hd : defines a = some d) :
    definitions apis d.1 ≠ [] := by
  intro h
  have : d.2 ∈ definitions apis d.1 := by
    rw [definitions, List.mem_map]
    exact ⟨d, List.mem_filter.2 ⟨List.mem_filterMap.2 ⟨a, ha, hd⟩, by simp⟩, rfl⟩
  rw [h] at this; cases this

variable {b all : List Api}

theorem Inside.sub (h : Inside b all) {a : Api} (ha : a ∈ b) : a ∈ all := by
  obtain ⟨pre, post, rfl, _⟩ := h.parts; simp [ha]

theorem Inside.definitions (h : Inside b all) {n : Ident} (hn : definitions b n ≠ []) :
    definitions all n = definitions b n := by
  obtain ⟨pre, post, rfl, hd⟩ := h.parts
  rw [definitions_append, definitions_append, (hd n hn).1, (hd n hn).2]; simp

theorem Inside.back (h : Inside b all) {a : Api} (ha : a ∈ all) {d : Ident × Kind} (hd : defines a = some d)
    (hn : Types.definitions b d.1 ≠ []) : a ∈ b := by
  obtain ⟨pre, post, rfl, hp⟩ := h.parts
  simp only [List.mem_append] at ha
  rcases ha with (ha | ha) | ha
  · exact absurd (hp _ hn).1 (defines_of_mem ha hd)
  · exact ha
  · exact absurd (hp _ hn).2 (defines_of_mem ha hd)

theorem Inside.occurs (h : Inside b all) {t : Ty} (ho : Occurs b t) : Occurs all t := by
  obtain ⟨a, ha, w⟩ := ho; exact ⟨a, h.sub ha, w⟩

theorem defines_struct (s : Struct) : defines (.struct s) = some (s.name.rust, .shared) := rfl

theorem defines_enum (e : Enum) : ∃ k, defines (.enum e) = some (e.name.rust, k) := by
  unfold defines; split <;> simp_all

theorem defines_resolves (a : Api) : (defines a).map (·.1) = (resolves a).map (·.1.rust) := by
  cases a <;> simp [defines, resolves]

theorem field_occurs {s : Struct} (hs : Api.struct s ∈ b) {f : Var} (hf : f ∈ s.fields) : Occurs b f.ty :=
  ⟨_, hs, f.ty, by simp only [writtenTypes, List.mem_map]; exact ⟨f, hf, rfl⟩, .self _⟩

/-! ### What is said of a type -/

variable {g : Generator}

theorem defined (hb : Accepted g b) {n : NamedType} (ho : Occurs b (.ident n)) (hat : Atom.fromStr n.rust = none) :
    definitions b n.rust ≠ [] := ((names_resolve hb).1 n ho hat).1

theorem improper_same (h : Inside b all) (hb : Accepted g b) {t : Ty} (ho : Occurs b t) :
    Improper.Improper b t ↔ Improper.Improper all t := by
  constructor
  · intro hi
    induction hi with
    | string g => exact .string g
    | rustType t hat hs hk =>
      have hn := defined hb ho hat
      exact .rustType t hat (fun s hs' he => hs s (h.back hs' (defines_struct s) (he ▸ hn)) he) (h.definitions hn ▸ hk)
    | «alias» t hat hs hk =>
      have hn := defined hb ho hat
      exact .«alias» t hat (fun s hs' he => hs s (h.back hs' (defines_struct s) (he ▸ hn)) he) (h.definitions hn ▸ hk)
    | field t hat s hs hn f hf _ ih => exact .field t hat s (h.sub hs) hn f hf (ih (field_occurs hs hf))
    | box t => exact .box t
    | vec t => exact .vec t
    | str p l m t => exact .str p l m t
    | fn u as r th => exact .fn u as r th
    | void => exact .void
    | slice l m t => exact .slice l m t
    | ref p l m t _ ih => exact .ref p l m t (ih (occurs_part ho (.ref p l m t)))
    | ptr m t _ ih => exact .ptr m t (ih (occurs_part ho (.ptr m t)))
    | array t n _ ih => exact .array t n (ih (occurs_part ho (.array t n)))
  · intro hi
    induction hi with
    | string g => exact .string g
    | rustType t hat hs hk =>
      have hn := defined hb ho hat
      exact .rustType t hat (fun s hs' he => hs s (h.sub hs') he) (h.definitions hn ▸ hk)
    | «alias» t hat hs hk =>
      have hn := defined hb ho hat
      exact .«alias» t hat (fun s hs' he => hs s (h.sub hs') he) (h.definitions hn ▸ hk)
    | field t hat s hs hn f hf _ ih =>
      have hs' := h.back hs (defines_struct s) (hn ▸ defined hb ho hat)
      exact .field t hat s hs' hn f hf (ih (field_occurs hs' hf))
    | box t => exact .box t
    | vec t => exact .vec t
    | str p l m t => exact .str p l m t
    | fn u as r th => exact .fn u as r th
    | void => exact .void
    | slice l m t => exact .slice l m t
    | ref p l m t _ ih => exact .ref p l m t (ih (occurs_part ho (.ref p l m t)))
    | ptr m t _ ih => exact .ptr m t (ih (occurs_part ho (.ptr m t)))
    | array t n _ ih => exact .array t n (ih (occurs_part ho (.array t n)))

theorem plain_same (h : Inside b all) (hb : Accepted g b) {t : Ty} (ho : Occurs b t) :
    Pod.Plain b t ↔ Pod.Plain all t := by
  constructor
  · intro hp
    induction hp with
    | numeric t hn => exact .numeric t hn
    | enum t hat e he hn hs =>
      have hd := defined hb ho hat
      exact .enum t hat e (h.sub he) hn fun s hs' he' => hs s (h.back hs' (defines_struct s) (he' ▸ hd)) he'
    | struct t hat s hs hn hp _ ih => exact .struct t hat s (h.sub hs) hn hp fun f hf => ih f hf (field_occurs hs hf)
    | ref p l m t => exact .ref p l m t
    | ptr m t => exact .ptr m t
    | str p l m t => exact .str p l m t
    | slice l m t => exact .slice l m t
    | fn u as r th => exact .fn u as r th
    | array t n _ ih => exact .array t n (ih (occurs_part ho (.array t n)))
  · intro hp
    induction hp with
    | numeric t hn => exact .numeric t hn
    | enum t hat e he hn hs =>
      obtain ⟨k, hk⟩ := defines_enum e
      exact .enum t hat e (h.back he hk (hn ▸ defined hb ho hat)) hn fun s hs' he' => hs s (h.sub hs') he'
    | struct t hat s hs hn hp _ ih =>
      have hs' := h.back hs (defines_struct s) (hn ▸ defined hb ho hat)
      exact .struct t hat s hs' hn hp fun f hf => ih f hf (field_occurs hs' hf)
    | ref p l m t => exact .ref p l m t
    | ptr m t => exact .ptr m t
    | str p l m t => exact .str p l m t
    | slice l m t => exact .slice l m t
    | fn u as r th => exact .fn u as r th
    | array t n _ ih => exact .array t n (ih (occurs_part ho (.array t n)))

theorem find_none {apis : List Api} {n : Ident} (h : definitions apis n = []) :
    (apis.filterMap resolves).reverse.find? (fun r => decide (r.1.rust = n)) = none := by
  rw [List.find?_eq_none]
  intro r hr he
  obtain ⟨a, ha, har⟩ := List.mem_filterMap.1 (List.mem_reverse.1 hr)
  have hd := defines_resolves a
  rw [har] at hd
  obtain ⟨d, hd, hdn⟩ := Option.map_eq_some_iff.1 hd
  refine defines_of_mem ha hd ?_
  rw [hdn]; dsimp only; rw [of_decide_eq_true he, h]

theorem resolutions_same (h : Inside b all) {n : Ident} (hn : definitions b n ≠ []) :
    mapGet (collect all).resolutions n = mapGet (collect b).resolutions n := by
  rw [(gathers all).resolutions, (gathers b).resolutions]
  obtain ⟨pre, post, rfl, hd⟩ := h.parts
  simp only [List.filterMap_append, List.reverse_append, List.find?_append, find_none (hd n hn).1, find_none (hd n hn).2]
  simp

theorem resolve_same (h : Inside b all) {n : Ident} (hn : definitions b n ≠ []) :
    resolve (collect all) n = resolve (collect b) n := by rw [resolve, resolve, resolutions_same h hn]

/-! ### The expansion -/

/-- What the macro asks about the types of the bridge `b` has the same answers in both contexts. -/
structure Answers (b : List Api) (cx cx' : Ctx) : Prop where
  improper : ∀ t, Occurs b t → cx.isImproper t = cx'.isImproper t
  indirect : ∀ t, Occurs b t → cx.needsIndirect t = cx'.needsIndirect t

theorem answers (h : Inside b all) (hb : Accepted g b) (hall : (collect all).dups = []) {cx cx' : Ctx} (hcx : CtxFor b cx)
    (hcx' : CtxFor all cx') : Answers b cx cx' := by
  have hi : ∀ t, Occurs b t → cx.isImproper t = cx'.isImproper t := fun t ho => by
    rw [Bool.eq_iff_iff, isImproper_iff hb.1 hcx, isImproper_iff hall hcx']; exact improper_same h hb ho
  refine ⟨hi, fun ty ho => ?_⟩
  have hp : cx.isPod ty = cx'.isPod ty := by
    rw [Bool.eq_iff_iff, isPod_iff hb.1 hcx ho, isPod_iff hall hcx' (h.occurs ho)]; exact plain_same h hb ho
  cases ty <;> simp only [Ctx.needsIndirect, hp, hi _ ho]

variable {cx cx' : Ctx}

theorem externTy_same (h : Answers b cx cx') (proper : Bool) {t : Ty} (ho : Occurs b t) :
    externTy cx proper t = externTy cx' proper t := by
  induction t using Ty.induct with
  | rustBox t ih =>
    have := occurs_part ho (.rustBox t); simp only [externTy, h.improper t this, ih this]
  | uniquePtr t ih =>
    have := occurs_part ho (.uniquePtr t); simp only [externTy, h.improper t this, ih this]
  | rustVec t ih =>
    have := occurs_part ho (.rustVec t); simp only [externTy, ih this]
  | ref p l m t ih =>
    have ho' := occurs_part ho (.ref p l m t)
    have hi := h.improper t ho'
    have ih := ih ho'
    cases t <;> simp only [externTy, hi]
    next v => simp only [externTy, privateTy] at ih ⊢; simpa [cxxPath] using ih
  | ptr m t ih => simp only [externTy, h.improper t (occurs_part ho (.ptr m t))]
  | _ => simp only [externTy]

theorem declArgTy_same (h : Answers b cx cx') {t : Ty} (ho : Occurs b t) : declArgTy cx t = declArgTy cx' t := by
  cases t <;> simp only [declArgTy, externTy_same h true ho, h.indirect _ ho]

theorem rustArgTy_same (h : Answers b cx cx') {t : Ty} (ho : Occurs b t) : rustArgTy cx t = rustArgTy cx' t := by
  simp only [rustArgTy, externTy_same h false ho, h.indirect _ ho]

theorem outArg_same (h : Answers b cx cx') (proper : Bool) {ret : Option Ty} (ho : ∀ t, ret = some t → Occurs b t)
    (throws : Bool) : outArg cx proper ret throws = outArg cx' proper ret throws := by
  cases ret with
  | none => rfl
  | some t => simp only [outArg, indirectReturnR, externTy_same h proper (ho t rfl), h.indirect _ (ho t rfl)]; rfl

theorem externReturn_same (h : Answers b cx cx') (proper : Bool) {ret : Option Ty} (ho : ∀ t, ret = some t → Occurs b t)
    (throws : Bool) : externReturn cx proper ret throws = externReturn cx' proper ret throws := by
  cases ret with
  | none => rfl
  | some t => simp only [externReturn, externTy_same h proper (ho t rfl), h.indirect _ (ho t rfl)]

theorem cxxDecl_same (h : Answers b cx cx') {f : ExternFn} (hf : HasFn b f) : cxxDecl cx f = cxxDecl cx' f := by
  have h1 : f.sig.args.map (fun a => (some a.name.rust, declArgTy cx a.ty)) =
      f.sig.args.map (fun a => (some a.name.rust, declArgTy cx' a.ty)) :=
    List.map_congr_left fun a ha => by rw [declArgTy_same h (arg_occurs hf ha)]
  simp only [cxxDecl, h1, outArg_same h true (fun t ht => ret_occurs hf ht), externReturn_same h true fun t ht => ret_occurs hf ht]

theorem rustExport_same (h : Answers b cx cx') {f : ExternFn} (hf : HasFn b f) : rustExport cx f = rustExport cx' f := by
  have h1 : f.sig.args.map (fun a => (some a.name.rust, rustArgTy cx a.ty)) =
      f.sig.args.map (fun a => (some a.name.rust, rustArgTy cx' a.ty)) :=
    List.map_congr_left fun a ha => by rw [rustArgTy_same h (arg_occurs hf ha)]
  simp only [rustExport, h1, outArg_same h false (fun t ht => ret_occurs hf ht), externReturn_same h false fun t ht => ret_occurs hf ht]

theorem trampolineFn_same (h : Answers b cx cx') {f : ExternFn} {u th : Bool} {args : List (Ident × Ty)} {ret : Option Ty}
    (ho : Occurs b (.fn u (args.map (·.2)) ret th)) : trampolineFn cx f args ret th = trampolineFn cx' f args ret th := by
  have h1 : args.map (fun a => (some a.1, rustArgTy cx a.2)) = args.map (fun a => (some a.1, rustArgTy cx' a.2)) :=
    List.map_congr_left fun a ha => by rw [rustArgTy_same h (occurs_part ho (.fnArg _ _ _ _ (List.mem_map.2 ⟨a, ha, rfl⟩)))]
  have hr : ∀ t, ret = some t → Occurs b t := by rintro t rfl; exact occurs_part ho (.fnRet _ _ _ _)
  simp only [trampolineFn, h1, outArg_same h false hr, externReturn_same h false hr]

theorem externFn_same (h : Inside b all) (hb : Accepted g b) {f : ExternFn} (hf : HasFn b f) :
    externFn (collect b) f = externFn (collect all) f := by
  unfold externFn
  cases hr : f.sig.receiver with
  | none => rfl
  | some r => simp only [resolve_same h ((names_resolve hb).2.1 f hf r hr).1]

theorem hasFn_inside (h : Inside b all) {f : ExternFn} (hf : HasFn b f) : HasFn all f := hf.imp h.sub h.sub

/-! ### C109 -/

variable {bs : List (List Api)} {cxR cxC : Ctx}

/-- **C109**.  A C++ function that Rust calls, in a file with any number of bridges: the declaration that the macro makes from
its bridge alone, and the line that the C++ generator writes from all the bridges of the file, are of the same function.
Missing: names that one bridge gives to a struct or enum and another one to a type of C++ (`halved_disagrees`). -/
theorem cxx_function_partial (ha : Apart bs) (hfile : Accepted .build (file bs)) {b : List Api} (hb : b ∈ bs)
    (hmacro : Accepted .macro b) (hlex : LexicalBridge (file bs)) (hl : LegalNames (file bs)) (hw : StrWritten (file bs))
    (hu : NoUnit (file bs)) (hR : CtxFor b cxR) (hC : CtxFor (file bs) cxC) {f : ExternFn} (hf : Api.cxxFunction f ∈ b)
    (hn : LegalFn f) :
    ∃ line c r link, cxxLine cxC f = some line ∧ declOf line = some c ∧
      reads (meaningRet false) [] none (cxxDecl cxR f) = some r ∧ (cxxFunctionR cxR f).symbol = some link ∧
      SameFunction (file bs) link r c := by
  have hin := inside ha hb
  have hsame := answers hin hmacro hfile.1 hR hC
  obtain ⟨line, c, r, link, h1, h2, h3, h4, h5⟩ :=
    cxx_texts_agree_partial hfile hlex hl hw hu hC hC (hin.sub hf) hn
  refine ⟨line, c, r, link, h1, h2, ?_, ?_, h5⟩
  · rw [cxxDecl_same hsame (.inl hf)]; exact h3
  · simp only [cxxFunctionR, hR.types, hC.types] at h4 ⊢
    rw [externFn_same hin hmacro (.inl hf)]; exact h4

/-- **C109**.  A Rust function that C++ calls. -/
theorem rust_function_partial (ha : Apart bs) (hfile : Accepted .build (file bs)) {b : List Api} (hb : b ∈ bs)
    (hmacro : Accepted .macro b) (hlex : LexicalBridge (file bs)) (hl : LegalNames (file bs)) (hw : StrWritten (file bs))
    (hR : CtxFor b cxR) (hC : CtxFor (file bs) cxC) {f : ExternFn} (hf : Api.rustFunction f ∈ b) (hlang : f.lang = .rust)
    (hn : LegalFn f) :
    ∃ line c r link, rustLine cxC f = some line ∧ declOf line = some c ∧
      reads (meaningRet false) [] none (rustExport cxR f) = some r ∧ (rustFunctionR cxR f).symbol = some link ∧
      SameFunction (file bs) link r c := by
  have hin := inside ha hb
  have hsame := answers hin hmacro hfile.1 hR hC
  obtain ⟨line, c, r, link, h1, h2, h3, h4, h5⟩ := rust_texts_agree hfile hlex hl hw hC hC (hin.sub hf) hlang hn
  refine ⟨line, c, r, link, h1, h2, ?_, ?_, h5⟩
  · rw [rustExport_same hsame (.inr hf)]; exact h3
  · simp only [rustFunctionR, rustShimR, hR.types, hC.types] at h4 ⊢
    rw [externFn_same hin hmacro (.inr hf)]; exact h4

/-- **C109**.  The Rust half of the trampoline of a function pointer.  Missing as in `trampoline_texts_agree_partial`, too. -/
theorem trampoline_partial (ha : Apart bs) (hfile : Accepted .build (file bs)) {b : List Api} (hb : b ∈ bs)
    (hmacro : Accepted .macro b) (hlex : LexicalBridge (file bs)) (hl : LegalNames (file bs)) (hw : StrWritten (file bs))
    (hR : CtxFor b cxR) (hC : CtxFor (file bs) cxC) {f : ExternFn} (hf : Api.cxxFunction f ∈ b)
    (hn : LegalFn f) {var : Var} (hv : var ∈ f.sig.args) (hvar : isWord var.name.rust.toList = true)
    {u th : Bool} {args : List (Ident × Ty)} {ret : Option Ty} (hty : var.ty = .fn u (args.map (·.2)) ret th)
    (hargs : ∀ a ∈ args, ¬ Odd a.2 ∧ isName a.1.toList = true) (hret : ∀ t, ret = some t → ¬ Odd t) :
    ∃ line c r link, trampolineLine cxC f var.name args ret th = some line ∧ declOf line = some c ∧
      reads (meaningRet false) [] none (trampolineFn cxR f args ret th) = some r ∧
      (trampolineR cxR f var.name (args.map (·.2)) ret th).symbol = some link ∧ SameFunction (file bs) link r c := by
  have hin := inside ha hb
  have hsame := answers hin hmacro hfile.1 hR hC
  obtain ⟨line, c, r, link, h1, h2, h3, h4, h5⟩ :=
    trampoline_texts_agree_partial hfile hlex hl hw hC hC (hin.sub hf) hn hv hvar hty hargs hret
  refine ⟨line, c, r, link, h1, h2, ?_, ?_, h5⟩
  · rw [trampolineFn_same hsame (hty ▸ arg_occurs (.inl hf) hv)]; exact h3
  · simp only [trampolineR, rustShimR, rTrampoline, hR.types, hC.types] at h4 ⊢
    rw [externFn_same hin hmacro (.inl hf)]; exact h4

/-- **C109**.  The instantiations that the C++ generator writes for the file are those that the macro makes for its bridges, and
the functions behind each of them have the same names. -/
theorem instances_partial (ha : Apart bs) (hmacro : ∀ b ∈ bs, Accepted .macro b) :
    (∀ k, k ∈ (collect (file bs)).impls.map (·.1) ↔ ∃ b ∈ bs, k ∈ (collect b).impls.map (·.1)) ∧
    ∀ b ∈ bs, ∀ k ∈ (collect b).impls.map (·.1), rustInst (collect b) k = cxxInst (collect (file bs)) k := by
  have hdef : ∀ b ∈ bs, ∀ k ∈ (collect b).impls.map (·.1), definitions b k.rust ≠ [] := by
    intro b hb k hk hn
    have := ((names_resolve (hmacro b hb)).2.2 k hk).2
    rw [(gathers b).resolutions] at this
    exact this (find_none hn)
  have hal : ∀ b ∈ bs, ∀ n, definitions b n ≠ [] → (Kind.alias ∈ definitions (file bs) n ↔ Kind.alias ∈ definitions b n) := by
    intro b hb n hn; rw [(inside ha hb).definitions hn]
  constructor
  · intro k
    constructor
    · intro hk
      rcases (impls_exact _ k).1 hk with ⟨i, hi, he⟩ | ⟨hat, hna, t, ⟨a, hat', w⟩, he⟩
      · obtain ⟨b, hb, hib⟩ := List.mem_flatten.1 hi
        exact ⟨b, hb, (impls_exact b k).2 (.inl ⟨i, hib, he⟩)⟩
      · obtain ⟨b, hb, hab⟩ := List.mem_flatten.1 hat'
        refine ⟨b, hb, (impls_exact b k).2 (.inr ⟨hat, fun hal' => hna ?_, t, ⟨a, hab, w⟩, he⟩)⟩
        exact (hal b hb k.rust (fun h => by rw [h] at hal'; cases hal')).2 hal'
    · rintro ⟨b, hb, hk⟩
      have hn := hdef b hb k hk
      rcases (impls_exact b k).1 hk with ⟨i, hi, he⟩ | ⟨hat, hna, t, ho, he⟩
      · exact (impls_exact _ k).2 (.inl ⟨i, (inside ha hb).sub hi, he⟩)
      · exact (impls_exact _ k).2 (.inr ⟨hat, fun h => hna ((hal b hb _ hn).1 h), t, (inside ha hb).occurs ho, he⟩)
  · intro b hb k hk
    have hn := hdef b hb k hk
    have hin := inside ha hb
    have hs : mapHas (collect b).structs k.rust = mapHas (collect (file bs)).structs k.rust := by
      rw [Bool.eq_iff_iff, (gathers b).hasStruct, (gathers (file bs)).hasStruct]
      exact ⟨fun ⟨s, h1, h2⟩ => ⟨s, hin.sub h1, h2⟩, fun ⟨s, h1, h2⟩ => ⟨s, hin.back h1 (defines_struct s) (h2 ▸ hn), h2⟩⟩
    have he : mapHas (collect b).enums k.rust = mapHas (collect (file bs)).enums k.rust := by
      rw [Bool.eq_iff_iff, (gathers b).hasEnum, (gathers (file bs)).hasEnum]
      refine ⟨fun ⟨s, h1, h2⟩ => ⟨s, hin.sub h1, h2⟩, fun ⟨e, h1, h2⟩ => ?_⟩
      obtain ⟨k', hk'⟩ := defines_enum e
      exact ⟨e, hin.back h1 hk' (h2 ▸ hn), h2⟩
    have hl : mapHas (collect b).aliases k.rust = mapHas (collect (file bs)).aliases k.rust := by
      rw [Bool.eq_iff_iff, (gathers b).aliases, (gathers (file bs)).aliases]; exact (hal b hb _ hn).symm
    have ht : isMaybeTrivial (collect b) k.rust = isMaybeTrivial (collect (file bs)) k.rust := by
      simp only [isMaybeTrivial, hs, he, hl]
    rw [← instantiation_symbols_agree]
    unfold rustInst
    rw [resolve_same hin hn, ht]

theorem apart_of_one (hone : ∀ n, (definitions (file bs) n).length ≤ 1) : Apart bs := by
  induction bs with
  | nil => exact List.Pairwise.nil
  | cons b bs ih =>
    have hone' : ∀ n, (definitions b n).length + (definitions bs.flatten n).length ≤ 1 := by
      intro n; have := hone n
      rwa [file, List.flatten_cons, definitions_append, List.length_append] at this
    refine List.Pairwise.cons (fun c hc n => ?_) (ih fun n => by have := hone' n; rw [file]; omega)
    by_cases hb : definitions b n = []
    · exact .inl hb
    right
    have h1 : 0 < (definitions b n).length := List.length_pos_iff.2 hb
    have h2 : definitions bs.flatten n = [] := List.length_eq_zero_iff.1 (by have := hone' n; omega)
    obtain ⟨l, r, rfl⟩ := List.append_of_mem hc
    rw [List.flatten_append, List.flatten_cons, definitions_append, definitions_append] at h2
    simp at h2; exact h2.2.1

/-- **C109**.  A file is accepted only if its bridges are apart, or if one of them declares a struct or enum that another one
declares as a type of C++. -/
theorem apart_or_halved (hfile : Accepted .build (file bs)) : Apart bs ∨ ∃ n, Halved bs n := by
  by_cases hh : ∃ n, Halved bs n
  · exact .inr hh
  refine .inl ?_
  have hone : ∀ n, (definitions (file bs) n).length ≤ 1 := by
    intro n
    have := ((duplicates_exact _).1 hfile.1).1 n
    have hno : ¬ Halved bs n := fun h => hh ⟨n, h⟩
    simp only [Halved, List.mem_cons, List.not_mem_nil, or_false] at hno
    simp only [Compatible, Tolerated] at this
    simp only [not_or] at hno
    rcases this with (h | h | h) | h | h | h
    · exact h
    all_goals simp_all
  exact apart_of_one hone

end Verif.Several
