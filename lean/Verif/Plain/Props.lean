import Verif.Plain.Model
import Verif.Plain.Spec
import Verif.Mangle.Props
import Verif.Abi.Props
/-!
# The names in the generated C++ are names of C++
-/
namespace Verif.Plain
open Verif.Syntax Verif.Types Verif.Mangle Verif.Check

/-! ### Texts -/

def Chars (t : List Char) : Prop := ∀ c ∈ t, nameChar c = true

theorem raw_chars {s : Ident} (h : Raw s) {t : List Char} (hs : ∀ c ∈ s.toList, c ∈ t) : ¬ Identifier t := by
  intro hi
  have : '#' ∈ s.toList := h.subset (by simp [rawMark])
  have := hi.chars _ (hs _ this)
  revert this; decide +kernel

theorem plain_name {s : Ident} (h : RustName s) (hr : ¬ Raw s) : Identifier s.toList := by
  obtain ⟨t, ht, _, e | e⟩ := h
  · rwa [e]
  · exact absurd (by unfold Raw; rw [e]; exact List.prefix_append _ _) hr

theorem reserved_chars : ∀ w ∈ reserved, '$' ∉ w.toList ∧ 'C' ∉ w.toList := by decide +kernel

theorem dollar_free {t : List Char} (h : '$' ∈ t) : ∀ w ∈ reserved, t ≠ w.toList :=
  fun w hw e => (reserved_chars w hw).1 (e ▸ h)

theorem head_append {a b : List Char} (h : a ≠ []) : (a ++ b).head? = a.head? := by
  cases a with
  | nil => exact absurd rfl h
  | cons c cs => rfl

theorem glue_chars {segs : List Symbol} (h : ∀ s ∈ segs, Chars s) : Chars (glue segs) := by
  cases segs with
  | nil => nofun
  | cons a as =>
    intro c hc
    simp only [glue, List.mem_append, List.mem_flatMap, List.mem_cons] at hc
    rcases hc with hc | ⟨s, hs, rfl | hc⟩
    · exact h a (by simp) c hc
    · decide +kernel
    · exact h s (by simp [hs]) c hc

theorem glue_head {a : Symbol} {as : List Symbol} (h : a ≠ []) : (glue (a :: as)).head? = a.head? := by
  cases a with
  | nil => exact absurd rfl h
  | cons c cs => rfl

theorem glue_name {a : Symbol} {as : List Symbol} (ha : Identifier a) (h : ∀ s ∈ as, Chars s) : Identifier (glue (a :: as)) where
  some := by cases a with
    | nil => exact absurd rfl ha.some
    | cons c cs => simp [glue]
  chars := glue_chars fun s hs => by
    rcases List.mem_cons.1 hs with rfl | hs
    · exact ha.chars
    · exact h s hs
  start := by rw [glue_head ha.some]; exact ha.start

theorem dollar_mem {a b : Symbol} {as : List Symbol} : '$' ∈ glue (a :: b :: as) := by simp [glue]

theorem mem_glue {s : Symbol} {segs : List Symbol} (h : s ∈ segs) : ∀ c ∈ s, c ∈ glue segs := by
  cases segs with
  | nil => cases h
  | cons a as =>
    intro c hc
    simp only [glue, List.mem_append, List.mem_flatMap, List.mem_cons]
    rcases List.mem_cons.1 h with rfl | h
    · exact .inl hc
    · exact .inr ⟨s, h, .inr hc⟩

/-- What `join` gives if the first segment is an identifier. -/
theorem join_name {segs : List Symbol} {t : Symbol} (h : join segs = some t) (hs : ∀ a ∈ segs.head?, Identifier a)
    (hc : ∀ s ∈ segs, Chars s) : Identifier t ∧ (2 ≤ segs.length → '$' ∈ t) := by
  match segs with
  | [] => cases h
  | a :: as =>
    have ha := hs a rfl
    rw [join_glue _ _ ha.some] at h
    cases h
    refine ⟨glue_name ha fun s h => hc s (by simp [h]), fun hl => ?_⟩
    match as with
    | [] => simp at hl
    | b :: bs => exact dollar_mem

theorem word_name {w : String} (h : (w.toList.all nameChar && !w.toList.isEmpty && !(w.toList.head?.any Char.isDigit)) = true) :
    Identifier w.toList := by
  simp only [Bool.and_eq_true, List.all_eq_true, Bool.not_eq_true', List.isEmpty_eq_false_iff] at h
  refine ⟨h.1.2, h.1.1, fun c hc => ?_⟩
  have := h.2
  rw [hc] at this
  simpa using this

theorem bridge_name : Identifier CXXBRIDGE := word_name (w := "cxxbridge1") (by decide +kernel)

/-- Segments of a namespace followed by others. -/
theorem ns_head {ns : Namespace} {rest : List Symbol} (h : ∀ n ∈ ns, Identifier n.toList) (hr : ∀ a ∈ rest.head?, Identifier a) :
    ∀ a ∈ (nsSegs ns ++ rest).head?, Identifier a := by
  cases ns with
  | nil => exact hr
  | cons n ns => intro a ha; cases ha; exact h n (by simp)

theorem ns_chars {ns : Namespace} {rest : List Symbol} (h : ∀ n ∈ ns, Identifier n.toList) (hr : ∀ s ∈ rest, Chars s) :
    ∀ s ∈ nsSegs ns ++ rest, Chars s := by
  intro s hs
  rcases List.mem_append.1 hs with hs | hs
  · obtain ⟨n, hn, rfl⟩ := List.mem_map.1 hs
    exact (h n hn).chars
  · exact hr s hs

theorem toSymbol_name {p : Pair} (h : ∀ n ∈ p.cxx :: p.ns, Identifier n.toList) {t : Symbol} (ht : toSymbol p = some t) :
    Identifier t := by
  refine (join_name ht (ns_head (fun n hn => h n (by simp [hn])) ?_) (ns_chars (fun n hn => h n (by simp [hn])) ?_)).1
  · intro a ha; cases ha; exact h _ (by simp)
  · intro s hs; cases List.mem_singleton.1 hs; exact (h _ (by simp)).chars

theorem operator_name {p : Pair} (h : ∀ n ∈ p.cxx :: p.ns, Identifier n.toList) {op : String} (ho : Chars op.toList) {t : Symbol}
    (ht : operator p op = some t) : CxxName t := by
  have hn : ∀ n ∈ p.ns, Identifier n.toList := fun n hn => h n (by simp [hn])
  have := join_name ht (ns_head hn fun a ha => by cases ha; exact bridge_name) (ns_chars hn fun s hs => by
    simp only [List.mem_cons, List.not_mem_nil, or_false] at hs
    rcases hs with rfl | rfl | rfl | rfl
    · exact bridge_name.chars
    · exact (h _ (by simp)).chars
    · exact (word_name (w := "operator") (by decide +kernel)).chars
    · exact ho)
  exact ⟨this.1, dollar_free (this.2 (by simp))⟩

theorem guard_name {pre : String} (hp : Identifier pre.toList ∧ 'C' ∈ pre.toList) {t : Symbol} (ht : Identifier t) :
    CxxName (pre.toList ++ t) := by
  refine ⟨⟨by simp [hp.1.some], fun c hc => ?_, fun c hc => ?_⟩, fun w hw e => (reserved_chars w hw).2 (e ▸ by simp [hp.2])⟩
  · rcases List.mem_append.1 hc with hc | hc
    · exact hp.1.chars c hc
    · exact ht.chars c hc
  · rw [head_append hp.1.some] at hc
    exact hp.1.start c hc

theorem local_name {t : Symbol} (ht : Identifier t) : CxxName (t ++ ['$']) := by
  refine ⟨⟨by simp, fun c hc => ?_, fun c hc => ?_⟩, dollar_free (by simp)⟩
  · rcases List.mem_append.1 hc with hc | hc
    · exact ht.chars c hc
    · cases List.mem_singleton.1 hc; decide +kernel
  · rw [head_append ht.some] at hc
    exact ht.start c hc

theorem externFn_name {ts : Types} {f : ExternFn} (hn : ∀ n ∈ f.name.ns, Identifier n.toList) (hr : Identifier f.name.rust.toList)
    (hp : ∀ r p, f.sig.receiver = some r → resolve ts r.ty.rust = some p → Identifier p.cxx.toList) {t : Symbol}
    (ht : externFn ts f = some t) : CxxName t := by
  unfold externFn at ht
  split at ht
  · next r hrc =>
    simp only [Option.bind_eq_bind, Option.bind_eq_some_iff] at ht
    obtain ⟨p, hp', ht⟩ := ht
    have := join_name ht (ns_head hn fun a ha => by cases ha; exact bridge_name) (ns_chars hn fun s hs => by
      simp only [List.mem_cons, List.not_mem_nil, or_false] at hs
      rcases hs with rfl | rfl | rfl
      · exact bridge_name.chars
      · exact (hp r p hrc hp').chars
      · exact hr.chars)
    exact ⟨this.1, dollar_free (this.2 (by simp))⟩
  · have := join_name ht (ns_head hn fun a ha => by cases ha; exact bridge_name) (ns_chars hn fun s hs => by
      simp only [List.mem_cons, List.not_mem_nil, or_false] at hs
      rcases hs with rfl | rfl
      · exact bridge_name.chars
      · exact hr.chars)
    exact ⟨this.1, dollar_free (this.2 (by simp))⟩

theorem trampoline_name {s v d t : Symbol} (hs : Identifier s) (hv : Chars v) (hd : Chars d) (h : join [s, v, d] = some t) :
    CxxName t := by
  have := join_name h (fun a ha => by cases ha; exact hs) (fun x hx => by
    simp only [List.mem_cons, List.not_mem_nil, or_false] at hx
    rcases hx with rfl | rfl | rfl
    · exact hs.chars
    · exact hv
    · exact hd)
  exact ⟨this.1, dollar_free (this.2 (by simp))⟩

theorem written_name {pre m : String} {s : Symbol} (hp : Identifier pre.toList) (hs : Chars s) (hm : Chars m.toList) :
    CxxName (written pre s m) := by
  refine ⟨⟨by simp [written], fun c hc => ?_, fun c hc => ?_⟩, dollar_free (by simp [written])⟩
  · simp only [written, List.mem_append, List.mem_cons] at hc
    rcases hc with (hc | hc) | rfl | hc
    · exact hp.chars c hc
    · exact hs c hc
    · decide +kernel
    · exact hm c hc
  · rw [written, List.append_assoc, head_append hp.some] at hc
    exact hp.start c hc

theorem ops_chars {ops : List String} (h : (ops.all fun m => m.toList.all nameChar) = true) : ∀ m ∈ ops, Chars m.toList := by
  intro m hm c hc
  exact List.all_eq_true.1 (List.all_eq_true.1 h m hm) c hc

theorem inst_names {ts : Types} {k : ImplKey} {l : List Symbol} (h : cxxInst ts k = some l)
    (hp : ∀ p, resolve ts k.rust = some p → ∀ n ∈ p.cxx :: p.ns, Identifier n.toList) : ∀ t ∈ l, CxxName t := by
  unfold cxxInst at h
  simp only [Option.bind_eq_bind, Option.bind_eq_some_iff] at h
  obtain ⟨p, hr, s, hs, h⟩ := h
  have hs := toSymbol_name (hp p hr) hs
  have key : ∀ (pre : String) (s' : Symbol) (ops : List String), Identifier pre.toList → Chars s' →
      (ops.all fun m => m.toList.all nameChar) = true → ∀ t ∈ ops.map (written pre s'), CxxName t := by
    intro pre s' ops h1 h2 h3 t ht
    obtain ⟨m, hm, rfl⟩ := List.mem_map.1 ht
    exact written_name h1 h2 (ops_chars h3 m hm)
  cases k with
  | rustBox => cases h; exact key _ _ _ (word_name (by decide +kernel)) hs.chars (by decide +kernel)
  | rustVec => cases h; exact key _ _ _ (word_name (by decide +kernel)) hs.chars (by decide +kernel)
  | uniquePtr =>
    cases h; refine key _ _ _ (word_name (by decide +kernel)) hs.chars ?_
    generalize isMaybeTrivial ts _ = b; revert b; decide +kernel
  | sharedPtr =>
    cases h; refine key _ _ _ (word_name (by decide +kernel)) hs.chars ?_
    generalize isMaybeTrivial ts _ = b; revert b; decide +kernel
  | weakPtr => cases h; exact key _ _ _ (word_name (by decide +kernel)) hs.chars (by decide +kernel)
  | cxxVector =>
    simp only [Option.bind_eq_some_iff] at h
    obtain ⟨m, hm, h⟩ := h
    cases h
    have hm : Chars m := (join_name hm (fun a ha => by cases ha; exact word_name (w := "std") (by decide +kernel)) (fun x hx => by
      simp only [List.mem_cons, List.not_mem_nil, or_false] at hx
      rcases hx with rfl | rfl | rfl
      · exact (word_name (w := "std") (by decide +kernel)).chars
      · exact (word_name (w := "vector") (by decide +kernel)).chars
      · exact hs.chars)).1.chars
    intro t ht
    rcases List.mem_append.1 ht with ht | ht
    · refine key _ _ _ (word_name (by decide +kernel)) hs.chars ?_ t ht
      generalize isMaybeTrivial ts _ = b; revert b; decide +kernel
    · exact key _ _ _ (word_name (by decide +kernel)) hm (by decide +kernel) t ht

/-! ### Bridges -/

/-- What can be chosen for C++ without trouble. -/
structure Fine (apis : List Api) : Prop where
  cxx : ∀ a ∈ apis, ∀ n, ForCxx apis a n → ¬ Raw n ∧ n ∉ reserved
  rust : ∀ a ∈ apis, ∀ n, ForRust a n → ¬ Raw n

theorem forCxx_rust {apis : List Api} (hl : RustNames apis) {a : Api} (ha : a ∈ apis) {n : Ident} (h : ForCxx apis a n) : RustName n := by
  have := hl a ha
  have pick : ∀ p ∈ namesIn a, ∀ n ∈ p.cxx :: p.ns, RustName n := by
    intro p hp n hn
    rcases List.mem_cons.1 hn with rfl | hn
    · exact (this p hp).2.1
    · exact (this p hp).1 n hn
  cases h with
  | struct h => exact pick _ (by simp [namesIn]) _ h
  | field _ h => exact (this _ (by simp only [namesIn, List.mem_cons, List.mem_map]; exact .inr ⟨_, h, rfl⟩)).2.1
  | enum h => exact pick _ (by simp [namesIn]) _ h
  | variant _ h => exact (this _ (by simp only [namesIn, List.mem_cons]; exact .inr h)).2.1
  | cxxType h => exact pick _ (by simp [namesIn]) _ h
  | rustType h => exact pick _ (by simp [namesIn]) _ h
  | «alias» h => exact pick _ (by simp [namesIn]) _ h
  | cxxFn h => exact pick _ (by simp [namesIn]) _ h
  | cxxArg h => exact (this _ (by simp only [namesIn, List.mem_cons, List.mem_map]; exact .inr ⟨_, h, rfl⟩)).2.1
  | rustFn h => exact pick _ (by simp [namesIn]) _ h
  | rustArg h => exact (this _ (by simp only [namesIn, List.mem_cons, List.mem_map]; exact .inr ⟨_, h, rfl⟩)).2.1

theorem fine_name {apis : List Api} (hl : RustNames apis) (hf : Fine apis) {a : Api} (ha : a ∈ apis) {n : Ident} (h : ForCxx apis a n) :
    CxxName n.toList :=
  ⟨plain_name (forCxx_rust hl ha h) (hf.cxx a ha n h).1,
    fun w hw e => (hf.cxx a ha n h).2 (by rw [String.toList_inj.1 e]; exact hw)⟩

theorem forRust_rust {apis : List Api} (hl : RustNames apis) {a : Api} (ha : a ∈ apis) {n : Ident} (h : ForRust a n) : RustName n := by
  have := hl a ha
  cases h with
  | cxxFn => exact (this _ (by simp [namesIn])).2.2
  | callback h _ => exact (this _ (by simp only [namesIn, List.mem_cons, List.mem_map]; exact .inr ⟨_, h, rfl⟩)).2.2
  | rustFn => exact (this _ (by simp [namesIn])).2.2

theorem resolved_name {apis : List Api} (hl : RustNames apis) (hf : Fine apis) {r : Ident} {p : Pair}
    (h : resolve (collect apis) r = some p) : ∀ n ∈ p.cxx :: p.ns, Identifier n.toList := by
  obtain ⟨⟨a, ha, g, hr⟩, -⟩ := resolve_declared h
  intro n hn
  refine (fine_name hl hf ha (n := n) ?_).1
  cases a <;> simp only [resolves, Option.some.injEq, Prod.mk.injEq, reduceCtorEq] at hr
  all_goals obtain ⟨rfl, -⟩ := hr
  · exact .struct hn
  · exact .enum hn
  · exact .cxxType hn
  · exact .rustType hn
  · exact .alias hn

theorem cxx_iff (apis : List Api) (n : Ident) : n ∈ (collect apis).cxx ↔ Elsewhere apis n := (knows apis).cxx n

theorem qualified_names {p : Pair} {t : Symbol} (ht : t ∈ qualified p) : ∃ n ∈ p.cxx :: p.ns, t = n.toList := by
  rcases List.mem_append.1 ht with ht | ht
  · obtain ⟨n, hn, rfl⟩ := List.mem_map.1 ht; exact ⟨n, by simp [hn], rfl⟩
  · exact ⟨_, by simp, List.mem_singleton.1 ht⟩

theorem mem_qualified {p : Pair} {n : Ident} (h : n ∈ p.cxx :: p.ns) : n.toList ∈ qualified p := by
  rcases List.mem_cons.1 h with rfl | h
  · simp [qualified]
  · exact List.mem_append_left _ (List.mem_map_of_mem h)

theorem operators_chars (d : List Trait) : ∀ m ∈ operators d, Chars m.toList := by
  refine ops_chars ?_
  unfold operators
  generalize d.contains .partialEq = a; generalize d.contains .eq = b; generalize d.contains .partialOrd = c
  generalize d.contains .ord = e; generalize d.contains .hash = f
  revert a b c e f; decide +kernel

theorem fine_for {apis : List Api} (hl : RustNames apis) (hf : Fine apis) {a : Api} (ha : a ∈ apis) :
    ∀ t ∈ namesFor (collect apis) a, CxxName t := by
  have cx : ∀ n, ForCxx apis a n → CxxName n.toList := fun n => fine_name hl hf ha
  have rs : ∀ n, ForRust a n → Identifier n.toList := fun n h => plain_name (forRust_rust hl ha h) (hf.rust a ha n h)
  have hfn : ∀ f : ExternFn, (∀ n ∈ f.name.ns, Identifier n.toList) → Identifier f.name.rust.toList → ∀ t,
      externFn (collect apis) f = some t → CxxName t := fun f h1 h2 t ht =>
    externFn_name h1 h2 (fun r p _ hp => resolved_name hl hf hp _ (by simp)) ht
  have qual : ∀ p : Pair, (∀ n ∈ p.cxx :: p.ns, CxxName n.toList) → ∀ t ∈ qualified p, CxxName t := by
    intro p h t ht
    obtain ⟨n, hn, rfl⟩ := qualified_names ht
    exact h n hn
  intro t ht
  cases a with
  | «include» => cases ht
  | struct s =>
    have hq : ∀ n ∈ s.name.cxx :: s.name.ns, CxxName n.toList := fun n hn => cx n (.struct hn)
    simp only [namesFor, List.mem_append, List.mem_filterMap] at ht
    rcases ht with (ht | ht) | ⟨m, hm, ht⟩
    · exact qual _ hq t ht
    · split at ht
      · cases ht
      · next hc =>
        simp only [List.mem_append, Option.mem_toList, List.mem_map, structGuard, Option.bind_eq_bind, Option.bind_eq_some_iff] at ht
        rcases ht with ⟨u, hu, ht⟩ | ⟨f, hf', rfl⟩
        · cases ht
          exact guard_name ⟨word_name (by decide +kernel), by decide +kernel⟩ (toSymbol_name (fun n hn => (hq n hn).1) hu)
        · exact cx _ (.field (fun h => hc ((cxx_iff _ _).2 h)) hf')
    · exact operator_name (fun n hn => (hq n hn).1) (operators_chars _ m hm) ht
  | enum e =>
    have hq : ∀ n ∈ e.name.cxx :: e.name.ns, CxxName n.toList := fun n hn => cx n (.enum hn)
    simp only [namesFor, List.mem_append] at ht
    rcases ht with (ht | ht) | ht
    · exact qual _ hq t ht
    · split at ht
      · cases ht
      · simp only [Option.mem_toList, enumGuard, Option.bind_eq_bind, Option.bind_eq_some_iff] at ht
        obtain ⟨u, hu, ht⟩ := ht
        cases ht
        exact guard_name ⟨word_name (by decide +kernel), by decide +kernel⟩ (toSymbol_name (fun n hn => (hq n hn).1) hu)
    · split at ht
      · cases ht
      · next hv =>
        obtain ⟨v, hv', rfl⟩ := List.mem_map.1 ht
        exact cx _ (.variant (by simpa using hv) hv')
  | cxxType y => exact qual _ (fun n hn => cx n (.cxxType hn)) t ht
  | rustType y =>
    have hq : ∀ n ∈ y.name.cxx :: y.name.ns, CxxName n.toList := fun n hn => cx n (.rustType hn)
    simp only [namesFor, List.mem_append, List.mem_filterMap] at ht
    rcases ht with (ht | ht) | ⟨m, hm, ht⟩
    · exact qual _ hq t ht
    · simp only [Option.mem_toList, structGuard, Option.bind_eq_bind, Option.bind_eq_some_iff] at ht
      obtain ⟨u, hu, ht⟩ := ht
      cases ht
      exact guard_name ⟨word_name (by decide +kernel), by decide +kernel⟩ (toSymbol_name (fun n hn => (hq n hn).1) hu)
    · exact operator_name (fun n hn => (hq n hn).1) (ops_chars (by decide +kernel) m hm) ht
  | cxxFunction f =>
    have hq : ∀ n ∈ f.name.cxx :: f.name.ns, CxxName n.toList := fun n hn => cx n (.cxxFn hn)
    have hs := hfn f (fun n hn => (hq n (by simp [hn])).1) (rs _ .cxxFn)
    simp only [namesFor, List.mem_append, Option.mem_toList, List.mem_singleton, List.mem_map, List.mem_flatMap] at ht
    rcases ht with (((ht | ht) | rfl) | ⟨v, hv, rfl⟩) | ⟨v, hv, ht⟩
    · exact qual _ hq t ht
    · exact hs t ht
    · exact local_name (rs _ .cxxFn)
    · exact cx _ (.cxxArg hv)
    · unfold callbackNames at ht
      split at ht
      · next he =>
        have hvn := rs _ (.callback hv he)
        simp only [List.mem_append, Option.mem_toList, cTrampoline, rTrampoline, Option.bind_eq_bind, Option.bind_eq_some_iff] at ht
        rcases ht with ⟨s, h1, h2⟩ | ⟨s, h1, h2⟩
        · exact trampoline_name (hs s h1).1 hvn.chars (ops_chars (ops := ["0"]) (by decide +kernel) _ (by simp)) h2
        · exact trampoline_name (hs s h1).1 hvn.chars (ops_chars (ops := ["1"]) (by decide +kernel) _ (by simp)) h2
      · cases ht
  | rustFunction f =>
    have hq : ∀ n ∈ f.name.cxx :: f.name.ns, CxxName n.toList := fun n hn => cx n (.rustFn hn)
    have hs := hfn f (fun n hn => (hq n (by simp [hn])).1) (rs _ .rustFn)
    simp only [namesFor, List.mem_append, Option.mem_toList, List.mem_flatMap, List.mem_cons, List.not_mem_nil, or_false] at ht
    rcases ht with (ht | ht) | ⟨v, hv, rfl | rfl⟩
    · exact qual _ hq t ht
    · exact hs t ht
    · exact cx _ (.rustArg hv)
    · exact local_name (cx _ (.rustArg hv)).1
  | typeAlias y => exact qual _ (fun n hn => cx n (.alias hn)) t ht
  | impl => cases ht

theorem named_fine {apis : List Api} {g : Generator} (hacc : Accepted g apis) (hl : RustNames apis)
    (h : ∀ t ∈ namesWritten apis, CxxName t) : Fine apis := by
  have h' : ∀ a ∈ apis, ∀ t ∈ namesFor (collect apis) a, CxxName t := fun a ha t ht =>
    h t (List.mem_append_left _ (List.mem_flatMap.2 ⟨a, ha, ht⟩))
  have fin : ∀ n : Ident, CxxName n.toList → ¬ Raw n ∧ n ∉ reserved := fun n hn =>
    ⟨fun hr => raw_chars hr (fun _ hc => hc) hn.1, fun hr => hn.2 n hr rfl⟩
  have lex : ∀ n, RustName n → n ≠ "" := by
    rintro n ⟨t, ht, _, e | e⟩ rfl
    · exact ht.some (by simpa using e.symm)
    · simp [rawMark] at e
  have sym : ∀ f, HasFn apis f → ∃ segs, f.name.rust.toList ∈ segs ∧ segs ≠ [] ∧ glue segs ≠ [] ∧
      externFn (collect apis) f = some (glue segs) := by
    intro f hf
    have hns : ∀ s ∈ nsSegs f.name.ns, s ≠ [] := by
      intro s hs
      obtain ⟨n, hn, rfl⟩ := List.mem_map.1 hs
      rcases hf with hf | hf
      · exact toList_ne_nil (lex n ((hl _ hf f.name (by simp [namesIn])).1 n hn))
      · exact toList_ne_nil (lex n ((hl _ hf f.name (by simp [namesIn])).1 n hn))
    have hj : ∀ rest, join (nsSegs f.name.ns ++ CXXBRIDGE :: rest) = some (glue (nsSegs f.name.ns ++ CXXBRIDGE :: rest)) := by
      intro rest
      cases hn : nsSegs f.name.ns with
      | nil => exact join_glue _ _ bridge_name.some
      | cons a as => exact join_glue _ _ (hns a (by simp [hn]))
    unfold externFn
    split
    · next r hr =>
      have := ((names_resolve hacc).2.1 f hf r hr).2
      cases hp : mapGet (collect apis).resolutions r.ty.rust with
      | none => exact absurd hp this
      | some q =>
        refine ⟨nsSegs f.name.ns ++ [CXXBRIDGE, q.1.cxx.toList, f.name.rust.toList], by simp, by simp,
          glue_ne (a := CXXBRIDGE) (by simp) bridge_name.some, ?_⟩
        simp only [resolve, hp, Option.map_some, Option.bind_eq_bind, Option.bind_some]
        exact hj _
    · exact ⟨nsSegs f.name.ns ++ [CXXBRIDGE, f.name.rust.toList], by simp, by simp,
        glue_ne (a := CXXBRIDGE) (by simp) bridge_name.some, hj _⟩
  constructor
  · intro a ha n hn
    refine fin n (h' a ha _ ?_)
    cases hn with
    | struct hn => simp only [namesFor, List.mem_append]; exact .inl (.inl (mem_qualified hn))
    | field hc hn =>
      simp only [namesFor, List.mem_append]
      refine .inl (.inr ?_)
      rw [if_neg fun h => hc ((cxx_iff _ _).1 h)]
      exact List.mem_append_right _ (List.mem_map.2 ⟨_, hn, rfl⟩)
    | enum hn => simp only [namesFor, List.mem_append]; exact .inl (.inl (mem_qualified hn))
    | variant hv hn =>
      simp only [namesFor, List.mem_append, hv]
      exact .inr (List.mem_map.2 ⟨_, hn, rfl⟩)
    | cxxType hn => exact mem_qualified hn
    | rustType hn => simp only [namesFor, List.mem_append]; exact .inl (.inl (mem_qualified hn))
    | «alias» hn => exact mem_qualified hn
    | cxxFn hn => simp only [namesFor, List.mem_append]; exact .inl (.inl (.inl (.inl (mem_qualified hn))))
    | cxxArg hn => simp only [namesFor, List.mem_append]; exact .inl (.inr (List.mem_map.2 ⟨_, hn, rfl⟩))
    | rustFn hn => simp only [namesFor, List.mem_append]; exact .inl (.inl (mem_qualified hn))
    | rustArg hn => simp only [namesFor, List.mem_append]; exact .inr (List.mem_flatMap.2 ⟨_, hn, by simp⟩)
  · intro a ha n hn hr
    cases hn with
    | cxxFn => exact raw_chars hr (fun c hc => List.mem_append_left _ hc) (h' _ ha (_ ++ ['$']) (by simp [namesFor])).1
    | @callback f v u as r th hv he =>
      obtain ⟨segs, hm, h0, h1, hs⟩ := sym f (.inl ha)
      refine raw_chars hr (t := glue (segs ++ [v.name.rust.toList, "0".toList])) (mem_glue (by simp)) (h' _ ha _ ?_).1
      simp only [namesFor, List.mem_append, List.mem_flatMap]
      refine .inr ⟨v, hv, ?_⟩
      simp only [callbackNames, he, List.mem_append, Option.mem_toList, cTrampoline, hs, Option.bind_eq_bind, Option.bind_some]
      exact .inl (trampoline_eq _ _ _ h0 h1)
    | @rustFn f =>
      obtain ⟨segs, hm, h0, h1, hs⟩ := sym f (.inr ha)
      refine raw_chars hr (mem_glue hm) (h' _ ha (glue segs) ?_).1
      simp only [namesFor, List.mem_append, Option.mem_toList]
      exact .inl (.inr hs)

/-- **C112**, for bridges without certain names.  The names in the C++ generated for an accepted bridge are names of C++ exactly if none of the names given for C++ is a raw
identifier or a reserved word, and none of the Rust names of functions, and of function pointers among their arguments, is a raw
identifier. -/
theorem names_partial {apis : List Api} {g : Generator} (hacc : Accepted g apis) (hl : RustNames apis) :
    (∀ t ∈ namesWritten apis, CxxName t) ↔
      (∀ a ∈ apis, ∀ n, ForCxx apis a n → ¬ Raw n ∧ n ∉ reserved) ∧ (∀ a ∈ apis, ∀ n, ForRust a n → ¬ Raw n) := by
  refine ⟨fun h => ⟨(named_fine hacc hl h).cxx, (named_fine hacc hl h).rust⟩, fun ⟨h1, h2⟩ t ht => ?_⟩
  have hf : Fine apis := ⟨h1, h2⟩
  rcases List.mem_append.1 ht with ht | ht
  · obtain ⟨a, ha, ht⟩ := List.mem_flatMap.1 ht
    exact fine_for hl hf ha t ht
  · obtain ⟨k, -, ht⟩ := List.mem_flatMap.1 ht
    obtain ⟨l, hl', ht⟩ := List.mem_flatten.1 ht
    exact inst_names (Option.mem_toList.1 hl') (fun p hp => resolved_name hl hf hp) t ht

/-! ### Bridges that have such names -/

/-- What makes a text a name in a bridge, computed. -/
def rustName (s : Ident) : Bool :=
  let t := if s.toList.take 2 = rawMark then s.toList.drop 2 else s.toList
  t.all (fun c => nameChar c && c != '$') && !t.isEmpty && !(t.head?.any Char.isDigit)

theorem rustName_sound {s : Ident} (h : rustName s = true) : RustName s := by
  unfold rustName at h
  simp only [Bool.and_eq_true, List.all_eq_true, Bool.not_eq_true', List.isEmpty_eq_false_iff, bne_iff_ne, ne_eq] at h
  obtain ⟨⟨h1, h2⟩, h3⟩ := h
  refine ⟨_, ⟨h2, fun c hc => (h1 c hc).1, fun c hc => ?_⟩, fun hd => (h1 _ hd).2 rfl, ?_⟩
  · rw [hc] at h3
    simpa using h3
  · split
    · next e => right; rw [← e]; exact (List.take_append_drop 2 _).symm
    · left; rfl

theorem rustNames_sound {apis : List Api}
    (h : (apis.all fun a => (namesIn a).all fun p => p.ns.all rustName && rustName p.cxx && rustName p.rust) = true) : RustNames apis := by
  intro a ha p hp
  have := List.all_eq_true.1 (List.all_eq_true.1 h a ha) p hp
  simp only [Bool.and_eq_true, List.all_eq_true] at this
  exact ⟨fun s hs => rustName_sound (this.1.1 s hs), rustName_sound this.1.2, rustName_sound this.2⟩

/-- `#[cxx_name = "type_"] fn r#type();`, in C++ or in Rust. -/
def renamed (rust : Bool) : List Api :=
  let f : ExternFn := ⟨if rust then .rust else .cxx, ⟨[], "type_", "r#type"⟩, ⟨false, [], none, [], none, false⟩, true⟩
  [if rust then .rustFunction f else .cxxFunction f]

/-- A name for C++ does not help a function that has a raw identifier in Rust. -/
theorem renamed_breaks (rust : Bool) : Accepted .build (renamed rust) ∧ Accepted .macro (renamed rust) ∧ RustNames (renamed rust) ∧
    (∀ a ∈ renamed rust, ∀ n, ForCxx (renamed rust) a n → ¬ Raw n ∧ n ∉ reserved) ∧ ∃ t ∈ namesWritten (renamed rust), ¬ CxxName t := by
  have h1 : Accepted .build (renamed rust) := by revert rust; decide +kernel
  have h2 : RustNames (renamed rust) := rustNames_sound (by revert rust; decide +kernel)
  refine ⟨h1, by clear h1 h2; revert rust; decide +kernel, h2, ?_, ?_⟩
  · intro a ha n hn
    have : ¬ rawMark <+: "type_".toList ∧ "type_" ∉ reserved := by decide +kernel
    cases rust <;> cases List.mem_singleton.1 ha <;> cases hn <;> simp_all [Raw]
  · refine Classical.byContradiction fun h => ?_
    have := ((names_partial h1 h2).1 fun t ht => Classical.byContradiction fun hn => h ⟨t, ht, hn⟩).2
    have hr : Raw "r#type" := by unfold Raw; decide +kernel
    cases rust
    · exact this _ (List.mem_singleton.2 rfl) _ .cxxFn hr
    · exact this _ (List.mem_singleton.2 rfl) _ .rustFn hr

/-- `struct P { new: u8 }`. -/
def keyword : List Api := [.struct ⟨[], ⟨[], "P", "P"⟩, [], [⟨⟨[], "new", "new"⟩, .named "u8"⟩]⟩]

/-- A field with a reserved word of C++ for a name is accepted. -/
theorem keyword_breaks : Accepted .build keyword ∧ Accepted .macro keyword ∧ RustNames keyword ∧ ∃ t ∈ namesWritten keyword, ¬ CxxName t := by
  refine ⟨by decide +kernel, by decide +kernel, rustNames_sound (by decide +kernel), "new".toList, by decide +kernel, fun h => ?_⟩
  exact h.2 "new" (by decide +kernel) rfl

/-- All names of C++ are good in the bridge of C39. -/
example : RustNames Abi.demo ∧ (∀ t ∈ namesWritten Abi.demo, CxxName t) ∧ 15 < (namesWritten Abi.demo).length := by
  have h2 : RustNames Abi.demo := rustNames_sound (by decide +kernel)
  refine ⟨h2, (names_partial Abi.demo_accepted.1 h2).2 ⟨fun a ha n hn => ?_, fun a ha n hn => ?_⟩, by decide +kernel⟩
  · have key : (Abi.demo.all fun a => (namesIn a).all fun p => (p.cxx :: p.ns).all fun n =>
        decide (¬ rawMark <+: n.toList) && decide (n ∉ reserved)) = true := by decide +kernel
    have := List.all_eq_true.1 key a ha
    have pick : ∀ p ∈ namesIn a, ∀ n ∈ p.cxx :: p.ns, ¬ Raw n ∧ n ∉ reserved := by
      intro p hp n hn
      have := List.all_eq_true.1 (List.all_eq_true.1 this p hp) n hn
      simpa [Raw] using this
    cases hn with
    | struct h => exact pick _ (by simp [namesIn]) _ h
    | field _ h => exact pick _ (by simp only [namesIn, List.mem_cons, List.mem_map]; exact .inr ⟨_, h, rfl⟩) _ (by simp)
    | enum h => exact pick _ (by simp [namesIn]) _ h
    | variant _ h => exact pick _ (by simp only [namesIn, List.mem_cons]; exact .inr h) _ (by simp)
    | cxxType h => exact pick _ (by simp [namesIn]) _ h
    | rustType h => exact pick _ (by simp [namesIn]) _ h
    | «alias» h => exact pick _ (by simp [namesIn]) _ h
    | cxxFn h => exact pick _ (by simp [namesIn]) _ h
    | cxxArg h => exact pick _ (by simp only [namesIn, List.mem_cons, List.mem_map]; exact .inr ⟨_, h, rfl⟩) _ (by simp)
    | rustFn h => exact pick _ (by simp [namesIn]) _ h
    | rustArg h => exact pick _ (by simp only [namesIn, List.mem_cons, List.mem_map]; exact .inr ⟨_, h, rfl⟩) _ (by simp)
  · have key : (Abi.demo.all fun a => (namesIn a).all fun p => decide (¬ rawMark <+: p.rust.toList)) = true := by decide +kernel
    have := List.all_eq_true.1 key a ha
    have pick : ∀ p ∈ namesIn a, ¬ Raw p.rust := fun p hp => by simpa [Raw] using List.all_eq_true.1 this p hp
    cases hn with
    | cxxFn => exact pick _ (by simp [namesIn])
    | callback h _ => exact pick _ (by simp only [namesIn, List.mem_cons, List.mem_map]; exact .inr ⟨_, h, rfl⟩)
    | rustFn => exact pick _ (by simp [namesIn])

end Verif.Plain
