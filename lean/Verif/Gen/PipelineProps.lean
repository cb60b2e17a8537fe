import Verif.Gen.PipelineSpec
import Verif.Cfg.Props
import Verif.Toposort.Props
import Verif.Build.PathProps
import Verif.Common.Fn
/-!
# No output on error
-/
namespace Verif.Gen
open Verif.Syntax Verif.Cfg Verif.Types Verif.Check

theorem propagate_eq (errors : List Report) :
    propagate errors = if errors = [] then .ok () else .error errors := by
  cases errors with
  | nil => rfl
  | cons e es =>
    have : ∀ (es acc : List Report), es.foldl (fun all e => all ++ [e]) acc = acc ++ es := by
      intro es
      induction es with
      | nil => simp
      | cons e es ih => intro acc; rw [List.foldl_cons, ih]; simp
    simp [propagate, this]

/-! ### Conditions only add to the log -/

theorem report_prefix (ms : List String) (log : Log) : log.reported <+: (report log ms).reported := by
  induction ms generalizing log with
  | nil => exact List.prefix_refl _
  | cons m ms ih =>
    rw [report]
    split
    · exact ih _
    · refine List.IsPrefix.trans ?_ (ih _)
      exact List.prefix_append _ _

theorem eval_prefix (σ : Evaluator) (log : Log) (e : CfgExpr) : log.reported <+: (eval σ log e).2.reported := by
  unfold eval
  split
  · exact List.prefix_refl _
  · exact report_prefix _ _

theorem retain_prefix {α : Type} (σ : Evaluator) (cfg : α → CfgExpr) (l : List α) (log : Log) :
    log.reported <+: (retain σ cfg log l).2.reported := by
  induction l generalizing log with
  | nil => exact List.prefix_refl _
  | cons a l ih => exact (eval_prefix σ log (cfg a)).trans (ih _)

theorem stripMembers_prefix {α μ : Type} (σ : Evaluator) (l : List (Item α μ)) (log : Log) :
    log.reported <+: (stripMembers σ log l).2.reported := by
  induction l generalizing log with
  | nil => exact List.prefix_refl _
  | cons i l ih => exact (retain_prefix σ Prod.fst i.members log).trans (ih _)

theorem strip_prefix {α μ : Type} (σ : Evaluator) (l : List (Item α μ)) (log : Log) :
    log.reported <+: (strip σ log l).2.reported :=
  (retain_prefix σ Item.cfg l log).trans (stripMembers_prefix σ _ _)

theorem mem_pushed {before after : Log} (h : before.reported <+: after.reported) (m : String) :
    m ∈ after.reported ↔ m ∈ before.reported ∨ .cfg m ∈ pushed before after := by
  obtain ⟨rest, hr⟩ := h
  unfold pushed
  rw [← hr]
  simp

theorem pushed_cfg {before after : Log} {r : Report} (h : r ∈ pushed before after) : ∃ m, r = .cfg m := by
  obtain ⟨m, -, rfl⟩ := List.mem_map.1 h
  exact ⟨m, rfl⟩

/-! ### The loop over the bridges -/

section
variable {α μ : Type}

structure LoopInv (σ : Evaluator) (p : CfgExpr → Bool) (seen : List (Bridge α μ)) (s : Progress α μ) : Prop where
  items : s.items = (seen.filter fun b => p b.cfg).flatMap (·.items)
  logged : Logged σ ⟨[], []⟩ (seen.map (·.cfg)) s.log
  parse : ∀ m, .parse m ∈ s.errors ↔ ∃ b ∈ seen, m ∈ b.attrErrors ∨ (Enabled σ b ∧ m ∈ b.itemErrors)
  cfg : ∀ m, .cfg m ∈ s.errors ↔ m ∈ s.log.reported
  only : ∀ r ∈ s.errors, (∃ m, r = .parse m) ∨ ∃ m, r = .cfg m
  parses : s.errors.filterMap Report.ofParse = parseErrors p seen
  cfgs : s.errors.filterMap Report.ofCfg = s.log.reported

theorem ofParse_parse (l : List String) : (l.map Report.parse).filterMap Report.ofParse = l := by
  simp [List.filterMap_map, Function.comp_def, Report.ofParse]

theorem ofParse_pushed (a b : Log) : (pushed a b).filterMap Report.ofParse = [] := by
  rw [pushed, List.filterMap_map]
  simp [Function.comp_def, Report.ofParse]

theorem ofCfg_parse (l : List String) : (l.map Report.parse).filterMap Report.ofCfg = [] := by
  simp [List.filterMap_map, Function.comp_def, Report.ofCfg]

theorem ofCfg_pushed {a b : Log} (h : a.reported <+: b.reported) :
    a.reported ++ (pushed a b).filterMap Report.ofCfg = b.reported := by
  obtain ⟨rest, hr⟩ := h
  rw [pushed, ← hr, List.drop_left]
  simp [List.filterMap_map, Function.comp_def, Report.ofCfg]

theorem addBridge_inv {σ : Evaluator} {p : CfgExpr → Bool} (hp : ∀ e, p e = true ↔ Settled σ e true)
    {seen : List (Bridge α μ)} {s : Progress α μ} (hi : LoopInv σ p seen s) (b : Bridge α μ) :
    LoopInv σ p (seen ++ [b]) (addBridge σ s b) := by
  obtain ⟨h1, h2⟩ := eval_spec hi.logged.once b.cfg (σ := σ)
  have hpre := eval_prefix σ s.log b.cfg
  have hlog : Logged σ ⟨[], []⟩ ((seen ++ [b]).map (·.cfg)) (eval σ s.log b.cfg).2 := by
    rw [List.map_append]
    exact hi.logged.trans h2
  have nopush : ∀ log m, Report.parse m ∉ pushed s.log log := by
    intro log m h
    obtain ⟨m', h⟩ := pushed_cfg h
    cases h
  unfold addBridge
  cases he : eval σ s.log b.cfg with
  | mk on log =>
    rw [he] at h1 hpre hlog
    dsimp only at h1 hpre hlog
    have hmem := mem_pushed hpre
    cases on with
    | true =>
      have hen : Enabled σ b := h1.1 rfl
      have hpb := (hp _).2 hen
      refine ⟨?_, hlog, ?_, ?_, ?_, ?_, ?_⟩
      · simp [hi.items, hpb]
      · intro m
        simp only [List.mem_append, hi.parse, List.mem_map, Report.parse.injEq, exists_eq_right, nopush, or_false,
          List.mem_singleton]
        constructor
        · rintro ((⟨c, hc, h⟩ | h) | h)
          · exact ⟨c, .inl hc, h⟩
          · exact ⟨b, .inr rfl, .inl h⟩
          · exact ⟨b, .inr rfl, .inr ⟨hen, h⟩⟩
        · rintro ⟨c, hc | rfl, h⟩
          · exact .inl (.inl ⟨c, hc, h⟩)
          · rcases h with h | ⟨-, h⟩
            · exact .inl (.inr h)
            · exact .inr h
      · intro m
        simp only [List.mem_append, hi.cfg, List.mem_map, reduceCtorEq, and_false, exists_false, or_false]
        exact (hmem m).symm
      · intro r hr
        simp only [List.mem_append, List.mem_map] at hr
        rcases hr with ((hr | ⟨m, -, rfl⟩) | hr) | ⟨m, -, rfl⟩
        · exact hi.only r hr
        · exact .inl ⟨m, rfl⟩
        · exact .inr (pushed_cfg hr)
        · exact .inl ⟨m, rfl⟩
      · simp only [List.filterMap_append, hi.parses, ofParse_parse, ofParse_pushed, List.append_nil]
        simp [parseErrors, hpb]
      · simp only [List.filterMap_append, hi.cfgs, ofCfg_parse, List.append_nil]
        exact ofCfg_pushed hpre
    | false =>
      have hen : ¬ Enabled σ b := fun h => by cases h1.2 h
      have hpb : p b.cfg = false := by
        cases h : p b.cfg with
        | false => rfl
        | true => exact absurd ((hp _).1 h) hen
      refine ⟨?_, hlog, ?_, ?_, ?_, ?_, ?_⟩
      · simp [hi.items, hpb]
      · intro m
        simp only [List.mem_append, hi.parse, List.mem_map, Report.parse.injEq, exists_eq_right, nopush, or_false,
          List.mem_singleton]
        constructor
        · rintro (⟨c, hc, h⟩ | h)
          · exact ⟨c, .inl hc, h⟩
          · exact ⟨b, .inr rfl, .inl h⟩
        · rintro ⟨c, hc | rfl, h⟩
          · exact .inl ⟨c, hc, h⟩
          · rcases h with h | ⟨h, -⟩
            · exact .inr h
            · exact absurd h hen
      · intro m
        simp only [List.mem_append, hi.cfg, List.mem_map, reduceCtorEq, and_false, exists_false, or_false]
        exact (hmem m).symm
      · intro r hr
        simp only [List.mem_append, List.mem_map] at hr
        rcases hr with (hr | ⟨m, -, rfl⟩) | hr
        · exact hi.only r hr
        · exact .inl ⟨m, rfl⟩
        · exact .inr (pushed_cfg hr)
      · simp only [List.filterMap_append, hi.parses, ofParse_parse, ofParse_pushed, List.append_nil]
        simp [parseErrors, hpb]
      · simp only [List.filterMap_append, hi.cfgs, ofCfg_parse, List.append_nil]
        exact ofCfg_pushed hpre

theorem loop_inv {σ : Evaluator} {p : CfgExpr → Bool} (hp : ∀ e, p e = true ↔ Settled σ e true)
    (bs seen : List (Bridge α μ)) {s : Progress α μ} (hi : LoopInv σ p seen s) :
    LoopInv σ p (seen ++ bs) (bs.foldl (addBridge σ) s) := by
  induction bs generalizing seen s with
  | nil => simpa using hi
  | cons b bs ih =>
    have := ih (seen ++ [b]) (addBridge_inv hp hi b)
    rwa [List.append_assoc] at this

theorem start_inv (σ : Evaluator) (p : CfgExpr → Bool) :
    LoopInv (α := α) (μ := μ) σ p [] ⟨[], ⟨[], []⟩, []⟩ :=
  ⟨rfl, .refl ⟨List.nodup_nil, by simp⟩, by simp, by simp, by simp, rfl, rfl⟩

/-- All that the first phase reports. -/
structure FirstPhase (σ : Evaluator) (p : CfgExpr → Bool) (bridges : List (Bridge α μ)) (es : List Report) : Prop where
  parse : ∀ m, .parse m ∈ es ↔ ∃ b ∈ bridges, m ∈ b.attrErrors ∨ (Enabled σ b ∧ m ∈ b.itemErrors)
  unknown : ∀ e, Needed σ bridges e → Open σ e → ∃ n v m, Mentions n v e ∧ σ n v = .undetermined m ∧ .cfg m ∈ es
  only : ∀ r ∈ es, (∃ m, r = .parse m) ∨ ∃ m, r = .cfg m ∧
    ∃ e, Needed σ bridges e ∧ Open σ e ∧ ∃ n v, Mentions n v e ∧ σ n v = .undetermined m
  order : es.filterMap Report.ofParse = parseErrors p bridges
  once : (es.filterMap Report.ofCfg).Nodup

theorem first_phase {σ : Evaluator} {p : CfgExpr → Bool} (hp : ∀ e, p e = true ↔ Settled σ e true)
    (bridges : List (Bridge α μ)) :
    let s := bridges.foldl (addBridge σ) ⟨[], ⟨[], []⟩, []⟩
    (strip σ s.log s.items).1 = builtItems p bridges ∧
    FirstPhase σ p bridges (s.errors ++ pushed s.log (strip σ s.log s.items).2) := by
  intro s
  have hi : LoopInv σ p bridges s := by
    have := loop_inv hp bridges [] (start_inv σ p)
    simpa using this
  obtain ⟨h1, h2⟩ := strip_exact p hp s.items hi.logged.once
  have hall := hi.logged.trans h2
  have hpre := mem_pushed (strip_prefix σ s.items s.log)
  have hin : ∀ i, i ∈ s.items ↔ ∃ b ∈ bridges, Enabled σ b ∧ i ∈ b.items := by
    intro i
    rw [hi.items]
    simp only [List.mem_flatMap, List.mem_filter, hp]
    constructor
    · rintro ⟨b, ⟨hb, he⟩, h⟩; exact ⟨b, hb, he, h⟩
    · rintro ⟨b, hb, he, h⟩; exact ⟨b, ⟨hb, he⟩, h⟩
  have needed : ∀ e, Needed σ bridges e ↔ e ∈ bridges.map (·.cfg) ++ (s.items.map (·.cfg) ++
      (s.items.filter (fun i => p i.cfg)).flatMap (fun i => i.members.map (·.1))) := by
    intro e
    simp only [List.mem_append, List.mem_map, List.mem_flatMap, List.mem_filter, hin, hp]
    constructor
    · intro h
      cases h with
      | bridge hb => exact .inl ⟨_, hb, rfl⟩
      | item hb he hm => exact .inr (.inl ⟨_, ⟨_, hb, he, hm⟩, rfl⟩)
      | member hb he hm hs hmm => exact .inr (.inr ⟨_, ⟨⟨_, hb, he, hm⟩, hs⟩, _, hmm, rfl⟩)
    · rintro (⟨b, hb, rfl⟩ | ⟨i, ⟨b, hb, he, hm⟩, rfl⟩ | ⟨i, ⟨⟨b, hb, he, hm⟩, hs⟩, m, hmm, rfl⟩)
      · exact .bridge hb
      · exact .item hb he hm
      · exact .member hb he hm hs hmm
  have cfgs : ∀ m, .cfg m ∈ s.errors ++ pushed s.log (strip σ s.log s.items).2 ↔
      m ∈ (strip σ s.log s.items).2.reported := by
    intro m
    rw [List.mem_append, hi.cfg, hpre]
  refine ⟨?_, ?_, ?_, ?_, ?_, ?_⟩
  · rw [h1, hi.items]; rfl
  · intro m
    rw [List.mem_append, hi.parse]
    constructor
    · rintro (h | h)
      · exact h
      · obtain ⟨_, h⟩ := pushed_cfg h; cases h
    · exact .inl
  · intro e hn ho
    obtain ⟨n, v, m, h1, h2, h3⟩ := hall.all e ((needed e).1 hn) ho
    exact ⟨n, v, m, h1, h2, (cfgs m).2 h3⟩
  · intro r hr
    have : (∃ m, r = .parse m) ∨ ∃ m, r = .cfg m := by
      rcases List.mem_append.1 hr with h | h
      · exact hi.only r h
      · exact .inr (pushed_cfg h)
    rcases this with h | ⟨m, rfl⟩
    · exact .inl h
    · refine .inr ⟨m, rfl, ?_⟩
      rcases hall.only m ((cfgs m).1 hr) with h | ⟨e, he, ho, n, v, h⟩
      · cases h
      · exact ⟨e, (needed e).2 he, ho, n, v, h⟩
  · rw [List.filterMap_append, hi.parses, ofParse_pushed, List.append_nil]
  · rw [List.filterMap_append, hi.cfgs, ofCfg_pushed (strip_prefix σ s.items s.log)]
    exact hall.once.1

theorem first_phase_nil {σ : Evaluator} {p : CfgExpr → Bool} {bridges : List (Bridge α μ)} {es : List Report} (h : FirstPhase σ p bridges es) :
    es = [] ↔ Parses σ bridges ∧ ∀ e, Needed σ bridges e → ¬ Open σ e := by
  constructor
  · rintro rfl
    refine ⟨fun b hb => ⟨?_, fun he => ?_⟩, fun e hn ho => ?_⟩
    · refine List.eq_nil_iff_forall_not_mem.2 fun m hm => ?_
      cases (h.parse m).2 ⟨b, hb, .inl hm⟩
    · refine List.eq_nil_iff_forall_not_mem.2 fun m hm => ?_
      cases (h.parse m).2 ⟨b, hb, .inr ⟨he, hm⟩⟩
    · obtain ⟨_, _, m, -, -, hm⟩ := h.unknown e hn ho
      cases hm
  · rintro ⟨hp, hc⟩
    refine List.eq_nil_iff_forall_not_mem.2 fun r hr => ?_
    rcases h.only r hr with ⟨m, rfl⟩ | ⟨m, rfl, e, hn, ho, -⟩
    · obtain ⟨b, hb, h⟩ := (h.parse m).1 hr
      obtain ⟨h1, h2⟩ := hp b hb
      rcases h with h | ⟨he, h⟩
      · rw [h1] at h; cases h
      · rw [h2 he] at h; cases h
    · exact hc e hn ho

end

theorem first_piece (s : List Char) : '/' ∉ s ∨ ∃ n rest, '/' ∉ n ∧ s = n ++ '/' :: rest := by
  induction s with
  | nil => exact .inl (by simp)
  | cons c s ih =>
    by_cases hc : c = '/'
    · exact .inr ⟨[], s, by simp, by simp [hc]⟩
    · rcases ih with h | ⟨n, rest, hn, rfl⟩
      · exact .inl (by simp [h, Ne.symm hc])
      · exact .inr ⟨c :: n, rest, by simp [hn, Ne.symm hc], rfl⟩

theorem components_unrooted {s : List Char} (h : ∀ r, s ≠ '/' :: r) : Build.components s =
    (if (Build.splitSlash s).head? = some ['.'] then [.cur] else []) ++ (Build.splitSlash s).filterMap Build.piece := by
  unfold Build.components
  split
  · next r => exact absurd rfl (h r)
  · rfl

/-- Whether the first component is `.` or `..`, from the first piece of the text. -/
theorem dot_head {s n : List Char} {more : List (List Char)} (hn : '/' ∉ n) (hs : Build.splitSlash s = n :: more)
    (hr : ∀ r, s ≠ '/' :: r) (h0 : n ≠ []) :
    ((Build.components s).head? = some .cur ∨ (Build.components s).head? = some .parent) ↔ n = ['.'] ∨ n = ['.', '.'] := by
  rw [components_unrooted hr, hs]
  by_cases h1 : n = ['.']
  · simp [h1]
  · by_cases h2 : n = ['.', '.']
    · simp [h2, Build.piece]
    · simp [h1, h2, Build.piece, h0]

theorem dotInclude_iff (path : String) : dotInclude (.include path) = [] ↔ ¬ DotPath path.toList := by
  have hd : dotInclude (.include path) = [] ↔ ¬ ((Build.components path.toList).head? = some .cur ∨
      (Build.components path.toList).head? = some .parent) := by
    simp only [dotInclude]
    split <;> simp_all
  rw [hd]
  refine not_congr ?_
  generalize path.toList = s
  have cancel : ∀ {n m : List Char} {r r' : List Char}, '/' ∉ n → '/' ∉ m → n ++ '/' :: r = m ++ '/' :: r' → n = m := by
    intro n
    induction n with
    | nil =>
      intro m r r' _ hm h
      cases m with
      | nil => rfl
      | cons c m =>
        simp only [List.nil_append, List.cons_append, List.cons.injEq] at h
        exact absurd (List.mem_cons.2 (.inl h.1)) hm
    | cons c n ih =>
      intro m r r' hn hm h
      cases m with
      | nil =>
        simp only [List.nil_append, List.cons_append, List.cons.injEq] at h
        exact absurd (List.mem_cons.2 (.inl h.1.symm)) hn
      | cons d m =>
        simp only [List.cons_append, List.cons.injEq] at h
        simp only [List.mem_cons, not_or] at hn hm
        rw [h.1, ih hn.2 hm.2 h.2]
  have dots : ∀ d ∈ [['.'], ['.', '.']], '/' ∉ d := by decide
  rcases first_piece s with h | ⟨n, rest, hn, rfl⟩
  · by_cases h0 : s = []
    · subst h0
      constructor
      · intro h; exact absurd h (by decide)
      · rintro ⟨d, hd, h | ⟨r, h⟩⟩
        · subst h; simp at hd
        · simp at h
    · rw [dot_head h (Build.splitSlash_name h) (fun r e => h (by simp [e])) h0]
      unfold DotPath
      constructor
      · rintro (rfl | rfl)
        · exact ⟨_, by simp, .inl rfl⟩
        · exact ⟨_, by simp, .inl rfl⟩
      · rintro ⟨d, hd, rfl | ⟨r, rfl⟩⟩
        · simpa using hd
        · exact absurd (by simp) h
  · by_cases h0 : n = []
    · subst h0
      constructor
      · intro h; simp [Build.components] at h
      · rintro ⟨d, hd, h | ⟨r, h⟩⟩
        · exact absurd (show '/' ∈ d by rw [← h]; simp) (dots d hd)
        · have := cancel (n := []) (by simp) (dots d hd) h
          subst this
          simp at hd
    · have hr : ∀ r, n ++ '/' :: rest ≠ '/' :: r := by
        intro r e
        cases n with
        | nil => exact h0 rfl
        | cons c n =>
          simp only [List.cons_append, List.cons.injEq] at e
          exact hn (by simp [e.1])
      rw [dot_head hn (Build.splitSlash_cons hn) hr h0]
      unfold DotPath
      constructor
      · rintro (rfl | rfl)
        · exact ⟨_, by simp, .inr ⟨rest, rfl⟩⟩
        · exact ⟨_, by simp, .inr ⟨rest, rfl⟩⟩
      · rintro ⟨d, hd, h | ⟨r, h⟩⟩
        · exact absurd (show '/' ∈ d by rw [← h]; simp) (dots d hd)
        · have := cancel hn (dots d hd) h
          subst this
          simpa using hd

theorem collectErrors_nil (apis : List Api) : collectErrors apis = [] ↔
    (collect apis).dups = [] ∧ ∃ sorted, Toposort.sort (structsOf apis) = some (sorted, 0) := by
  unfold collectErrors
  have := Toposort.sort_terminates (structsOf apis)
  cases h : Toposort.sort (structsOf apis) with
  | none => rw [h] at this; cases this
  | some r =>
    obtain ⟨sorted, n⟩ := r
    simp [List.append_eq_nil_iff]

theorem precheck_nil (allow : Bool) (apis : List Api) : precheck allow apis = [] ↔
    (allow = false → ∀ path, .include path ∈ apis → ¬ DotPath path.toList) := by
  unfold precheck
  cases allow with
  | true => simp
  | false =>
    simp only [Bool.not_false, if_true, List.flatMap_eq_nil_iff, forall_const]
    constructor
    · intro h path hm
      exact (dotInclude_iff path).1 (h _ hm)
    · intro h a ha
      cases a with
      | «include» path => exact (dotInclude_iff path).2 (h path ha)
      | _ => rfl

/-! ### C49 -/

section
variable {α μ : Type}

/-- **C49.**  cxx-build and the cxxbridge command generate code exactly if there is a bridge, parsing finds nothing wrong
with it, all conditions are known, the bridge is accepted, there are no cyclic structs and, in cxx-build, no include
path begins with a dot.  What is generated is then what the writer makes of the items that are part of the build. -/
theorem generate_exactly (assemble : Item α μ → Api) (write : List Api → Bool → List Char) (opt : Options)
    {p : CfgExpr → Bool} (hp : ∀ e, p e = true ↔ Settled opt.evaluator e true) (bridges : List (Bridge α μ)) (code : Code) :
    generate assemble write opt bridges = .ok code ↔
      bridges ≠ [] ∧ Parses opt.evaluator bridges ∧ (∀ e, Needed opt.evaluator bridges e → ¬ Open opt.evaluator e) ∧
      Accepted .build ((builtItems p bridges).map assemble) ∧
      (∃ sorted, Toposort.sort (structsOf ((builtItems p bridges).map assemble)) = some (sorted, 0)) ∧
      (opt.allowDotIncludes = false →
        ∀ path, .include path ∈ (builtItems p bridges).map assemble → ¬ DotPath path.toList) ∧
      code.header = (if opt.genHeader then write ((builtItems p bridges).map assemble) true else []) ∧
      code.implementation = (if opt.genImplementation then write ((builtItems p bridges).map assemble) false else []) := by
  obtain ⟨h1, h2⟩ := first_phase hp bridges
  have h3 := first_phase_nil h2
  unfold generate
  by_cases hb : bridges = []
  · simp [hb]
  rw [if_neg hb]
  dsimp only
  rw [h1, propagate_eq]
  by_cases e1 : (bridges.foldl (addBridge opt.evaluator) ⟨[], ⟨[], []⟩, []⟩).errors ++
      pushed (bridges.foldl (addBridge opt.evaluator) ⟨[], ⟨[], []⟩, []⟩).log
        (strip opt.evaluator (bridges.foldl (addBridge opt.evaluator) ⟨[], ⟨[], []⟩, []⟩).log
          (bridges.foldl (addBridge opt.evaluator) ⟨[], ⟨[], []⟩, []⟩).items).2 = []
  · obtain ⟨k1, k2⟩ := h3.1 e1
    rw [if_pos e1]
    dsimp only
    rw [propagate_eq]
    by_cases e2 : collectErrors ((builtItems p bridges).map assemble) ++
        precheck opt.allowDotIncludes ((builtItems p bridges).map assemble) = []
    · obtain ⟨c1, c2⟩ := List.append_eq_nil_iff.1 e2
      rw [collectErrors_nil] at c1
      rw [precheck_nil] at c2
      rw [if_pos e2]
      dsimp only
      rw [propagate_eq]
      by_cases e3 : typecheck ⟨(builtItems p bridges).map assemble, collect ((builtItems p bridges).map assemble), .build⟩ = []
      · rw [if_pos (by rw [e3]; rfl)]
        obtain ⟨hd, im⟩ := code
        simp only [Except.ok.injEq, Code.mk.injEq]
        constructor
        · rintro ⟨rfl, rfl⟩
          exact ⟨hb, k1, k2, ⟨c1.1, e3⟩, c1.2, c2, rfl, rfl⟩
        · rintro ⟨-, -, -, -, -, -, rfl, rfl⟩
          exact ⟨rfl, rfl⟩
      · rw [if_neg (by simpa using e3)]
        simp only [reduceCtorEq, false_iff]
        rintro ⟨-, -, -, ⟨-, h⟩, -⟩
        exact e3 h
    · rw [if_neg e2]
      simp only [reduceCtorEq, false_iff]
      rintro ⟨-, -, -, ⟨h, -⟩, hs, hd, -⟩
      exact e2 (List.append_eq_nil_iff.2 ⟨(collectErrors_nil _).2 ⟨h, hs⟩, (precheck_nil _ _).2 hd⟩)
  · rw [if_neg e1]
    simp only [reduceCtorEq, false_iff]
    rintro ⟨-, hp, hn, -⟩
    exact e1 (h3.2 ⟨hp, hn⟩)

/-- **C49.**  When nothing is generated, all errors of the first phase that has any are reported and no others: what
parsing has found, in order, and unknown conditions, each message once; if there are none, duplicate names, cyclic structs and dotted includes; if
there are none of these either, what the checks have found. -/
theorem reports_exactly (assemble : Item α μ → Api) (write : List Api → Bool → List Char) (opt : Options)
    {p : CfgExpr → Bool} (hp : ∀ e, p e = true ↔ Settled opt.evaluator e true) (bridges : List (Bridge α μ))
    {es : List Report} (h : generate assemble write opt bridges = .error (.reports es)) :
    es ≠ [] ∧
    (FirstPhase opt.evaluator p bridges es ∨
     ((Parses opt.evaluator bridges ∧ ∀ e, Needed opt.evaluator bridges e → ¬ Open opt.evaluator e) ∧
      (es = collectErrors ((builtItems p bridges).map assemble) ++
          precheck opt.allowDotIncludes ((builtItems p bridges).map assemble) ∨
       ((collectErrors ((builtItems p bridges).map assemble) = [] ∧
          precheck opt.allowDotIncludes ((builtItems p bridges).map assemble) = []) ∧
        es = (typecheck ⟨(builtItems p bridges).map assemble, collect ((builtItems p bridges).map assemble),
          .build⟩).map .check)))) := by
  obtain ⟨h1, h2⟩ := first_phase hp bridges
  have h3 := first_phase_nil h2
  unfold generate at h
  by_cases hb : bridges = []
  · simp [hb] at h
  rw [if_neg hb] at h
  dsimp only at h
  rw [h1, propagate_eq] at h
  by_cases e1 : (bridges.foldl (addBridge opt.evaluator) ⟨[], ⟨[], []⟩, []⟩).errors ++
      pushed (bridges.foldl (addBridge opt.evaluator) ⟨[], ⟨[], []⟩, []⟩).log
        (strip opt.evaluator (bridges.foldl (addBridge opt.evaluator) ⟨[], ⟨[], []⟩, []⟩).log
          (bridges.foldl (addBridge opt.evaluator) ⟨[], ⟨[], []⟩, []⟩).items).2 = []
  · rw [if_pos e1] at h
    dsimp only at h
    rw [propagate_eq] at h
    by_cases e2 : collectErrors ((builtItems p bridges).map assemble) ++
        precheck opt.allowDotIncludes ((builtItems p bridges).map assemble) = []
    · rw [if_pos e2] at h
      dsimp only at h
      rw [propagate_eq] at h
      split at h
      · next h' => split at h' <;> cases h' <;> injection h with h <;> cases h <;>
          exact ⟨‹_›, .inr ⟨h3.1 e1, .inr ⟨List.append_eq_nil_iff.1 e2, rfl⟩⟩⟩
      · cases h
    · rw [if_neg e2] at h
      cases h
      exact ⟨e2, .inr ⟨h3.1 e1, .inl rfl⟩⟩
  · rw [if_neg e1] at h
    cases h
    exact ⟨e1, .inl h2⟩

/-- **C49.**  The same for the macro, which sees one bridge and leaves conditions to rustc. -/
theorem macro_exactly {τ : Type} (assemble : Item α μ → Api) (expand : List Api → τ) (b : Bridge α μ) :
    (∀ t, macroBridge assemble expand b = .ok t ↔
      (b.attrErrors = [] ∧ b.itemErrors = [] ∧ Accepted .macro (b.items.map assemble) ∧
        (∃ sorted, Toposort.sort (structsOf (b.items.map assemble)) = some (sorted, 0)) ∧
        t = expand (b.items.map assemble))) ∧
    ∀ es, macroBridge assemble expand b = .error es → es ≠ [] ∧
      (es = b.attrErrors.map .parse ++ b.itemErrors.map .parse ++ collectErrors (b.items.map assemble) ∨
       (b.attrErrors = [] ∧ b.itemErrors = [] ∧ collectErrors (b.items.map assemble) = [] ∧
        es = (typecheck ⟨b.items.map assemble, collect (b.items.map assemble), .macro⟩).map .check)) := by
  unfold macroBridge
  dsimp only
  rw [propagate_eq]
  by_cases e1 : b.attrErrors.map Report.parse ++ b.itemErrors.map Report.parse ++ collectErrors (b.items.map assemble) = []
  · have e1' := e1
    simp only [List.append_eq_nil_iff, List.map_eq_nil_iff] at e1'
    obtain ⟨⟨k1, k2⟩, k3⟩ := e1'
    obtain ⟨k4, k5⟩ := (collectErrors_nil _).1 k3
    rw [if_pos e1]
    dsimp only
    rw [propagate_eq]
    by_cases e2 : (typecheck ⟨b.items.map assemble, collect (b.items.map assemble), .macro⟩).map Report.check = []
    · rw [if_pos e2]
      refine ⟨fun t => ?_, nofun⟩
      simp only [Except.ok.injEq]
      constructor
      · rintro rfl
        exact ⟨k1, k2, ⟨k4, by simpa using e2⟩, k5, rfl⟩
      · rintro ⟨-, -, -, -, rfl⟩
        rfl
    · rw [if_neg e2]
      refine ⟨fun t => ?_, ?_⟩
      · simp only [reduceCtorEq, false_iff]
        rintro ⟨-, -, ⟨-, h⟩, -⟩
        exact e2 (by rw [h]; rfl)
      · rintro es ⟨⟩
        exact ⟨e2, .inr ⟨k1, k2, k3, rfl⟩⟩
  · rw [if_neg e1]
    refine ⟨fun t => ?_, ?_⟩
    · simp only [reduceCtorEq, false_iff]
      rintro ⟨h1, h2, ⟨h3, -⟩, h4, -⟩
      exact e1 (by rw [h1, h2, (collectErrors_nil _).2 ⟨h3, h4⟩]; rfl)
    · rintro es ⟨⟩
      exact ⟨e1, .inl rfl⟩

end

/-! ### Examples -/

/-- Two bridges; the second has an item that depends on a feature. -/
def demoBridges : List (Bridge Api Unit) :=
  [⟨[], .unconditional, [], [⟨.unconditional, .include "a.h", []⟩]⟩,
   ⟨[], .not (.eq "b" none), [], [⟨.eq "feature" (some "f"), .include "../f.h", []⟩, ⟨.unconditional, .include "g.h", []⟩]⟩]

/-- A writer that lists the includes. -/
def demoWrite (apis : List Api) (header : Bool) : List Char :=
  (if header then ['h'] else ['c']) ++ apis.flatMap fun | .include path => path.toList | _ => []

def demoOptions (f : CfgResult) : Options :=
  ⟨fun n _ => if n = "feature" then f else .false, true, true, false⟩

example : generate Item.body demoWrite (demoOptions .false) demoBridges = .ok ⟨"ha.hg.h".toList, "ca.hg.h".toList⟩ := by
  decide +kernel

example : generate Item.body demoWrite (demoOptions .true) demoBridges = .error (.reports [.dotInclude "../f.h"]) := by
  decide +kernel

example : generate Item.body demoWrite (demoOptions (.undetermined "?")) demoBridges = .error (.reports [.cfg "?"]) := by
  decide +kernel

example : macroBridge (μ := Unit) Item.body (fun apis => demoWrite apis true)
    ⟨[], .unconditional, [], [⟨.unconditional, .include "../f.h", []⟩]⟩ = .ok "h../f.h".toList := by decide +kernel

end Verif.Gen
