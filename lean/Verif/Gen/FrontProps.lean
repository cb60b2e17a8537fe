import Verif.Gen.FrontSpec
import Verif.Gen.CommandProps
import Verif.Cfg.LookupProps
/-!
# Every way of running the generator gives the same code
-/
namespace Verif.Gen
open Verif.Syntax Verif.Cfg Verif.Types Verif.Check

/-! ### Conditions under two evaluators -/

mutual
theorem possible_mono {σ τ : Evaluator} (h : Knows τ σ) : ∀ {e : CfgExpr} {b : Bool}, Possible τ e b → Possible σ e b
  | _, _, .unconditional => .unconditional
  | .eq n v, _, .yes ht => by
    cases hs : σ n v with
    | true => exact .yes hs
    | false => rw [(h n v).2 hs] at ht; cases ht
    | undetermined m => exact .unknown hs _
  | .eq n v, _, .no ht => by
    cases hs : σ n v with
    | true => rw [(h n v).1 hs] at ht; cases ht
    | false => exact .no hs
    | undetermined m => exact .unknown hs _
  | .eq n v, _, .unknown ht b => by
    cases hs : σ n v with
    | true => rw [(h n v).1 hs] at ht; cases ht
    | false => rw [(h n v).2 hs] at ht; cases ht
    | undetermined m => exact .unknown hs _
  | _, _, .all hl => .all (possibleList_mono h hl)
  | _, _, .any hl => .any (possibleList_mono h hl)
  | _, _, .not hn => .not (possible_mono h hn)
theorem possibleList_mono {σ τ : Evaluator} (h : Knows τ σ) :
    ∀ {es : List CfgExpr} {bs : List Bool}, PossibleList τ es bs → PossibleList σ es bs
  | _, _, .nil => .nil
  | _, _, .cons he hs => .cons (possible_mono h he) (possibleList_mono h hs)
end

theorem settled_or_open (σ : Evaluator) (e : CfgExpr) : (∃ b, Settled σ e b) ∨ Open σ e := by
  cases h : tryEval σ e with
  | ok b => exact .inl ⟨b, (eval_settled σ e b).1 h⟩
  | error ms => exact .inr ((eval_open σ e).1.1 ⟨ms, h⟩)

theorem settled_mono {σ τ : Evaluator} (h : Knows τ σ) {e : CfgExpr} {b : Bool} (hs : Settled σ e b) : Settled τ e b := by
  rcases settled_or_open τ e with ⟨b', ht⟩ | ⟨h1, h2⟩
  · have := (hs b').1 (possible_mono h ((ht b').2 rfl))
    rwa [← this]
  · have h1 := (hs _).1 (possible_mono h h1)
    have h2 := (hs _).1 (possible_mono h h2)
    rw [← h1] at h2; cases h2

theorem settled_unique {σ : Evaluator} {e : CfgExpr} {b b' : Bool} (h : Settled σ e b) (h' : Settled σ e b') : b = b' :=
  (h' b).1 ((h b).2 rfl)

theorem Knows.agree {σ τ : Evaluator} (h : Knows τ σ) : Agree σ τ := by
  intro n v
  refine ⟨fun ⟨h1, h2⟩ => ?_, fun ⟨h1, h2⟩ => ?_⟩
  · rw [(h n v).1 h1] at h2; cases h2
  · rw [(h n v).2 h1] at h2; cases h2

theorem settled_agree {σ τ : Evaluator} (h : Agree σ τ) {e : CfgExpr} {b b' : Bool} (hs : Settled σ e b)
    (ht : Settled τ e b') : b = b' := by
  let f : String → Option String → Bool := fun n v => decide (σ n v = .true ∨ τ n v = .true)
  have hf1 : Extends f σ := by
    intro n v
    refine ⟨fun h1 => by simp [f, h1], fun h1 => ?_⟩
    have := (h n v).2
    simp only [f, decide_eq_false_iff_not]
    rintro (h2 | h2)
    · rw [h1] at h2; cases h2
    · exact this ⟨h1, h2⟩
  have hf2 : Extends f τ := by
    intro n v
    refine ⟨fun h1 => by simp [f, h1], fun h1 => ?_⟩
    have := (h n v).1
    simp only [f, decide_eq_false_iff_not]
    rintro (h2 | h2)
    · exact this ⟨h2, h1⟩
    · rw [h1] at h2; cases h2
  rw [← (hs _).1 (possible_holds hf1 e), ← (ht _).1 (possible_holds hf2 e)]

section
variable {α μ : Type}

theorem builtItems_congr {p q : CfgExpr → Bool} {bridges : List (Bridge α μ)}
    (h1 : ∀ b ∈ bridges, p b.cfg = q b.cfg)
    (h2 : ∀ b ∈ bridges, p b.cfg = true → ∀ i ∈ b.items, p i.cfg = q i.cfg)
    (h3 : ∀ b ∈ bridges, p b.cfg = true → ∀ i ∈ b.items, p i.cfg = true → ∀ m ∈ i.members, p m.1 = q m.1) :
    builtItems p bridges = builtItems q bridges := by
  unfold builtItems
  rw [← List.filter_congr h1]
  have h2' : ∀ i ∈ (bridges.filter fun b => p b.cfg).flatMap (·.items), p i.cfg = q i.cfg := by
    intro i hi
    obtain ⟨b, hb, hi⟩ := List.mem_flatMap.1 hi
    obtain ⟨hb, hp⟩ := List.mem_filter.1 hb
    exact h2 b hb hp i hi
  rw [← List.filter_congr h2']
  refine List.map_congr_left fun i hi => ?_
  obtain ⟨hi, hpi⟩ := List.mem_filter.1 hi
  obtain ⟨b, hb, hi⟩ := List.mem_flatMap.1 hi
  obtain ⟨hb, hp⟩ := List.mem_filter.1 hb
  rw [List.filter_congr (h3 b hb hp i hi hpi)]

/-- Where both know all they need, they leave the same. -/
theorem built_same {σ τ : Evaluator} (h : Agree σ τ) {p q : CfgExpr → Bool}
    (hp : ∀ e, p e = true ↔ Settled σ e true) (hq : ∀ e, q e = true ↔ Settled τ e true) {bridges : List (Bridge α μ)}
    (hs : ∀ e, Needed σ bridges e → ¬ Open σ e) (ht : ∀ e, Needed τ bridges e → ¬ Open τ e) :
    builtItems p bridges = builtItems q bridges := by
  have key : ∀ e, Needed σ bridges e → Needed τ bridges e → p e = q e := by
    intro e h1 h2
    obtain ⟨b, hb⟩ := (settled_or_open σ e).resolve_right (hs e h1)
    obtain ⟨b', hb'⟩ := (settled_or_open τ e).resolve_right (ht e h2)
    have := settled_agree h hb hb'
    subst this
    have e1 : p e = true ↔ b = true := (hp e).trans ⟨settled_unique hb, fun hb0 => hb0 ▸ hb⟩
    have e2 : q e = true ↔ b = true := (hq e).trans ⟨settled_unique hb', fun hb0 => hb0 ▸ hb'⟩
    rw [Bool.eq_iff_iff, e1, e2]
  have k1 : ∀ b ∈ bridges, p b.cfg = q b.cfg := fun b hb => key _ (.bridge hb) (.bridge hb)
  have k2 : ∀ b ∈ bridges, p b.cfg = true → ∀ i ∈ b.items, p i.cfg = q i.cfg := fun b hb hpb i hi =>
    key _ (.item hb ((hp _).1 hpb) hi) (.item hb ((hq _).1 (k1 b hb ▸ hpb)) hi)
  exact builtItems_congr k1 k2 fun b hb hpb i hi hpi m hm =>
    key _ (.member hb ((hp _).1 hpb) hi ((hp _).1 hpi) hm)
      (.member hb ((hq _).1 (k1 b hb ▸ hpb)) hi ((hq _).1 (k2 b hb hpb i hi ▸ hpi)) hm)

/-- Who knows more needs no other conditions. -/
theorem needed_mono {σ τ : Evaluator} (h : Knows τ σ) {bridges : List (Bridge α μ)}
    (hs : ∀ e, Needed σ bridges e → ¬ Open σ e) {e : CfgExpr} (hn : Needed τ bridges e) : Needed σ bridges e := by
  have back : ∀ e, Needed σ bridges e → Settled τ e true → Settled σ e true := by
    intro e hn ht
    obtain ⟨b, hb⟩ := (settled_or_open σ e).resolve_right (hs e hn)
    have := settled_unique (settled_mono h hb) ht
    rwa [← this]
  cases hn with
  | bridge hb => exact .bridge hb
  | item hb he hi => exact .item hb (back _ (.bridge hb) he) hi
  | member hb he hi hset hm =>
    have he := back _ (.bridge hb) he
    exact .member hb he hi (back _ (.item hb he hi) hset) hm

theorem notOpen_mono {σ τ : Evaluator} (h : Knows τ σ) {bridges : List (Bridge α μ)}
    (hs : ∀ e, Needed σ bridges e → ¬ Open σ e) : ∀ e, Needed τ bridges e → ¬ Open τ e := fun e hn ho =>
  hs e (needed_mono h hs hn) ⟨possible_mono h ho.1, possible_mono h ho.2⟩

theorem parses_mono {σ τ : Evaluator} (h : Knows τ σ) {bridges : List (Bridge α μ)}
    (hs : ∀ e, Needed σ bridges e → ¬ Open σ e) (hp : Parses σ bridges) : Parses τ bridges := by
  intro b hb
  refine ⟨(hp b hb).1, fun he => (hp b hb).2 ?_⟩
  obtain ⟨b', hb'⟩ := (settled_or_open σ b.cfg).resolve_right (hs _ (.bridge hb))
  have := settled_unique (settled_mono h hb') he
  subst this
  exact hb'

theorem precheck_dots (apis : List Api) : ∃ paths : List String, (∀ path ∈ paths, DotPath path.toList) ∧
    (∀ path ∈ paths, .include path ∈ apis) ∧ precheck false apis = paths.map .dotInclude := by
  show ∃ paths : List String, (∀ path ∈ paths, DotPath path.toList) ∧
    (∀ path ∈ paths, .include path ∈ apis) ∧ apis.flatMap dotInclude = paths.map .dotInclude
  induction apis with
  | nil => exact ⟨[], by simp, by simp, rfl⟩
  | cons a apis ih =>
    obtain ⟨paths, h1, h2, h3⟩ := ih
    by_cases hn : dotInclude a = []
    · exact ⟨paths, h1, fun p hp => List.mem_cons_of_mem _ (h2 p hp), by rw [List.flatMap_cons, hn, h3]; rfl⟩
    · cases a with
      | «include» path =>
        have hd : dotInclude (.include path) = [.dotInclude path] := by
          simp only [dotInclude] at hn ⊢
          split at hn <;> simp_all
        refine ⟨path :: paths, ?_, ?_, by rw [List.flatMap_cons, hd, h3]; rfl⟩
        · intro p hp
          rcases List.mem_cons.1 hp with rfl | hp
          · exact Classical.not_not.1 fun hnd => hn ((dotInclude_iff p).2 hnd)
          · exact h1 p hp
        · intro p hp
          rcases List.mem_cons.1 hp with rfl | hp
          · exact List.mem_cons_self
          · exact List.mem_cons_of_mem _ (h2 p hp)
      | _ => exact absurd rfl hn

variable (assemble : Item α μ → Api) (write : Style → List Api → Bool → List Char)

/-- **C108.**  Two programs of which neither thinks true what the other thinks false never generate different code from the same
bridges, if they are to write in the same way. -/
theorem same_code {o o' : Opt} (hs : o.style = o'.style) (h : Agree o.options.evaluator o'.options.evaluator)
    {bridges : List (Bridge α μ)} {c c' : Code} (hc : run assemble write o bridges = .ok c)
    (hc' : run assemble write o' bridges = .ok c') :
    (o.options.genHeader = true → o'.options.genHeader = true → c.header = c'.header) ∧
    (o.options.genImplementation = true → o'.options.genImplementation = true → c.implementation = c'.implementation) := by
  obtain ⟨p, hp⟩ := settled_decidable o.options.evaluator
  obtain ⟨q, hq⟩ := settled_decidable o'.options.evaluator
  obtain ⟨-, -, k3, -, -, -, k7, k8⟩ := (generate_exactly assemble _ o.options hp bridges c).1 hc
  obtain ⟨-, -, l3, -, -, -, l7, l8⟩ := (generate_exactly assemble _ o'.options hq bridges c').1 hc'
  have hb := built_same h hp hq k3 l3
  refine ⟨fun h1 h2 => ?_, fun h1 h2 => ?_⟩
  · rw [k7, l7, if_pos h1, if_pos h2, hs, hb]
  · rw [k8, l8, if_pos h1, if_pos h2, hs, hb]

/-- **C108.**  What a program generates, one that knows more about the configuration generates too, unless that one
does not allow dotted includes and there are some: those are then the errors. -/
theorem knows_more {o o' : Opt} (hs : o.style = o'.style) (h : Knows o'.options.evaluator o.options.evaluator)
    (hh : o.options.genHeader = o'.options.genHeader) (hi : o.options.genImplementation = o'.options.genImplementation)
    {bridges : List (Bridge α μ)} {c : Code} (hc : run assemble write o bridges = .ok c) :
    run assemble write o' bridges = .ok c ∨
    (o.options.allowDotIncludes = true ∧ o'.options.allowDotIncludes = false ∧
      ∃ f, run assemble write o' bridges = .error f ∧ Dotted f) := by
  obtain ⟨p, hp⟩ := settled_decidable o.options.evaluator
  obtain ⟨q, hq⟩ := settled_decidable o'.options.evaluator
  obtain ⟨k1, k2, k3, k4, k5, k6, k7, k8⟩ := (generate_exactly assemble _ o.options hp bridges c).1 hc
  have l3 := notOpen_mono h k3
  have l2 := parses_mono h k3 k2
  have hb := built_same h.agree hp hq k3 l3
  rw [hb] at k4 k5 k6 k7 k8
  by_cases hd : o'.options.allowDotIncludes = false →
      ∀ path, .include path ∈ (builtItems q bridges).map assemble → ¬ DotPath path.toList
  · refine .inl ((generate_exactly assemble _ o'.options hq bridges c).2 ⟨k1, l2, l3, k4, k5, hd, ?_, ?_⟩)
    · rw [k7, hh, hs]
    · rw [k8, hi, hs]
  · have hd' : o'.options.allowDotIncludes = false := by
      cases e : o'.options.allowDotIncludes with
      | false => rfl
      | true => exact absurd (fun h => by rw [e] at h; cases h) hd
    have ho : o.options.allowDotIncludes = true := by
      cases e : o.options.allowDotIncludes with
      | true => rfl
      | false => exact absurd (fun _ => k6 e) hd
    refine .inr ⟨ho, hd', ?_⟩
    cases e : run assemble write o' bridges with
    | ok c' => exact absurd ((generate_exactly assemble _ o'.options hq bridges c').1 e).2.2.2.2.2.1 hd
    | error f =>
      refine ⟨f, rfl, ?_⟩
      cases f with
      | noBridgeMod =>
        exfalso
        unfold run generate at e
        rw [if_neg k1] at e
        dsimp only at e
        split at e
        · cases e
        · split at e
          · cases e
          · split at e <;> cases e
      | reports es =>
        obtain ⟨hne, r⟩ := reports_exactly assemble _ o'.options hq bridges e
        have hce : collectErrors ((builtItems q bridges).map assemble) = [] := (collectErrors_nil _).2 ⟨k4.1, k5⟩
        obtain ⟨paths, p1, p2, p3⟩ := precheck_dots ((builtItems q bridges).map assemble)
        rcases r with r | ⟨-, r | ⟨-, r⟩⟩
        · exact absurd ((first_phase_nil r).2 ⟨l2, l3⟩) hne
        · rw [hce, hd', p3, List.nil_append] at r
          refine ⟨paths, ?_, p1, by rw [r]⟩
          rintro rfl
          exact hne r
        · rw [k4.2] at r
          exact absurd r hne

/-- **C108.**  What a program generates, one that knows less about the configuration generates too, unless it has to
ask for what it does not know: that is then the error. -/
theorem knows_less {o o' : Opt} (hs : o.style = o'.style) (h : Knows o.options.evaluator o'.options.evaluator)
    (hh : o.options.genHeader = o'.options.genHeader) (hi : o.options.genImplementation = o'.options.genImplementation)
    (hd : o'.options.allowDotIncludes = true) {bridges : List (Bridge α μ)} {c : Code}
    (hc : run assemble write o bridges = .ok c) :
    run assemble write o' bridges = .ok c ∨
      ∃ f, run assemble write o' bridges = .error f ∧ Undecided o'.options.evaluator f := by
  obtain ⟨p, hp⟩ := settled_decidable o.options.evaluator
  obtain ⟨q, hq⟩ := settled_decidable o'.options.evaluator
  obtain ⟨k1, k2, k3, k4, k5, -, k7, k8⟩ := (generate_exactly assemble _ o.options hp bridges c).1 hc
  have hparse : Parses o'.options.evaluator bridges := fun b hb =>
    ⟨(k2 b hb).1, fun he => (k2 b hb).2 (settled_mono h he)⟩
  by_cases l3 : ∀ e, Needed o'.options.evaluator bridges e → ¬ Open o'.options.evaluator e
  · have hb := built_same h.agree hq hp l3 k3
    rw [← hb] at k4 k5 k7 k8
    refine .inl ((generate_exactly assemble _ o'.options hq bridges c).2
      ⟨k1, hparse, l3, k4, k5, fun h => (by rw [hd] at h; cases h), ?_, ?_⟩)
    · rw [k7, hh, hs]
    · rw [k8, hi, hs]
  · right
    cases e : run assemble write o' bridges with
    | ok c' => exact absurd ((generate_exactly assemble _ o'.options hq bridges c').1 e).2.2.1 l3
    | error f =>
      refine ⟨f, rfl, ?_⟩
      cases f with
      | noBridgeMod =>
        exfalso
        unfold run generate at e
        rw [if_neg k1] at e
        dsimp only at e
        split at e
        · cases e
        · split at e
          · cases e
          · split at e <;> cases e
      | reports es =>
        obtain ⟨hne, r⟩ := reports_exactly assemble _ o'.options hq bridges e
        rcases r with r | ⟨⟨-, r⟩, -⟩
        · have only : ∀ x ∈ es, ∃ m, x = .cfg m ∧ ∃ n v, o'.options.evaluator n v = .undetermined m := by
            intro x hx
            rcases r.only x hx with ⟨m, rfl⟩ | ⟨m, rfl, hm⟩
            · obtain ⟨b, hb, hm⟩ := (r.parse m).1 hx
              rcases hm with hm | ⟨he, hm⟩
              · rw [(k2 b hb).1] at hm; cases hm
              · rw [(hparse b hb).2 he] at hm; cases hm
            · refine ⟨m, rfl, ?_⟩
              obtain ⟨e, -, -, n, v, -, h⟩ := hm
              exact ⟨n, v, h⟩
          have hes : es = (es.filterMap Report.ofCfg).map .cfg := by
            clear e r hne
            induction es with
            | nil => rfl
            | cons x es ih =>
              obtain ⟨m, rfl, -⟩ := only x List.mem_cons_self
              show _ = List.map _ (m :: es.filterMap Report.ofCfg)
              rw [List.map_cons, ← ih fun x hx => only x (List.mem_cons_of_mem _ hx)]
          refine ⟨es.filterMap Report.ofCfg, ?_, ?_, by rw [← hes]⟩
          · intro h0; rw [h0] at hes; exact hne hes
          · intro m hm
            obtain ⟨x, hx, hxm⟩ := List.mem_filterMap.1 hm
            obtain ⟨m', rfl, h⟩ := only x hx
            cases hxm
            exact h
        · exact absurd r l3

/-- **C108.**  What cxx-gen generates with the same extra headers, annotations and configuration is what the command writes to its
outputs; when the one fails, so does the other. -/
theorem library_and_command (headers : List (List Char × Bool)) (annotations : Option (List Char)) (σ : Evaluator)
    (header : Bool) (cxxHeader : List Char) (canWrite : List Char → Bool) (outputs : List Output)
    (bridges : List (Bridge α μ)) :
    let r := runCommand assemble write headers annotations σ header cxxHeader canWrite outputs bridges
    match library assemble write (libraryOpt headers annotations σ) bridges with
    | .ok code => ∃ n, r.written.map (·.1) = outputs.take n ∧
      (∀ x ∈ r.written, (WantsHeader header x.1 ∧ x.2 = code.header) ∨
        (¬ WantsHeader header x.1 ∧ x.2 = code.implementation)) ∧
      ((r.success = true ∧ n = outputs.length) ∨
       (r.success = false ∧ ∃ path, outputs[n]? = some (.file path) ∧ canWrite path = false))
    | .error _ => r = ⟨[], false⟩ := by
  intro r
  cases h : library assemble write (libraryOpt headers annotations σ) bridges with
  | error f => exact command_writes_nothing assemble (write ⟨headers, annotations, false⟩) σ bridges header cxxHeader canWrite outputs h
  | ok code => exact command_outputs assemble (write ⟨headers, annotations, false⟩) σ bridges header cxxHeader canWrite outputs h

theorem cargo_value_known (vars : List (List Char × List Char)) (debug : Bool) (n v : String) :
    cargo vars debug n (some v) = .true ∨ cargo vars debug n (some v) = .false := by
  unfold cargo
  dsimp only [Option.map_some]
  by_cases hn : n.toList = "feature".toList
  · rw [hn]
    by_cases hs : SomeVar vars "CARGO_FEATURE_".toList v.toList
    · exact .inl (((cargo_features vars debug).1 v.toList).2 hs)
    · exact .inr (((cargo_features vars debug).2.1 v.toList).2 hs)
  · have := (((cargo_exact vars debug hn).1 v.toList).2)
    cases h : cargoEvaluator vars debug n.toList (some v.toList) with
    | true => exact .inl rfl
    | false => exact .inr rfl
    | undetermined m => exact absurd ⟨m, h⟩ this

/-- Cargo's environment says all that truthful flags say. -/
theorem truthful_knows {args : List (List FlagTok)} {σ : Evaluator} (hf : flagsEvaluator args = some σ)
    {vars : List (List Char × List Char)} {debug : Bool} (ht : Truthful args vars debug) : Knows (cargo vars debug) σ := by
  intro n v
  obtain ⟨h1, h2, h3, -⟩ := flags_exact hf n
  cases v with
  | none => exact ⟨fun h => ht.yes n (h2.1 h), fun h => ht.no n (h3.1 h)⟩
  | some v =>
    obtain ⟨g1, g2, -⟩ := h1 v
    refine ⟨fun h => ht.value n v (g1.1 h), fun h => ?_⟩
    obtain ⟨hn, hl⟩ := g2.1 h
    exact (cargo_value_known vars debug n v).resolve_left fun hc => hn (ht.listed n v hl hc)

/-- **C108.**  With `--cfg` flags that say what Cargo says: what the command generates, cxx-build generates too, or
else its errors are about dotted includes. -/
theorem command_then_build {args : List (List FlagTok)} {σ : Evaluator} (hf : flagsEvaluator args = some σ)
    {vars : List (List Char × List Char)} {debug : Bool} (ht : Truthful args vars debug)
    {bridges : List (Bridge α μ)} {c : Code} (hc : run assemble write (commandOpt [] none σ true true) bridges = .ok c) :
    build assemble write vars debug false bridges = .ok c ∨
      ∃ f, build assemble write vars debug false bridges = .error f ∧ Dotted f := by
  rcases knows_more assemble write (o := commandOpt [] none σ true true) (o' := buildOpt vars debug false) rfl
    (truthful_knows hf ht) rfl rfl hc with h | ⟨-, -, h⟩
  · exact .inl h
  · exact .inr h

/-- **C108.**  With `--cfg` flags that say what Cargo says: what cxx-build generates, the command generates too, or else
it asks for flags. -/
theorem build_then_command {args : List (List FlagTok)} {σ : Evaluator} (hf : flagsEvaluator args = some σ)
    {vars : List (List Char × List Char)} {debug : Bool} (ht : Truthful args vars debug)
    {bridges : List (Bridge α μ)} {c : Code} (hc : build assemble write vars debug false bridges = .ok c) :
    run assemble write (commandOpt [] none σ true true) bridges = .ok c ∨
      ∃ f, run assemble write (commandOpt [] none σ true true) bridges = .error f ∧ Undecided σ f :=
  knows_less assemble write (o := buildOpt vars debug false) (o' := commandOpt [] none σ true true) rfl
    (truthful_knows hf ht) rfl rfl rfl hc

/-- **C108.**  What cxx-gen generates with its default options, the command generates with any flags, and cxx-build in
any environment, unless there are dotted includes. -/
theorem library_default {bridges : List (Bridge α μ)} {c : Code}
    (hc : library assemble write Opt.default bridges = .ok c) :
    (∀ σ, run assemble write (commandOpt [] none σ true true) bridges = .ok c) ∧
    ∀ vars debug, build assemble write vars debug false bridges = .ok c ∨
      ∃ f, build assemble write vars debug false bridges = .error f ∧ Dotted f := by
  have hk : ∀ σ, Knows σ unsupported := fun σ n v => ⟨nofun, nofun⟩
  refine ⟨fun σ => ?_, fun vars debug => ?_⟩
  · rcases knows_more assemble write (o := Opt.default) (o' := commandOpt [] none σ true true) rfl (hk _) rfl rfl hc with
      h | ⟨-, h, -⟩
    · exact h
    · cases h
  · rcases knows_more assemble write (o := Opt.default) (o' := buildOpt vars debug false) rfl (hk _) rfl rfl hc with
      h | ⟨-, -, h⟩
    · exact .inl h
    · exact .inr h

/-- **C108.**  The errors in an error of cxx-gen are what is wrong, each on its own, in order; there is at least one. -/
theorem errors_one_by_one {opt : Opt} {bridges : List (Bridge α μ)} {f : Failure}
    (h : library assemble write opt bridges = .error f) :
    f.iter ≠ [] ∧ (∀ g ∈ f.iter, g.iter = [g]) ∧
    (∀ es, f = .reports es → f.iter.length = es.length ∧ ∀ i : Nat, f.iter[i]? = es[i]?.map fun e => .reports [e]) ∧
    (f = .noBridgeMod → f.iter = [f]) := by
  obtain ⟨p, hp⟩ := settled_decidable opt.options.evaluator
  cases f with
  | noBridgeMod => exact ⟨nofun, by simp [Failure.iter], nofun, fun _ => rfl⟩
  | reports es =>
    have hne := (reports_exactly assemble _ opt.options hp bridges h).1
    refine ⟨by simpa [Failure.iter] using hne, ?_, ?_, nofun⟩
    · intro g hg
      obtain ⟨e, -, rfl⟩ := List.mem_map.1 hg
      rfl
    · rintro _ ⟨⟩
      exact ⟨by simp [Failure.iter], fun i => by simp [Failure.iter]⟩

end

/-! ### Examples -/

section Witness

/-- `CARGO_FEATURE_F=1`. -/
def demoVars (on : Bool) : List (List Char × List Char) :=
  if on then [("CARGO_FEATURE_F".toList, "1".toList)] else []

/-- `--cfg b=false`. -/
def frontFlags : List (List FlagTok) := [[.ident "b", .eq, .bool false]]

theorem frontFlags_given (n : String) (v : CfgValue) : Given frontFlags n v ↔ n = "b" ∧ v = .bool false := by
  constructor
  · rintro ⟨arg, ha, hs⟩
    rw [frontFlags, List.mem_singleton] at ha
    subst ha
    cases hs
    exact ⟨rfl, rfl⟩
  · rintro ⟨rfl, rfl⟩
    exact ⟨_, List.mem_singleton.2 rfl, .bool _ _⟩

/-- The flags are truthful where the feature is off. -/
theorem frontFlags_truthful : Truthful frontFlags (demoVars false) false where
  value n v h := by obtain ⟨-, h⟩ := (frontFlags_given n _).1 h; cases h
  listed n v h hc := by
    have : cargo [] false n (some v) = .false := by
      unfold cargo cargoEvaluator cargoEval
      simp only [load, List.any_nil, List.find?_nil, Option.map_some, reduceCtorEq, and_false, if_false]
      split <;> rfl
    rw [demoVars, if_neg nofun, this] at hc
    cases hc
  yes n h := by obtain ⟨-, h⟩ := (frontFlags_given n _).1 h; cases h
  no n h := by
    obtain ⟨rfl, -⟩ := (frontFlags_given n _).1 h
    decide +kernel

def frontWrite (_ : Style) : List Api → Bool → List Char := demoWrite

example : (flagsEvaluator frontFlags).map (fun σ => run Item.body frontWrite (commandOpt [] none σ true true) demoBridges) =
    some (.ok ⟨"ha.hg.h".toList, "ca.hg.h".toList⟩) := by decide +kernel

example : build Item.body frontWrite (demoVars false) false false demoBridges =
    .ok ⟨"ha.hg.h".toList, "ca.hg.h".toList⟩ := by decide +kernel

/-- A dotted include, which only cxx-build refuses. -/
example : build Item.body frontWrite (demoVars true) false false demoBridges =
    .error (.reports [.dotInclude "../f.h"]) := by decide +kernel

/-- Without a flag for `b` the command asks for it. -/
example : (flagsEvaluator []).map (fun σ => run Item.body frontWrite (commandOpt [] none σ true true) demoBridges) =
    some (.error (.reports [.cfg "pass either `--cfg b=true` or `--cfg b=false` to be able to use this cfg attribute"])) := by
  decide +kernel

example : library Item.body frontWrite Opt.default (demoBridges.take 1) = .ok ⟨"ha.h".toList, "ca.h".toList⟩ := by
  decide +kernel

example : ∃ f, library Item.body frontWrite Opt.default demoBridges = .error f :=
  ⟨.reports [.cfg "cfg attribute is not supported"], by decide +kernel⟩

end Witness

end Verif.Gen
