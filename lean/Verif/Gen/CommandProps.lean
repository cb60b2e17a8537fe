import Verif.Gen.CommandModel
import Verif.Gen.PipelineProps
/-!
# Every output of the command gets what was asked for
-/
namespace Verif.Gen
open Verif.Syntax Verif.Cfg

/-- The name of a C++ header. -/
def HeaderName (path : List Char) : Prop := ∃ stem, ∃ ext ∈ [".h".toList, ".hh".toList, ".hpp".toList], path = stem ++ ext

/-- The output is to be a header: because of `--header`, or because of its name. -/
def WantsHeader (header : Bool) (o : Output) : Prop := header = true ∨ ∃ path, o = .file path ∧ HeaderName path

/-- What generation makes of the input in full: both the header and the implementation. -/
def inFull {α μ : Type} (assemble : Item α μ → Api) (write : List Api → Bool → List Char) (σ : Evaluator)
    (bridges : List (Bridge α μ)) : Except Failure Code :=
  generate assemble write ⟨σ, true, true, true⟩ bridges

/-- What generation makes of it as it is called by the command. -/
def asCalled {α μ : Type} (assemble : Item α μ → Api) (write : List Api → Bool → List Char) (σ : Evaluator)
    (bridges : List (Bridge α μ)) (genHeader genImplementation : Bool) : Option Code :=
  (generate assemble write ⟨σ, genHeader, genImplementation, true⟩ bridges).toOption

theorem endsWith_iff (o : Output) (suffix : List Char) :
    o.endsWith suffix = true ↔ ∃ path, o = .file path ∧ ∃ stem, path = stem ++ suffix := by
  cases o with
  | stdout => simp [Output.endsWith]
  | file path =>
    simp only [Output.endsWith, List.isSuffixOf_iff_suffix]
    constructor
    · rintro ⟨stem, rfl⟩; exact ⟨_, rfl, stem, rfl⟩
    · rintro ⟨_, ⟨⟩, stem, rfl⟩; exact ⟨stem, rfl⟩

theorem kindOf_input (header : Bool) (o : Output) :
    (kindOf true header o = .generatedHeader ∧ WantsHeader header o) ∨
    (kindOf true header o = .generatedImplementation ∧ ¬ WantsHeader header o) := by
  have key : (header || o.endsWith ".h".toList || o.endsWith ".hh".toList || o.endsWith ".hpp".toList) = true ↔
      WantsHeader header o := by
    simp only [Bool.or_eq_true, endsWith_iff, WantsHeader, HeaderName]
    generalize ".h".toList = a
    generalize ".hh".toList = b
    generalize ".hpp".toList = c
    constructor
    · rintro (((h | ⟨p, h, s, e⟩) | ⟨p, h, s, e⟩) | ⟨p, h, s, e⟩)
      · exact .inl h
      · exact .inr ⟨p, h, s, _, by simp, e⟩
      · exact .inr ⟨p, h, s, _, by simp, e⟩
      · exact .inr ⟨p, h, s, _, by simp, e⟩
    · rintro (h | ⟨p, h, s, x, hx, e⟩)
      · exact .inl (.inl (.inl h))
      · simp only [List.mem_cons, List.not_mem_nil, or_false] at hx
        rcases hx with rfl | rfl | rfl
        · exact .inl (.inl (.inr ⟨p, h, s, e⟩))
        · exact .inl (.inr ⟨p, h, s, e⟩)
        · exact .inr ⟨p, h, s, e⟩
  rw [← key]
  unfold kindOf
  cases hb : (header || o.endsWith ".h".toList || o.endsWith ".hh".toList || o.endsWith ".hpp".toList) with
  | true => simp
  | false => simp

theorem plan_spec (hasInput header : Bool) (os : List Output) :
    (planOutputs hasInput header os).1 = os.map (fun o => (o, kindOf hasInput header o)) ∧
    ((planOutputs hasInput header os).2.1 = true ↔ ∃ o ∈ os, kindOf hasInput header o = .generatedHeader) ∧
    ((planOutputs hasInput header os).2.2 = true ↔ ∃ o ∈ os, kindOf hasInput header o = .generatedImplementation) := by
  induction os with
  | nil => simp [planOutputs]
  | cons o os ih =>
    obtain ⟨h1, h2, h3⟩ := ih
    simp only [planOutputs, List.map_cons, List.mem_cons, exists_eq_or_imp]
    cases hk : kindOf hasInput header o <;> simp [h1, h2, h3]

/-- Outputs are written in order until one cannot be. -/
theorem write_spec (canWrite : List Char → Bool) (content : Kind → List Char) (plan : List (Output × Kind)) :
    ∃ n, (writeOutputs canWrite content plan).written = (plan.take n).map (fun x => (x.1, content x.2)) ∧
      (∀ x ∈ plan.take n, ∀ path, x.1 = .file path → canWrite path = true) ∧
      (((writeOutputs canWrite content plan).success = true ∧ n = plan.length) ∨
       ((writeOutputs canWrite content plan).success = false ∧
        ∃ path k, plan[n]? = some (.file path, k) ∧ canWrite path = false)) := by
  induction plan with
  | nil => exact ⟨0, rfl, by simp, .inl ⟨rfl, rfl⟩⟩
  | cons x plan ih =>
    obtain ⟨n, h1, h2, h3⟩ := ih
    obtain ⟨o, k⟩ := x
    have good : writeOutputs canWrite content ((o, k) :: plan) =
          ⟨(o, content k) :: (writeOutputs canWrite content plan).written, (writeOutputs canWrite content plan).success⟩ →
        (∀ path, o = .file path → canWrite path = true) → _ := fun he hc => by
      refine (⟨n + 1, ?_, ?_, ?_⟩ : ∃ n, (writeOutputs canWrite content ((o, k) :: plan)).written =
          (((o, k) :: plan).take n).map (fun x => (x.1, content x.2)) ∧
        (∀ x ∈ ((o, k) :: plan).take n, ∀ path, x.1 = .file path → canWrite path = true) ∧
        (((writeOutputs canWrite content ((o, k) :: plan)).success = true ∧ n = ((o, k) :: plan).length) ∨
         ((writeOutputs canWrite content ((o, k) :: plan)).success = false ∧
          ∃ path k', ((o, k) :: plan)[n]? = some (.file path, k') ∧ canWrite path = false)))
      · rw [he]; simp [h1]
      · intro x hx path hp
        rw [List.take_succ_cons] at hx
        rcases List.mem_cons.1 hx with rfl | hx
        · exact hc path hp
        · exact h2 x hx path hp
      · rw [he]
        rcases h3 with ⟨h, hn⟩ | ⟨h, h'⟩
        · exact .inl ⟨h, by simp [hn]⟩
        · exact .inr ⟨h, by simpa using h'⟩
    cases o with
    | stdout => exact good rfl nofun
    | file path =>
      cases hc : canWrite path with
      | true => exact good (by simp [writeOutputs, hc]) (by rintro _ ⟨⟩; exact hc)
      | false =>
        refine ⟨0, by simp [writeOutputs, hc], by simp, .inr ⟨by simp [writeOutputs, hc], path, k, by simp, hc⟩⟩

section
variable {α μ : Type}

/-- Leaving one of the two out changes neither the verdict nor the other. -/
theorem generate_parts (assemble : Item α μ → Api) (write : List Api → Bool → List Char) (σ : Evaluator)
    (bridges : List (Bridge α μ)) (gh gi : Bool) :
    asCalled assemble write σ bridges gh gi =
      (inFull assemble write σ bridges).toOption.map fun code =>
        ⟨if gh then code.header else [], if gi then code.implementation else []⟩ := by
  obtain ⟨p, hp⟩ := settled_decidable σ
  have h1 := generate_exactly assemble write ⟨σ, gh, gi, true⟩ (p := p) hp bridges
  have h2 := generate_exactly assemble write ⟨σ, true, true, true⟩ (p := p) hp bridges
  unfold asCalled inFull
  cases e : generate assemble write ⟨σ, true, true, true⟩ bridges with
  | ok code =>
    obtain ⟨k1, k2, k3, k4, k5, k6, k7, k8⟩ := (h2 code).1 e
    have := (h1 ⟨if gh then code.header else [], if gi then code.implementation else []⟩).2
      ⟨k1, k2, k3, k4, k5, nofun, by simp only [k7, if_true], by simp only [k8, if_true]⟩
    rw [this]
    rfl
  | error f =>
    cases e' : generate assemble write ⟨σ, gh, gi, true⟩ bridges with
    | error f' => rfl
    | ok code =>
      obtain ⟨k1, k2, k3, k4, k5, k6, k7, k8⟩ := (h1 code).1 e'
      have := (h2 ⟨write ((builtItems p bridges).map assemble) true, write ((builtItems p bridges).map assemble) false⟩).2
        ⟨k1, k2, k3, k4, k5, nofun, rfl, rfl⟩
      rw [this] at e
      cases e

/-- **C62.**  If generation fails, nothing is written anywhere and the command fails. -/
theorem command_writes_nothing (assemble : Item α μ → Api) (write : List Api → Bool → List Char) (σ : Evaluator)
    (bridges : List (Bridge α μ)) (header : Bool) (cxxHeader : List Char) (canWrite : List Char → Bool)
    (outputs : List Output) {f : Failure} (h : inFull assemble write σ bridges = .error f) :
    command (some (asCalled assemble write σ bridges)) header cxxHeader canWrite outputs = ⟨[], false⟩ := by
  unfold command
  dsimp only [Option.isSome_some]
  rw [generate_parts, h]
  rfl

/-- **C62.**  Otherwise each output gets the generated header if `--header` was given or its name ends in `.h`, `.hh`
or `.hpp`, and the generated implementation if not; in the order given, up to the first file that cannot be written,
and the command succeeds if there is none. -/
theorem command_outputs (assemble : Item α μ → Api) (write : List Api → Bool → List Char) (σ : Evaluator)
    (bridges : List (Bridge α μ)) (header : Bool) (cxxHeader : List Char) (canWrite : List Char → Bool)
    (outputs : List Output) {code : Code} (h : inFull assemble write σ bridges = .ok code) :
    let r := command (some (asCalled assemble write σ bridges)) header cxxHeader canWrite outputs
    ∃ n, r.written.map (·.1) = outputs.take n ∧
      (∀ x ∈ r.written, (WantsHeader header x.1 ∧ x.2 = code.header) ∨
        (¬ WantsHeader header x.1 ∧ x.2 = code.implementation)) ∧
      ((r.success = true ∧ n = outputs.length) ∨
       (r.success = false ∧ ∃ path, outputs[n]? = some (.file path) ∧ canWrite path = false)) := by
  intro r
  obtain ⟨p1, p2, p3⟩ := plan_spec true header outputs
  have hr : r = writeOutputs canWrite (fun
      | .generatedHeader => if (planOutputs true header outputs).2.1 then code.header else []
      | .generatedImplementation => if (planOutputs true header outputs).2.2 then code.implementation else []
      | .header => cxxHeader) (outputs.map fun o => (o, kindOf true header o)) := by
    show command _ _ _ _ _ = _
    unfold command
    dsimp only [Option.isSome_some]
    rw [generate_parts, h, p1]
    rfl
  obtain ⟨n, h1, h2, h3⟩ := write_spec canWrite (fun
      | .generatedHeader => if (planOutputs true header outputs).2.1 then code.header else []
      | .generatedImplementation => if (planOutputs true header outputs).2.2 then code.implementation else []
      | .header => cxxHeader) (outputs.map fun o => (o, kindOf true header o))
  rw [← hr] at h1 h3
  refine ⟨n, ?_, ?_, ?_⟩
  · rw [h1, ← List.map_take, List.map_map, List.map_map]
    exact List.map_id _
  · intro x hx
    rw [h1, ← List.map_take, List.map_map] at hx
    obtain ⟨o, ho, rfl⟩ := List.mem_map.1 hx
    have ho := List.mem_of_mem_take ho
    rcases kindOf_input header o with ⟨hk, hw⟩ | ⟨hk, hw⟩
    · exact .inl ⟨hw, by simp [hk, p2.2 ⟨o, ho, hk⟩]⟩
    · exact .inr ⟨hw, by simp [hk, p3.2 ⟨o, ho, hk⟩]⟩
  · rcases h3 with ⟨h, hn⟩ | ⟨h, path, k, hk, hc⟩
    · exact .inl ⟨h, by simpa using hn⟩
    · refine .inr ⟨h, path, ?_, hc⟩
      rw [List.getElem?_map] at hk
      cases ho : outputs[n]? with
      | none => rw [ho] at hk; cases hk
      | some o => rw [ho] at hk; cases hk; rfl

/-- **C62.**  Without an input every output gets `rust/cxx.h`. -/
theorem command_cxx_header (header : Bool) (cxxHeader : List Char) (canWrite : List Char → Bool) (outputs : List Output) :
    let r := command none header cxxHeader canWrite outputs
    ∃ n, r.written = (outputs.take n).map (fun o => (o, cxxHeader)) ∧
      ((r.success = true ∧ n = outputs.length) ∨
       (r.success = false ∧ ∃ path, outputs[n]? = some (.file path) ∧ canWrite path = false)) := by
  intro r
  obtain ⟨p1, -, -⟩ := plan_spec false header outputs
  have hr : r = writeOutputs canWrite (fun
      | .generatedHeader => []
      | .generatedImplementation => []
      | .header => cxxHeader) (outputs.map fun o => (o, kindOf false header o)) := by
    show command _ _ _ _ _ = _
    unfold command
    dsimp only [Option.isSome_none]
    rw [p1]
    rfl
  obtain ⟨n, h1, -, h3⟩ := write_spec canWrite (fun
      | .generatedHeader => []
      | .generatedImplementation => []
      | .header => cxxHeader) (outputs.map fun o => (o, kindOf false header o))
  rw [← hr] at h1 h3
  refine ⟨n, ?_, ?_⟩
  · rw [h1, ← List.map_take, List.map_map]
    rfl
  · rcases h3 with ⟨h, hn⟩ | ⟨h, path, k, hk, hc⟩
    · exact .inl ⟨h, by simpa using hn⟩
    · refine .inr ⟨h, path, ?_, hc⟩
      rw [List.getElem?_map] at hk
      cases ho : outputs[n]? with
      | none => rw [ho] at hk; cases hk
      | some o => rw [ho] at hk; cases hk; rfl

end

/-- Output goes to standard output if `-o` is not given; `-` stands for it too. -/
theorem outputs_named (args : List (List Char)) :
    (args = [] → outputsOf args = [.stdout]) ∧
    (args ≠ [] → outputsOf args = args.map fun a => if a = ['-'] then .stdout else .file a) := by
  unfold outputsOf
  constructor
  · rintro rfl; rfl
  · intro h
    cases args with
    | nil => exact absurd rfl h
    | cons a as => rfl

/-- A header in angle brackets is included with them. -/
theorem include_flag (arg : List Char) :
    (∀ path, arg = '<' :: path ++ ['>'] → includeOf arg = (path, true)) ∧
    ((∀ path, arg ≠ '<' :: path ++ ['>']) → includeOf arg = (arg, false)) := by
  constructor
  · rintro path rfl
    simp [includeOf, List.isPrefixOf, List.isSuffixOf]
  · intro h
    unfold includeOf
    rw [if_neg]
    simp only [Bool.and_eq_true, List.isPrefixOf_iff_prefix, List.isSuffixOf_iff_suffix, not_and]
    rintro ⟨a, rfl⟩ ⟨b, hb⟩
    cases b with
    | nil => simp at hb
    | cons c b =>
      simp only [List.cons_append, List.nil_append, List.cons.injEq] at hb
      exact h b (by simp [← hb.2])

example : command (some (asCalled Item.body demoWrite (demoOptions .false).evaluator demoBridges)) false "x".toList
    (fun p => p ≠ "/no.h".toList) [.file "a.hpp".toList, .stdout, .file "/no.h".toList, .file "b.cc".toList] =
    ⟨[(.file "a.hpp".toList, "ha.hg.h".toList), (.stdout, "ca.hg.h".toList)], false⟩ := by decide +kernel

example : ∃ code, inFull Item.body demoWrite (demoOptions .false).evaluator demoBridges = .ok code :=
  ⟨⟨"ha.hg.h".toList, "ca.hg.h".toList⟩, by decide +kernel⟩

example : ∃ f, inFull Item.body demoWrite (demoOptions (.undetermined "?")).evaluator demoBridges = .error f :=
  ⟨.reports [.cfg "?"], by decide +kernel⟩

end Verif.Gen
