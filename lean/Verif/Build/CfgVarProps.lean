import Verif.Build.CfgVarSpec
import Verif.Utf8.Props
/-!
# `CFG` behaves as one variable
-/
namespace Verif.Build

structure CfgInv (s : CfgState) (w : World) : Prop where
  gone : ∀ h, w.use h = .gone → s.handles h = none ∧ s.derefs h = none
  unused : ∀ h, w.use h = .unused → s.handles h = some .cfg ∧ s.derefs h = none
  reading : ∀ h, w.use h = .reading → s.handles h = some .cfg ∧ s.derefs h = some w.value
  writing : ∀ h, w.use h = .writing → s.handles h = some (.mut_ w.value) ∧ s.derefs h = none
  alone : ∀ h, w.use h = .writing → ∀ k, k ≠ h → w.use k ≠ .writing ∧ w.use k ≠ .reading
  texts : ∀ h, w.use h = .writing → interned w.value.dirs = w.value.dirs
  stored : (∀ h, w.use h ≠ .writing) → s.current = w.value

theorem put_same {α : Type} (f : Handle → α) (h : Handle) (v : α) : put f h v h = v := by simp [put]
theorem put_ne {α : Type} (f : Handle → α) {h k : Handle} (v : α) (e : k ≠ h) : put f h v k = f k := by simp [put, e]

theorem interned_texts {dirs : List (List Nat)} (h : ∀ d ∈ dirs, Utf8.Spec.WellFormed8 d) : interned dirs = dirs := by
  refine (List.map_congr_left fun d hd => ?_).trans (List.map_id _)
  obtain ⟨cs, hc, rfl⟩ := h d hd
  have := Utf8.fromUtf8Lossy_flatMap hc []
  simpa [Utf8.fromUtf8Lossy] using this

theorem snapshot_eq (s : CfgState) : snapshot s = s.current := rfl

theorem handles_some {s : CfgState} {w : World} (hi : CfgInv s w) {h : Handle} (hg : w.use h ≠ .gone) :
    ∃ st, s.handles h = some st := by
  cases hu : w.use h with
  | gone => exact absurd hu hg
  | unused => exact ⟨_, (hi.unused h hu).1⟩
  | reading => exact ⟨_, (hi.reading h hu).1⟩
  | writing => exact ⟨_, (hi.writing h hu).1⟩

theorem cfg_step {s : CfgState} {w w' : World} {op : CfgOp} {obs : Option Settings} (hi : CfgInv s w)
    (hr : CfgRule w op w' obs) : ∃ s', cfgStep s op = .ok (s', obs) ∧ CfgInv s' w' := by
  cases hr with
  | @mention h hg =>
    obtain ⟨h1, h2⟩ := hi.gone h hg
    refine ⟨_, by simp only [cfgStep, h1]; rfl, ?_⟩
    constructor <;> intros <;> simp only [World.set, put] at * <;> grind [CfgInv]
  | @read h hg ho =>
    cases hu : w.use h with
    | gone => exact absurd hu hg
    | unused =>
      obtain ⟨h1, h2⟩ := hi.unused h hu
      have hc : s.current = w.value := hi.stored fun k => by
        by_cases e : k = h
        · rw [e, hu]; nofun
        · exact ho k e
      refine ⟨{ s with derefs := put s.derefs h (some w.value) }, ?_, ?_⟩
      · simp only [cfgStep, h1, deref, h2, snapshot_eq, hc]
      · constructor <;> intros <;> simp only [World.set, put] at * <;> grind [CfgInv]
    | reading =>
      obtain ⟨h1, h2⟩ := hi.reading h hu
      refine ⟨s, ?_, ?_⟩
      · simp only [cfgStep, h1, deref, h2]
      · constructor <;> intros <;> simp only [World.set, put] at * <;> grind [CfgInv]
    | writing =>
      obtain ⟨h1, h2⟩ := hi.writing h hu
      refine ⟨s, ?_, ?_⟩
      · simp only [cfgStep, h1, deref]
      · constructor <;> intros <;> simp only [World.set, put] at * <;> grind [CfgInv]
  | @write h change hg ho hd =>
    have hd := interned_texts hd
    by_cases hw : w.use h = .writing
    · obtain ⟨h1, h2⟩ := hi.writing h hw
      refine ⟨_, by simp only [cfgStep, h1, derefMut]; rfl, ?_⟩
      constructor <;> intros <;> simp only [World.set, put] at * <;> grind [CfgInv]
    · have h1 : s.handles h = some .cfg := by
        cases hu : w.use h with
        | gone => exact absurd hu hg
        | unused => exact (hi.unused h hu).1
        | reading => exact (hi.reading h hu).1
        | writing => exact absurd hu hw
      have hc : s.current = w.value := hi.stored fun k => by
        by_cases e : k = h
        · rw [e]; exact hw
        · exact (ho k e).1
      refine ⟨_, by simp only [cfgStep, h1, derefMut, snapshot_eq, hc]; rfl, ?_⟩
      constructor <;> intros <;> simp only [World.set, put] at * <;> grind [CfgInv]
  | @drop h hg =>
    by_cases hw : w.use h = .writing
    · obtain ⟨h1, h2⟩ := hi.writing h hw
      have hd := hi.texts h hw
      refine ⟨_, by simp only [cfgStep, h1, dropHandle, hd]; rfl, ?_⟩
      constructor <;> intros <;> simp only [World.set, put] at * <;> grind [CfgInv]
    · have h1 : s.handles h = some .cfg := by
        cases hu : w.use h with
        | gone => exact absurd hu hg
        | unused => exact (hi.unused h hu).1
        | reading => exact (hi.reading h hu).1
        | writing => exact absurd hu hw
      refine ⟨_, by simp only [cfgStep, h1, dropHandle]; rfl, ?_⟩
      constructor <;> intros <;> simp only [World.set, put] at * <;> grind [CfgInv]
  | @move h addr hg hn ht =>
    obtain ⟨st, h1⟩ := handles_some hi hg
    have h2 := (hi.gone _ ht).1
    have hne : h ≠ ⟨h.thread, addr⟩ := fun e => hg (by rw [e]; exact ht)
    have hd : s.derefs h = none := by
      cases hu : w.use h with
      | gone => exact absurd hu hg
      | unused => exact (hi.unused h hu).2
      | reading => exact absurd hu hn
      | writing => exact (hi.writing h hu).2
    refine ⟨_, by simp only [cfgStep, h1, h2]; rfl, ?_⟩
    constructor <;> intros <;> simp only [World.set, put] at * <;> grind [CfgInv]

theorem cfg_init (settings : Settings) : CfgInv (.init settings) (.init settings) := by
  constructor <;> intros <;> simp_all [CfgState.init, World.init]

theorem cfg_runs {s : CfgState} {w w' : World} {ops : List CfgOp} {obs : List (Option Settings)} (hi : CfgInv s w)
    (hr : Runs CfgRule w ops w' obs) : ∃ s', runOps cfgStep s ops = .ok (s', obs) ∧ CfgInv s' w' := by
  induction hr generalizing s with
  | nil => exact ⟨s, rfl, hi⟩
  | cons h1 _ ih =>
    obtain ⟨s1, e1, hi1⟩ := cfg_step hi h1
    obtain ⟨s2, e2, hi2⟩ := ih hi1
    exact ⟨s2, by simp [runOps, e1, e2], hi2⟩

/-- **C45**, for programs that follow the rule.  Whatever threads do with `CFG`, in whatever order, every read sees
the variable; and when nothing changed is in scope any more, the settings that cxx-build goes by are the variable. -/
theorem cfg_one_variable_partial {settings : Settings} {ops : List CfgOp} {w : World} {obs : List (Option Settings)}
    (h : Runs CfgRule (.init settings) ops w obs) :
    ∃ s, runOps cfgStep (.init settings) ops = .ok (s, obs) ∧
      ((∀ h, w.use h ≠ .writing) → s.current = w.value) := by
  obtain ⟨s, e, hi⟩ := cfg_runs (cfg_init settings) h
  exact ⟨s, e, hi.stored⟩

/-- Statements that mention `CFG` once follow the rule, whichever threads they run on. -/
theorem statement_follows {w : World} (hw : ∀ h, w.use h = .gone) (h : Handle) (change : Settings → Settings)
    (hd : ∀ d ∈ (change w.value).dirs, Utf8.Spec.WellFormed8 d) :
    Runs CfgRule w [.mention h, .write h change, .drop h] ⟨change w.value, fun _ => .gone⟩ [none, none, none] ∧
    Runs CfgRule w [.mention h, .read h, .drop h] w [none, some w.value, none] := by
  have e1 : ∀ u : Handle → Use, (∀ k, k ≠ h → u k = .gone) → (fun k => if k = h then Use.gone else u k) = fun _ => .gone := by
    intro u hu
    funext k
    split
    · rfl
    · next e => exact hu k e
  have hw' : w.use = fun _ => .gone := funext hw
  constructor
  · refine .cons (.mention (hw h)) (.cons (.write (by simp [World.set]) (fun k hk => by simp [World.set, hk, hw]) hd) ?_)
    have := CfgRule.drop (w := ⟨change w.value, World.set ⟨w.value, w.set h .unused⟩ h .writing⟩) (h := h) (by simp [World.set])
    rw [show World.set ⟨change w.value, World.set ⟨w.value, w.set h .unused⟩ h .writing⟩ h .gone = fun _ => .gone from
      e1 _ fun k hk => by simp [World.set, hk, hw]] at this
    exact .cons this .nil
  · refine .cons (.mention (hw h)) (.cons (.read (by simp [World.set]) (fun k hk => by simp [World.set, hk, hw])) ?_)
    have := CfgRule.drop (w := ⟨w.value, World.set ⟨w.value, w.set h .unused⟩ h .reading⟩) (h := h) (by simp [World.set])
    rw [show World.set ⟨w.value, World.set ⟨w.value, w.set h .unused⟩ h .reading⟩ h .gone = w.use from
      (e1 _ fun k hk => by simp [World.set, hk, hw]).trans hw'.symm] at this
    simpa [World.set] using Runs.cons this .nil

/-- What two threads, or one after the other, have written is kept when their statements do not overlap. -/
example : Runs CfgRule (.init (.initial "p".toList))
    ([.mention ⟨0, 5⟩, .write ⟨0, 5⟩ fun s => { s with dirs := [[0x2F, 0xC3, 0xA9]] }, .drop ⟨0, 5⟩] ++
     [.mention ⟨1, 5⟩, .write ⟨1, 5⟩ fun s => { s with links := ["l".toList] }, .drop ⟨1, 5⟩])
    ⟨⟨"p".toList, [[0x2F, 0xC3, 0xA9]], [], ["l".toList], false⟩, fun _ => .gone⟩ [none, none, none, none, none, none] := by
  have hd : ∀ d ∈ [[0x2F, 0xC3, 0xA9]], Utf8.Spec.WellFormed8 d := by
    intro d hd
    cases List.mem_singleton.1 hd
    exact ⟨[0x2F, 0xE9], by simp [Utf8.Spec.IsScalar], by decide +kernel⟩
  have h1 := (statement_follows (w := .init (.initial "p".toList)) (fun _ => rfl) ⟨0, 5⟩ (fun s => { s with dirs := [[0x2F, 0xC3, 0xA9]] }) hd).1
  have h2 := (statement_follows (w := ⟨⟨"p".toList, [[0x2F, 0xC3, 0xA9]], [], [], false⟩, fun _ => .gone⟩) (fun _ => rfl) ⟨1, 5⟩
    (fun s => { s with links := ["l".toList] }) hd).1
  cases h1 with | cons a h1 => cases h1 with | cons b h1 => cases h1 with | cons c h1 => cases h1; exact .cons a (.cons b (.cons c h2))

/-! ### Where the claim fails -/

/-- The settings after a program. -/
def settingsAfter (settings : Settings) (ops : List CfgOp) : Option Settings :=
  match runOps cfgStep (.init settings) ops with
  | .ok (s, _) => some s.current
  | .error _ => none

/-- What a program reads. -/
def readsOf (settings : Settings) (ops : List CfgOp) : List Settings :=
  match runOps cfgStep (.init settings) ops with
  | .ok (_, obs) => obs.filterMap id
  | .error _ => []

/-- The full claim is false: two threads set different settings at the same time and one of the changes is lost. -/
theorem cfg_lost_update :
    settingsAfter (.initial "p".toList)
      [.mention ⟨0, 5⟩, .mention ⟨1, 5⟩, .write ⟨0, 5⟩ fun s => { s with doxygen := true },
       .write ⟨1, 5⟩ fun s => { s with links := ["l".toList] }, .drop ⟨0, 5⟩, .drop ⟨1, 5⟩] =
      some ⟨"p".toList, [], [], ["l".toList], false⟩ := by decide +kernel

/-- A directory that is not UTF-8 is another directory as soon as it is stored. -/
theorem cfg_path_changed :
    settingsAfter (.initial "p".toList)
      [.mention ⟨0, 5⟩, .write ⟨0, 5⟩ fun s => { s with dirs := [[0x2F, 0xFF]] }, .drop ⟨0, 5⟩] =
      some ⟨"p".toList, [[0x2F, 0xEF, 0xBF, 0xBD]], [], [], false⟩ := by decide +kernel

/-- Through a mention that is kept in a local variable, what was read once is read again after a change. -/
theorem cfg_stale_read :
    readsOf (.initial "p".toList)
      [.mention ⟨0, 5⟩, .read ⟨0, 5⟩, .mention ⟨0, 6⟩, .write ⟨0, 6⟩ fun s => { s with doxygen := true }, .drop ⟨0, 6⟩,
       .read ⟨0, 5⟩] = [.initial "p".toList, .initial "p".toList] := by decide +kernel

/-- A mention that is read through, then moved and dropped leaves a copy of the settings behind, which a later mention
at the same address reads. -/
theorem cfg_left_behind :
    readsOf (.initial "p".toList)
      [.mention ⟨0, 5⟩, .read ⟨0, 5⟩, .move ⟨0, 5⟩ 6, .drop ⟨0, 6⟩,
       .mention ⟨0, 6⟩, .write ⟨0, 6⟩ fun s => { s with doxygen := true }, .drop ⟨0, 6⟩,
       .mention ⟨0, 5⟩, .read ⟨0, 5⟩] = [.initial "p".toList, .initial "p".toList] := by decide +kernel

end Verif.Build
