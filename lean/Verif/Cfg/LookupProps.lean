import Verif.Cfg.LookupSpec
/-!
# Lookup of predicates
-/
namespace Verif.Cfg

/-! ### The command line -/

theorem parseFlag_iff (arg : List FlagTok) (name : String) (v : CfgValue) :
    parseFlag arg = some (name, v) ↔ Says arg name v := by
  constructor
  · intro h
    unfold parseFlag at h
    split at h <;> cases h
    · exact .bare _
    · exact .bool _ _
    · exact .str _ _
  · intro h; cases h <;> rfl

theorem says_unique {arg : List FlagTok} {n n' : String} {v v' : CfgValue} (h : Says arg n v) (h' : Says arg n' v') :
    n = n' ∧ v = v' := by
  have := (parseFlag_iff _ _ _).2 h
  rw [(parseFlag_iff _ _ _).2 h'] at this
  cases this
  exact ⟨rfl, rfl⟩

theorem given_cons {arg : List FlagTok} {args : List (List FlagTok)} {n n' : String} {v v' : CfgValue}
    (h : Says arg n v) : Given (arg :: args) n' v' ↔ (n' = n ∧ v' = v) ∨ Given args n' v' := by
  constructor
  · rintro ⟨a, ha, hs⟩
    rcases List.mem_cons.1 ha with rfl | ha
    · exact .inl (says_unique hs h)
    · exact .inr ⟨a, ha, hs⟩
  · rintro (⟨rfl, rfl⟩ | ⟨a, ha, hs⟩)
    · exact ⟨arg, by simp, h⟩
    · exact ⟨a, by simp [ha], hs⟩

theorem accept_members : ∀ (args : List (List FlagTok)) (bools : List (String × Bool)) (flags : List (String × CfgValue)),
    acceptFlags bools args = some flags → ∀ n v, (n, v) ∈ flags ↔ Given args n v := by
  intro args
  induction args with
  | nil =>
    intro bools flags h n v
    cases h
    constructor
    · nofun
    · rintro ⟨_, h, _⟩; cases h
  | cons arg args ih =>
    intro bools flags h n v
    unfold acceptFlags at h
    split at h
    · cases h
    · rename_i name s hp
      obtain ⟨fl, hfl, rfl⟩ := Option.map_eq_some_iff.1 h
      rw [given_cons ((parseFlag_iff _ _ _).1 hp), List.mem_cons, ih _ _ hfl, Prod.mk.injEq]
    · rename_i name b hp
      have key : ∀ fl, acceptFlags ((name, b) :: bools) args = some fl → flags = (name, .bool b) :: fl →
          ((n, v) ∈ flags ↔ Given (arg :: args) n v) := by
        rintro fl hfl rfl
        rw [given_cons ((parseFlag_iff _ _ _).1 hp), List.mem_cons, ih _ _ hfl, Prod.mk.injEq]
      split at h
      · split at h
        · cases h
        · obtain ⟨fl, hfl, h⟩ := Option.map_eq_some_iff.1 h
          exact key fl hfl h.symm
      · obtain ⟨fl, hfl, h⟩ := Option.map_eq_some_iff.1 h
        exact key fl hfl h.symm

theorem boolGet_cons (m : List (String × Bool)) (k n : String) (b : Bool) :
    boolGet ((k, b) :: m) n = if k = n then some b else boolGet m n := by
  unfold boolGet
  by_cases h : k = n <;> simp [h]

/-- What is said of a name by the map or the arguments still to come. -/
def Told (bools : List (String × Bool)) (args : List (List FlagTok)) (n : String) (b : Bool) : Prop :=
  boolGet bools n = some b ∨ Given args n (.bool b)

theorem accept_iff : ∀ (args : List (List FlagTok)) (bools : List (String × Bool)),
    (∃ flags, acceptFlags bools args = some flags) ↔
      (∀ arg ∈ args, ∃ n v, Says arg n v) ∧ ∀ n b b', Told bools args n b → Told bools args n b' → b = b' := by
  intro args
  induction args with
  | nil =>
    intro bools
    constructor
    · intro _
      refine ⟨by simp, ?_⟩
      rintro n b b' (h | ⟨_, h, _⟩) (h' | ⟨_, h', _⟩)
      · rw [h] at h'; cases h'; rfl
      · cases h'
      · cases h
      · cases h
    · intro _; exact ⟨[], rfl⟩
  | cons arg args ih =>
    intro bools
    cases hp : parseFlag arg with
    | none =>
      constructor
      · rintro ⟨fl, h⟩; rw [acceptFlags, hp] at h; cases h
      · rintro ⟨h, _⟩
        obtain ⟨n, v, hs⟩ := h arg (by simp)
        rw [(parseFlag_iff _ _ _).2 hs] at hp; cases hp
    | some nv =>
      obtain ⟨name, v⟩ := nv
      have hs := (parseFlag_iff _ _ _).1 hp
      have hsays : (∀ a ∈ arg :: args, ∃ n v, Says a n v) ↔ ∀ a ∈ args, ∃ n v, Says a n v := by
        constructor
        · intro h a ha; exact h a (by simp [ha])
        · intro h a ha
          rcases List.mem_cons.1 ha with rfl | ha
          · exact ⟨name, v, hs⟩
          · exact h a ha
      cases v with
      | str s =>
        have : (∃ flags, acceptFlags bools (arg :: args) = some flags) ↔ ∃ flags, acceptFlags bools args = some flags := by
          rw [acceptFlags, hp]
          simp only
          constructor
          · rintro ⟨fl, h⟩; obtain ⟨x, hx, _⟩ := Option.map_eq_some_iff.1 h; exact ⟨x, hx⟩
          · rintro ⟨x, hx⟩; exact ⟨_, by rw [hx]; rfl⟩
        rw [this, ih, hsays]
        have ht : ∀ n b, Told bools (arg :: args) n b ↔ Told bools args n b := by
          intro n b
          unfold Told
          rw [given_cons hs]
          simp
        simp only [ht]
      | bool b =>
        have ht : ∀ n b', Told bools (arg :: args) n b' ↔ (n = name ∧ b' = b) ∨ Told bools args n b' := by
          intro n b'
          unfold Told
          rw [given_cons hs]
          simp only [CfgValue.bool.injEq]
          constructor
          · rintro (h | h | h)
            · exact .inr (.inl h)
            · exact .inl h
            · exact .inr (.inr h)
          · rintro (h | h | h)
            · exact .inr (.inl h)
            · exact .inl h
            · exact .inr (.inr h)
        have hcons : ∀ n b', Told ((name, b) :: bools) args n b' ↔
            (n = name ∧ b' = b) ∨ (n ≠ name ∧ boolGet bools n = some b') ∨ Given args n (.bool b') := by
          intro n b'
          unfold Told
          rw [boolGet_cons]
          by_cases hn : name = n
          · subst hn; simp [eq_comm]
          · have hn' : n ≠ name := fun h => hn h.symm
            simp [hn, hn']
        have sub : (∃ flags, (acceptFlags ((name, b) :: bools) args).map ((name, CfgValue.bool b) :: ·) = some flags) ↔
            ∃ flags, acceptFlags ((name, b) :: bools) args = some flags := by
          constructor
          · rintro ⟨fl, h⟩; obtain ⟨x, hx, _⟩ := Option.map_eq_some_iff.1 h; exact ⟨x, hx⟩
          · rintro ⟨x, hx⟩; exact ⟨_, by rw [hx]; rfl⟩
        cases hg : boolGet bools name with
        | some prev =>
          by_cases hne : prev = b
          · subst hne
            have : (∃ flags, acceptFlags bools (arg :: args) = some flags) ↔
                ∃ flags, acceptFlags ((name, prev) :: bools) args = some flags := by
              rw [acceptFlags, hp]
              simp only [hg]
              rw [if_neg (by simp)]
              exact sub
            rw [this, ih, hsays]
            have heq : ∀ n b', Told ((name, prev) :: bools) args n b' ↔ Told bools (arg :: args) n b' := by
              intro n b'
              rw [hcons, ht]
              unfold Told
              constructor
              · rintro (h | ⟨_, h⟩ | h)
                · exact .inl h
                · exact .inr (.inl h)
                · exact .inr (.inr h)
              · rintro (h | h | h)
                · exact .inl h
                · by_cases hn : n = name
                  · subst hn; rw [hg] at h; cases h; exact .inl ⟨rfl, rfl⟩
                  · exact .inr (.inl ⟨hn, h⟩)
                · exact .inr (.inr h)
            simp only [heq]
          · constructor
            · rintro ⟨fl, h⟩
              rw [acceptFlags, hp] at h
              simp only [hg] at h
              rw [if_pos hne] at h
              cases h
            · rintro ⟨_, h⟩
              exact absurd (h name prev b (.inl hg) ((ht _ _).2 (.inl ⟨rfl, rfl⟩))) hne
        | none =>
          have : (∃ flags, acceptFlags bools (arg :: args) = some flags) ↔
              ∃ flags, acceptFlags ((name, b) :: bools) args = some flags := by
            rw [acceptFlags, hp]
            simp only [hg]
            exact sub
          rw [this, ih, hsays]
          have heq : ∀ n b', Told ((name, b) :: bools) args n b' ↔ Told bools (arg :: args) n b' := by
            intro n b'
            rw [hcons, ht]
            unfold Told
            constructor
            · rintro (h | ⟨_, h⟩ | h)
              · exact .inl h
              · exact .inr (.inl h)
              · exact .inr (.inr h)
            · rintro (h | h | h)
              · exact .inl h
              · by_cases hn : n = name
                · subst hn; rw [hg] at h; cases h
                · exact .inr (.inl ⟨hn, h⟩)
              · exact .inr (.inr h)
          simp only [heq]

/-- **C27**.  The tool takes its `--cfg` arguments exactly if they are understood and consistent. -/
theorem flags_accepted (args : List (List FlagTok)) : (∃ σ, flagsEvaluator args = some σ) ↔ Consistent args := by
  have h := accept_iff args []
  have hs : (∃ σ, flagsEvaluator args = some σ) ↔ ∃ flags, acceptFlags [] args = some flags := by
    unfold flagsEvaluator
    constructor
    · rintro ⟨σ, h⟩; obtain ⟨x, hx, _⟩ := Option.map_eq_some_iff.1 h; exact ⟨x, hx⟩
    · rintro ⟨x, hx⟩; exact ⟨_, by rw [hx]; rfl⟩
  rw [hs, h]
  have ht : ∀ n b, Told [] args n b ↔ Given args n (.bool b) := by
    intro n b; unfold Told; simp [boolGet]
  simp only [ht]
  unfold Consistent
  refine and_congr_right fun _ => ?_
  constructor
  · intro h name ⟨h1, h2⟩; exact absurd (h name _ _ h1 h2) (by simp)
  · intro h n b b' h1 h2
    cases b <;> cases b' <;> first | rfl | exact absurd (And.intro h1 h2) (h n) | exact absurd (And.intro h2 h1) (h n)

theorem flagsGet_insert (m : List (String × List CfgValue)) (name n : String) (v : CfgValue) :
    flagsGet (flagsInsert m name v) n =
      if name = n then some (v :: (flagsGet m n).getD []) else flagsGet m n := by
  induction m with
  | nil => unfold flagsInsert flagsGet; by_cases h : name = n <;> simp [h]
  | cons e m ih =>
    obtain ⟨k, set⟩ := e
    unfold flagsInsert
    by_cases hk : k = name
    · rw [if_pos hk]
      subst hk
      unfold flagsGet
      by_cases h : k = n <;> simp [h]
    · rw [if_neg hk]
      by_cases hn : k = n
      · subst hn
        have : ¬ name = k := fun h => hk h.symm
        simp [flagsGet, this]
      · have e1 : ∀ l : List (String × List CfgValue), flagsGet ((k, set) :: l) n = flagsGet l n := by
          intro l; unfold flagsGet; simp [hn]
        rw [e1, e1, ih]

/-- The map after some flags. -/
def Holds (m : List (String × List CfgValue)) (P : String → CfgValue → Prop) : Prop :=
  ∀ n, (flagsGet m n = none ↔ ∀ v, ¬ P n v) ∧ ∀ set, flagsGet m n = some set → ∀ v, v ∈ set ↔ P n v

theorem flagsMap_holds : ∀ (flags : List (String × CfgValue)) (m : List (String × List CfgValue))
    (P : String → CfgValue → Prop), Holds m P → Holds (flagsMap m flags) (fun n v => P n v ∨ (n, v) ∈ flags) := by
  intro flags
  induction flags with
  | nil => intro m P h; simpa [flagsMap] using h
  | cons f flags ih =>
    intro m P h
    obtain ⟨name, value⟩ := f
    rw [flagsMap]
    have step : Holds (flagsInsert m name value) (fun n v => P n v ∨ (n = name ∧ v = value)) := by
      intro n
      rw [flagsGet_insert]
      by_cases hn : name = n
      · subst hn
        rw [if_pos rfl]
        refine ⟨⟨nofun, fun h' => (h' value (Or.inr ⟨rfl, rfl⟩)).elim⟩, ?_⟩
        intro set hset v
        injection hset with hset
        subst hset
        rw [List.mem_cons]
        cases hg : flagsGet m name with
        | none =>
          have := (h name).1.1 hg
          constructor
          · rintro (h | h)
            · exact .inr ⟨rfl, h⟩
            · cases h
          · rintro (h | ⟨_, h⟩)
            · exact absurd h (this v)
            · exact .inl h
        | some s =>
          have := (h name).2 s hg v
          simp only [Option.getD_some]
          rw [this]
          constructor
          · rintro (h | h)
            · exact .inr ⟨trivial, h⟩
            · exact .inl h
          · rintro (h | ⟨_, h⟩)
            · exact .inr h
            · exact .inl h
      · rw [if_neg hn]
        have hn' : ¬ n = name := fun h => hn h.symm
        simpa [hn'] using h n
    have := ih _ _ step
    intro n
    have hh := this n
    have hP : ∀ v, ((P n v ∨ n = name ∧ v = value) ∨ (n, v) ∈ flags) ↔ (P n v ∨ (n, v) ∈ (name, value) :: flags) := by
      intro v; rw [List.mem_cons, Prod.mk.injEq, or_assoc]
    simp only [hP] at hh
    exact hh

/-- **C27**, the command line tool: what each predicate comes to. -/
theorem flags_exact {args : List (List FlagTok)} {σ : Evaluator} (h : flagsEvaluator args = some σ) (n : String) :
    (∀ v, (σ n (some v) = .true ↔ Given args n (.str v)) ∧
      (σ n (some v) = .false ↔ ¬ Given args n (.str v) ∧ (n = "feature" ∨ ∃ x, Given args n x)) ∧
      (Unknown (σ n (some v)) ↔ n ≠ "feature" ∧ ∀ x, ¬ Given args n x)) ∧
    (σ n none = .true ↔ Given args n (.bool true)) ∧ (σ n none = .false ↔ Given args n (.bool false)) ∧
    (Unknown (σ n none) ↔ ¬ Given args n (.bool true) ∧ ¬ Given args n (.bool false)) := by
  have hcons := (flags_accepted args).1 ⟨σ, h⟩
  obtain ⟨flags, hf, rfl⟩ := Option.map_eq_some_iff.1 h
  have hmem := accept_members args [] flags hf
  have hH : Holds (flagsMap [] flags) (fun n v => Given args n v) := by
    have := flagsMap_holds flags [] (fun _ _ => False) (by intro n; exact ⟨by simp [flagsGet], by intro set hs; cases hs⟩)
    simpa [hmem] using this
  obtain ⟨h1, h2⟩ := hH n
  cases hg : flagsGet (flagsMap [] flags) n with
  | none =>
    have hno := h1.1 hg
    refine ⟨fun v => ?_, ?_⟩
    · have e : flagsEval (flagsMap [] flags) n (some v) = if n = "feature" then .false
          else .undetermined ("pass `--cfg " ++ n ++ "=\"...\"` to be able to use this attribute") := by
        simp only [flagsEval, hg]
      rw [e]
      by_cases hn : n = "feature"
      · simp [hn, Unknown]
        exact hn ▸ hno _
      · simp [hn, Unknown, hno]
    · have e : flagsEval (flagsMap [] flags) n none = .undetermined ("pass either `--cfg " ++ n ++
          "=true` or `--cfg " ++ n ++ "=false` to be able to use this cfg attribute") := by
        simp only [flagsEval, hg]; rfl
      rw [e]
      simp [Unknown, hno]
  | some set =>
    have hset := h2 set hg
    have hsome : ∃ x, Given args n x := by
      rcases Classical.em (∃ x, Given args n x) with hx | hx
      · exact hx
      · have := h1.2 (fun v hv => hx ⟨v, hv⟩); rw [hg] at this; cases this
    refine ⟨fun v => ?_, ?_⟩
    · have e : flagsEval (flagsMap [] flags) n (some v) = CfgResult.ofBool (decide (CfgValue.str v ∈ set)) := by
        simp only [flagsEval, hg]
      rw [e]
      by_cases hv : CfgValue.str v ∈ set
      · have : Given args n (.str v) := (hset _).1 hv
        simp only [hv, decide_true, CfgResult.ofBool, if_true, Unknown]
        refine ⟨by simp [this], by simp [this], by simp [hsome]⟩
      · have : ¬ Given args n (.str v) := fun h => hv ((hset _).2 h)
        simp only [hv, decide_false, CfgResult.ofBool, Bool.false_eq_true, if_false, Unknown]
        refine ⟨by simp [this], by simp [this, hsome], by simp [hsome]⟩
    · have hT := hset (.bool true)
      have hF := hset (.bool false)
      have e : flagsEval (flagsMap [] flags) n none =
          if decide (CfgValue.bool false ∈ set) && decide (CfgValue.bool true ∈ set) then
            .undetermined ("the cxxbridge flags say both " ++ n ++ "=false and " ++ n ++ "=true")
          else if decide (CfgValue.bool false ∈ set) then .false
          else if decide (CfgValue.bool true ∈ set) then .true
          else .undetermined ("pass either `--cfg " ++ n ++ "=true` or `--cfg " ++ n ++
            "=false` to be able to use this cfg attribute") := by
        simp only [flagsEval, hg]
      rw [e]
      by_cases ht : CfgValue.bool true ∈ set <;> by_cases hf : CfgValue.bool false ∈ set
      · exact absurd ⟨hT.1 ht, hF.1 hf⟩ (hcons.2 n)
      · have g1 : Given args n (.bool true) := hT.1 ht
        have g2 : ¬ Given args n (.bool false) := fun h => hf (hF.2 h)
        simp [ht, hf, g1, g2, Unknown]
      · have g1 : ¬ Given args n (.bool true) := fun h => ht (hT.2 h)
        have g2 : Given args n (.bool false) := hF.1 hf
        simp [ht, hf, g1, g2, Unknown]
      · have g1 : ¬ Given args n (.bool true) := fun h => ht (hT.2 h)
        have g2 : ¬ Given args n (.bool false) := fun h => hf (hF.2 h)
        simp [ht, hf, g1, g2, Unknown]

/-! ### Cargo's environment -/

theorem toNat_inj {a b : Char} (h : a.toNat = b.toNat) : a = b := by
  apply Char.ext
  exact UInt32.toNat_inj.1 h

theorem lower_toNat (c : Char) : (lower c).toNat = if 65 ≤ c.toNat ∧ c.toNat ≤ 90 then c.toNat + 32 else c.toNat := by
  unfold lower
  split
  · rename_i h
    have hv : (c.toNat + 32).isValidChar := Or.inl (by omega)
    rw [Char.ofNat, dif_pos hv]
    rfl
  · rfl

theorem isLower_iff (c : Char) : c.isLower = true ↔ 97 ≤ c.toNat ∧ c.toNat ≤ 122 := by
  simp only [Char.isLower, Bool.and_eq_true, decide_eq_true_eq]
  constructor
  · rintro ⟨h1, h2⟩; exact ⟨UInt32.le_iff_toNat_le.1 h1, UInt32.le_iff_toNat_le.1 h2⟩
  · rintro ⟨h1, h2⟩; exact ⟨UInt32.le_iff_toNat_le.2 h1, UInt32.le_iff_toNat_le.2 h2⟩

theorem toUpper_toNat (c : Char) (h : c.isLower = true) : c.toUpper.toNat = c.toNat - 32 := by
  rw [isLower_iff] at h
  unfold Char.toUpper
  rw [dif_pos ⟨UInt32.le_iff_toNat_le.2 h.1, UInt32.le_iff_toNat_le.2 h.2⟩]
  show (c.val + ('A'.val - 'a'.val)).toNat = _
  have e : ('A'.val - 'a'.val : UInt32).toNat = 2 ^ 32 - 32 := by decide
  rw [UInt32.toNat_add, e]
  have : c.val.toNat = c.toNat := rfl
  rw [this]
  omega

theorem lower_eq_iff (a b : Char) : lower a = lower b ↔
    a = b ∨ (b.isLower = true ∧ a = b.toUpper) ∨ (a.isLower = true ∧ b = a.toUpper) := by
  have la := lower_toNat a
  have lb := lower_toNat b
  constructor
  · intro h
    rw [h, lb] at la
    by_cases hab : a.toNat = b.toNat
    · exact .inl (toNat_inj hab)
    · right
      by_cases ha : 65 ≤ a.toNat ∧ a.toNat ≤ 90
      · rw [if_pos ha] at la
        have hb : ¬ (65 ≤ b.toNat ∧ b.toNat ≤ 90) := by
          intro hb; rw [if_pos hb] at la; omega
        rw [if_neg hb] at la
        have hl : b.isLower = true := (isLower_iff b).2 (by omega)
        exact .inl ⟨hl, toNat_inj (by rw [toUpper_toNat b hl]; omega)⟩
      · rw [if_neg ha] at la
        have hb : 65 ≤ b.toNat ∧ b.toNat ≤ 90 := by
          rcases Classical.em (65 ≤ b.toNat ∧ b.toNat ≤ 90) with hb | hb
          · exact hb
          · rw [if_neg hb] at la; omega
        rw [if_pos hb] at la
        have hl : a.isLower = true := (isLower_iff a).2 (by omega)
        exact .inr ⟨hl, toNat_inj (by rw [toUpper_toNat a hl]; omega)⟩
  · have key : ∀ c : Char, c.isLower = true → lower c.toUpper = lower c := by
      intro c hc
      apply toNat_inj
      rw [lower_toNat, lower_toNat, toUpper_toNat c hc]
      rw [isLower_iff] at hc
      rw [if_pos (by omega), if_neg (by omega)]
      omega
    rintro (rfl | ⟨hb, rfl⟩ | ⟨ha, rfl⟩)
    · rfl
    · exact key b hb
    · exact (key a ha).symm

theorem sameName_iff (a b : List Char) : sameName a b = true ↔ SameLetters a b := by
  induction a generalizing b with
  | nil =>
    cases b with
    | nil => exact ⟨fun _ => .nil, fun _ => rfl⟩
    | cons => exact ⟨nofun, nofun⟩
  | cons x a ih =>
    cases b with
    | nil => exact ⟨nofun, nofun⟩
    | cons y b =>
      rw [sameName, Bool.and_eq_true, decide_eq_true_eq, ih, lower_eq_iff]
      constructor
      · rintro ⟨rfl | ⟨hy, rfl⟩ | ⟨hx, rfl⟩, h⟩
        · exact .same _ h
        · exact .upper _ hy h
        · exact .lower _ hx h
      · intro h
        cases h with
        | same _ h => exact ⟨.inl rfl, h⟩
        | upper _ hc h => exact ⟨.inr (.inl ⟨hc, rfl⟩), h⟩
        | lower _ hc h => exact ⟨.inr (.inr ⟨hc, rfl⟩), h⟩

theorem sameName_map (a b : List Char) : sameName a b = true ↔ a.map lower = b.map lower := by
  induction a generalizing b with
  | nil => cases b <;> simp [sameName]
  | cons x a ih => cases b with
    | nil => simp [sameName]
    | cons y b => simp [sameName, ih]

theorem stripPrefix_iff (p s r : List Char) : stripPrefix p s = some r ↔ s = p ++ r := by
  induction p generalizing s with
  | nil => simp [stripPrefix]
  | cons c p ih =>
    cases s with
    | nil => simp [stripPrefix]
    | cons d s =>
      rw [stripPrefix]
      by_cases h : c = d
      · subst h; rw [if_pos rfl, ih]; simp
      · rw [if_neg h]
        have : ¬ d = c := fun h' => h h'.symm
        simp [this]

def FEATURE : List Char := ['C', 'A', 'R', 'G', 'O', '_', 'F', 'E', 'A', 'T', 'U', 'R', 'E', '_']
def CFG : List Char := ['C', 'A', 'R', 'G', 'O', '_', 'C', 'F', 'G', '_']

theorem feature_eq : "CARGO_FEATURE_".toList = FEATURE := by decide +kernel
theorem cfg_eq : "CARGO_CFG_".toList = CFG := by decide +kernel

theorem prefixes_apart (a b : List Char) : FEATURE ++ a ≠ CFG ++ b := by
  simp [FEATURE, CFG]

/-- The value looked up. -/
def cfgOf (env : CargoEnv) (name : List Char) : Option (List Char) :=
  (env.cfgs.find? (fun e => sameName e.1 name)).map (·.2)

theorem cfgOf_insert (env : CargoEnv) (k v name : List Char) :
    cfgOf { env with cfgs := cfgsInsert env.cfgs k v } name = if sameName k name then some v else cfgOf env name := by
  unfold cfgOf cfgsInsert
  by_cases h : sameName k name = true
  · simp [h]
  · rw [if_neg h]
    rw [List.find?_cons_of_neg (by simpa using h)]
    congr 1
    induction env.cfgs with
    | nil => rfl
    | cons e m ih =>
      by_cases he : sameName e.1 k = true
      · have hk : ¬ sameName e.1 name = true := by
          intro h'
          rw [sameName_map] at h' he h
          exact h (he.symm.trans h')
        simp only [Bool.not_eq_true] at hk
        rw [List.filter_cons_of_neg (by simp [he]), ih]
        simp only [List.find?_cons, hk]
      · rw [List.filter_cons_of_pos (by simp [he])]
        by_cases hk : sameName e.1 name = true
        · simp only [List.find?_cons, hk]
        · simp only [Bool.not_eq_true] at hk
          simp only [List.find?_cons, hk, ih]

/-- What one variable does. -/
theorem loadVar_spec (env : CargoEnv) (k v : List Char) :
    (∃ n, k = FEATURE ++ n ∧ loadVar env k v = { env with features := n :: env.features }) ∨
    (∃ n, k = CFG ++ n ∧ loadVar env k v = { env with cfgs := cfgsInsert env.cfgs n v }) ∨
    ((∀ n, k ≠ FEATURE ++ n) ∧ (∀ n, k ≠ CFG ++ n) ∧ loadVar env k v = env) := by
  unfold loadVar
  rw [feature_eq, cfg_eq]
  cases h1 : stripPrefix FEATURE k with
  | some n => exact .inl ⟨n, (stripPrefix_iff _ _ _).1 h1, rfl⟩
  | none =>
    have n1 : ∀ n, k ≠ FEATURE ++ n := fun n hn => by
      rw [(stripPrefix_iff _ _ n).2 hn] at h1; cases h1
    right
    cases h2 : stripPrefix CFG k with
    | some n => exact .inl ⟨n, (stripPrefix_iff _ _ _).1 h2, rfl⟩
    | none =>
      have n2 : ∀ n, k ≠ CFG ++ n := fun n hn => by
        rw [(stripPrefix_iff _ _ n).2 hn] at h2; cases h2
      exact .inr ⟨n1, n2, rfl⟩

theorem features_load (vars : List (List Char × List Char)) : ∀ (env : CargoEnv) (q : List Char),
    (load env vars).features.any (sameName · q) = true ↔
      env.features.any (sameName · q) = true ∨ SomeVar vars FEATURE q := by
  induction vars with
  | nil =>
    intro env q
    rw [load]
    constructor
    · exact .inl
    · rintro (h | ⟨_, _, h, _⟩)
      · exact h
      · cases h
  | cons kv vars ih =>
    obtain ⟨k, v⟩ := kv
    intro env q
    rw [load, ih]
    have hsv : SomeVar ((k, v) :: vars) FEATURE q ↔ (∃ n, k = FEATURE ++ n ∧ SameLetters n q) ∨ SomeVar vars FEATURE q := by
      constructor
      · rintro ⟨n, value, hm, hs⟩
        rcases List.mem_cons.1 hm with hm | hm
        · injection hm with h1 h2; exact .inl ⟨n, h1.symm, hs⟩
        · exact .inr ⟨n, value, hm, hs⟩
      · rintro (⟨n, rfl, hs⟩ | ⟨n, value, hm, hs⟩)
        · exact ⟨n, v, by simp, hs⟩
        · exact ⟨n, value, by simp [hm], hs⟩
    rw [hsv]
    rcases loadVar_spec env k v with ⟨n, hk, he⟩ | ⟨n, hk, he⟩ | ⟨h1, _, he⟩
    · rw [he]
      simp only [List.any_cons, Bool.or_eq_true]
      have : sameName n q = true ↔ ∃ n', k = FEATURE ++ n' ∧ SameLetters n' q := by
        rw [sameName_iff]
        constructor
        · intro h; exact ⟨n, hk, h⟩
        · rintro ⟨n', h1, h2⟩
          rw [hk] at h1
          rw [List.append_cancel_left h1]; exact h2
      rw [this, or_comm (a := ∃ n', _), or_assoc]
    · rw [he]
      have : ¬ ∃ n', k = FEATURE ++ n' ∧ SameLetters n' q := by
        rintro ⟨n', h, _⟩; rw [hk] at h; exact prefixes_apart _ _ h.symm
      simp [this]
    · rw [he]
      have : ¬ ∃ n', k = FEATURE ++ n' ∧ SameLetters n' q := by
        rintro ⟨n', h, _⟩; exact h1 _ h
      simp [this]

theorem cfgs_load (vars : List (List Char × List Char)) : ∀ (env : CargoEnv) (name v : List Char),
    cfgOf (load env vars) name = some v ↔
      LastVar vars CFG name v ∨ (¬ SomeVar vars CFG name ∧ cfgOf env name = some v) := by
  induction vars with
  | nil =>
    intro env name v
    rw [load]
    constructor
    · intro h
      refine .inr ⟨?_, h⟩
      rintro ⟨_, _, h, _⟩; cases h
    · rintro (⟨b, n, a, h, _⟩ | h)
      · simp at h
      · exact h.2
  | cons kv vars ih =>
    obtain ⟨k, w⟩ := kv
    intro env name v
    rw [load, ih]
    have hsv : SomeVar ((k, w) :: vars) CFG name ↔ (∃ n, k = CFG ++ n ∧ SameLetters n name) ∨ SomeVar vars CFG name := by
      constructor
      · rintro ⟨n, value, hm, hs⟩
        rcases List.mem_cons.1 hm with hm | hm
        · injection hm with h1 h2; exact .inl ⟨n, h1.symm, hs⟩
        · exact .inr ⟨n, value, hm, hs⟩
      · rintro (⟨n, rfl, hs⟩ | ⟨n, value, hm, hs⟩)
        · exact ⟨n, w, by simp, hs⟩
        · exact ⟨n, value, by simp [hm], hs⟩
    have hlv : LastVar ((k, w) :: vars) CFG name v ↔
        LastVar vars CFG name v ∨ (¬ SomeVar vars CFG name ∧ v = w ∧ ∃ n, k = CFG ++ n ∧ SameLetters n name) := by
      constructor
      · rintro ⟨b, n, a, h, hs, hno⟩
        cases b with
        | nil =>
          simp only [List.nil_append, List.cons.injEq, Prod.mk.injEq] at h
          obtain ⟨⟨rfl, rfl⟩, rfl⟩ := h
          refine .inr ⟨?_, rfl, n, rfl, hs⟩
          rintro ⟨n', v', hm, hs'⟩
          exact hno n' v' hm hs'
        | cons x b =>
          simp only [List.cons_append, List.cons.injEq] at h
          exact .inl ⟨b, n, a, h.2, hs, hno⟩
      · rintro (⟨b, n, a, rfl, hs, hno⟩ | ⟨hno, rfl, n, rfl, hs⟩)
        · exact ⟨(k, w) :: b, n, a, rfl, hs, hno⟩
        · exact ⟨[], n, vars, rfl, hs, fun n' v' hm hs' => hno ⟨n', v', hm, hs'⟩⟩
    have hstep : cfgOf (loadVar env k w) name = some v ↔
        (v = w ∧ ∃ n, k = CFG ++ n ∧ SameLetters n name) ∨
        ((¬ ∃ n, k = CFG ++ n ∧ SameLetters n name) ∧ cfgOf env name = some v) := by
      rcases loadVar_spec env k w with ⟨n, hk, he⟩ | ⟨n, hk, he⟩ | ⟨_, h2, he⟩
      · have : ¬ ∃ n, k = CFG ++ n ∧ SameLetters n name := by
          rintro ⟨n', h, _⟩; rw [hk] at h; exact prefixes_apart _ _ h
        rw [he]
        have e : cfgOf { env with features := n :: env.features } name = cfgOf env name := rfl
        rw [e]
        simp only [this, and_false, not_false_eq_true, true_and, false_or]
      · rw [he, cfgOf_insert]
        have hx : sameName n name = true ↔ ∃ n', k = CFG ++ n' ∧ SameLetters n' name := by
          rw [sameName_iff]
          constructor
          · intro h; exact ⟨n, hk, h⟩
          · rintro ⟨n', h1, h2⟩
            rw [hk] at h1
            rw [List.append_cancel_left h1]; exact h2
        by_cases hs : sameName n name = true
        · rw [if_pos hs]
          have := hx.1 hs
          simp only [this, not_true, false_and, or_false, and_true, Option.some.injEq]
          exact eq_comm
        · rw [if_neg hs]
          have : ¬ ∃ n', k = CFG ++ n' ∧ SameLetters n' name := fun h => hs (hx.2 h)
          simp only [this, and_false, not_false_eq_true, true_and, false_or]
      · have : ¬ ∃ n, k = CFG ++ n ∧ SameLetters n name := by
          rintro ⟨n', h, _⟩; exact h2 _ h
        rw [he]
        simp [this]
    rw [hstep, hsv, hlv]
    constructor
    · rintro (h | ⟨h1, h2 | ⟨h2, h3⟩⟩)
      · exact .inl (.inl h)
      · exact .inl (.inr ⟨h1, h2⟩)
      · exact .inr ⟨fun h => h.elim h2 h1, h3⟩
    · rintro ((h | ⟨h1, h2⟩) | ⟨h1, h2⟩)
      · exact .inl h
      · exact .inr ⟨h1, .inl h2⟩
      · exact .inr ⟨fun h => h1 (.inr h), .inr ⟨fun h => h1 (.inl h), h2⟩⟩

theorem someVar_lastVar {vars : List (List Char × List Char)} {pre name : List Char} (h : SomeVar vars pre name) :
    ∃ v, LastVar vars pre name v := by
  induction vars with
  | nil => obtain ⟨_, _, h, _⟩ := h; cases h
  | cons kv vars ih =>
    rcases Classical.em (SomeVar vars pre name) with h' | h'
    · obtain ⟨v, b, n, a, hv, hs, hno⟩ := ih h'
      exact ⟨v, kv :: b, n, a, by rw [hv]; rfl, hs, hno⟩
    · obtain ⟨n, v, hm, hs⟩ := h
      rcases List.mem_cons.1 hm with hm | hm
      · exact ⟨v, [], n, vars, by rw [← hm]; rfl, hs, fun n' v' hm' hs' => h' ⟨n', v', hm', hs'⟩⟩
      · exact absurd ⟨n, v, hm, hs⟩ h'

theorem lastVar_someVar {vars : List (List Char × List Char)} {pre name v : List Char} (h : LastVar vars pre name v) :
    SomeVar vars pre name := by
  obtain ⟨b, n, a, rfl, hs, _⟩ := h
  exact ⟨n, v, by simp, hs⟩

theorem splitComma_ne (v : List Char) : splitComma v ≠ [] := by
  cases v with
  | nil => simp [splitComma]
  | cons c v =>
    rw [splitComma]
    split
    · simp
    · split <;> simp

theorem listed_nil (q : List Char) : Listed q [] ↔ q = [] := by
  constructor
  · rintro ⟨_, b, a, h, _⟩
    have := List.append_eq_nil_iff.1 h.symm
    exact (List.append_eq_nil_iff.1 this.1).2
  · rintro rfl; exact ⟨by simp, [], [], rfl, .inl rfl, .inl rfl⟩

/-- The first value of the list, and the others. -/
theorem split_spec (v : List Char) : ∃ w ws, splitComma v = w :: ws ∧ ',' ∉ w ∧
    (∃ after, v = w ++ after ∧ (after = [] ∨ ∃ a, after = ',' :: a)) ∧
    ∀ q, q ∈ ws ↔ ',' ∉ q ∧ ∃ before after, v = before ++ [','] ++ q ++ after ∧ (after = [] ∨ ∃ a, after = ',' :: a) := by
  induction v with
  | nil =>
    refine ⟨[], [], rfl, by simp, ⟨[], rfl, .inl rfl⟩, ?_⟩
    intro q
    constructor
    · nofun
    · rintro ⟨_, b, a, h, _⟩; simp at h
  | cons c v ih =>
    obtain ⟨w, ws, hsp, hw, ⟨after, hv, hafter⟩, hws⟩ := ih
    rw [splitComma]
    by_cases hc : c = ','
    · subst hc
      rw [if_pos rfl, hsp]
      refine ⟨[], w :: ws, rfl, by simp, ⟨',' :: v, rfl, .inr ⟨v, rfl⟩⟩, ?_⟩
      intro q
      rw [List.mem_cons, hws]
      constructor
      · rintro (rfl | ⟨hq, b, a, hv', ha⟩)
        · exact ⟨hw, [], after, by rw [hv]; rfl, hafter⟩
        · exact ⟨hq, ',' :: b, a, by rw [hv']; rfl, ha⟩
      · rintro ⟨hq, b, a, hv', ha⟩
        cases b with
        | nil =>
          left
          simp only [List.nil_append, List.cons_append, List.cons.injEq, true_and] at hv'
          -- both split `v` at the first comma
          have : ∀ (x y s t : List Char), ',' ∉ x → ',' ∉ y → (s = [] ∨ ∃ a, s = ',' :: a) →
              (t = [] ∨ ∃ a, t = ',' :: a) → x ++ s = y ++ t → x = y := by
            intro x
            induction x with
            | nil =>
              intro y s t _ hy hs ht h
              cases y with
              | nil => rfl
              | cons d y =>
                rcases hs with rfl | ⟨a, rfl⟩
                · simp at h
                · simp at h; simp [← h.1] at hy
            | cons d x ihx =>
              intro y s t hx hy hs ht h
              cases y with
              | nil =>
                rcases ht with rfl | ⟨a, rfl⟩
                · simp at h
                · simp at h; simp [h.1] at hx
              | cons d' y =>
                simp only [List.cons_append, List.cons.injEq] at h
                rw [h.1, ihx y s t (fun h => hx (by simp [h])) (fun h => hy (by simp [h])) hs ht h.2]
          exact this q w a after hq hw ha hafter (by rw [← hv', hv])
        | cons d b =>
          right
          simp only [List.cons_append, List.cons.injEq] at hv'
          exact ⟨hq, b, a, hv'.2, ha⟩
    · rw [if_neg hc, hsp]
      refine ⟨c :: w, ws, rfl, by simp [hw, Ne.symm hc], ⟨after, by rw [hv]; rfl, hafter⟩, ?_⟩
      intro q
      rw [hws]
      constructor
      · rintro ⟨hq, b, a, hv', ha⟩
        exact ⟨hq, c :: b, a, by rw [hv']; rfl, ha⟩
      · rintro ⟨hq, b, a, hv', ha⟩
        cases b with
        | nil => simp at hv'; exact absurd hv'.1 hc
        | cons d b =>
          simp only [List.cons_append, List.cons.injEq] at hv'
          exact ⟨hq, b, a, hv'.2, ha⟩

theorem split_listed (q v : List Char) : (splitComma v).any (fun w => decide (w = q)) = true ↔ Listed q v := by
  obtain ⟨w, ws, hsp, hw, ⟨after, hv, hafter⟩, hws⟩ := split_spec v
  rw [hsp]
  have : (w :: ws).any (fun w => decide (w = q)) = true ↔ q = w ∨ q ∈ ws := by
    simp only [List.any_eq_true, decide_eq_true_eq, List.mem_cons]
    constructor
    · rintro ⟨x, hx, rfl⟩; exact hx
    · intro h; exact ⟨q, h, rfl⟩
  rw [this, hws]
  constructor
  · rintro (rfl | ⟨hq, b, a, h, ha⟩)
    · exact ⟨hw, [], after, by rw [hv]; rfl, .inl rfl, hafter⟩
    · exact ⟨hq, b ++ [','], a, h, .inr ⟨b, rfl⟩, ha⟩
  · rintro ⟨hq, b, a, h, hb, ha⟩
    rcases hb with rfl | ⟨b, rfl⟩
    · -- a value in front is the first one
      left
      obtain ⟨w', ws', hsp', hw', ⟨after', hv', hafter'⟩, hws'⟩ := split_spec (',' :: v)
      have h1 : q ∈ ws' := (hws' q).2 ⟨hq, [], a, by rw [h]; rfl, ha⟩
      rw [splitComma, if_pos rfl, hsp] at hsp'
      injection hsp' with e1 e2
      rw [← e2] at h1
      rcases List.mem_cons.1 h1 with h1 | h1
      · exact h1
      · -- then it is the first one and a later one as well
        clear this hws'
        have key : ∀ (x y s t : List Char), ',' ∉ x → ',' ∉ y → (s = [] ∨ ∃ a, s = ',' :: a) →
            (t = [] ∨ ∃ a, t = ',' :: a) → x ++ s = y ++ t → x = y := by
          intro x
          induction x with
          | nil =>
            intro y s t _ hy hs ht h
            cases y with
            | nil => rfl
            | cons d y =>
              rcases hs with rfl | ⟨a, rfl⟩
              · simp at h
              · simp at h; simp [← h.1] at hy
          | cons d x ihx =>
            intro y s t hx hy hs ht h
            cases y with
            | nil =>
              rcases ht with rfl | ⟨a, rfl⟩
              · simp at h
              · simp at h; simp [h.1] at hx
            | cons d' y =>
              simp only [List.cons_append, List.cons.injEq] at h
              rw [h.1, ihx y s t (fun h => hx (by simp [h])) (fun h => hy (by simp [h])) hs ht h.2]
        exact key q w a after hq hw ha hafter (by rw [← hv, h]; simp)
    · exact .inr ⟨hq, b, a, h, ha⟩

/-- **C27**, cxx-build: features. -/
theorem cargo_features (vars : List (List Char × List Char)) (debug : Bool) :
    (∀ q, cargoEvaluator vars debug "feature".toList (some q) =
      CfgResult.ofBool true ↔ SomeVar vars "CARGO_FEATURE_".toList q) ∧
    (∀ q, cargoEvaluator vars debug "feature".toList (some q) =
      CfgResult.ofBool false ↔ ¬ SomeVar vars "CARGO_FEATURE_".toList q) ∧
    Unknown (cargoEvaluator vars debug "feature".toList none) := by
  have h : ∀ q, (load ⟨[], []⟩ vars).features.any (sameName · q) = true ↔ SomeVar vars FEATURE q := by
    intro q; rw [features_load]; simp
  have e : ∀ q, cargoEvaluator vars debug "feature".toList (some q) =
      CfgResult.ofBool ((load ⟨[], []⟩ vars).features.any (sameName · q)) := by
    intro q; unfold cargoEvaluator cargoEval; rw [if_pos rfl]
  refine ⟨fun q => ?_, fun q => ?_, ⟨_, by unfold cargoEvaluator cargoEval; rw [if_pos rfl]⟩⟩
  · rw [e, feature_eq, ← h]
    cases (load ⟨[], []⟩ vars).features.any (sameName · q) <;> simp [CfgResult.ofBool]
  · rw [e, feature_eq, ← h]
    cases (load ⟨[], []⟩ vars).features.any (sameName · q) <;> simp [CfgResult.ofBool]

/-- **C27**, cxx-build: everything else. -/
theorem cargo_exact (vars : List (List Char × List Char)) (debug : Bool) {name : List Char}
    (hn : name ≠ "feature".toList) :
    (∀ q, (cargoEvaluator vars debug name (some q) = .true ↔
        ∃ v, LastVar vars "CARGO_CFG_".toList name v ∧ Listed q v) ∧
      ¬ Unknown (cargoEvaluator vars debug name (some q))) ∧
    (name = "test".toList → Unknown (cargoEvaluator vars debug name none)) ∧
    (name ≠ "test".toList → (cargoEvaluator vars debug name none = .true ↔
        SomeVar vars "CARGO_CFG_".toList name ∨ (name = "debug_assertions".toList ∧ debug = true)) ∧
      ¬ Unknown (cargoEvaluator vars debug name none)) := by
  have hload : ∀ v, cfgOf (load ⟨[], []⟩ vars) name = some v ↔ LastVar vars CFG name v := by
    intro v; rw [cfgs_load]; simp [cfgOf]
  rw [cfg_eq]
  unfold cargoEvaluator cargoEval
  simp only [if_neg hn]
  cases hf : (load ⟨[], []⟩ vars).cfgs.find? (fun e => sameName e.1 name) with
  | some e =>
    have hl := (hload e.2).1 (by unfold cfgOf; rw [hf]; rfl)
    have huniq : ∀ v, LastVar vars CFG name v → v = e.2 := by
      intro v hv
      have := (hload v).2 hv
      unfold cfgOf at this
      rw [hf] at this
      simpa using this.symm
    refine ⟨fun q => ?_, ?_, ?_⟩
    · simp only [reduceCtorEq, and_false, if_false]
      have hsl := split_listed q e.2
      by_cases hq : Listed q e.2
      · rw [hsl.2 hq]
        exact ⟨⟨fun _ => ⟨e.2, hl, hq⟩, fun _ => rfl⟩, by rintro ⟨m, h⟩; cases h⟩
      · have : (splitComma e.2).any (fun w => decide (w = q)) = false := by
          rw [← Bool.not_eq_true, hsl]; exact hq
        rw [this]
        refine ⟨⟨nofun, ?_⟩, by rintro ⟨m, h⟩; cases h⟩
        rintro ⟨v, hv, hlv⟩
        rw [huniq v hv] at hlv
        exact absurd hlv hq
    · intro ht; rw [if_pos ⟨ht, trivial⟩]; exact ⟨_, rfl⟩
    · intro ht
      rw [if_neg (fun h => ht h.1)]
      exact ⟨⟨fun _ => .inl (lastVar_someVar hl), fun _ => rfl⟩, by rintro ⟨m, h⟩; cases h⟩
  | none =>
    have hno : ∀ v, ¬ LastVar vars CFG name v := by
      intro v hv
      have := (hload v).2 hv
      unfold cfgOf at this
      rw [hf] at this; cases this
    have hno' : ¬ SomeVar vars CFG name := fun h => (someVar_lastVar h).elim (fun v hv => hno v hv)
    refine ⟨fun q => ?_, ?_, ?_⟩
    · simp only [reduceCtorEq, and_false, if_false]
      exact ⟨⟨nofun, fun ⟨v, hv, _⟩ => absurd hv (hno v)⟩, by rintro ⟨m, h⟩; cases h⟩
    · intro ht; rw [if_pos ⟨ht, trivial⟩]; exact ⟨_, rfl⟩
    · intro ht
      rw [if_neg (fun h => ht h.1)]
      by_cases hd : name = "debug_assertions".toList
      · simp only [hd, and_self, if_true]
        rw [← hd]
        cases debug with
        | true => exact ⟨⟨fun _ => .inr ⟨trivial, rfl⟩, fun _ => rfl⟩, by rintro ⟨m, h⟩; cases h⟩
        | false =>
          refine ⟨⟨nofun, ?_⟩, by rintro ⟨m, h⟩; cases h⟩
          rintro (h | ⟨_, h⟩)
          · exact absurd h hno'
          · cases h
      · simp only [hd, false_and, if_false]
        refine ⟨⟨nofun, ?_⟩, by rintro ⟨m, h⟩; cases h⟩
        rintro (h | h)
        · exact absurd h hno'
        · exact absurd h nofun

/-! ### Features as Cargo names them -/

theorem sameLetters_upper (f : List Char) (h : '-' ∉ f) :
    SameLetters (f.map (fun c => if c = '-' then '_' else c.toUpper)) f := by
  induction f with
  | nil => exact .nil
  | cons c f ih =>
    have hc : ¬ c = '-' := fun h' => h (by simp [h'])
    simp only [List.map_cons, hc, if_false]
    by_cases hl : c.isLower = true
    · exact .upper c hl (ih (fun h' => h (by simp [h'])))
    · have : c.toUpper = c := by
        unfold Char.toUpper
        rw [dif_neg]
        intro h'
        exact hl ((isLower_iff c).2 ⟨UInt32.le_iff_toNat_le.1 h'.1, UInt32.le_iff_toNat_le.1 h'.2⟩)
      rw [this]
      exact .same c (ih (fun h' => h (by simp [h'])))

/-- **C27**, in part: a feature that Cargo has switched on is found if its name has no `-`. -/
theorem feature_found_partial {vars : List (List Char × List Char)} {f v : List Char} (debug : Bool)
    (hf : '-' ∉ f) (hv : (featureVar f, v) ∈ vars) :
    cargoEvaluator vars debug "feature".toList (some f) = .true :=
  ((cargo_features vars debug).1 f).2 ⟨_, v, hv, sameLetters_upper f hf⟩

/-- With a `-` in the name it is not: Cargo sets `CARGO_FEATURE_A_B` for the feature `a-b`, and
`cfg(feature = "a-b")` comes out false. -/
theorem hyphen_feature_missed (v : List Char) (debug : Bool) :
    cargoEvaluator [(featureVar "a-b".toList, v)] debug "feature".toList (some "a-b".toList) = .false := by
  refine ((cargo_features _ debug).2.1 _).2 ?_
  rintro ⟨n, value, hm, hs⟩
  rw [List.mem_singleton] at hm
  injection hm with h1 h2
  have hn : n = "A_B".toList := by
    have : "CARGO_FEATURE_".toList ++ n = "CARGO_FEATURE_".toList ++ "A_B".toList := by
      rw [h1]; decide +kernel
    exact List.append_cancel_left this
  rw [hn, ← sameName_iff] at hs
  exact absurd hs (by decide +kernel)

section Witness

/-- `--cfg unix --cfg feature="x" --cfg os="a" --cfg os="b"`. -/
def demoFlags : List (List FlagTok) :=
  [[.ident "unix"], [.ident "feature", .eq, .str "x"], [.ident "os", .eq, .str "a"], [.ident "os", .eq, .str "b"]]

example : (flagsEvaluator demoFlags).map (fun σ => (σ "unix" none, σ "feature" (some "x"), σ "feature" (some "y"),
    σ "os" (some "b"), σ "os" (some "c"))) = some (.true, .true, .false, .true, .false) := by decide +kernel

example : (flagsEvaluator [[.ident "a"], [.ident "a", .eq, .bool false]]).isNone = true := by decide +kernel

/-- `cfg(target_os = "linux")`, `cfg(unix)`, `cfg(feature = "x")`, `cfg(target_feature = "sse2")`. -/
def demoEnv : List (List Char × List Char) :=
  [("CARGO_CFG_TARGET_OS".toList, "linux".toList), ("CARGO_CFG_UNIX".toList, []), ("PATH".toList, "/bin".toList),
   ("CARGO_FEATURE_X".toList, "1".toList), ("CARGO_CFG_TARGET_FEATURE".toList, "fxsr,sse,sse2".toList)]

example : cargoEvaluator demoEnv false "target_os".toList (some "linux".toList) = .true ∧
    cargoEvaluator demoEnv false "unix".toList none = .true ∧
    cargoEvaluator demoEnv false "windows".toList none = .false ∧
    cargoEvaluator demoEnv false "feature".toList (some "x".toList) = .true ∧
    cargoEvaluator demoEnv false "target_feature".toList (some "sse".toList) = .true ∧
    cargoEvaluator demoEnv false "target_feature".toList (some "ss".toList) = .false := by decide +kernel

end Witness

end Verif.Cfg
