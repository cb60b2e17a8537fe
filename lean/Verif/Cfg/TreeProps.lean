import Verif.Cfg.TreeModel
import Verif.Cfg.LookupProps
import Verif.Utf8.Props
import Verif.Throw.Support
/-!
# C105: what is in Cargo's environment is found in the trees it is kept in
-/
namespace Verif.Cfg.Tree
open Verif.Utf8.Spec

/-! ### The order -/

/-- The letters compared. -/
def key (s : List Char) : List Nat := (bytes s).map lowerByte

/-- Comparison of lists of numbers. -/
def cmpL : List Nat → List Nat → Ordering
  | [], [] => .eq
  | [], _ :: _ => .lt
  | _ :: _, [] => .gt
  | a :: as, b :: bs => if a < b then .lt else if a = b then cmpL as bs else .gt

theorem cmpBytes_eq (a b : List Nat) : cmpBytes a b = cmpL (a.map lowerByte) (b.map lowerByte) := by
  induction a generalizing b with
  | nil => cases b <;> rfl
  | cons x a ih =>
    cases b with
    | nil => rfl
    | cons y b =>
      rw [cmpBytes, List.map_cons, List.map_cons, cmpL, cmpByte]
      by_cases h1 : lowerByte x < lowerByte y
      · simp [h1]
      · by_cases h2 : lowerByte x = lowerByte y
        · simp [h2, ih]
        · simp [h1, h2]

theorem eqBytes_iff (a b : List Nat) : eqBytes a b = true ↔ cmpBytes a b = .eq := by
  induction a generalizing b with
  | nil => cases b <;> simp [eqBytes, cmpBytes]
  | cons x a ih =>
    cases b with
    | nil => simp [eqBytes, cmpBytes]
    | cons y b =>
      rw [eqBytes, cmpBytes, Bool.and_eq_true, decide_eq_true_eq, ih]
      cases h : cmpByte x y <;> simp

theorem cmp_eq (a b : List Char) : cmp a b = cmpL (key a) (key b) := cmpBytes_eq _ _

theorem cmpL_eq (a b : List Nat) : cmpL a b = .eq ↔ a = b := by
  induction a generalizing b with
  | nil => cases b <;> simp [cmpL]
  | cons x a ih =>
    cases b with
    | nil => simp [cmpL]
    | cons y b =>
      rw [cmpL, List.cons.injEq]
      by_cases h1 : x < y
      · simp [h1]; omega
      · by_cases h2 : x = y
        · simp [h2, ih]
        · simp [h1, h2]

theorem cmpL_swap (a b : List Nat) : cmpL a b = .lt ↔ cmpL b a = .gt := by
  induction a generalizing b with
  | nil => cases b <;> simp [cmpL]
  | cons x a ih =>
    cases b with
    | nil => simp [cmpL]
    | cons y b =>
      rw [cmpL, cmpL]
      by_cases h1 : x < y
      · have : ¬ y < x := by omega
        have h3 : ¬ y = x := by omega
        simp [h1, this, h3]
      · by_cases h2 : x = y
        · simp [h2, ih]
        · have : y < x := by omega
          simp [h1, h2, this]

theorem cmpL_trans {a b c : List Nat} (h1 : cmpL a b = .lt) (h2 : cmpL b c = .lt) : cmpL a c = .lt := by
  induction a generalizing b c with
  | nil =>
    cases c with
    | nil => cases b <;> simp [cmpL] at h1 h2
    | cons => rfl
  | cons x a ih =>
    cases b with
    | nil => simp [cmpL] at h1
    | cons y b =>
      cases c with
      | nil => simp [cmpL] at h2
      | cons z c =>
        rw [cmpL] at h1 h2 ⊢
        by_cases a1 : x < y
        · by_cases b1 : y < z
          · rw [if_pos (by omega)]
          · rw [if_neg b1] at h2
            by_cases b2 : y = z
            · rw [if_pos (by omega)]
            · rw [if_neg b2] at h2; cases h2
        · rw [if_neg a1] at h1
          by_cases a2 : x = y
          · rw [if_pos a2] at h1
            by_cases b1 : y < z
            · rw [if_pos (by omega)]
            · rw [if_neg b1] at h2
              by_cases b2 : y = z
              · rw [if_pos b2] at h2
                rw [if_neg (by omega), if_pos (by omega)]
                exact ih h1 h2
              · rw [if_neg b2] at h2; cases h2
          · rw [if_neg a2] at h1; cases h1

theorem scalar (c : Char) : IsScalar c.toNat := by
  have h := c.valid
  unfold IsScalar
  rcases h with h | ⟨h1, h2⟩
  · exact .inl h
  · exact .inr ⟨by show 0xE000 ≤ c.val.toNat; omega, h2⟩

theorem lower_encode (c : Char) : (encode8 c.toNat).map lowerByte = encode8 (lower c).toNat := by
  rw [lower_toNat]
  unfold encode8
  by_cases h1 : c.toNat < 0x80
  · rw [if_pos h1]
    by_cases h : 65 ≤ c.toNat ∧ c.toNat ≤ 90
    · rw [if_pos h, if_pos (by omega)]; simp [lowerByte, h]
    · rw [if_neg h, if_pos h1]; simp [lowerByte, h]
  · have h : ¬ (65 ≤ c.toNat ∧ c.toNat ≤ 90) := by omega
    have hb : ∀ n, 128 ≤ n → lowerByte n = n := fun n hn => by rw [lowerByte, if_neg (by omega)]
    rw [if_neg h, if_neg h1]
    split
    · simp only [List.map_cons, List.map_nil]; rw [hb _ (by omega), hb _ (by omega)]
    · split
      · simp only [List.map_cons, List.map_nil]; rw [hb _ (by omega), hb _ (by omega), hb _ (by omega)]
      · simp only [List.map_cons, List.map_nil]
        rw [hb _ (by omega), hb _ (by omega), hb _ (by omega), hb _ (by omega)]

theorem key_eq (s : List Char) : key s = bytes (s.map lower) := by
  unfold key bytes
  induction s with
  | nil => rfl
  | cons c s ih => simp only [List.flatMap_cons, List.map_append, List.map_cons, ih, lower_encode]

theorem bytes_inj {a b : List Char} (h : bytes a = bytes b) : a = b := by
  induction a generalizing b with
  | nil =>
    cases b with
    | nil => rfl
    | cons c b =>
      exfalso
      have := congrArg List.length h
      have hne : encode8 c.toNat ≠ [] := Verif.Utf8.encode8_ne_nil _
      simp only [bytes, List.flatMap_nil, List.flatMap_cons, List.length_nil, List.length_append] at this
      exact hne (List.length_eq_zero_iff.1 (by omega))
  | cons c a ih =>
    cases b with
    | nil =>
      exfalso
      have := congrArg List.length h
      have hne : encode8 c.toNat ≠ [] := Verif.Utf8.encode8_ne_nil _
      simp only [bytes, List.flatMap_nil, List.flatMap_cons, List.length_nil, List.length_append] at this
      exact hne (List.length_eq_zero_iff.1 (by omega))
    | cons d b =>
      simp only [bytes, List.flatMap_cons] at h
      obtain ⟨h1, h2⟩ := Verif.Utf8.encode_append_inj (scalar c) (scalar d) h
      rw [toNat_inj h1, ih h2]

theorem cmp_same (a b : List Char) : cmp a b = .eq ↔ SameLetters a b := by
  rw [cmp_eq, cmpL_eq, key_eq, key_eq, ← sameName_iff, sameName_map]
  exact ⟨bytes_inj, fun h => by rw [h]⟩

/-- **C105**.  `cmp` is an order, and names are equal in it, and for `==`, exactly if they differ in the case of
ASCII letters at most. -/
theorem order_lawful :
    (∀ a b, cmp a b = .eq ↔ SameLetters a b) ∧ (∀ a b, eq a b = true ↔ SameLetters a b) ∧
    (∀ a b, cmp a b = .lt ↔ cmp b a = .gt) ∧
    (∀ a b c, cmp a b = .lt → cmp b c = .lt → cmp a c = .lt) ∧
    (∀ a b c, cmp a b = .eq → cmp a c = cmp b c) := by
  refine ⟨cmp_same, fun a b => ?_, fun a b => ?_, fun a b c h1 h2 => ?_, fun a b c h => ?_⟩
  · rw [eq, eqBytes_iff]; exact cmp_same a b
  · rw [cmp_eq, cmp_eq]; exact cmpL_swap _ _
  · rw [cmp_eq] at h1 h2 ⊢; exact cmpL_trans h1 h2
  · rw [cmp_eq, cmpL_eq] at h; rw [cmp_eq, cmp_eq, h]

/-! ### The trees -/

/-- What is found in a list. -/
def look {β : Type} (q : List Char) : List (List Char × β) → Option β
  | [] => none
  | (k, v) :: rest => if cmp q k = .eq then some v else look q rest

/-- Insertion into a list. -/
def put {β : Type} (q : List Char) (w : β) : List (List Char × β) → List (List Char × β)
  | [] => [(q, w)]
  | (k, v) :: rest =>
    match cmp q k with
    | .lt => (q, w) :: (k, v) :: rest
    | .eq => (k, w) :: rest
    | .gt => (k, v) :: put q w rest

/-- The keys ascend. -/
def Sorted {β : Type} (es : List (List Char × β)) : Prop := es.Pairwise fun a b => cmp a.1 b.1 = .lt

theorem cmp_trans {a b c : List Char} (h1 : cmp a b = .lt) (h2 : cmp b c = .lt) : cmp a c = .lt :=
  order_lawful.2.2.2.1 a b c h1 h2
theorem cmp_swap {a b : List Char} : cmp a b = .lt ↔ cmp b a = .gt := order_lawful.2.2.1 a b
theorem cmp_congr {a b c : List Char} (h : cmp a b = .eq) : cmp a c = cmp b c := order_lawful.2.2.2.2 a b c h
theorem cmp_symm {a b : List Char} (h : cmp a b = .eq) : cmp b a = .eq := by
  rw [cmp_eq, cmpL_eq] at h ⊢; exact h.symm
theorem cmp_congr' {a b c : List Char} (h : cmp a b = .eq) : cmp c a = cmp c b := by
  rw [cmp_eq, cmpL_eq] at h; rw [cmp_eq, cmp_eq, h]

theorem look_append {β : Type} (q : List Char) (a b : List (List Char × β)) :
    look q (a ++ b) = (look q a).or (look q b) := by
  induction a with
  | nil => rfl
  | cons e a ih =>
    obtain ⟨k, v⟩ := e
    simp only [List.cons_append, look]
    split
    · rfl
    · exact ih

theorem look_none {β : Type} {q : List Char} {a : List (List Char × β)} (h : ∀ e ∈ a, cmp q e.1 ≠ .eq) :
    look q a = none := by
  induction a with
  | nil => rfl
  | cons e a ih =>
    obtain ⟨k, v⟩ := e
    rw [look, if_neg (h _ (List.mem_cons_self ..))]
    exact ih fun e he => h e (List.mem_cons_of_mem _ he)

theorem sorted_node {β : Type} {l r : List (List Char × β)} {k : List Char} {v : β} (h : Sorted (l ++ (k, v) :: r)) :
    Sorted l ∧ Sorted r ∧ (∀ e ∈ l, cmp e.1 k = .lt) ∧ ∀ e ∈ r, cmp k e.1 = .lt := by
  obtain ⟨h1, h2, h3⟩ := List.pairwise_append.1 h
  obtain ⟨h4, h5⟩ := List.pairwise_cons.1 h2
  exact ⟨h1, h5, fun e he => h3 e he _ (List.mem_cons_self ..), h4⟩

theorem get_look {β : Type} (q : List Char) (t : Tree β) (h : Sorted t.entries) : t.get q = look q t.entries := by
  induction t with
  | nil => rfl
  | node l k v r ihl ihr =>
    obtain ⟨hl, hr, h1, h2⟩ := sorted_node h
    rw [Tree.get, Tree.entries, look_append, look]
    cases hc : cmp q k with
    | lt =>
      have hn : look q r.entries = none := look_none fun e he hq => by
        have := cmp_trans hc (h2 e he)
        rw [this] at hq; cases hq
      rw [ihl hl, if_neg nofun, hn, Option.or_none]
    | eq =>
      have hn : look q l.entries = none := look_none fun e he hq => by
        have h3 := h1 e he
        rw [← cmp_congr hq, hc] at h3; cases h3
      rw [hn, if_pos rfl]; rfl
    | gt =>
      have hn : look q l.entries = none := look_none fun e he hq => by
        have h3 := h1 e he
        rw [← cmp_congr hq, hc] at h3; cases h3
      rw [ihr hr, if_neg nofun, hn]; rfl

theorem put_right {β : Type} {q : List Char} {w : β} {l r : List (List Char × β)} (h : ∀ e ∈ l, cmp q e.1 = .gt) :
    put q w (l ++ r) = l ++ put q w r := by
  induction l with
  | nil => rfl
  | cons e l ih =>
    obtain ⟨k, v⟩ := e
    rw [List.cons_append, put, h _ (List.mem_cons_self ..)]
    simp only [List.cons_append]
    rw [ih fun e he => h e (List.mem_cons_of_mem _ he)]

theorem put_left {β : Type} {q k : List Char} {w v : β} {l r : List (List Char × β)} (h : cmp q k = .lt) :
    put q w (l ++ (k, v) :: r) = put q w l ++ (k, v) :: r := by
  induction l with
  | nil => simp [put, h]
  | cons e l ih =>
    obtain ⟨k', v'⟩ := e
    rw [List.cons_append, put, put]
    cases cmp q k' with
    | lt => rfl
    | eq => rfl
    | gt => simp only [List.cons_append, ih]

theorem insert_put {β : Type} (q : List Char) (w : β) (t : Tree β) (h : Sorted t.entries) :
    (t.insert q w).entries = put q w t.entries := by
  induction t with
  | nil => rfl
  | node l k v r ihl ihr =>
    obtain ⟨hl, hr, h1, h2⟩ := sorted_node h
    have below : ∀ e ∈ l.entries, cmp q k ≠ .lt → cmp q e.1 = .gt := by
      intro e he hq
      have h3 := h1 e he
      cases hc : cmp q k with
      | lt => exact absurd hc hq
      | eq => rw [cmp_congr hc]; exact cmp_swap.1 h3
      | gt => exact cmp_swap.1 (cmp_trans h3 (cmp_swap.2 hc))
    rw [Tree.insert, Tree.entries]
    cases hc : cmp q k with
    | lt => rw [put_left hc, ← ihl hl]; rfl
    | eq =>
      rw [put_right (fun e he => below e he (by rw [hc]; nofun)), put, hc]
      rfl
    | gt =>
      rw [put_right (fun e he => below e he (by rw [hc]; nofun)), put, hc, ← ihr hr]
      rfl

theorem put_keys {β : Type} {q : List Char} {w : β} {es : List (List Char × β)} {e : List Char × β}
    (h : e ∈ put q w es) : cmp e.1 q = .eq ∨ e ∈ es := by
  induction es with
  | nil =>
    rw [put, List.mem_singleton] at h
    subst h
    exact .inl (by rw [cmp_eq, cmpL_eq])
  | cons x es ih =>
    obtain ⟨k, v⟩ := x
    rw [put] at h
    cases hc : cmp q k with
    | lt =>
      rw [hc] at h
      rcases List.mem_cons.1 h with rfl | h
      · exact .inl (by rw [cmp_eq, cmpL_eq])
      · exact .inr h
    | eq =>
      rw [hc] at h
      rcases List.mem_cons.1 h with rfl | h
      · exact .inl (cmp_symm hc)
      · exact .inr (List.mem_cons_of_mem _ h)
    | gt =>
      rw [hc] at h
      rcases List.mem_cons.1 h with rfl | h
      · exact .inr (List.mem_cons_self ..)
      · rcases ih h with h | h
        · exact .inl h
        · exact .inr (List.mem_cons_of_mem _ h)

theorem put_sorted {β : Type} {q : List Char} {w : β} {es : List (List Char × β)} (h : Sorted es) :
    Sorted (put q w es) := by
  induction es with
  | nil => exact List.pairwise_singleton ..
  | cons x es ih =>
    obtain ⟨k, v⟩ := x
    obtain ⟨h1, h2⟩ := List.pairwise_cons.1 h
    rw [put]
    cases hc : cmp q k with
    | lt =>
      refine List.pairwise_cons.2 ⟨fun e he => ?_, h⟩
      rcases List.mem_cons.1 he with rfl | he
      · exact hc
      · exact cmp_trans hc (h1 e he)
    | eq => exact List.pairwise_cons.2 ⟨h1, h2⟩
    | gt =>
      refine List.pairwise_cons.2 ⟨fun e he => ?_, ih h2⟩
      rcases put_keys he with he | he
      · rw [cmp_congr' he]; exact cmp_swap.2 hc
      · exact h1 e he

theorem put_look {β : Type} (q p : List Char) (w : β) {es : List (List Char × β)} (h : Sorted es) :
    look p (put q w es) = if cmp q p = .eq then some w else look p es := by
  induction es with
  | nil =>
    simp only [put, look]
    by_cases hp : cmp p q = .eq
    · rw [if_pos hp, if_pos (cmp_symm hp)]
    · rw [if_neg hp, if_neg fun h => hp (cmp_symm h)]
  | cons x es ih =>
    obtain ⟨k, v⟩ := x
    obtain ⟨h1, h2⟩ := List.pairwise_cons.1 h
    rw [put]
    cases hc : cmp q k with
    | lt =>
      show look p ((q, w) :: (k, v) :: es) = _
      rw [look]
      by_cases hp : cmp p q = .eq
      · rw [if_pos hp, if_pos (cmp_symm hp)]
      · rw [if_neg hp, if_neg fun h => hp (cmp_symm h)]
    | eq =>
      show look p ((k, w) :: es) = _
      rw [look, look]
      by_cases hp : cmp q p = .eq
      · rw [if_pos hp, if_pos (by rw [← cmp_congr hp]; exact hc)]
      · rw [if_neg hp]
        have : ¬ cmp p k = .eq := fun hk => hp (cmp_symm ((cmp_congr' hc).trans hk))
        rw [if_neg this, if_neg this]
    | gt =>
      show look p ((k, v) :: put q w es) = _
      rw [look, look, ih h2]
      by_cases hk : cmp p k = .eq
      · have : ¬ cmp q p = .eq := fun hq => by rw [cmp_congr hq, hk] at hc; cases hc
        rw [if_pos hk, if_neg this, if_pos hk]
      · rw [if_neg hk, if_neg hk]

theorem reshaped_insert {β : Type} {t t' : Tree β} {q : List Char} {w : β} (h : Sorted t.entries)
    (hr : Reshaped (t.insert q w) t') :
    Sorted t'.entries ∧ ∀ p, t'.get p = if cmp q p = .eq then some w else t.get p := by
  have he : t'.entries = put q w t.entries := hr.trans (insert_put q w t h)
  have hs : Sorted t'.entries := he ▸ put_sorted h
  exact ⟨hs, fun p => by rw [get_look p t' hs, get_look p t h, he, put_look q p w h]⟩

/-! ### Loading -/

theorem cmp_sameName (a b : List Char) : cmp a b = .eq ↔ sameName a b = true :=
  (cmp_same a b).trans (sameName_iff a b).symm

/-- The trees hold what the lists of `Verif.Cfg.Lookup` hold. -/
def Agree (e : Env) (c : CargoEnv) : Prop :=
  Sorted e.features.entries ∧ Sorted e.cfgs.entries ∧
  (∀ q, (e.features.get q).isSome = c.features.any (sameName · q)) ∧ ∀ n, e.cfgs.get n = cfgOf c n

theorem step_agree {e e' : Env} {c : CargoEnv} {kv : List Char × List Char} (h : Agree e c) (hs : Step e kv e') :
    Agree e' (loadVar c kv.1 kv.2) := by
  obtain ⟨h1, h2, h3, h4⟩ := h
  cases hs with
  | @feature k v n t hk ht =>
    obtain ⟨g1, g2⟩ := reshaped_insert h1 ht
    unfold loadVar
    dsimp only
    rw [hk]
    refine ⟨g1, h2, fun q => ?_, h4⟩
    show (t.get q).isSome = _
    rw [g2, List.any_cons]
    by_cases hq : cmp n q = .eq
    · rw [if_pos hq, (cmp_sameName _ _).1 hq]; rfl
    · rw [if_neg hq, h3]
      have : sameName n q = false := by
        cases hb : sameName n q with
        | false => rfl
        | true => exact absurd ((cmp_sameName _ _).2 hb) hq
      rw [this]; rfl
  | @cfg k v n t hk' hk ht =>
    obtain ⟨g1, g2⟩ := reshaped_insert h2 ht
    unfold loadVar
    dsimp only
    rw [hk', hk]
    refine ⟨h1, g1, h3, fun q => ?_⟩
    show t.get q = _
    rw [g2]
    show _ = cfgOf { c with cfgs := cfgsInsert c.cfgs n v } q
    rw [cfgOf_insert, h4]
    by_cases hq : cmp n q = .eq
    · rw [if_pos hq, if_pos ((cmp_sameName _ _).1 hq)]
    · rw [if_neg hq, if_neg fun h => hq ((cmp_sameName _ _).2 h)]
  | @other k v hk' hk =>
    unfold loadVar
    dsimp only
    rw [hk', hk]
    exact ⟨h1, h2, h3, h4⟩

theorem loads_agree {e e' : Env} {vars : List (List Char × List Char)} (hs : Loads e vars e') :
    ∀ {c : CargoEnv}, Agree e c → Agree e' (load c vars) := by
  induction hs with
  | nil => intro c h; exact h
  | cons h _ ih =>
    intro c hc
    rw [load]
    exact ih (step_agree hc h)

theorem start_agree : Agree ⟨.nil, .nil⟩ ⟨[], []⟩ :=
  ⟨List.Pairwise.nil, List.Pairwise.nil, fun _ => rfl, fun _ => rfl⟩

/-- **C105**.  Whatever form the trees took while the variables were read, a feature is found exactly if there is a
variable of its name, and a setting is found, with the value of the last variable of its name, exactly if there is
one; names are the same if they differ in the case of ASCII letters at most. -/
theorem found_in_trees {env : Env} {vars : List (List Char × List Char)} (h : Loads ⟨.nil, .nil⟩ vars env) :
    (∀ q, env.features.get q = some () ↔ SomeVar vars "CARGO_FEATURE_".toList q) ∧
    ∀ n v, env.cfgs.get n = some v ↔ LastVar vars "CARGO_CFG_".toList n v := by
  obtain ⟨_, _, h3, h4⟩ := loads_agree h start_agree
  constructor
  · intro q
    have hf := features_load vars ⟨[], []⟩ q
    rw [← h3, ← feature_eq] at hf
    constructor
    · intro hg
      rcases hf.1 (by rw [hg]; rfl) with h | h
      · cases h
      · exact h
    · intro hg
      have := hf.2 (.inr hg)
      cases hx : env.features.get q with
      | none => rw [hx] at this; cases this
      | some u => rfl
  · intro n v
    have hf := cfgs_load vars ⟨[], []⟩ n v
    rw [← h4, ← cfg_eq] at hf
    rw [hf]
    constructor
    · rintro (h | ⟨_, h⟩)
      · exact h
      · cases h
    · exact .inl

/-- **C105**.  So each predicate comes to what it comes to if the variables are searched one by one (C27). -/
theorem trees_answer {env : Env} {vars : List (List Char × List Char)} (h : Loads ⟨.nil, .nil⟩ vars env)
    (debug : Bool) (name : List Char) (query : Option (List Char)) :
    eval env debug name query = cargoEvaluator vars debug name query := by
  obtain ⟨_, _, h3, h4⟩ := loads_agree h start_agree
  unfold eval cargoEvaluator cargoEval
  by_cases hn : name = "feature".toList
  · rw [if_pos hn, if_pos hn]
    cases query with
    | none => rfl
    | some q => dsimp only; rw [h3]
  · rw [if_neg hn, if_neg hn]
    by_cases ht : name = "test".toList ∧ query = none
    · rw [if_pos ht, if_pos ht]
    · rw [if_neg ht, if_neg ht, h4]
      unfold cfgOf
      cases (load ⟨[], []⟩ vars).cfgs.find? (fun e => sameName e.1 name) with
      | none => rfl
      | some e => rfl

/-- Any variables can be read. -/
theorem loads_all (vars : List (List Char × List Char)) : ∀ env, ∃ env', Loads env vars env' := by
  induction vars with
  | nil => exact fun env => ⟨env, .nil⟩
  | cons kv vars ih =>
    intro env
    obtain ⟨k, v⟩ := kv
    have : ∃ e', Step env (k, v) e' := by
      cases h1 : stripPrefix "CARGO_FEATURE_".toList k with
      | some n => exact ⟨_, .feature h1 rfl⟩
      | none =>
        cases h2 : stripPrefix "CARGO_CFG_".toList k with
        | some n => exact ⟨_, .cfg h1 h2 rfl⟩
        | none => exact ⟨_, .other h1 h2⟩
    obtain ⟨e', h⟩ := this
    obtain ⟨e'', h'⟩ := ih e'
    exact ⟨e'', .cons h h'⟩

/-- Two variables whose names differ in case: the setting has the value of the later one, and is found by either
name. -/
example : ∃ env, Loads ⟨.nil, .nil⟩
    [(c!"CARGO_CFG_UNIX", []), (c!"CARGO_CFG_TARGET_OS", c!"linux"), (c!"CARGO_CFG_target_os", c!"none"),
      (c!"CARGO_FEATURE_STD", c!"1"), (c!"PATH", c!"x")] env ∧
    env.cfgs.get c!"Target_Os" = some c!"none" ∧ env.features.get c!"std" = some () ∧
    env.features.get c!"st" = none ∧ cmp c!"target_os" c!"UNIX" = .lt := by
  refine ⟨⟨.node .nil c!"STD" () .nil, .node (.node .nil c!"TARGET_OS" c!"none" .nil) c!"UNIX" [] .nil⟩, ?_, ?_⟩
  · refine .cons (.cfg (n := c!"UNIX") (by decide +kernel) (by decide +kernel) rfl) ?_
    refine .cons (.cfg (n := c!"TARGET_OS") (by decide +kernel) (by decide +kernel) rfl) ?_
    refine .cons (.cfg (n := c!"target_os") (by decide +kernel) (by decide +kernel)
      (t := .node (.node .nil c!"TARGET_OS" c!"none" .nil) c!"UNIX" [] .nil) (by unfold Reshaped; decide +kernel)) ?_
    refine .cons (.feature (n := c!"STD") (by decide +kernel)
      (t := .node .nil c!"STD" () .nil) (by unfold Reshaped; decide +kernel)) ?_
    exact .cons (.other (by decide +kernel) (by decide +kernel)) .nil
  · decide +kernel

end Verif.Cfg.Tree
