import Verif.Cfg.Spec
/-!
# Evaluation of conditions
-/
namespace Verif.Cfg

/-- The messages are those of unknown predicates in `P`. -/
def From (σ : Evaluator) (P : String → Option String → Prop) (ms : List String) : Prop :=
  ∀ m ∈ ms, ∃ n v, P n v ∧ σ n v = .undetermined m

/-- What a result says about an expression. -/
def Means (σ : Evaluator) (e : CfgExpr) : Except (List String) Bool → Prop
  | .ok b => Settled σ e b
  | .error ms => Open σ e ∧ ms ≠ [] ∧ From σ (fun n v => Mentions n v e) ms

/-- What the result of the loop of `all` (`unit = true`) or `any` (`unit = false`) says. -/
def MeansList (σ : Evaluator) (unit : Bool) (value : List Bool → Bool) (es : List CfgExpr) (before : List String) :
    Except (List String) Bool → Prop
  | .ok b => (∃ bs, PossibleList σ es bs) ∧ (∀ bs, PossibleList σ es bs → value bs = b) ∧ (b = unit → before = [])
  | .error ms => ∃ new, ms = before ++ new ∧ ms ≠ [] ∧ (∃ bs, PossibleList σ es bs ∧ value bs = unit) ∧
      (new ≠ [] → ∃ bs, PossibleList σ es bs ∧ value bs = !unit) ∧ From σ (fun n v => MentionsList n v es) new

theorem means_possible {σ : Evaluator} {e : CfgExpr} {r : Except (List String) Bool} (h : Means σ e r) :
    ∃ b, Possible σ e b := by
  cases r with
  | ok b => exact ⟨b, (h b).2 rfl⟩
  | error ms => exact ⟨true, h.1.1⟩

theorem list_cons {σ : Evaluator} {e : CfgExpr} {es : List CfgExpr} {bs : List Bool}
    (h : PossibleList σ (e :: es) bs) : ∃ b bs', bs = b :: bs' ∧ Possible σ e b ∧ PossibleList σ es bs' := by
  cases h with
  | cons h hs => exact ⟨_, _, rfl, h, hs⟩

mutual
theorem tryEval_means (σ : Evaluator) : ∀ e : CfgExpr, Means σ e (tryEval σ e)
  | .unconditional => by
    intro b
    constructor
    · intro h; cases h; rfl
    · rintro rfl; exact .unconditional
  | .eq n v => by
    rw [tryEval]
    cases h : σ n v with
    | true =>
      intro b
      constructor
      · intro hp; cases hp with
        | yes => rfl
        | no h' => rw [h] at h'; cases h'
        | unknown h' => rw [h] at h'; cases h'
      · rintro rfl; exact .yes h
    | false =>
      intro b
      constructor
      · intro hp; cases hp with
        | yes h' => rw [h] at h'; cases h'
        | no => rfl
        | unknown h' => rw [h] at h'; cases h'
      · rintro rfl; exact .no h
    | undetermined msg =>
      refine ⟨⟨.unknown h _, .unknown h _⟩, by simp, ?_⟩
      intro m hm
      rw [List.mem_singleton] at hm
      subst hm
      exact ⟨n, v, .eq, h⟩
  | .all es => by
    rw [tryEval]
    have h := tryAll_means σ es []
    cases hr : tryAll σ [] es with
    | ok b =>
      rw [hr] at h
      obtain ⟨⟨bs, hbs⟩, hall, _⟩ := h
      intro b'
      constructor
      · intro hp; cases hp with
        | all hl => exact hall _ hl
      · rintro rfl; rw [← hall bs hbs]; exact .all hbs
    | error ms =>
      rw [hr] at h
      obtain ⟨new, rfl, hne, ⟨bs, hbs, ht⟩, hf, hfrom⟩ := h
      obtain ⟨bs', hbs', hf'⟩ := hf hne
      refine ⟨⟨ht ▸ .all hbs, ?_⟩, hne, ?_⟩
      · have := Possible.all hbs'; rw [show bs'.all id = false from hf'] at this; exact this
      · intro m hm
        obtain ⟨n, v, h1, h2⟩ := hfrom m hm
        exact ⟨n, v, .all h1, h2⟩
  | .any es => by
    rw [tryEval]
    have h := tryAny_means σ es []
    cases hr : tryAny σ [] es with
    | ok b =>
      rw [hr] at h
      obtain ⟨⟨bs, hbs⟩, hall, _⟩ := h
      intro b'
      constructor
      · intro hp; cases hp with
        | any hl => exact hall _ hl
      · rintro rfl; rw [← hall bs hbs]; exact .any hbs
    | error ms =>
      rw [hr] at h
      obtain ⟨new, rfl, hne, ⟨bs, hbs, ht⟩, hf, hfrom⟩ := h
      obtain ⟨bs', hbs', hf'⟩ := hf hne
      refine ⟨⟨?_, ht ▸ .any hbs⟩, hne, ?_⟩
      · have := Possible.any hbs'; rw [show bs'.any id = true from hf'] at this; exact this
      · intro m hm
        obtain ⟨n, v, h1, h2⟩ := hfrom m hm
        exact ⟨n, v, .any h1, h2⟩
  | .not e => by
    rw [tryEval]
    have h := tryEval_means σ e
    cases hr : tryEval σ e with
    | ok b =>
      rw [hr] at h
      intro b'
      constructor
      · intro hp; cases hp with
        | not hp => rw [(h _).1 hp]
      · rintro rfl; exact .not ((h b).2 rfl)
    | error ms =>
      rw [hr] at h
      obtain ⟨⟨h1, h2⟩, hne, hfrom⟩ := h
      refine ⟨⟨.not h2, .not h1⟩, hne, ?_⟩
      intro m hm
      obtain ⟨n, v, h1, h2⟩ := hfrom m hm
      exact ⟨n, v, .not h1, h2⟩
theorem tryAll_means (σ : Evaluator) : ∀ (es : List CfgExpr) (before : List String),
    MeansList σ true (·.all id) es before (tryAll σ before es)
  | [], before => by
    rw [tryAll, finish]
    cases before with
    | nil =>
      refine ⟨⟨[], .nil⟩, ?_, fun _ => rfl⟩
      intro bs h; cases h; rfl
    | cons m ms => exact ⟨[], by simp, by simp, ⟨[], .nil, rfl⟩, by simp, by intro m hm; cases hm⟩
  | e :: es, before => by
    rw [tryAll]
    have h := tryEval_means σ e
    cases hr : tryEval σ e with
    | ok b =>
      rw [hr] at h
      cases b with
      | true =>
        have ih := tryAll_means σ es before
        simp only
        cases hr' : tryAll σ before es with
        | ok b =>
          rw [hr'] at ih
          obtain ⟨⟨bs, hbs⟩, hall, hb⟩ := ih
          refine ⟨⟨true :: bs, .cons ((h _).2 rfl) hbs⟩, ?_, hb⟩
          intro bs hbs
          obtain ⟨b0, bs', rfl, h0, h1⟩ := list_cons hbs
          rw [(h _).1 h0]
          simpa using hall bs' h1
        | error ms =>
          rw [hr'] at ih
          obtain ⟨new, h1, h2, ⟨bs, hbs, ht⟩, hf, hfrom⟩ := ih
          refine ⟨new, h1, h2, ⟨true :: bs, .cons ((h _).2 rfl) hbs, by simpa using ht⟩, ?_, ?_⟩
          · intro hn
            obtain ⟨bs', hbs', hf'⟩ := hf hn
            exact ⟨true :: bs', .cons ((h _).2 rfl) hbs', by simpa using hf'⟩
          · intro m hm
            obtain ⟨n, v, h1, h2⟩ := hfrom m hm
            exact ⟨n, v, .tail h1, h2⟩
      | false =>
        simp only
        obtain ⟨bs, hbs⟩ := all_possible σ es
        refine ⟨⟨false :: bs, .cons ((h _).2 rfl) hbs⟩, ?_, nofun⟩
        intro bs hbs
        obtain ⟨b0, bs', rfl, h0, _⟩ := list_cons hbs
        rw [(h _).1 h0]; simp
    | error more =>
      rw [hr] at h
      simp only
      obtain ⟨⟨hT, hF⟩, hne, hfrom⟩ := h
      have ih := tryAll_means σ es (before ++ more)
      have hmore : From σ (fun n v => MentionsList n v (e :: es)) more := fun m hm => by
        obtain ⟨n, v, h1, h2⟩ := hfrom m hm
        exact ⟨n, v, .head h1, h2⟩
      cases hr' : tryAll σ (before ++ more) es with
      | ok b =>
        rw [hr'] at ih
        obtain ⟨⟨bs, hbs⟩, hall, hb⟩ := ih
        cases b with
        | true => exact absurd (List.append_eq_nil_iff.1 (hb rfl)).2 hne
        | false =>
          refine ⟨⟨true :: bs, .cons hT hbs⟩, ?_, nofun⟩
          intro bs hbs
          obtain ⟨b0, bs', rfl, _, h1⟩ := list_cons hbs
          have := hall bs' h1
          simp only [List.all_cons, this, Bool.and_false]
      | error ms =>
        rw [hr'] at ih
        obtain ⟨new, h1, h2, ⟨bs, hbs, ht⟩, _, hfrom'⟩ := ih
        refine ⟨more ++ new, by rw [h1, List.append_assoc], h2, ⟨true :: bs, .cons hT hbs, by simpa using ht⟩, ?_, ?_⟩
        · intro _
          exact ⟨false :: bs, .cons hF hbs, by simp⟩
        · intro m hm
          rcases List.mem_append.1 hm with hm | hm
          · exact hmore m hm
          · obtain ⟨n, v, h1, h2⟩ := hfrom' m hm
            exact ⟨n, v, .tail h1, h2⟩
theorem tryAny_means (σ : Evaluator) : ∀ (es : List CfgExpr) (before : List String),
    MeansList σ false (·.any id) es before (tryAny σ before es)
  | [], before => by
    rw [tryAny, finish]
    cases before with
    | nil =>
      refine ⟨⟨[], .nil⟩, ?_, fun _ => rfl⟩
      intro bs h; cases h; rfl
    | cons m ms => exact ⟨[], by simp, by simp, ⟨[], .nil, rfl⟩, by simp, by intro m hm; cases hm⟩
  | e :: es, before => by
    rw [tryAny]
    have h := tryEval_means σ e
    cases hr : tryEval σ e with
    | ok b =>
      rw [hr] at h
      cases b with
      | false =>
        have ih := tryAny_means σ es before
        simp only
        cases hr' : tryAny σ before es with
        | ok b =>
          rw [hr'] at ih
          obtain ⟨⟨bs, hbs⟩, hall, hb⟩ := ih
          refine ⟨⟨false :: bs, .cons ((h _).2 rfl) hbs⟩, ?_, hb⟩
          intro bs hbs
          obtain ⟨b0, bs', rfl, h0, h1⟩ := list_cons hbs
          rw [(h _).1 h0]
          simpa using hall bs' h1
        | error ms =>
          rw [hr'] at ih
          obtain ⟨new, h1, h2, ⟨bs, hbs, ht⟩, hf, hfrom⟩ := ih
          refine ⟨new, h1, h2, ⟨false :: bs, .cons ((h _).2 rfl) hbs, by simpa using ht⟩, ?_, ?_⟩
          · intro hn
            obtain ⟨bs', hbs', hf'⟩ := hf hn
            exact ⟨false :: bs', .cons ((h _).2 rfl) hbs', by simpa using hf'⟩
          · intro m hm
            obtain ⟨n, v, h1, h2⟩ := hfrom m hm
            exact ⟨n, v, .tail h1, h2⟩
      | true =>
        simp only
        obtain ⟨bs, hbs⟩ := all_possible σ es
        refine ⟨⟨true :: bs, .cons ((h _).2 rfl) hbs⟩, ?_, nofun⟩
        intro bs hbs
        obtain ⟨b0, bs', rfl, h0, _⟩ := list_cons hbs
        rw [(h _).1 h0]; simp
    | error more =>
      rw [hr] at h
      simp only
      obtain ⟨⟨hT, hF⟩, hne, hfrom⟩ := h
      have ih := tryAny_means σ es (before ++ more)
      have hmore : From σ (fun n v => MentionsList n v (e :: es)) more := fun m hm => by
        obtain ⟨n, v, h1, h2⟩ := hfrom m hm
        exact ⟨n, v, .head h1, h2⟩
      cases hr' : tryAny σ (before ++ more) es with
      | ok b =>
        rw [hr'] at ih
        obtain ⟨⟨bs, hbs⟩, hall, hb⟩ := ih
        cases b with
        | false => exact absurd (List.append_eq_nil_iff.1 (hb rfl)).2 hne
        | true =>
          refine ⟨⟨true :: bs, .cons hT hbs⟩, ?_, nofun⟩
          intro bs hbs
          obtain ⟨b0, bs', rfl, _, h1⟩ := list_cons hbs
          have := hall bs' h1
          simp only [List.any_cons, this, Bool.or_true]
      | error ms =>
        rw [hr'] at ih
        obtain ⟨new, h1, h2, ⟨bs, hbs, ht⟩, _, hfrom'⟩ := ih
        refine ⟨more ++ new, by rw [h1, List.append_assoc], h2, ⟨false :: bs, .cons hF hbs, by simpa using ht⟩, ?_, ?_⟩
        · intro _
          exact ⟨true :: bs, .cons hT hbs, by simp⟩
        · intro m hm
          rcases List.mem_append.1 hm with hm | hm
          · exact hmore m hm
          · obtain ⟨n, v, h1, h2⟩ := hfrom' m hm
            exact ⟨n, v, .tail h1, h2⟩
theorem all_possible (σ : Evaluator) : ∀ es : List CfgExpr, ∃ bs, PossibleList σ es bs
  | [] => ⟨[], .nil⟩
  | e :: es => by
    obtain ⟨b, hb⟩ := means_possible (tryEval_means σ e)
    obtain ⟨bs, hbs⟩ := all_possible σ es
    exact ⟨b :: bs, .cons hb hbs⟩
end

/-- **C26**.  Evaluation gives `b` exactly if `b` is the only possible value whatever the unknown predicates turn
out to be. -/
theorem eval_settled (σ : Evaluator) (e : CfgExpr) (b : Bool) : tryEval σ e = .ok b ↔ Settled σ e b := by
  have h := tryEval_means σ e
  constructor
  · intro hr; rw [hr] at h; exact h
  · intro hs
    cases hr : tryEval σ e with
    | ok b' =>
      rw [hr] at h
      rw [(hs b').1 ((h b').2 rfl)]
    | error ms =>
      rw [hr] at h
      have h1 := (hs true).1 h.1.1
      have h2 := (hs false).1 h.1.2
      rw [← h1] at h2; cases h2

/-- **C26**.  Evaluation fails exactly if both values are possible, and then with at least one message, each of
an unknown predicate in the expression. -/
theorem eval_open (σ : Evaluator) (e : CfgExpr) :
    ((∃ ms, tryEval σ e = .error ms) ↔ Open σ e) ∧
      ∀ ms, tryEval σ e = .error ms → ms ≠ [] ∧ ∀ m ∈ ms, ∃ n v, Mentions n v e ∧ σ n v = .undetermined m := by
  have h := tryEval_means σ e
  refine ⟨⟨?_, ?_⟩, ?_⟩
  · rintro ⟨ms, hr⟩; rw [hr] at h; exact h.1
  · intro ho
    cases hr : tryEval σ e with
    | error ms => exact ⟨ms, rfl⟩
    | ok b =>
      rw [hr] at h
      have h1 := (h true).1 ho.1
      have h2 := (h false).1 ho.2
      rw [← h1] at h2; cases h2
  · intro ms hr; rw [hr] at h; exact h.2

mutual
theorem possible_holds {f : String → Option String → Bool} {σ : Evaluator} (hx : Extends f σ) :
    ∀ e : CfgExpr, Possible σ e (holds f e)
  | .unconditional => .unconditional
  | .eq n v => by
    rw [holds]
    cases h : σ n v with
    | true => rw [(hx n v).1 h]; exact .yes h
    | false => rw [(hx n v).2 h]; exact .no h
    | undetermined msg => exact .unknown h _
  | .all es => by
    obtain ⟨bs, h, h1, _⟩ := possible_holds_list hx es
    rw [holds, ← h1]; exact .all h
  | .any es => by
    obtain ⟨bs, h, _, h2⟩ := possible_holds_list hx es
    rw [holds, ← h2]; exact .any h
  | .not e => by rw [holds]; exact .not (possible_holds hx e)
theorem possible_holds_list {f : String → Option String → Bool} {σ : Evaluator} (hx : Extends f σ) :
    ∀ es : List CfgExpr, ∃ bs, PossibleList σ es bs ∧ bs.all id = holdsAll f es ∧ bs.any id = holdsAny f es
  | [] => ⟨[], .nil, rfl, rfl⟩
  | e :: es => by
    obtain ⟨bs, h, h1, h2⟩ := possible_holds_list hx es
    exact ⟨holds f e :: bs, .cons (possible_holds hx e) h, by simp [holdsAll, h1], by simp [holdsAny, h2]⟩
end

/-- **C26**.  A value that evaluation gives is the plain truth value under every full configuration that agrees
with what is known. -/
theorem eval_sound {f : String → Option String → Bool} {σ : Evaluator} (hx : Extends f σ) {e : CfgExpr} {b : Bool}
    (h : tryEval σ e = .ok b) : holds f e = b :=
  ((eval_settled σ e b).1 h _).1 (possible_holds hx e)

/-- **C26**.  Several `#[cfg]` attributes mean that all of them hold. -/
theorem merge_exact (σ : Evaluator) (a e : CfgExpr) (b : Bool) :
    Possible σ (a.merge e) b ↔ ∃ x y, Possible σ a x ∧ Possible σ e y ∧ b = (x && y) := by
  have pair : Possible σ (.all [a, e]) b ↔ ∃ x y, Possible σ a x ∧ Possible σ e y ∧ b = (x && y) := by
    constructor
    · intro h
      cases h with
      | all h =>
        obtain ⟨x, bs, rfl, hx, h⟩ := list_cons h
        obtain ⟨y, bs, rfl, hy, h⟩ := list_cons h
        cases h
        exact ⟨x, y, hx, hy, by simp⟩
    · rintro ⟨x, y, hx, hy, rfl⟩
      have := Possible.all (.cons hx (.cons hy .nil))
      simpa using this
  cases a with
  | unconditional =>
    rw [CfgExpr.merge]
    constructor
    · intro h; exact ⟨true, b, .unconditional, h, by simp⟩
    · rintro ⟨x, y, hx, hy, rfl⟩; cases hx; simpa using hy
  | all es =>
    rw [CfgExpr.merge]
    have app : ∀ (es : List CfgExpr) (bs : List Bool), PossibleList σ (es ++ [e]) bs ↔
        ∃ cs y, bs = cs ++ [y] ∧ PossibleList σ es cs ∧ Possible σ e y := by
      intro es
      induction es with
      | nil =>
        intro bs
        constructor
        · intro h
          obtain ⟨y, bs, rfl, hy, h⟩ := list_cons h
          cases h
          exact ⟨[], y, rfl, .nil, hy⟩
        · rintro ⟨cs, y, rfl, h, hy⟩; cases h; exact .cons hy .nil
      | cons x es ih =>
        intro bs
        constructor
        · intro h
          obtain ⟨c, bs, rfl, hc, h⟩ := list_cons h
          obtain ⟨cs, y, rfl, h1, h2⟩ := (ih bs).1 h
          exact ⟨c :: cs, y, rfl, .cons hc h1, h2⟩
        · rintro ⟨cs, y, rfl, h, hy⟩
          obtain ⟨c, cs, rfl, hc, h⟩ := list_cons h
          exact .cons hc ((ih _).2 ⟨cs, y, rfl, h, hy⟩)
    constructor
    · intro h
      cases h with
      | all h =>
        obtain ⟨cs, y, rfl, h1, h2⟩ := (app _ _).1 h
        exact ⟨_, y, .all h1, h2, by simp⟩
    · rintro ⟨x, y, hx, hy, rfl⟩
      cases hx with
      | all h =>
        have := Possible.all ((app _ _).2 ⟨_, y, rfl, h, hy⟩)
        simpa using this
  | eq n v => exact pair
  | any es => exact pair
  | not a => exact pair

/-! ### Stripping -/

/-- Nothing is reported twice, and all that was seen was reported. -/
def Once (log : Log) : Prop := log.reported.Nodup ∧ ∀ m, m ∈ log.seen ↔ m ∈ log.reported

theorem report_spec (ms : List String) : ∀ {log : Log}, Once log → Once (report log ms) ∧
    ∀ m, m ∈ (report log ms).reported ↔ m ∈ log.reported ∨ m ∈ ms := by
  induction ms with
  | nil => intro log h; exact ⟨h, by simp [report]⟩
  | cons e ms ih =>
    intro log h
    rw [report]
    by_cases he : e ∈ log.seen
    · rw [if_pos he]
      obtain ⟨h1, h2⟩ := ih h
      refine ⟨h1, fun m => ?_⟩
      rw [h2, List.mem_cons]
      constructor
      · rintro (h | h)
        · exact .inl h
        · exact .inr (.inr h)
      · rintro (h' | rfl | h')
        · exact .inl h'
        · exact .inl ((h.2 _).1 he)
        · exact .inr h'
    · rw [if_neg he]
      have hn : Once ⟨e :: log.seen, log.reported ++ [e]⟩ := by
        refine ⟨?_, ?_⟩
        · rw [List.nodup_append]
          refine ⟨h.1, by simp, ?_⟩
          intro a ha b hb hab
          rw [List.mem_singleton] at hb
          subst hab hb
          exact he ((h.2 _).2 ha)
        · intro m
          simp only [List.mem_cons, List.mem_append, List.not_mem_nil, or_false]
          rw [h.2 m, or_comm]
      obtain ⟨h1, h2⟩ := ih hn
      refine ⟨h1, fun m => ?_⟩
      rw [h2]
      simp only [List.mem_append, List.mem_cons, List.not_mem_nil, or_false]
      constructor
      · rintro ((h | h) | h)
        · exact .inl h
        · exact .inr (.inl h)
        · exact .inr (.inr h)
      · rintro (h | h | h)
        · exact .inl (.inl h)
        · exact .inl (.inr h)
        · exact .inr h

/-- The log after looking at the conditions `es`. -/
structure Logged (σ : Evaluator) (log : Log) (es : List CfgExpr) (log' : Log) : Prop where
  once : Once log'
  keeps : ∀ m ∈ log.reported, m ∈ log'.reported
  only : ∀ m ∈ log'.reported, m ∈ log.reported ∨
    ∃ e ∈ es, Open σ e ∧ ∃ n v, Mentions n v e ∧ σ n v = .undetermined m
  all : ∀ e ∈ es, Open σ e → ∃ n v m, Mentions n v e ∧ σ n v = .undetermined m ∧ m ∈ log'.reported

theorem Logged.refl {σ : Evaluator} {log : Log} (h : Once log) : Logged σ log [] log :=
  ⟨h, fun _ h => h, fun _ h => .inl h, by simp⟩

theorem Logged.trans {σ : Evaluator} {l1 l2 l3 : Log} {es fs : List CfgExpr} (h1 : Logged σ l1 es l2)
    (h2 : Logged σ l2 fs l3) : Logged σ l1 (es ++ fs) l3 := by
  refine ⟨h2.once, fun m hm => h2.keeps m (h1.keeps m hm), ?_, ?_⟩
  · intro m hm
    rcases h2.only m hm with h | ⟨e, he, h⟩
    · rcases h1.only m h with h | ⟨e, he, h⟩
      · exact .inl h
      · exact .inr ⟨e, by simp [he], h⟩
    · exact .inr ⟨e, by simp [he], h⟩
  · intro e he ho
    rcases List.mem_append.1 he with he | he
    · obtain ⟨n, v, m, a, b, c⟩ := h1.all e he ho
      exact ⟨n, v, m, a, b, h2.keeps m c⟩
    · exact h2.all e he ho

theorem eval_spec {σ : Evaluator} {log : Log} (h : Once log) (e : CfgExpr) :
    ((eval σ log e).1 = true ↔ Settled σ e true) ∧ Logged σ log [e] (eval σ log e).2 := by
  unfold eval
  cases hr : tryEval σ e with
  | ok b =>
    have hs := (eval_settled σ e b).1 hr
    simp only
    have hno : ¬ Open σ e := by
      intro ho
      obtain ⟨ms, hm⟩ := (eval_open σ e).1.2 ho
      rw [hr] at hm; cases hm
    refine ⟨⟨?_, ?_⟩, h, fun _ h => h, fun _ h => .inl h, ?_⟩
    · rintro rfl; exact hs
    · intro ht; exact ((hs true).1 ((ht true).2 rfl)).symm
    · intro e' he' ho
      rw [List.mem_singleton] at he'
      subst he'
      exact absurd ho hno
  | error ms =>
    obtain ⟨h0, h1⟩ := eval_open σ e
    have ho := h0.1 ⟨ms, hr⟩
    obtain ⟨hne, hfrom⟩ := h1 ms hr
    obtain ⟨r1, r2⟩ := report_spec ms h
    simp only
    refine ⟨⟨nofun, ?_⟩, r1, fun m hm => (r2 m).2 (.inl hm), ?_, ?_⟩
    · intro hs; exact absurd ((hs false).1 ho.2) nofun
    · intro m hm
      rcases (r2 m).1 hm with hm | hm
      · exact .inl hm
      · exact .inr ⟨e, by simp, ho, hfrom m hm⟩
    · intro e' he' _
      rw [List.mem_singleton] at he'
      subst he'
      cases ms with
      | nil => exact absurd rfl hne
      | cons m ms =>
        obtain ⟨n, v, a, b⟩ := hfrom m (by simp)
        exact ⟨n, v, m, a, b, (r2 m).2 (.inr (by simp))⟩

theorem retain_spec {α : Type} {σ : Evaluator} (cfg : α → CfgExpr) (p : CfgExpr → Bool)
    (hp : ∀ e, p e = true ↔ Settled σ e true) (l : List α) : ∀ {log : Log}, Once log →
    (retain σ cfg log l).1 = l.filter (fun a => p (cfg a)) ∧ Logged σ log (l.map cfg) (retain σ cfg log l).2 := by
  induction l with
  | nil => intro log h; exact ⟨rfl, .refl h⟩
  | cons a l ih =>
    intro log h
    obtain ⟨e1, e2⟩ := eval_spec h (cfg a)
    obtain ⟨i1, i2⟩ := ih e2.once
    simp only [retain]
    refine ⟨?_, e2.trans i2⟩
    have : (eval σ log (cfg a)).1 = p (cfg a) := Bool.eq_iff_iff.2 (e1.trans (hp _).symm)
    rw [this, i1, List.filter_cons]

theorem stripMembers_spec {α μ : Type} {σ : Evaluator} (p : CfgExpr → Bool)
    (hp : ∀ e, p e = true ↔ Settled σ e true) (l : List (Item α μ)) : ∀ {log : Log}, Once log →
    (stripMembers σ log l).1 = l.map (fun i => { i with members := i.members.filter (fun m => p m.1) }) ∧
      Logged σ log (l.flatMap (fun i => i.members.map (·.1))) (stripMembers σ log l).2 := by
  induction l with
  | nil => intro log h; exact ⟨rfl, .refl h⟩
  | cons i l ih =>
    intro log h
    obtain ⟨r1, r2⟩ := retain_spec Prod.fst p hp i.members h
    obtain ⟨i1, i2⟩ := ih r2.once
    simp only [stripMembers]
    refine ⟨?_, ?_⟩
    · rw [r1, i1]; rfl
    · rw [List.flatMap_cons]; exact r2.trans i2

/-- **C26**.  Of the items, and of the fields and variants of the kept items, those are kept whose condition is
certainly true (`p`), in order.  No message is reported twice; every condition left open is reported, and only
such ones are. -/
theorem strip_exact {α μ : Type} {σ : Evaluator} (p : CfgExpr → Bool) (hp : ∀ e, p e = true ↔ Settled σ e true)
    (items : List (Item α μ)) {log : Log} (h : Once log) :
    (strip σ log items).1 = (items.filter (fun i => p i.cfg)).map
        (fun i => { i with members := i.members.filter (fun m => p m.1) }) ∧
      Logged σ log (items.map (·.cfg) ++ (items.filter (fun i => p i.cfg)).flatMap (fun i => i.members.map (·.1)))
        (strip σ log items).2 := by
  obtain ⟨r1, r2⟩ := retain_spec Item.cfg p hp items h
  obtain ⟨s1, s2⟩ := stripMembers_spec p hp (retain σ Item.cfg log items).1 r2.once
  simp only [strip]
  rw [r1] at s1 s2 ⊢
  exact ⟨s1, r2.trans s2⟩

/-- Such a `p` exists. -/
theorem settled_decidable (σ : Evaluator) : ∃ p : CfgExpr → Bool, ∀ e, p e = true ↔ Settled σ e true :=
  ⟨fun e => match tryEval σ e with | .ok b => b | .error _ => false, fun e => by
    rw [← eval_settled]
    cases h : tryEval σ e with
    | ok b => simp [h]
    | error ms => simp [h]⟩

/-! ### Parsing -/

mutual
theorem single_sound : ∀ (fuel : Nat) (ts : List Tok) (e : CfgExpr) (rest : List Tok),
    parseSingle fuel ts = some (e, rest) → ∃ us, ts = us ++ rest ∧ Single e us
  | 0, _, _, _, h => by simp [parseSingle] at h
  | fuel + 1, ts, e, rest, h => by
    unfold parseSingle at h
    split at h
    · cases ‹_ = _›
    · rename_i ident content rest' heq
      cases heq
      split at h
      · rename_i hi
        subst hi
        obtain ⟨l, hl, h⟩ := Option.map_eq_some_iff.1 h
        cases h
        exact ⟨_, rfl, .all (multiple_sound fuel content l hl)⟩
      · split at h
        · rename_i hi
          subst hi
          obtain ⟨l, hl, h⟩ := Option.map_eq_some_iff.1 h
          cases h
          exact ⟨_, rfl, .any (multiple_sound fuel content l hl)⟩
        · split at h
          · rename_i hi
            subst hi
            split at h
            · rename_i e' hs
              cases h
              obtain ⟨us, rfl, hs'⟩ := single_sound fuel content _ _ hs
              rw [List.append_nil]
              exact ⟨_, rfl, .not hs'⟩
            · rename_i e' hs
              cases h
              obtain ⟨us, rfl, hs'⟩ := single_sound fuel content _ _ hs
              exact ⟨_, rfl, .notComma hs'⟩
            · cases h
          · cases h
    · cases h; exact ⟨_, rfl, .value _ _⟩
    · cases h; exact ⟨_, rfl, .name _⟩
    · cases h; exact ⟨_, rfl, .name _⟩
    · cases h
theorem multiple_sound : ∀ (fuel : Nat) (ts : List Tok) (es : List CfgExpr),
    parseMultiple fuel ts = some es → Multiple es ts
  | 0, _, _, h => by simp [parseMultiple] at h
  | fuel + 1, [], es, h => by
    simp only [parseMultiple, Option.some.injEq] at h
    subst h; exact .nil
  | fuel + 1, t :: ts, es, h => by
    rw [parseMultiple] at h
    split at h
    · rename_i e hs
      cases h
      obtain ⟨us, hus, hs⟩ := single_sound fuel _ _ _ hs
      rw [hus, List.append_nil]; exact .last hs
    · rename_i e rest hs
      obtain ⟨l, hl, h⟩ := Option.map_eq_some_iff.1 h
      cases h
      obtain ⟨us, hus, hs⟩ := single_sound fuel _ _ _ hs
      rw [hus]
      exact .cons hs (multiple_sound fuel rest l hl)
    · cases h
end

/-- What may follow an expression. -/
def Follows (rest : List Tok) : Prop := rest = [] ∨ ∃ us, rest = .comma :: us

theorem single_ne {e : CfgExpr} {ts : List Tok} (h : Single e ts) : ∃ t us, ts = t :: us := by
  cases h <;> exact ⟨_, _, rfl⟩

mutual
theorem single_complete : ∀ {e : CfgExpr} {ts : List Tok}, Single e ts →
    ∃ n, ∀ fuel, n ≤ fuel → ∀ rest, Follows rest → parseSingle fuel (ts ++ rest) = some (e, rest)
  | _, _, .name s => ⟨1, fun fuel hf rest hr => by
      obtain ⟨f, rfl⟩ : ∃ f, fuel = f + 1 := ⟨fuel - 1, by omega⟩
      rcases hr with rfl | ⟨us, rfl⟩ <;> rfl⟩
  | _, _, .value s v => ⟨1, fun fuel hf rest hr => by
      obtain ⟨f, rfl⟩ : ∃ f, fuel = f + 1 := ⟨fuel - 1, by omega⟩
      rfl⟩
  | _, _, .all h => by
      obtain ⟨n, hn⟩ := multiple_complete h
      refine ⟨n + 1, fun fuel hf rest hr => ?_⟩
      obtain ⟨f, rfl⟩ : ∃ f, fuel = f + 1 := ⟨fuel - 1, by omega⟩
      simp [parseSingle, hn f (by omega)]
  | _, _, .any h => by
      obtain ⟨n, hn⟩ := multiple_complete h
      refine ⟨n + 1, fun fuel hf rest hr => ?_⟩
      obtain ⟨f, rfl⟩ : ∃ f, fuel = f + 1 := ⟨fuel - 1, by omega⟩
      simp [parseSingle, hn f (by omega)]
  | _, _, .not h => by
      obtain ⟨n, hn⟩ := single_complete h
      refine ⟨n + 1, fun fuel hf rest hr => ?_⟩
      obtain ⟨f, rfl⟩ : ∃ f, fuel = f + 1 := ⟨fuel - 1, by omega⟩
      have := hn f (by omega) [] (.inl rfl)
      rw [List.append_nil] at this
      simp [parseSingle, this]
  | _, _, .notComma h => by
      obtain ⟨n, hn⟩ := single_complete h
      refine ⟨n + 1, fun fuel hf rest hr => ?_⟩
      obtain ⟨f, rfl⟩ : ∃ f, fuel = f + 1 := ⟨fuel - 1, by omega⟩
      have := hn f (by omega) [.comma] (.inr ⟨[], rfl⟩)
      simp [parseSingle, this]
theorem multiple_complete : ∀ {es : List CfgExpr} {ts : List Tok}, Multiple es ts →
    ∃ n, ∀ fuel, n ≤ fuel → parseMultiple fuel ts = some es
  | _, _, .nil => ⟨1, fun fuel hf => by
      obtain ⟨f, rfl⟩ : ∃ f, fuel = f + 1 := ⟨fuel - 1, by omega⟩
      rfl⟩
  | _, _, .last h => by
      obtain ⟨n, hn⟩ := single_complete h
      refine ⟨n + 1, fun fuel hf => ?_⟩
      obtain ⟨f, rfl⟩ : ∃ f, fuel = f + 1 := ⟨fuel - 1, by omega⟩
      have := hn f (by omega) [] (.inl rfl)
      rw [List.append_nil] at this
      obtain ⟨t, us, rfl⟩ := single_ne h
      simp [parseMultiple, this]
  | _, _, .cons (us := us) h hs => by
      obtain ⟨n, hn⟩ := single_complete h
      obtain ⟨m, hm⟩ := multiple_complete hs
      refine ⟨n + m + 1, fun fuel hf => ?_⟩
      obtain ⟨f, rfl⟩ : ∃ f, fuel = f + 1 := ⟨fuel - 1, by omega⟩
      have := hn f (by omega) (.comma :: us) (.inr ⟨us, rfl⟩)
      obtain ⟨t, us', rfl⟩ := single_ne h
      rw [List.cons_append] at this ⊢
      simp [parseMultiple, this, hm f (by omega)]
end

/-- **C26**.  The parser accepts exactly the tokens the grammar gives an expression, and finds that expression. -/
theorem parse_exact (ts : List Tok) (e : CfgExpr) : (∃ fuel, parseAttribute fuel ts = some e) ↔ Argument e ts := by
  constructor
  · rintro ⟨fuel, h⟩
    unfold parseAttribute at h
    split at h
    · rename_i e' hs
      cases h
      obtain ⟨us, rfl, hs'⟩ := single_sound _ _ _ _ hs
      exact .inl (by rw [List.append_nil]; exact hs')
    · rename_i e' hs
      cases h
      obtain ⟨us, rfl, hs'⟩ := single_sound _ _ _ _ hs
      exact .inr ⟨us, hs', rfl⟩
    · cases h
  · rintro (h | ⟨us, h, rfl⟩)
    · obtain ⟨n, hn⟩ := single_complete h
      have := hn n (Nat.le_refl _) [] (.inl rfl)
      rw [List.append_nil] at this
      exact ⟨n, by simp [parseAttribute, this]⟩
    · obtain ⟨n, hn⟩ := single_complete h
      have := hn n (Nat.le_refl _) [.comma] (.inr ⟨[], rfl⟩)
      exact ⟨n, by simp [parseAttribute, this]⟩

section Witness

/-- `a` is true, `b` false, anything else unknown. -/
def demo : Evaluator := fun n _ => if n = "a" then .true else if n = "b" then .false else .undetermined ("no " ++ n)

/-- `all(x, b)` is false and `any(x, a)` true although `x` is unknown. -/
example : tryEval demo (.all [.eq "x" none, .eq "b" none]) = .ok false ∧
    tryEval demo (.any [.eq "x" none, .eq "a" none]) = .ok true ∧
    tryEval demo (.all [.eq "a" none, .not (.eq "x" none), .eq "y" (some "1")]) = .error ["no x", "no y"] := by
  refine ⟨rfl, rfl, ?_⟩
  simp [tryEval, tryAll, ofResult, demo, finish]

example : Open demo (.all [.eq "a" none, .not (.eq "x" none)]) :=
  ((eval_open _ _).1.1 ⟨["no x"], by simp [tryEval, tryAll, ofResult, demo, finish]⟩)

/-- As every occurrence counts on its own, `any(x, not(x))` is open. -/
example : Open demo (.any [.eq "x" none, .not (.eq "x" none)]) :=
  ((eval_open _ _).1.1 ⟨["no x", "no x"], by simp [tryEval, tryAny, ofResult, demo, finish]⟩)

example : Extends (fun n _ => n == "a" || n == "x") demo := by
  intro n v
  unfold demo
  constructor
  · split
    · rename_i h; simp [h]
    · split <;> nofun
  · split
    · nofun
    · split
      · rename_i h; simp [h]
      · nofun

example : Once ⟨[], []⟩ := ⟨by simp, by simp⟩

example : strip demo ⟨[], []⟩ [⟨.eq "a" none, "S", [(.eq "b" none, "f"), (.unconditional, "g"), (.eq "x" none, "h")]⟩,
      ⟨.eq "b" none, "T", []⟩, ⟨.eq "x" none, "U", []⟩] =
    ([⟨.eq "a" none, "S", [(.unconditional, "g")]⟩], ⟨["no x"], ["no x"]⟩) := by
  simp [strip, retain, stripMembers, eval, tryEval, ofResult, demo, report]

/-- `all(unix, not(feature = "x",),)`. -/
example : parseAttribute 9 [.ident "all", .paren [.ident "unix", .comma,
      .ident "not", .paren [.ident "feature", .eq, .str "x", .comma], .comma]] =
    some (.all [.eq "unix" none, .not (.eq "feature" (some "x"))]) := by rfl

example : Argument (.not (.eq "a" none)) [.ident "not", .paren [.ident "a"], .comma] :=
  .inr ⟨_, .not (.name _), rfl⟩

end Witness

end Verif.Cfg
