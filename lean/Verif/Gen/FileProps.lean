import Verif.Gen.FileSpec
/-!
# Every bridge is found, once, in order
-/
namespace Verif.Gen

theorem bridgeAttr_none {attrs : List Attr} (h : bridgeAttr attrs = .ok none) :
    ∀ a ∈ attrs, a.path ≠ ["cxx", "bridge"] := by
  induction attrs with
  | nil => simp
  | cons a as ih =>
    unfold bridgeAttr at h
    by_cases hp : a.path = ["cxx", "bridge"]
    · rw [if_pos hp] at h
      cases hq : parseArgs a <;> simp [hq] at h
    · rw [if_neg hp] at h
      simp only [List.mem_cons, forall_eq_or_imp]
      exact ⟨hp, ih h⟩

theorem firstAttr_cons {a b : Attr} {as : List Attr} (hp : a.path ≠ ["cxx", "bridge"]) (h : FirstAttr as b) :
    FirstAttr (a :: as) b := by
  obtain ⟨pre, post, rfl, h1, h2⟩ := h
  exact ⟨a :: pre, post, rfl, h1, by simpa using ⟨hp, h2⟩⟩

theorem bridgeAttr_some {attrs : List Attr} {ns : List String} (h : bridgeAttr attrs = .ok (some ns)) :
    ∃ a, FirstAttr attrs a ∧ ((a.args = none ∧ ns = []) ∨ a.args = some (.ok ns)) := by
  induction attrs with
  | nil => cases h
  | cons a as ih =>
    unfold bridgeAttr at h
    by_cases hp : a.path = ["cxx", "bridge"]
    · rw [if_pos hp] at h
      refine ⟨a, ⟨[], as, rfl, hp, nofun⟩, ?_⟩
      unfold parseArgs at h
      cases ha : a.args with
      | none => simp [ha] at h; exact .inl ⟨rfl, h⟩
      | some r => cases r <;> simp [ha] at h; simp [h]
    · rw [if_neg hp] at h
      obtain ⟨b, hb, hc⟩ := ih h
      exact ⟨b, firstAttr_cons hp hb, hc⟩

theorem bridgeAttr_error {attrs : List Attr} {e : FileError} (h : bridgeAttr attrs = .error e) :
    ∃ a msg, FirstAttr attrs a ∧ a.args = some (.error msg) ∧ e = .args msg := by
  induction attrs with
  | nil => cases h
  | cons a as ih =>
    unfold bridgeAttr at h
    by_cases hp : a.path = ["cxx", "bridge"]
    · rw [if_pos hp] at h
      unfold parseArgs at h
      cases ha : a.args with
      | none => simp [ha] at h
      | some r =>
        cases r with
        | ok ns => simp [ha] at h
        | error msg => simp [ha] at h; exact ⟨a, msg, ⟨[], as, rfl, hp, nofun⟩, ha, h.symm⟩
    · rw [if_neg hp] at h
      obtain ⟨b, msg, hb, hc⟩ := ih h
      exact ⟨b, msg, firstAttr_cons hp hb, hc⟩

theorem FirstAttr.mem {attrs : List Attr} {a : Attr} (h : FirstAttr attrs a) :
    ∃ a ∈ attrs, a.path = ["cxx", "bridge"] := by
  obtain ⟨pre, post, rfl, h1, _⟩ := h
  exact ⟨a, by simp, h1⟩

/-- What is to be shown of a file that is accepted: the modules come with positions, in order, and they are the bridges
of the file. -/
def Found (s : Src) (ms : List Module) : Prop :=
  ∃ ps : List (List Nat × Module), ps.map (·.2) = ms ∧ ps.Pairwise (fun x y => x.1 < y.1) ∧
    (∀ x ∈ ps, ∃ e, At s x.1 e ∧ Good e x.2) ∧ (∀ p e, At s p e → IsBridge e → ∃ m, (p, m) ∈ ps ∧ Good e m)

/-- What is to be shown of a file that is rejected. -/
def Rejected (s : Src) (err : FileError) : Prop :=
  ∃ p e, At s p e ∧ Bad e err ∧ ∀ p' e', At s p' e' → IsBridge e' → p' < p → ∃ m, Good e' m

def bump : List Nat → List Nat
  | [] => []
  | i :: p => (i + 1) :: p

theorem at_ne_nil {s p e} (h : At s p e) : p ≠ [] := by cases h <;> simp

section
variable {s t : Src} {x : Entry}

theorem at_bump (hs : s.entries = x :: t.entries) {p e} (h : At t p e) : At s (bump p) e := by
  cases h with
  | here h => exact At.here (by rw [hs]; simpa using h)
  | within h hb hin => exact .within (by rw [hs]; simpa using h) hb hin

/-- An item of the file is in its first entry or in the rest. -/
theorem at_cases (hs : s.entries = x :: t.entries) {p e} (h : At s p e) :
    (p = [0] ∧ e = x) ∨
    (∃ a n i b q, x = .mod a n i b ∧ ¬ IsBridge x ∧ p = 0 :: q ∧ At b q e) ∨
    (∃ q, p = bump q ∧ At t q e) := by
  cases h with
  | @here _ i _ h =>
    rw [hs] at h
    cases i with
    | zero => simp at h; exact .inl ⟨rfl, h.symm⟩
    | succ i => exact .inr (.inr ⟨[i], rfl, .here (by simpa using h)⟩)
  | @within _ i a n inner body pos _ h hb hin =>
    rw [hs] at h
    cases i with
    | zero =>
      simp at h; subst h
      exact .inr (.inl ⟨_, _, _, _, pos, rfl, hb, rfl, hin⟩)
    | succ i => exact .inr (.inr ⟨i :: pos, rfl, .within (by simpa using h) hb hin⟩)

end

theorem bump_lt {p q : List Nat} (hp : p ≠ []) (hq : q ≠ []) : bump p < bump q ↔ p < q := by
  cases p with
  | nil => exact absurd rfl hp
  | cons a p =>
    cases q with
    | nil => exact absurd rfl hq
    | cons b q => simp [bump, List.cons_lt_cons_iff]

theorem zero_lt_bump (p : List Nat) {q : List Nat} (hq : q ≠ []) : 0 :: p < bump q := by
  cases q with
  | nil => exact absurd rfl hq
  | cons b q => simp [bump, List.cons_lt_cons_iff]

theorem discover_acc (s : Src) (ms : List Module) :
    discover s ms = (discover s []).map (ms ++ ·) := by
  induction s generalizing ms with
  | nil => simp [discover, Except.map]
  | item attrs rest ih =>
    simp only [discover]
    split <;> first | rfl | exact ih ms
  | modFile attrs name rest ih =>
    simp only [discover]
    split <;> first | rfl | exact ih ms
  | mod attrs name inner body rest ihb ih =>
    simp only [discover]
    split
    · rfl
    · rw [ih, ih ([] ++ _)]
      cases discover rest [] <;> simp [Except.map]
    · rw [ihb ms]
      cases hb : discover body [] with
      | error e => rfl
      | ok found =>
        simp only [Except.map]
        rw [ih, ih found]
        cases discover rest [] <;> simp [Except.map]

theorem zero_ne_bump {p q : List Nat} (h : 0 :: p = bump q) : False := by
  cases q <;> simp [bump] at h

/-- Putting the first entry and the rest together. -/
theorem found_cons {s t : Src} {x : Entry} (hs : s.entries = x :: t.entries) {first : List (List Nat × Module)}
    {ms : List Module} (hord : first.Pairwise (fun x y => x.1 < y.1))
    (hmem : ∀ x ∈ first, (∃ q, x.1 = 0 :: q) ∧ ∃ e, At s x.1 e ∧ Good e x.2)
    (hall : ∀ q e, At s (0 :: q) e → IsBridge e → ∃ m, (0 :: q, m) ∈ first ∧ Good e m) (h2 : Found t ms) :
    Found s (first.map (·.2) ++ ms) := by
  obtain ⟨ps, rfl, ho, hm, hf⟩ := h2
  have hn : ∀ x ∈ ps, x.1 ≠ [] := fun p hp => by
    obtain ⟨e, he, _⟩ := hm p hp
    exact at_ne_nil he
  refine ⟨first ++ ps.map (fun x => (bump x.1, x.2)), by simp, ?_, ?_, ?_⟩
  · refine List.pairwise_append.2 ⟨hord, ?_, ?_⟩
    · rw [List.pairwise_map]
      exact ho.imp_of_mem fun ha hb hlt => (bump_lt (hn _ ha) (hn _ hb)).2 hlt
    intro a ha b hb
    obtain ⟨⟨q, hq⟩, _⟩ := hmem a ha
    obtain ⟨c, hc, rfl⟩ := List.mem_map.1 hb
    rw [hq]
    exact zero_lt_bump q (hn c hc)
  · intro y hy
    rcases List.mem_append.1 hy with hy | hy
    · exact (hmem y hy).2
    · obtain ⟨c, hc, rfl⟩ := List.mem_map.1 hy
      obtain ⟨e, he, hg⟩ := hm c hc
      exact ⟨e, at_bump hs he, hg⟩
  · intro p e he hb
    have key : ∀ q, p = 0 :: q → ∃ m, (p, m) ∈ first ++ ps.map (fun x => (bump x.1, x.2)) ∧ Good e m := by
      rintro q rfl
      obtain ⟨m, h1, h2⟩ := hall q e he hb
      exact ⟨m, List.mem_append_left _ h1, h2⟩
    rcases at_cases hs he with ⟨rfl, rfl⟩ | ⟨a, n, i, b, q, rfl, _, rfl, hin⟩ | ⟨q, rfl, hq⟩
    · exact key _ rfl
    · exact key _ rfl
    · obtain ⟨m, h1, h2⟩ := hf q e hq hb
      exact ⟨m, List.mem_append_right _ (List.mem_map.2 ⟨_, h1, rfl⟩), h2⟩

/-- If the first entry has no bridge in it. -/
theorem found_skip {s t : Src} {x : Entry} (hs : s.entries = x :: t.entries) (hx : ¬ IsBridge x)
    (hm : ∀ a n i b, x ≠ .mod a n i b) {ms : List Module} (h : Found t ms) : Found s ms := by
  refine found_cons hs (first := []) .nil nofun (fun q e he hb => ?_) h
  rcases at_cases hs he with ⟨_, rfl⟩ | ⟨a, n, i, b, q, rfl, _⟩ | ⟨q', hq, _⟩
  · exact absurd hb hx
  · exact absurd rfl (hm a n i b)
  · exact (zero_ne_bump hq).elim

theorem rejected_cons {s t : Src} {x : Entry} (hs : s.entries = x :: t.entries) {err : FileError}
    (hx : ∀ q e, At s (0 :: q) e → IsBridge e → ∃ m, Good e m) (h : Rejected t err) : Rejected s err := by
  obtain ⟨p, e, he, hb, hl⟩ := h
  refine ⟨bump p, e, at_bump hs he, hb, ?_⟩
  intro p' e' he' hb' hlt
  rcases at_cases hs he' with ⟨rfl, rfl⟩ | ⟨a, n, i, b, q, rfl, _, rfl, hin⟩ | ⟨q, rfl, hq⟩
  · exact hx _ _ he' hb'
  · exact hx _ _ he' hb'
  · exact hl q e' hq hb' ((bump_lt (at_ne_nil hq) (at_ne_nil he)).1 hlt)

theorem rejected_here {s t : Src} {x : Entry} (hs : s.entries = x :: t.entries) {err : FileError} (h : Bad x err) :
    Rejected s err := by
  refine ⟨[0], x, .here (by simp [hs]), h, ?_⟩
  intro p e he _ hlt
  exfalso
  cases p with
  | nil => exact at_ne_nil he rfl
  | cons a p => simp [List.cons_lt_cons_iff] at hlt

theorem first_args {attrs : List Attr} {ns : List String} (h : bridgeAttr attrs = .ok (some ns)) :
    ∃ a, FirstAttr attrs a ∧ ∀ msg, a.args ≠ some (.error msg) := by
  obtain ⟨a, ha, hc⟩ := bridgeAttr_some h
  refine ⟨a, ha, fun msg hm => ?_⟩
  rcases hc with ⟨h, _⟩ | h <;> rw [h] at hm <;> cases hm

theorem good_of {attrs : List Attr} {ns : List String} (h : bridgeAttr attrs = .ok (some ns)) (name : String)
    (inner : List Attr) (body : Src) : Good (.mod attrs name inner body) ⟨ns, attrs ++ inner, name, body⟩ := by
  obtain ⟨a, ha, ⟨hn, rfl⟩ | hn⟩ := bridgeAttr_some h
  · exact .root ha hn
  · exact .args ha hn

theorem bad_args {e : Entry} {err : FileError} (h : bridgeAttr e.attrs = .error err) : Bad e err := by
  obtain ⟨a, msg, h1, h2, rfl⟩ := bridgeAttr_error h
  exact .args h1 h2

theorem discover_all (s : Src) :
    (∀ ms, discover s [] = .ok ms → Found s ms) ∧ (∀ err, discover s [] = .error err → Rejected s err) := by
  induction s with
  | nil =>
    refine ⟨?_, nofun⟩
    rintro _ ⟨⟩
    refine ⟨[], rfl, .nil, nofun, ?_⟩
    intro p e he _
    cases he with
    | here h => simp [Src.entries] at h
    | within h => simp [Src.entries] at h
  | item attrs rest ih =>
    have hs : (Src.item attrs rest).entries = .item attrs :: rest.entries := rfl
    simp only [discover]
    cases hb : bridgeAttr attrs with
    | error e => exact ⟨nofun, by rintro _ ⟨⟩; exact rejected_here hs (bad_args hb)⟩
    | ok o =>
      cases o with
      | some ns =>
        refine ⟨nofun, ?_⟩
        rintro _ ⟨⟩
        obtain ⟨a, h1, h2⟩ := first_args hb
        exact rejected_here hs (.notModule h1 h2)
      | none =>
        have hx : ¬ IsBridge (.item attrs) := fun ⟨a, ha, hp⟩ => bridgeAttr_none hb a ha hp
        refine ⟨fun ms h => found_skip hs hx nofun (ih.1 ms h), fun err h => rejected_cons hs ?_ (ih.2 err h)⟩
        intro q e he hbe
        rcases at_cases hs he with ⟨_, rfl⟩ | ⟨a, n, i, b, q, hxm, _⟩ | ⟨q', hq, _⟩
        · exact absurd hbe hx
        · cases hxm
        · exact (zero_ne_bump hq).elim
  | modFile attrs name rest ih =>
    have hs : (Src.modFile attrs name rest).entries = .modFile attrs name :: rest.entries := rfl
    simp only [discover]
    cases hb : bridgeAttr attrs with
    | error e => exact ⟨nofun, by rintro _ ⟨⟩; exact rejected_here hs (bad_args hb)⟩
    | ok o =>
      cases o with
      | some ns =>
        refine ⟨nofun, ?_⟩
        rintro _ ⟨⟩
        obtain ⟨a, h1, h2⟩ := first_args hb
        exact rejected_here hs (.noContents h1 h2)
      | none =>
        have hx : ¬ IsBridge (.modFile attrs name) := fun ⟨a, ha, hp⟩ => bridgeAttr_none hb a ha hp
        refine ⟨fun ms h => found_skip hs hx nofun (ih.1 ms h), fun err h => rejected_cons hs ?_ (ih.2 err h)⟩
        intro q e he hbe
        rcases at_cases hs he with ⟨_, rfl⟩ | ⟨a, n, i, b, q, hxm, _⟩ | ⟨q', hq, _⟩
        · exact absurd hbe hx
        · cases hxm
        · exact (zero_ne_bump hq).elim
  | mod attrs name inner body rest ihb ih =>
    have hs : (Src.mod attrs name inner body rest).entries = .mod attrs name inner body :: rest.entries := rfl
    simp only [discover]
    cases hb : bridgeAttr attrs with
    | error e => exact ⟨nofun, by rintro _ ⟨⟩; exact rejected_here hs (bad_args hb)⟩
    | ok o =>
      cases o with
      | some ns =>
        have hg := good_of hb name inner body
        obtain ⟨a, ha, _⟩ := first_args hb
        have hx : IsBridge (.mod attrs name inner body) := ha.mem
        have h0 : At (Src.mod attrs name inner body rest) [0] (.mod attrs name inner body) := .here (by simp [hs])
        have only : ∀ q e, At (Src.mod attrs name inner body rest) (0 :: q) e →
            q = [] ∧ e = .mod attrs name inner body := by
          intro q e he
          rcases at_cases hs he with ⟨hq, rfl⟩ | ⟨a, n, i, b, q, _, hx', _⟩ | ⟨q', hq, _⟩
          · exact ⟨by simpa using hq, rfl⟩
          · exact absurd hx hx'
          · exact (zero_ne_bump hq).elim
        dsimp only
        rw [List.nil_append, discover_acc]
        cases hr : discover rest [] with
        | error e =>
          refine ⟨nofun, ?_⟩
          rintro _ ⟨⟩
          refine rejected_cons hs ?_ (ih.2 _ hr)
          intro q e he _
          obtain ⟨_, rfl⟩ := only q e he
          exact ⟨_, hg⟩
        | ok ms =>
          refine ⟨?_, nofun⟩
          rintro _ ⟨⟩
          refine found_cons hs (first := [([0], ⟨ns, attrs ++ inner, name, body⟩)]) (by simp) ?_ ?_ (ih.1 _ hr)
          · intro y hy
            rw [List.mem_singleton] at hy
            subst hy
            exact ⟨⟨_, rfl⟩, _, h0, hg⟩
          · intro q e he _
            obtain ⟨rfl, rfl⟩ := only q e he
            exact ⟨_, by simp, hg⟩
      | none =>
        have hx : ¬ IsBridge (.mod attrs name inner body) := fun ⟨a, ha, hp⟩ => bridgeAttr_none hb a ha hp
        have into : ∀ q e, At body q e → At (Src.mod attrs name inner body rest) (0 :: q) e :=
          fun q e he => .within (by rw [hs]; rfl) hx he
        have only : ∀ q e, At (Src.mod attrs name inner body rest) (0 :: q) e → IsBridge e → At body q e := by
          intro q e he hbe
          rcases at_cases hs he with ⟨_, rfl⟩ | ⟨a, n, i, b, q', hxm, _, hq, hin⟩ | ⟨q', hq, _⟩
          · exact absurd hbe hx
          · cases hxm; cases hq; exact hin
          · exact (zero_ne_bump hq).elim
        cases hbd : discover body [] with
        | error e =>
          refine ⟨nofun, ?_⟩
          rintro _ ⟨⟩
          obtain ⟨p, e', he, hbad, hl⟩ := ihb.2 _ hbd
          refine ⟨0 :: p, e', into p e' he, hbad, ?_⟩
          intro p' e'' he'' hb'' hlt
          cases p' with
          | nil => exact absurd rfl (at_ne_nil he'')
          | cons i q =>
            rw [List.cons_lt_cons_iff] at hlt
            rcases hlt with hlt | ⟨rfl, hlt⟩
            · exact absurd hlt (Nat.not_lt_zero _)
            · exact hl q e'' (only q e'' he'' hb'') hb'' hlt
        | ok found =>
          obtain ⟨ps, rfl, ho, hm, hf⟩ := ihb.1 _ hbd
          dsimp only
          rw [discover_acc]
          cases hr : discover rest [] with
          | error e =>
            refine ⟨nofun, ?_⟩
            rintro _ ⟨⟩
            refine rejected_cons hs ?_ (ih.2 _ hr)
            intro q e he hbe
            obtain ⟨m, _, hg⟩ := hf q e (only q e he hbe) hbe
            exact ⟨m, hg⟩
          | ok ms =>
            refine ⟨?_, nofun⟩
            rintro _ ⟨⟩
            have := found_cons hs (first := ps.map fun x => (0 :: x.1, x.2)) ?_ ?_ ?_ (ih.1 _ hr)
            · simpa [List.map_map, Function.comp_def] using this
            · rw [List.pairwise_map]
              exact ho.imp fun h => by simpa [List.cons_lt_cons_iff] using h
            · intro y hy
              obtain ⟨c, hc, rfl⟩ := List.mem_map.1 hy
              obtain ⟨e, he, hg⟩ := hm c hc
              exact ⟨⟨_, rfl⟩, e, into _ e he, hg⟩
            · intro q e he hbe
              obtain ⟨m, h1, h2⟩ := hf q e (only q e he hbe) hbe
              exact ⟨m, List.mem_map.2 ⟨_, h1, rfl⟩, h2⟩

theorem Good.isBridge {e m} (h : Good e m) : IsBridge e := by
  cases h with
  | root h => exact h.mem
  | args h => exact h.mem

theorem firstAttr_unique {attrs : List Attr} {a b : Attr} (h : FirstAttr attrs a) (k : FirstAttr attrs b) : a = b := by
  obtain ⟨pre, post, rfl, h1, h2⟩ := h
  obtain ⟨pre', post', he, k1, k2⟩ := k
  induction pre generalizing pre' with
  | nil =>
    cases pre' with
    | nil => simp at he; exact he.1
    | cons c pre' => simp at he; exact absurd (he.1 ▸ h1) (k2 c (by simp))
  | cons c pre ih =>
    cases pre' with
    | nil => simp at he; exact absurd (he.1 ▸ k1) (h2 c (by simp))
    | cons d pre' =>
      simp at he
      exact ih (fun b hb => h2 b (by simp [hb])) pre' he.2 (fun b hb => k2 b (by simp [hb]))

theorem Bad.not_good {e err m} (h : Bad e err) (g : Good e m) : False := by
  cases g with
  | root g1 g2 =>
    cases h with
    | args h1 h2 => rw [firstAttr_unique h1 g1, g2] at h2; cases h2
  | args g1 g2 =>
    cases h with
    | args h1 h2 => rw [firstAttr_unique h1 g1, g2] at h2; cases h2

theorem bad_unique {e err err'} (h : Bad e err) (k : Bad e err') : err = err' := by
  cases h with
  | args h1 h2 =>
    cases k with
    | args k1 k2 => rw [firstAttr_unique h1 k1, k2] at h2; cases h2; rfl
    | notModule k1 k2 => exact absurd h2 (firstAttr_unique h1 k1 ▸ k2 _)
    | noContents k1 k2 => exact absurd h2 (firstAttr_unique h1 k1 ▸ k2 _)
  | notModule h1 h2 =>
    cases k with
    | args k1 k2 => exact absurd k2 (firstAttr_unique h1 k1 ▸ h2 _)
    | notModule => rfl
  | noContents h1 h2 =>
    cases k with
    | args k1 k2 => exact absurd k2 (firstAttr_unique h1 k1 ▸ h2 _)
    | noContents => rfl

theorem at_unique {s p e e'} (h : At s p e) (k : At s p e') : e = e' := by
  induction h with
  | here h =>
    cases k with
    | here k => rw [h] at k; cases k; rfl
    | within _ _ hin => exact absurd rfl (at_ne_nil hin)
  | within h hb hin ih =>
    cases k with
    | here k => exact absurd rfl (at_ne_nil hin)
    | within k _ kin => rw [h] at k; cases k; exact ih kin

theorem lt_or (p q : List Nat) : p < q ∨ p = q ∨ q < p := by
  induction p generalizing q with
  | nil => cases q <;> simp
  | cons a p ih =>
    cases q with
    | nil => simp
    | cons b q =>
      simp only [List.cons_lt_cons_iff, List.cons.injEq]
      rcases Nat.lt_trichotomy a b with h | rfl | h
      · exact .inl (.inl h)
      · rcases ih q with h | rfl | h
        · exact .inl (.inr ⟨rfl, h⟩)
        · exact .inr (.inl ⟨rfl, rfl⟩)
        · exact .inr (.inr (.inr ⟨rfl, h⟩))
      · exact .inr (.inr (.inl h))

theorem Bad.isBridge {e err} (h : Bad e err) : IsBridge e := by
  cases h with
  | args h => exact h.mem
  | notModule h => exact h.mem
  | noContents h => exact h.mem

/-- **C63.**  When a file is accepted, the bridges that are generated are exactly the modules with `#[cxx::bridge]` in
it, at any depth, each once and in the order of the source, with their attributes, contents and namespace. -/
theorem bridges_found {s : Src} {ms : List Module} (h : discover s [] = .ok ms) :
    ∃ ps : List (List Nat × Module), ps.map (·.2) = ms ∧ ps.Pairwise (fun x y => x.1 < y.1) ∧
      (∀ x ∈ ps, ∃ e, At s x.1 e ∧ IsBridge e ∧ Good e x.2) ∧
      (∀ p e, At s p e → IsBridge e → ∃ m, (p, m) ∈ ps ∧ Good e m) := by
  obtain ⟨ps, h1, h2, h3, h4⟩ := (discover_all s).1 ms h
  refine ⟨ps, h1, h2, fun x hx => ?_, h4⟩
  obtain ⟨e, he, hg⟩ := h3 x hx
  exact ⟨e, he, hg.isBridge, hg⟩

/-- **C63.**  A file is rejected if and only if there is a bridge that is not as it should be, and it is the first one
that is reported. -/
theorem bridge_rejected (s : Src) (err : FileError) :
    discover s [] = .error err ↔
      ∃ p e, At s p e ∧ Bad e err ∧ ∀ p' e' err', At s p' e' → p' < p → ¬ Bad e' err' := by
  constructor
  · intro h
    obtain ⟨p, e, h1, h2, h3⟩ := (discover_all s).2 err h
    refine ⟨p, e, h1, h2, fun p' e' err' h4 h5 h6 => ?_⟩
    obtain ⟨m, hm⟩ := h3 p' e' h4 h6.isBridge h5
    exact h6.not_good hm
  · rintro ⟨p, e, h1, h2, h3⟩
    cases hd : discover s [] with
    | ok ms =>
      obtain ⟨ps, _, _, _, hf⟩ := (discover_all s).1 ms hd
      obtain ⟨m, _, hg⟩ := hf p e h1 h2.isBridge
      exact (h2.not_good hg).elim
    | error err' =>
      obtain ⟨p', e', k1, k2, k3⟩ := (discover_all s).2 err' hd
      have hle : p = p' := by
        rcases lt_or p p' with hlt | rfl | hlt
        · obtain ⟨m, hm⟩ := k3 p e h1 h2.isBridge hlt
          exact (h2.not_good hm).elim
        · rfl
        · exact (h3 p' e' err' k1 hlt k2).elim
      subst hle
      have := at_unique h1 k1
      subst this
      rw [bad_unique h2 k2]

/-- A first line that is not Rust is left out, and nothing else: what is parsed is the end of the file, and what is left
out is one line, that starts with `#!` and does not start an attribute. -/
theorem shebang_line (source : List Char) :
    ∃ line, source = line ++ afterShebang source ∧
      (line ≠ [] → '\n' ∉ line ∧ (∃ t, line = '#' :: '!' :: t ∧ t.head? ≠ some '[') ∧
        (afterShebang source).head? ∈ [none, some '\n']) := by
  unfold afterShebang
  by_cases hc : (['#', '!'].isPrefixOf source && !['#', '!', '['].isPrefixOf source) = true
  · rw [if_pos hc]
    obtain ⟨t, rfl, ht⟩ : ∃ t, source = '#' :: '!' :: t ∧ t.head? ≠ some '[' := by
      simp only [Bool.and_eq_true, Bool.not_eq_true', List.isPrefixOf_iff_prefix] at hc
      obtain ⟨⟨t, rfl⟩, h2⟩ := hc
      refine ⟨t, rfl, fun h => ?_⟩
      cases t with
      | nil => cases h
      | cons c t => cases h; simp [List.isPrefixOf] at h2
    clear hc
    have key : ∀ t : List Char, '\n' ∉ t.takeWhile (· ≠ '\n') ∧ (t.dropWhile (· ≠ '\n')).head? ∈ [none, some '\n'] ∧
        (t.head? ≠ some '[' → (t.takeWhile (· ≠ '\n')).head? ≠ some '[') := by
      intro t
      induction t with
      | nil => simp
      | cons c t ih =>
        by_cases h : c = '\n'
        · subst h; simp
        · refine ⟨?_, ?_, ?_⟩
          · simpa [h, Ne.symm h] using ih.1
          · simpa [h] using ih.2.1
          · intro h'; simpa [h] using h'
    obtain ⟨k1, k2, k3⟩ := key t
    refine ⟨'#' :: '!' :: t.takeWhile (· ≠ '\n'), by simp, fun _ => ⟨?_, ⟨_, rfl, k3 ht⟩, ?_⟩⟩
    · simpa using k1
    · simpa using k2
  · rw [if_neg hc]
    exact ⟨[], by simp, by simp⟩

/-! ### Examples -/

def bridgeAt (ns : List String) : Attr := ⟨["cxx", "bridge"], some (.ok ns)⟩

/-- ```
#[allow] mod a { fn f(); mod b { #[cxx::bridge(namespace = "x")] mod ffi { #[cxx::bridge] mod no {} } } }
mod c;
#[doc] #[cxx::bridge] #[cfg] mod ffi2 { #![inner] }
``` -/
def demoFile (last : Src) : Src :=
  .mod [⟨["allow"], none⟩] "a" []
    (.item [] (.mod [] "b" []
      (.mod [bridgeAt ["x"]] "ffi" [] (.mod [bridgeAt []] "no" [] .nil .nil) .nil) .nil))
    (.modFile [] "c"
      (.mod [⟨["doc"], none⟩, ⟨["cxx", "bridge"], none⟩, ⟨["cfg"], none⟩] "ffi2" [⟨["inner"], none⟩] .nil last))

example : discover (demoFile .nil) [] =
    .ok [⟨["x"], [bridgeAt ["x"]], "ffi", .mod [bridgeAt []] "no" [] .nil .nil⟩,
      ⟨[], [⟨["doc"], none⟩, ⟨["cxx", "bridge"], none⟩, ⟨["cfg"], none⟩, ⟨["inner"], none⟩], "ffi2", .nil⟩] := rfl

example : At (demoFile .nil) [0, 1, 0]
    (.mod [bridgeAt ["x"]] "ffi" [] (.mod [bridgeAt []] "no" [] .nil .nil)) :=
  .within rfl (by simp [IsBridge, Entry.attrs]) (.within rfl (by simp [IsBridge, Entry.attrs]) (.here rfl))

example : discover (demoFile (.item [bridgeAt []] .nil)) [] = .error .notModule := rfl

example : discover (demoFile (.modFile [bridgeAt []] "d" .nil)) [] = .error .noContents := rfl

end Verif.Gen
