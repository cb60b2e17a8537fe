import Verif.Build.TouchSpec
import Verif.Build.IncludeProps
/-!
# A build changes nothing but its own directories (C95)
-/
namespace Verif.Build

/-! ### Walking -/

/-- Where a path leads depends on the links only. -/
theorem target_same {f g : Fs} (h : ∀ q t, f.node q = some (.link t) ↔ g.node q = some (.link t)) (k : Nat) (p : Place) :
    f.target k p = g.target k p := by
  induction k generalizing p with
  | zero => rfl
  | succ k ih =>
    unfold Fs.target
    cases hf : f.node p with
    | none =>
      split
      · next h1 => exact absurd h1 (by simp)
      · split
        · next h2 => rw [← h] at h2; rw [hf] at h2; cases h2
        · rfl
    | some v =>
      cases v with
      | link t => rw [(h p t).1 hf]; exact ih t
      | file i =>
        split
        · next h1 => exact absurd h1 (by simp)
        · split
          · next h2 => rw [← h] at h2; rw [hf] at h2; cases h2
          · rfl
      | dir =>
        split
        · next h1 => exact absurd h1 (by simp)
        · split
          · next h2 => rw [← h] at h2; rw [hf] at h2; cases h2
          · rfl

theorem walk_same {f g : Fs} (h : ∀ q t, f.node q = some (.link t) ↔ g.node q = some (.link t)) (d : Place) (ns : List Name) :
    f.walk d ns = g.walk d ns := by
  induction ns generalizing d with
  | nil => rfl
  | cons n ns ih =>
    unfold Fs.walk
    rw [target_same h]
    split
    · exact ih _
    · rfl

theorem locate_same {f g : Fs} (h : ∀ q t, f.node q = some (.link t) ↔ g.node q = some (.link t)) (p : Place) :
    f.locate p = g.locate p := by
  unfold Fs.locate
  rw [walk_same h]

theorem walk_straight {fs : Fs} (ns : List Name) (d : Place)
    (h : ∀ a b, ns = a ++ b → a ≠ [] → ∀ t, fs.node (d ++ a) ≠ some (.link t)) : fs.walk d ns = some (d ++ ns) := by
  induction ns generalizing d with
  | nil => simp [Fs.walk]
  | cons n ns ih =>
    unfold Fs.walk
    rw [target_self (h [n] ns rfl (by simp))]
    simp only
    rw [ih (d ++ [n]) (fun a b e ha => by simpa using h (n :: a) b (by rw [e]; rfl) (by simp))]
    simp

theorem locate_concat (fs : Fs) (p : Place) (n : Name) : fs.locate (p ++ [n]) = (fs.walk [] p).map (· ++ [n]) := by
  unfold Fs.locate
  simp

/-! ### Removing -/

/-- A file system without what is at and below a place. -/
def Without (r : Place) (f g : Fs) : Prop := ∀ q, g.node q = if r <+: q then none else f.node q

theorem without_target {r : Place} {f g : Fs} (h : Without r f g) (k : Nat) (p x : Place) (hx : g.target k p = some x) :
    r <+: x ∨ (f.target k p = some x ∧ ¬ r <+: x) := by
  induction k generalizing p with
  | zero => cases hx
  | succ k ih =>
    by_cases hr : r <+: p
    · have : g.node p = none := by rw [h, if_pos hr]
      rw [target_self' (by simp [this])] at hx
      cases hx
      exact .inl hr
    · have hp : g.node p = f.node p := by rw [h, if_neg hr]
      cases hn : f.node p with
      | none =>
        rw [target_self' (by simp [hp, hn])] at hx
        rw [target_self' (by simp [hn])]
        cases hx
        exact .inr ⟨rfl, hr⟩
      | some v =>
        cases v with
        | link t =>
          rw [target_link (hp.trans hn)] at hx
          rw [target_link hn]
          exact ih t hx
        | file i =>
          rw [target_self' (by simp [hp, hn])] at hx
          rw [target_self' (by simp [hn])]
          cases hx
          exact .inr ⟨rfl, hr⟩
        | dir =>
          rw [target_self' (by simp [hp, hn])] at hx
          rw [target_self' (by simp [hn])]
          cases hx
          exact .inr ⟨rfl, hr⟩

theorem without_below {r : Place} {f g : Fs} (h : Without r f g) (ns : List Name) (d : Place) (hd : r <+: d) :
    g.walk d ns = some (d ++ ns) :=
  walk_straight ns d fun a _ _ _ t => by
    rw [h, if_pos (hd.trans (List.prefix_append _ _))]; simp

theorem without_walk {r : Place} {f g : Fs} (h : Without r f g) (ns : List Name) (d x : Place) (hx : g.walk d ns = some x) :
    r <+: x ∨ f.walk d ns = some x := by
  induction ns generalizing d with
  | nil => exact .inr hx
  | cons n ns ih =>
    unfold Fs.walk at hx ⊢
    cases hg : g.target 40 (d ++ [n]) with
    | none => rw [hg] at hx; cases hx
    | some y =>
      rw [hg] at hx
      simp only at hx
      rcases without_target h 40 _ _ hg with hr | ⟨hf, _⟩
      · rw [without_below h ns y hr] at hx
        cases hx
        exact .inl (hr.trans (List.prefix_append _ _))
      · rw [hf]
        exact ih y hx

/-- Once the place of a path is removed, there is nothing at the place of the path. -/
theorem without_locate {p r r' : Place} {f g : Fs} (h : Without r f g) (hr : f.locate p = some r) (hr' : g.locate p = some r') :
    g.node r' = none := by
  unfold Fs.locate at hr hr'
  obtain ⟨x, hx, rfl⟩ := Option.map_eq_some_iff.1 hr'
  rcases without_walk h _ _ _ hx with hb | hw
  · rw [h, if_pos (hb.trans (List.prefix_append _ _))]
  · rw [hw] at hr
    simp only [Option.map_some, Option.some.injEq] at hr
    rw [hr, h, if_pos (List.prefix_refl _)]

theorem unlink_without {f : Fs} (ht : Tree f) {r : Place} (hd : f.node r ≠ some .dir) : Without r f (f.unlink r) := by
  intro q
  simp only [Fs.unlink, if_neg hd, setNode]
  by_cases hq : q = r
  · subst hq; simp
  · rw [if_neg hq]
    split
    · next hp =>
      obtain ⟨x, rfl⟩ := hp
      cases hn : f.node (r ++ x) with
      | none => rfl
      | some v =>
        refine absurd (tree_up ht (r := x) ?_ (by simp [hn])) hd
        intro e; subst e; simp at hq
    · rfl

theorem removeTree_without {f : Fs} {r : Place} (hd : f.node r = some .dir) : Without r f (f.removeTree r) := by
  intro q
  simp [Fs.removeTree, hd]

/-! ### Making directories -/

/-- Only directories have been made, at places of prefixes of the path. -/
structure Made (f : Fs) (d : Place) (ns : List Name) (g : Fs) : Prop where
  nodes : ∀ q, g.node q = f.node q ∨ (f.node q = none ∧ g.node q = some .dir ∧
    ∃ k m rest x, ns = k ++ m :: rest ∧ rest ≠ [] ∧ f.walk d k = some x ∧ q = x ++ [m])
  tree : Tree f → Tree g
  data : g.data = f.data
  changes : g.changes = f.changes
  next : g.next = f.next

theorem made_refl (f : Fs) (d : Place) (ns : List Name) : Made f d ns f :=
  ⟨fun _ => .inl rfl, id, rfl, rfl, rfl⟩

theorem Made.links {f g : Fs} {d : Place} {ns : List Name} (h : Made f d ns g) (q t : Place) :
    f.node q = some (.link t) ↔ g.node q = some (.link t) := by
  rcases h.nodes q with e | ⟨e1, e2, _⟩
  · rw [e]
  · rw [e1, e2]; simp

theorem made (ns : List Name) (f : Fs) (b : Nat) (d : Place) : Made f d ns (f.makeDirs b d ns) := by
  induction ns generalizing f b d with
  | nil => exact made_refl ..
  | cons n ns ih =>
    cases ns with
    | nil => exact made_refl ..
    | cons m ns =>
      unfold Fs.makeDirs
      cases ht : f.target 40 (d ++ [n]) with
      | none => exact made_refl ..
      | some x =>
        have hw : ∀ (g : Fs) (k : List Name) (y : Place), g.target 40 (d ++ [n]) = some x → g.walk x k = some y →
            g.walk d (n :: k) = some y := by
          intro g k y h1 h2; unfold Fs.walk; rw [h1]; exact h2
        simp only
        split
        · next hx =>
          refine (?_ : ∀ g, Made f x (m :: ns) g → Made f d (n :: m :: ns) g) _ (ih f _ x)
          intro g this
          refine ⟨fun q => ?_, this.tree, this.data, this.changes, this.next⟩
          rcases this.nodes q with e | ⟨e1, e2, k, m', rest, y, e3, e4, e5, e6⟩
          · exact .inl e
          · exact .inr ⟨e1, e2, n :: k, m', rest, y, by rw [e3]; rfl, e4, hw f k y ht e5, e6⟩
        · next b hx =>
          split
          · next hc =>
            obtain ⟨rfl, hd⟩ := hc
            have hl : ∀ q t, f.node q = some (.link t) ↔ setNode f.node (d ++ [n]) (some .dir) q = some (.link t) := by
              intro q t
              simp only [setNode]
              split
              · next e => subst e; simp [hx]
              · rfl
            have := ih { f with node := setNode f.node (d ++ [n]) (some .dir) } b (d ++ [n])
            refine ⟨fun q => ?_, fun htr => this.tree ?_, this.data, this.changes, this.next⟩
            · rcases this.nodes q with e | ⟨e1, e2, k, m', rest, y, e3, e4, e5, e6⟩
              · by_cases hq : q = d ++ [n]
                · subst hq
                  refine .inr ⟨hx, by rw [e]; simp [setNode], [], n, m :: ns, d, rfl, by simp, by simp [Fs.walk], rfl⟩
                · exact .inl (by rw [e]; simp [setNode, hq])
              · refine .inr ⟨?_, e2, n :: k, m', rest, y, by rw [e3]; rfl, e4, ?_, e6⟩
                · simp only [setNode] at e1
                  split at e1
                  · cases e1
                  · exact e1
                · refine hw f k y ht ?_
                  rw [← e5]
                  exact walk_same hl ..
            · intro q k hq
              simp only [setNode] at hq ⊢
              by_cases hqd : q = d ++ [n]
              · rw [if_pos hqd]
              · rw [if_neg hqd]
                split at hq
                · next e =>
                  rw [(List.append_inj_left' e rfl)]; exact hd
                · exact htr q k hq
          · exact made_refl ..
        · exact made_refl ..

/-! ### The places of a build -/

section Places

variable {prj : Project}

theorem Project.Generated.below {q : Place} (h : prj.Generated q) (x : Place) : prj.Generated (q ++ x) := by
  rcases h with h | h | h
  · exact .inl (h.trans (List.prefix_append _ _))
  · exact .inr (.inl (h.trans (List.prefix_append _ _)))
  · exact .inr (.inr (h.trans (List.prefix_append _ _)))

theorem Project.Owns.below {q : Place} (h : prj.Owns q) (x : Place) : prj.Owns (q ++ x) := by
  rcases h with h | h
  · exact .inl (h.trans (List.prefix_append _ _))
  · exact .inr (h.trans (List.prefix_append _ _))

theorem split_dir (o : Place) (a b : Name) : o ++ [a, b] = o ++ [a] ++ [b] := by simp

theorem Project.Generated.owns {q : Place} (h : prj.Generated q) : prj.Owns q := by
  rcases h with h | h | h
  · rw [split_dir] at h; exact .inl ((List.prefix_append _ _).trans h)
  · rw [split_dir] at h; exact .inl ((List.prefix_append _ _).trans h)
  · exact .inr h

/-- The place of the link to the crate. -/
def Project.crateLink (prj : Project) : Place := prj.outDir ++ ["cxxbridge".toList, "crate".toList] ++ prj.includePrefix

theorem crate_owns : prj.Owns prj.crateLink := by
  refine .inl ?_
  unfold Project.crateLink
  rw [split_dir, List.append_assoc]
  exact List.prefix_append _ _

theorem not_longer {q x : Place} (hx : x ≠ []) : ¬ q ++ x <+: q := by
  intro h
  have := h.length_le
  have : 0 < x.length := List.length_pos_iff.2 hx
  simp only [List.length_append] at *
  omega

theorem comparable {a b q : Place} (h : Apart a b) (ha : a <+: q) (hb : b <+: q) : False := by
  rcases List.prefix_or_prefix_of_prefix ha hb with h' | h'
  · exact h.1 h'
  · exact h.2 h'

theorem generated_not_above (hsh : Apart (prj.outDir ++ ["cxxbridge".toList]) prj.sharedDir) {q : Place} {n : Name}
    (h : prj.Generated q) : ¬ prj.Above (q ++ [n]) := by
  rintro (ha | ha)
  · have hq := (List.prefix_append q [n]).trans ha
    rcases h with h | h | h
    · rw [split_dir] at h; exact not_longer (by simp) (h.trans hq)
    · rw [split_dir] at h; exact not_longer (by simp) (h.trans hq)
    · exact hsh.2 (h.trans hq)
  · have hq := (List.prefix_append q [n]).trans ha
    rcases h with h | h | h
    · rw [split_dir] at h; exact hsh.1 ((List.prefix_append _ _).trans (h.trans hq))
    · rw [split_dir] at h; exact hsh.1 ((List.prefix_append _ _).trans (h.trans hq))
    · obtain ⟨x, rfl⟩ := h
      rw [List.append_assoc] at ha
      exact not_longer (by simp) ha

theorem generated_not_crate (hsh : Apart (prj.outDir ++ ["cxxbridge".toList]) prj.sharedDir) {q : Place}
    (h : prj.Generated q) : ¬ q <+: prj.crateLink := by
  intro hq
  unfold Project.crateLink at hq
  rw [split_dir] at hq
  rcases h with h | h | h
  · have := h.trans hq
    rw [split_dir, ← List.append_nil (_ ++ ["include".toList])] at this
    exact not_prefix_names (by decide) this
  · have := h.trans hq
    rw [split_dir, ← List.append_nil (_ ++ ["sources".toList])] at this
    exact not_prefix_names (by decide) this
  · refine comparable hsh ?_ (h.trans hq)
    rw [List.append_assoc]
    exact List.prefix_append _ _

theorem crate_not_above (hsh : Apart (prj.outDir ++ ["cxxbridge".toList]) prj.sharedDir) : ¬ prj.Above prj.crateLink := by
  unfold Project.crateLink
  rw [split_dir, List.append_assoc]
  rintro (h | h)
  · exact not_longer (by simp) h
  · exact hsh.1 ((List.prefix_append _ _).trans h)

/-- At or below a file elsewhere. -/
def Project.Stuck (prj : Project) (fs : Fs) (q : Place) : Prop :=
  ∃ t x i, q = t ++ x ∧ fs.node t = some (.file i) ∧ ¬ prj.Owns t

theorem stuck_below {fs : Fs} (ht : Tree fs) {q : Place} (h : prj.Stuck fs q) {x : Place} (hx : x ≠ []) :
    fs.node (q ++ x) = none ∧ fs.node q ≠ some .dir := by
  obtain ⟨t, y, i, rfl, hf, _⟩ := h
  have h1 : ∀ z : Place, z ≠ [] → fs.node (t ++ z) = none := by
    intro z hz
    cases hn : fs.node (t ++ z) with
    | none => rfl
    | some v => have := tree_up ht (q := t) hz (by simp [hn]); rw [hf] at this; cases this
  refine ⟨by rw [List.append_assoc]; exact h1 _ (by simp [hx]), ?_⟩
  by_cases hy : y = []
  · subst hy; rw [List.append_nil, hf]; simp
  · rw [h1 y hy]; simp

/-- The paths that a build script uses. -/
inductive Project.Path (prj : Project) : Place → Prop
  | inc (x : Place) (n : Name) : prj.Path (prj.outDir ++ ["cxxbridge".toList, "include".toList] ++ x ++ [n])
  | sources (x : Place) (n : Name) : prj.Path (prj.outDir ++ ["cxxbridge".toList, "sources".toList] ++ x ++ [n])
  | shared (x : Place) (n : Name) : prj.Path (prj.sharedDir ++ x ++ [n])
  | crate : prj.includePrefix ≠ [] → prj.Path prj.crateLink

/-- Where these paths lead. -/
inductive Project.Spot (prj : Project) (fs : Fs) : Place → Prop
  | generated {q : Place} (n : Name) : prj.Generated q → prj.Spot fs (q ++ [n])
  | crate : prj.includePrefix ≠ [] → prj.Spot fs prj.crateLink
  | stuck {q : Place} (n : Name) : prj.Stuck fs q → prj.Spot fs (q ++ [n])

theorem target_in {fs : Fs} (hc : prj.Clean fs) (k : Nat) {q x : Place} (h : prj.Generated q ∨ prj.Stuck fs q)
    (hx : fs.target k q = some x) : prj.Generated x ∨ prj.Stuck fs x := by
  induction k generalizing q with
  | zero => cases hx
  | succ k ih =>
    by_cases hl : ∃ t, fs.node q = some (.link t)
    · obtain ⟨t, ht⟩ := hl
      rw [target_link ht] at hx
      rcases h with h | h
      · rcases hc.links q t h ht with hg | ⟨ho, i, hi⟩
        · exact ih (.inl hg) hx
        · exact ih (.inr ⟨t, [], i, by simp, hi, ho⟩) hx
      · obtain ⟨u, y, i, rfl, hf, ho⟩ := h
        by_cases hy : y = []
        · subst hy; rw [List.append_nil, hf] at ht; cases ht
        · have := (stuck_below (q := u) hc.sound.tree ⟨u, [], i, by simp, hf, ho⟩ hy).1
          simp only [ht] at this
          cases this
    · rw [target_self' (fun t ht => hl ⟨t, ht⟩)] at hx
      cases hx
      exact h

theorem walk_in {fs : Fs} (hc : prj.Clean fs) (ns : List Name) {q x : Place} (h : prj.Generated q ∨ prj.Stuck fs q)
    (hx : fs.walk q ns = some x) : prj.Generated x ∨ prj.Stuck fs x := by
  induction ns generalizing q with
  | nil => simp only [Fs.walk, Option.some.injEq] at hx; subst hx; exact h
  | cons n ns ih =>
    unfold Fs.walk at hx
    cases ht : fs.target 40 (q ++ [n]) with
    | none => rw [ht] at hx; cases hx
    | some y =>
      rw [ht] at hx
      refine ih (target_in hc 40 ?_ ht) hx
      rcases h with h | ⟨t, z, i, rfl, hf, ho⟩
      · exact .inl (h.below _)
      · exact .inr ⟨t, z ++ [n], i, by simp, hf, ho⟩

theorem walk_above (hsh : Apart (prj.outDir ++ ["cxxbridge".toList]) prj.sharedDir) {fs : Fs} (hc : prj.Clean fs) {q : Place}
    (h : prj.Above q) (hne : q ≠ prj.sharedDir) : fs.walk [] q = some q := by
  have := walk_straight (fs := fs) q [] (fun a b e ha t => by
    have hp : a <+: q := ⟨b, e.symm⟩
    refine hc.above a ?_ ?_ t
    · rcases h with h | h
      · exact .inl (hp.trans h)
      · exact .inr (hp.trans h)
    · intro ea
      subst ea
      rcases h with h | h
      · exact hsh.2 (hp.trans h)
      · exact hne (h.eq_of_length_le hp.length_le))
  simpa using this

/-- A directory of generated files, and the one above. -/
inductive Project.Base (prj : Project) : Place → Name → Prop
  | inc : prj.Base (prj.outDir ++ ["cxxbridge".toList]) "include".toList
  | sources : prj.Base (prj.outDir ++ ["cxxbridge".toList]) "sources".toList
  | shared {d : Place} {n : Name} : prj.sharedDir = d ++ [n] → prj.Base d n

theorem Project.Base.generated {d : Place} {n : Name} (h : prj.Base d n) : prj.Generated (d ++ [n]) := by
  cases h with
  | inc => exact .inl (by rw [split_dir]; exact List.prefix_refl _)
  | sources => exact .inr (.inl (by rw [split_dir]; exact List.prefix_refl _))
  | shared h => exact .inr (.inr (by rw [h]; exact List.prefix_refl _))

theorem Project.Base.above {d : Place} {n : Name} (h : prj.Base d n)
    (hsh : Apart (prj.outDir ++ ["cxxbridge".toList]) prj.sharedDir) : prj.Above d ∧ ¬ prj.sharedDir <+: d := by
  cases h with
  | inc => exact ⟨.inl (List.prefix_refl _), hsh.2⟩
  | sources => exact ⟨.inl (List.prefix_refl _), hsh.2⟩
  | shared h => exact ⟨.inr (by rw [h]; exact List.prefix_append _ _), by rw [h]; exact not_longer (by simp)⟩

theorem walk_base (hsh : Apart (prj.outDir ++ ["cxxbridge".toList]) prj.sharedDir) {fs : Fs} (hc : prj.Clean fs) {d : Place}
    {n : Name} (h : prj.Base d n) (x : Place) {y : Place} (hy : fs.walk [] (d ++ [n] ++ x) = some y) :
    prj.Generated y ∨ prj.Stuck fs y := by
  have ha := h.above hsh
  rw [walk_append, walk_append, walk_above hsh hc ha.1 (fun e => ha.2 (e ▸ List.prefix_refl _))] at hy
  simp only [Option.bind_some, Fs.walk] at hy
  cases ht : fs.target 40 (d ++ [n]) with
  | none => rw [ht] at hy; cases hy
  | some z =>
    rw [ht] at hy
    exact walk_in hc x (target_in hc 40 (.inl h.generated) ht) hy

theorem shared_concat (hsh : Apart (prj.outDir ++ ["cxxbridge".toList]) prj.sharedDir) : ∃ d n, prj.sharedDir = d ++ [n] := by
  rcases List.eq_nil_or_concat prj.sharedDir with h | ⟨d, n, h⟩
  · exact absurd (by rw [h]; exact List.nil_prefix) hsh.2
  · exact ⟨d, n, by rw [h, List.concat_eq_append]⟩

theorem path_base (hsh : Apart (prj.outDir ++ ["cxxbridge".toList]) prj.sharedDir) {p : Place} (h : prj.Path p) :
    (∃ d b x n, prj.Base d b ∧ p = d ++ [b] ++ x ++ [n]) ∨ (prj.includePrefix ≠ [] ∧ p = prj.crateLink) := by
  cases h with
  | inc x n => exact .inl ⟨_, _, x, n, .inc, by simp⟩
  | sources x n => exact .inl ⟨_, _, x, n, .sources, by simp⟩
  | shared x n =>
    obtain ⟨d, b, h⟩ := shared_concat hsh
    exact .inl ⟨d, b, x, n, .shared h, by rw [h]⟩
  | crate h => exact .inr ⟨h, rfl⟩

theorem crate_concat (h : prj.includePrefix ≠ []) : ∃ x n, prj.crateLink = x ++ [n] := by
  rcases List.eq_nil_or_concat prj.includePrefix with e | ⟨d, n, e⟩
  · exact absurd e h
  · exact ⟨prj.outDir ++ ["cxxbridge".toList, "crate".toList] ++ d, n, by
      rw [Project.crateLink, e, List.concat_eq_append, ← List.append_assoc]⟩

theorem walk_crate {fs : Fs} (hc : prj.Clean fs) {k : Place} (h : k <+: prj.crateLink) (hne : k ≠ prj.crateLink) :
    fs.walk [] k = some k := by
  have := walk_straight (fs := fs) k [] (fun a b e ha t => by
    have hp : a <+: k := ⟨b, e.symm⟩
    refine hc.crate a (hp.trans h) (fun ea => hne ?_) t
    exact h.eq_of_length_le (by
      have := hp.length_le
      rw [ea] at this
      exact this))
  simpa using this

/-- A path leads to a place of the build, or below a file. -/
theorem locate_spot (hsh : Apart (prj.outDir ++ ["cxxbridge".toList]) prj.sharedDir) {fs : Fs} (hc : prj.Clean fs) {p r : Place}
    (h : prj.Path p) (hr : fs.locate p = some r) : prj.Spot fs r := by
  rcases path_base hsh h with ⟨d, b, x, n, hb, rfl⟩ | ⟨hne, rfl⟩
  · rw [locate_concat] at hr
    obtain ⟨y, hy, rfl⟩ := Option.map_eq_some_iff.1 hr
    rcases walk_base hsh hc hb x hy with h | h
    · exact .generated n h
    · exact .stuck n h
  · obtain ⟨x, n, e⟩ := crate_concat hne
    rw [e, locate_concat, walk_crate hc (by rw [e]; exact List.prefix_append _ _)
      (by rw [e]; intro h; simpa using congrArg List.length h)] at hr
    simp only [Option.map_some, Option.some.injEq] at hr
    rw [← hr, ← e]
    exact .crate hne

/-- The directories on a path are those of the build or on the way to it. -/
theorem prefix_spot (hsh : Apart (prj.outDir ++ ["cxxbridge".toList]) prj.sharedDir) {fs : Fs} (hc : prj.Clean fs) {p : Place}
    (h : prj.Path p) {k : Place} {m : Name} {rest : Place} (hp : p = k ++ m :: rest) {x : Place}
    (hx : fs.walk [] k = some x) : prj.Above (x ++ [m]) ∨ prj.Owns (x ++ [m]) ∨ prj.Stuck fs x := by
  have hkp : k ++ [m] <+: p := ⟨rest, by simp [hp]⟩
  rcases path_base hsh h with ⟨d, b, y, n, hb, e⟩ | ⟨hne, e⟩
  · have hbp : d ++ [b] <+: p := ⟨y ++ [n], by simp [e]⟩
    rcases List.prefix_or_prefix_of_prefix hkp hbp with hkb | hbk
    · -- up to the directory itself
      have hkd : k <+: d := by
        rcases List.prefix_concat_iff.1 hkb with e | e
        · rw [List.append_inj_left' e rfl]; exact List.prefix_refl _
        · exact (List.prefix_append _ _).trans e
      have ha := hb.above hsh
      have hak : prj.Above k := by
        rcases ha.1 with h | h
        · exact .inl (hkd.trans h)
        · exact .inr (hkd.trans h)
      rw [walk_above hsh hc hak (fun e => ha.2 (e ▸ hkd))] at hx
      cases hx
      rcases List.prefix_concat_iff.1 hkb with e | e
      · exact .inr (.inl (by rw [e]; exact hb.generated.owns))
      · rcases ha.1 with h | h
        · exact .inl (.inl (e.trans h))
        · exact .inl (.inr (e.trans h))
    · rcases List.prefix_concat_iff.1 hbk with e | e
      · have e1 := List.append_inj_left' e rfl
        have e2 := List.append_inj_right' e rfl
        have ha := hb.above hsh
        rw [← e1, walk_above hsh hc ha.1 (fun e => ha.2 (e ▸ List.prefix_refl _))] at hx
        cases hx
        rw [← e2]
        exact .inr (.inl hb.generated.owns)
      · obtain ⟨z, rfl⟩ := e
        rcases walk_base hsh hc hb z hx with h | h
        · exact .inr (.inl (h.below _).owns)
        · exact .inr (.inr h)
  · subst e
    have hk : k <+: prj.crateLink := (List.prefix_append _ _).trans hkp
    rw [walk_crate hc hk (by rw [hp]; intro e; simpa using congrArg List.length e)] at hx
    cases hx
    have ho : prj.outDir ++ ["cxxbridge".toList] <+: prj.crateLink := by
      unfold Project.crateLink
      rw [split_dir, List.append_assoc]
      exact List.prefix_append _ _
    rcases List.prefix_or_prefix_of_prefix hkp ho with h | h
    · exact .inl (.inl h)
    · exact .inr (.inl (.inl h))

/-! ### One call -/

/-- From `fs` to `f`: like `Spares`, and more about the files. -/
structure Project.Touches (prj : Project) (fs f : Fs) : Prop where
  clean : prj.Clean f
  nodes : ∀ q, ¬ prj.Owns q → f.node q = fs.node q ∨ (prj.Above q ∧ fs.node q = none ∧ f.node q = some .dir)
  next : fs.next ≤ f.next
  data : ∀ i, i < fs.next → f.data i = fs.data i ∧ f.changes i = fs.changes i

theorem touches_refl {fs : Fs} (h : prj.Clean fs) : prj.Touches fs fs :=
  ⟨h, fun _ _ => .inl rfl, Nat.le_refl _, fun _ _ => ⟨rfl, rfl⟩⟩

theorem Project.Leads.mono {f g : Fs} {t : Place} (h : prj.Leads f t)
    (hn : ∀ q, ¬ prj.Owns q → f.node q ≠ none → g.node q = f.node q) : prj.Leads g t := by
  rcases h with h | ⟨ho, i, hi⟩
  · exact .inl h
  · exact .inr ⟨ho, i, by rw [hn t ho (by simp [hi]), hi]⟩

theorem Project.Spot.owns {fs : Fs} (ht : Tree fs) {r : Place} (h : prj.Spot fs r)
    (hn : fs.node r ≠ none ∨ fs.node r.dropLast = some .dir) : prj.Owns r := by
  cases h with
  | generated n h => exact (h.below _).owns
  | crate _ => exact crate_owns
  | @stuck q n h =>
    have := stuck_below ht h (x := [n]) (by simp)
    rcases hn with hn | hn
    · exact absurd this.1 hn
    · simp only [List.dropLast_concat] at hn; exact absurd hn this.2

theorem Project.Touches.remove {fs f g : Fs} (h : prj.Touches fs f) {r : Place} (ho : prj.Owns r) (hw : Without r f g)
    (hs : Sound g) (hd : g.data = f.data) (hc : g.changes = f.changes) (hn : g.next = f.next) : prj.Touches fs g := by
  have hout : ∀ q, ¬ prj.Owns q → g.node q = f.node q := by
    intro q hq
    rw [hw, if_neg]
    rintro ⟨x, rfl⟩
    exact hq (ho.below x)
  have hlink : ∀ q t, g.node q = some (.link t) → f.node q = some (.link t) := by
    intro q t hq
    rw [hw] at hq
    split at hq
    · cases hq
    · exact hq
  refine ⟨⟨hs, fun q h1 h2 t ht => h.clean.above q h1 h2 t (hlink q t ht), fun q t h1 h2 =>
    (h.clean.links q t h1 (hlink q t h2)).mono fun q hq _ => hout q hq,
    fun q h1 h2 t ht => h.clean.crate q h1 h2 t (hlink q t ht)⟩, fun q hq => ?_, by rw [hn]; exact h.next, by
      rw [hd, hc]; exact h.data⟩
  rw [hout q hq]
  exact h.nodes q hq

theorem Project.Touches.unlink {fs f : Fs} (h : prj.Touches fs f) {r : Place} (ho : prj.Owns r) (hr : f.node r ≠ some .dir) :
    prj.Touches fs (f.unlink r) := by
  refine h.remove ho (unlink_without h.clean.sound.tree hr) (Effect.setNone (Effect.refl h.clean.sound) hr).sound ?_ ?_ ?_ <;>
    simp [Fs.unlink, hr]

theorem Project.Touches.removeTree {fs f : Fs} (h : prj.Touches fs f) {r : Place} (ho : prj.Owns r)
    (hr : f.node r = some .dir) : prj.Touches fs (f.removeTree r) := by
  refine h.remove ho (removeTree_without hr) (Effect.removeTree (Effect.refl h.clean.sound) hr).sound ?_ ?_ ?_ <;>
    simp [Fs.removeTree, hr]

theorem Project.Touches.mkdirs (hsh : Apart (prj.outDir ++ ["cxxbridge".toList]) prj.sharedDir) {fs f : Fs}
    (h : prj.Touches fs f) {p : Place} (hp : prj.Path p) (b : Nat) : prj.Touches fs (f.makeDirs b [] p) := by
  have hm := made p f b []
  have hs : Sound (f.makeDirs b [] p) := by
    refine ⟨hm.tree h.clean.sound.tree, fun q i hq => ?_⟩
    rw [hm.next]
    rcases hm.nodes q with e | ⟨_, e, _⟩
    · exact h.clean.sound.numbered q i (e ▸ hq)
    · rw [e] at hq; cases hq
  have hkeep : ∀ q, f.node q ≠ none → (f.makeDirs b [] p).node q = f.node q := by
    intro q hq
    rcases hm.nodes q with e | ⟨e, _⟩
    · exact e
    · exact absurd e hq
  refine ⟨⟨hs, fun q h1 h2 t ht => h.clean.above q h1 h2 t ((hm.links q t).2 ht), fun q t h1 h2 =>
    (h.clean.links q t h1 ((hm.links q t).2 h2)).mono fun q _ => hkeep q,
    fun q h1 h2 t ht => h.clean.crate q h1 h2 t ((hm.links q t).2 ht)⟩, fun q hq => ?_, by rw [hm.next]; exact h.next, by
      rw [hm.data, hm.changes]; exact h.data⟩
  rcases hm.nodes q with e | ⟨e1, e2, k, m, rest, x, e3, e4, e5, rfl⟩
  · rw [e]; exact h.nodes q hq
  · have ha : prj.Above (x ++ [m]) := by
      rcases prefix_spot hsh h.clean hp e3 e5 with h' | h' | ⟨t, y, i, rfl, hf, _⟩
      · exact h'
      · exact absurd h' hq
      · have := tree_up hs.tree (q := t) (r := y ++ [m]) (by simp) (by rw [← List.append_assoc, e2]; simp)
        rw [hkeep t (by simp [hf]), hf] at this
        cases this
    rcases h.nodes _ hq with e | e
    · exact .inr ⟨ha, by rw [← e]; exact e1, e2⟩
    · rw [e.2.2] at e1; cases e1

/-- Something is put at the place of a path. -/
theorem Project.Touches.put (hsh : Apart (prj.outDir ++ ["cxxbridge".toList]) prj.sharedDir) {fs f : Fs} (h : prj.Touches fs f)
    {r : Place} (hr : prj.Spot f r) (hn : f.node r = none) (hd : f.node r.dropLast = some .dir) (v : Node)
    (hv : ∀ t, v = .link t → r = prj.crateLink ∨ prj.Leads f t) (data : Nat → List Nat) (changes : Nat → Nat) (next : Nat)
    (hfile : ∀ i, v = .file i → i < next) (hnext : f.next ≤ next)
    (hdata : ∀ i, i < fs.next → data i = fs.data i ∧ changes i = fs.changes i) :
    prj.Touches fs ⟨setNode f.node r (some v), data, changes, next⟩ := by
  have ho := hr.owns h.clean.sound.tree (.inr hd)
  have hs : Sound ⟨setNode f.node r (some v), data, changes, next⟩ :=
    (Effect.put (Effect.refl h.clean.sound) hn hd v (fun i => if i < f.next then f.data i else data i) changes next hfile hnext
      (fun i hi => by simp [hi])).sound |> fun e => ⟨e.tree, e.numbered⟩
  have hout : ∀ q, ¬ prj.Owns q → setNode f.node r (some v) q = f.node q := by
    intro q hq
    simp only [setNode]
    rw [if_neg (fun e : q = r => hq (e ▸ ho))]
  have hlink : ∀ q t, setNode f.node r (some v) q = some (.link t) → (q = r ∧ v = .link t) ∨ f.node q = some (.link t) := by
    intro q t hq
    simp only [setNode] at hq
    split at hq
    · next e => exact .inl ⟨e, Option.some.inj hq⟩
    · exact .inr hq
  have hna : ¬ prj.Above r := by
    cases hr with
    | generated n hg => exact generated_not_above hsh hg
    | crate _ => exact crate_not_above hsh
    | @stuck q n hg =>
      simp only [List.dropLast_concat] at hd
      exact absurd hd (stuck_below h.clean.sound.tree hg (x := [n]) (by simp)).2
  refine ⟨⟨hs, fun q h1 h2 t ht => ?_, fun q t h1 h2 => ?_, fun q h1 h2 t ht => ?_⟩, fun q hq => ?_, Nat.le_trans h.next hnext,
    hdata⟩
  · rcases hlink q t ht with ⟨e, _⟩ | e
    · exact hna (e ▸ h1)
    · exact h.clean.above q h1 h2 t e
  · refine Project.Leads.mono (f := f) ?_ fun q hq _ => hout q hq
    rcases hlink q t h2 with ⟨e, ev⟩ | e
    · rcases hv t ev with hcr | hl
      · exact absurd (by rw [e, hcr]; exact List.prefix_refl _) (generated_not_crate hsh h1)
      · exact hl
    · exact h.clean.links q t h1 e
  · rcases hlink q t ht with ⟨e, _⟩ | e
    · subst e
      cases hr with
      | generated n hg => exact generated_not_crate hsh (hg.below _) h1
      | crate _ => exact h2 rfl
      | @stuck q n hg =>
        simp only [List.dropLast_concat] at hd
        exact absurd hd (stuck_below h.clean.sound.tree hg (x := [n]) (by simp)).2
    · exact h.clean.crate q h1 h2 t e
  · show setNode f.node r (some v) q = _ ∨ _
    rw [hout q hq]
    rcases h.nodes q hq with e | e
    · exact .inl e
    · exact .inr ⟨e.1, e.2.1, by simpa [hout q hq] using e.2.2⟩

/-! ### Calls of `out.rs` -/

/-- What is known while `out::write` runs. -/
def Amid (p : Place) (fs f : Fs) : Proc → Prop
  | .removingTree => ∀ r, f.locate p = some r → f.node r = some .dir
  | .unlinking => ∀ r, f.locate p = some r → f.node r ≠ none ∧ f.node r ≠ some .dir
  | .mkdirs => ∀ r, f.locate p = some r → f.node r = none
  | .opening => ∀ r, f.locate p = some r → f.node r = none ∨ f.node r = some .dir
  | .writing i _ => fs.next ≤ i
  | _ => True

theorem write_touches (hsh : Apart (prj.outDir ++ ["cxxbridge".toList]) prj.sharedDir) {p : Place} (hp : prj.Path p)
    (content : List Nat) {fs f : Fs} (h : prj.Touches fs f) {c : Proc} (hc : Amid p fs f c) (e : Ev) (he : looks c e) :
    prj.Touches fs (pathWriteStep p content f c e).1 ∧
      Amid p fs (pathWriteStep p content f c e).1 (pathWriteStep p content f c e).2 := by
  cases c with
  | reading i acc =>
    cases e with
    | fail => exact ⟨h, trivial⟩
    | go n =>
      simp only [pathWriteStep, writeStep]
      split
      · split
        · exact ⟨h, trivial⟩
        · exact ⟨h, trivial⟩
      · exact ⟨h, trivial⟩
  | writing i off =>
    simp only [pathWriteStep, writeStep]
    split
    · exact ⟨h, trivial⟩
    · cases e with
      | fail => exact ⟨h, trivial⟩
      | go n =>
        have hi : fs.next ≤ i := hc
        refine ⟨⟨⟨⟨h.clean.sound.tree, h.clean.sound.numbered⟩, h.clean.above, h.clean.links, h.clean.crate⟩, h.nodes, h.next,
          fun k hk => ?_⟩, hi⟩
        have hne : k ≠ i := by omega
        simp only [Fs.writeAt, upd_ne _ _ hne]
        exact h.data k hk
  | mkdirs =>
    cases e with
    | fail =>
      simp only [pathWriteStep]
      split <;> exact ⟨h, fun r hr => .inl (hc r hr)⟩
    | go n =>
      refine ⟨h.mkdirs hsh hp n, fun r hr => ?_⟩
      have hm := made p f n []
      simp only [pathWriteStep] at hr ⊢
      rw [← locate_same hm.links] at hr
      rcases hm.nodes r with e | ⟨_, e, _⟩
      · exact .inl (e.trans (hc r hr))
      · exact .inr e
  | start =>
    simp only [pathWriteStep]
    split
    · next q hq =>
      cases e with
      | fail => exact absurd rfl he
      | go n =>
        simp only [writeStep]
        split
        · next hn => exact ⟨h, fun r hr => by rw [hq] at hr; cases hr; exact hn⟩
        · exact ⟨h, trivial⟩
    · next hq => exact ⟨h, fun r hr => by simp only [writeStep] at hr; rw [hq] at hr; cases hr⟩
  | present =>
    simp only [pathWriteStep]
    split
    · next q hq =>
      cases e with
      | fail => exact ⟨h, trivial⟩
      | go n =>
        simp only [writeStep]
        split <;> exact ⟨h, trivial⟩
    · exact ⟨h, trivial⟩
  | removing =>
    simp only [pathWriteStep]
    split
    · next q hq =>
      cases e with
      | fail => exact absurd rfl he
      | go n =>
        simp only [writeStep]
        split
        · next hn => exact ⟨h, fun r hr => by rw [hq] at hr; cases hr; exact .inl hn⟩
        · next hn => exact ⟨h, fun r hr => by rw [hq] at hr; cases hr; exact hn⟩
        · next v hd hn =>
          refine ⟨h, fun r hr => ?_⟩
          rw [hq] at hr
          cases hr
          exact ⟨by simp [hn], fun e => by rw [hn] at e; exact hd (Option.some.inj e)⟩
    · next hq => exact ⟨h, fun r hr => by simp only [writeStep] at hr; rw [hq] at hr; cases hr⟩
  | removingTree =>
    simp only [pathWriteStep]
    split
    · next q hq =>
      have hd := hc q hq
      cases e with
      | fail => exact ⟨h, fun r hr => .inr (hc r hr)⟩
      | go n =>
        simp only [writeStep]
        have ho := (locate_spot hsh h.clean hp hq).owns h.clean.sound.tree (.inl (by simp [hd]))
        exact ⟨h.removeTree ho hd, fun r hr => .inl (without_locate (removeTree_without hd) hq hr)⟩
    · next hq => exact ⟨h, fun r hr => by simp only [writeStep] at hr; rw [hq] at hr; cases hr⟩
  | unlinking =>
    simp only [pathWriteStep]
    split
    · next q hq =>
      have hd := hc q hq
      cases e with
      | fail => exact absurd rfl he
      | go n =>
        simp only [writeStep]
        have ho := (locate_spot hsh h.clean hp hq).owns h.clean.sound.tree (.inl hd.1)
        exact ⟨h.unlink ho hd.2, fun r hr => .inl (without_locate (unlink_without h.clean.sound.tree hd.2) hq hr)⟩
    · next hq => exact ⟨h, fun r hr => by simp only [writeStep] at hr; rw [hq] at hr; cases hr⟩
  | opening =>
    simp only [pathWriteStep]
    split
    · next q hq =>
      have hd := hc q hq
      cases e with
      | fail => exact ⟨h, trivial⟩
      | go n =>
        simp only [writeStep]
        have ht : f.target 40 q = some q := target_self (fun t ht => by rcases hd with e | e <;> rw [e] at ht <;> cases ht)
        simp only [Fs.openTrunc, ht]
        rcases hd with hd | hd
        · rw [hd]
          simp only
          by_cases hdir : f.node q.dropLast = some .dir
          · rw [if_pos hdir]
            refine ⟨h.put hsh (locate_spot hsh h.clean hp hq) hd hdir _ (fun t ht => by cases ht) _ _ _
              (fun i hi => by cases hi; omega) (by omega) (fun i hi => ?_), h.next⟩
            have hne : i ≠ f.next := by have := h.next; omega
            rw [upd_ne _ _ hne, upd_ne _ _ hne]
            exact h.data i hi
          · rw [if_neg hdir]
            exact ⟨h, trivial⟩
        · rw [hd]
          exact ⟨h, trivial⟩
    · exact ⟨h, trivial⟩
  | done ok =>
    simp only [pathWriteStep]
    split <;> exact ⟨h, trivial⟩

/-- What is known while a link is made. -/
def AmidLink (p : Place) (f : Fs) : LinkProc → Prop
  | .removingTree => ∀ r, f.locate p = some r → f.node r = some .dir
  | .unlinking => ∀ r, f.locate p = some r → f.node r ≠ none ∧ f.node r ≠ some .dir
  | _ => True

theorem link_touches (hsh : Apart (prj.outDir ++ ["cxxbridge".toList]) prj.sharedDir) {p target : Place} (hp : prj.Path p)
    {fs f : Fs} (htg : (prj.includePrefix ≠ [] ∧ p = prj.crateLink) ∨ prj.Leads fs target) (h : prj.Touches fs f) {c : LinkProc} (hc : AmidLink p f c)
    (e : Ev) : prj.Touches fs (pathLinkStep p target f c e).1 ∧
      AmidLink p (pathLinkStep p target f c e).1 (pathLinkStep p target f c e).2 := by
  cases c with
  | mkdirs =>
    cases e with
    | fail =>
      simp only [pathLinkStep]
      split <;> exact ⟨h, trivial⟩
    | go n => exact ⟨h.mkdirs hsh hp n, trivial⟩
  | start =>
    simp only [pathLinkStep]
    split
    · cases e with
      | fail => exact ⟨h, trivial⟩
      | go n =>
        simp only [linkStep]
        split <;> exact ⟨h, trivial⟩
    · exact ⟨h, trivial⟩
  | removing =>
    simp only [pathLinkStep]
    split
    · next q hq =>
      cases e with
      | fail => exact ⟨h, trivial⟩
      | go n =>
        simp only [linkStep]
        split
        · exact ⟨h, trivial⟩
        · next hn => exact ⟨h, fun r hr => by rw [hq] at hr; cases hr; exact hn⟩
        · next v hd hn =>
          refine ⟨h, fun r hr => ?_⟩
          rw [hq] at hr
          cases hr
          exact ⟨by simp [hn], fun e => by rw [hn] at e; exact hd (Option.some.inj e)⟩
    · exact ⟨h, trivial⟩
  | removingTree =>
    simp only [pathLinkStep]
    split
    · next q hq =>
      have hd := hc q hq
      cases e with
      | fail => exact ⟨h, trivial⟩
      | go n =>
        have ho := (locate_spot hsh h.clean hp hq).owns h.clean.sound.tree (.inl (by simp [hd]))
        exact ⟨h.removeTree ho hd, trivial⟩
    · exact ⟨h, trivial⟩
  | unlinking =>
    simp only [pathLinkStep]
    split
    · next q hq =>
      have hd := hc q hq
      cases e with
      | fail => exact ⟨h, trivial⟩
      | go n =>
        have ho := (locate_spot hsh h.clean hp hq).owns h.clean.sound.tree (.inl hd.1)
        exact ⟨h.unlink ho hd.2, trivial⟩
    · exact ⟨h, trivial⟩
  | linking =>
    simp only [pathLinkStep]
    split
    · next q hq =>
      cases e with
      | fail => exact ⟨h, trivial⟩
      | go n =>
        simp only [linkStep, Fs.symlink]
        by_cases hn : f.node q = none ∧ f.node q.dropLast = some .dir
        · rw [if_pos hn]
          refine ⟨h.put hsh (locate_spot hsh h.clean hp hq) hn.1 hn.2 _ (fun t ht => ?_) _ _ _ (fun i hi => by cases hi)
            (Nat.le_refl _) h.data, trivial⟩
          cases ht
          rcases htg with ⟨hne, rfl⟩ | hl
          · left
            obtain ⟨x, n, e⟩ := crate_concat hne
            rw [e, locate_concat, walk_crate h.clean (by rw [e]; exact List.prefix_append _ _)
              (by rw [e]; intro h; simpa using congrArg List.length h)] at hq
            simp only [Option.map_some, Option.some.injEq] at hq
            rw [← hq, ← e]
          · right
            refine hl.mono fun q hq hne => ?_
            rcases h.nodes q hq with e | e
            · exact e
            · exact absurd e.2.1 hne
        · rw [if_neg hn]
          exact ⟨h, trivial⟩
    · exact ⟨h, trivial⟩
  | done ok =>
    simp only [pathLinkStep]
    split <;> exact ⟨h, trivial⟩

theorem write_goes (hsh : Apart (prj.outDir ++ ["cxxbridge".toList]) prj.sharedDir) {p : Place} (hp : prj.Path p)
    (content : List Nat) {fs f g : Fs} {c d : Proc} (hg : Goes (pathWriteStep p content) looks f c g d)
    (h : prj.Touches fs f) (hc : Amid p fs f c) : prj.Touches fs g := by
  induction hg with
  | refl => exact h
  | next e he rest ih =>
    have := write_touches hsh hp content h hc e he
    exact ih this.1 this.2

theorem link_goes (hsh : Apart (prj.outDir ++ ["cxxbridge".toList]) prj.sharedDir) {p target : Place} (hp : prj.Path p)
    {fs f g : Fs} (htg : (prj.includePrefix ≠ [] ∧ p = prj.crateLink) ∨ prj.Leads fs target) {c d : LinkProc}
    (hg : Goes (pathLinkStep p target) looksLink f c g d) (h : prj.Touches fs f) (hc : AmidLink p f c) : prj.Touches fs g := by
  induction hg with
  | refl => exact h
  | next e he rest ih =>
    have := link_touches hsh hp htg h hc e
    exact ih this.1 this.2

/-! ### A build -/

theorem Project.Touches.spares {fs f : Fs} (hs : Sound fs) (h : prj.Touches fs f) : prj.Spares fs f :=
  ⟨h.nodes, fun q i _ hi => h.data i (hs.numbered q i hi)⟩

theorem spares_refl (fs : Fs) : prj.Spares fs fs := ⟨fun _ _ => .inl rfl, fun _ _ _ _ => ⟨rfl, rfl⟩⟩

theorem Project.Spares.trans {fs f g : Fs} (h1 : prj.Spares fs f) (h2 : prj.Spares f g) : prj.Spares fs g := by
  refine ⟨fun q hq => ?_, fun q i hq hi => ?_⟩
  · rcases h2.nodes q hq with e | ⟨e1, e2, e3⟩
    · rw [e]; exact h1.nodes q hq
    · rcases h1.nodes q hq with e | ⟨_, _, e⟩
      · exact .inr ⟨e1, e ▸ e2, e3⟩
      · rw [e] at e2; cases e2
  · have hf : f.node q = some (.file i) := by
      rcases h1.nodes q hq with e | ⟨_, e, _⟩
      · exact e.trans hi
      · rw [e] at hi; cases hi
    have h := h1.data q i hq hi
    have h' := h2.data q i hq hf
    exact ⟨h'.1.trans h.1, h'.2.trans h.2⟩

/-- The calls that a build makes. -/
def Op.Fits (prj : Project) (fs : Fs) : Op → Prop
  | .write p _ => prj.Path p
  | .link p t => prj.Path p ∧ ((prj.includePrefix ≠ [] ∧ p = prj.crateLink) ∨ prj.Leads fs t)

theorem path_under {d x : Place} (hx : x ≠ []) (h : ∀ y n, prj.Path (d ++ y ++ [n])) : prj.Path (d ++ x) := by
  rcases List.eq_nil_or_concat x with e | ⟨y, n, e⟩
  · exact absurd e hx
  · rw [e, List.concat_eq_append, ← List.append_assoc]; exact h y n

theorem path_include {x : Place} (hx : x ≠ []) : prj.Path (prj.includeDir ++ x) := by
  unfold Project.includeDir
  rw [← split_dir]
  exact path_under hx .inc

theorem path_sources {x : Place} (hx : x ≠ []) : prj.Path (prj.outDir ++ ["cxxbridge".toList] ++ ["sources".toList] ++ x) := by
  rw [← split_dir]
  exact path_under hx .sources

theorem path_shared {x : Place} (hx : x ≠ []) : prj.Path (prj.sharedDir ++ x) := path_under hx .shared

theorem leads_include {fs : Fs} (x : Place) : prj.Leads fs (prj.includeDir ++ x) := by
  unfold Project.includeDir
  rw [← split_dir]
  exact .inl (.inl (List.prefix_append _ _))

theorem leads_sources {fs : Fs} (x : Place) :
    prj.Leads fs (prj.outDir ++ ["cxxbridge".toList] ++ ["sources".toList] ++ x) := by
  rw [← split_dir]
  exact .inl (.inr (.inl (List.prefix_append _ _)))

theorem leads_shared {fs : Fs} (x : Place) : prj.Leads fs (prj.sharedDir ++ x) :=
  .inl (.inr (.inr (List.prefix_append _ _)))

theorem bridge_fits {s : SourceFile} {ops : List (Op × Bool)} (h : prj.bridgeOps s = some ops) (fs : Fs) {o : Op × Bool}
    (ho : o ∈ ops) : o.1.Fits prj fs := by
  obtain ⟨hd, cc, ⟨dir, name, h1, rfl⟩, h2, rfl⟩ := bridgeOps_some h
  obtain ⟨dir', name', _, rfl⟩ := withAppended_some h2
  simp only [List.mem_cons, List.not_mem_nil, or_false] at ho
  rcases ho with rfl | rfl | rfl | rfl | rfl
  · exact path_include (by simp)
  · exact ⟨path_include (by simp [h1]), .inr (leads_include _)⟩
  · exact path_sources (by simp)
  · exact ⟨path_shared (by simp), .inr (leads_include _)⟩
  · exact ⟨path_shared (by simp), .inr (leads_sources _)⟩

theorem bridges_fit {ss : List SourceFile} {ops : List (Op × Bool)} (h : prj.bridgesOps ss = some ops) (fs : Fs)
    {o : Op × Bool} (ho : o ∈ ops) : o.1.Fits prj fs := by
  induction ss generalizing ops with
  | nil => simp only [Project.bridgesOps, Option.some.injEq] at h; subst h; simp at ho
  | cons s ss ih =>
    simp only [Project.bridgesOps, Option.bind_eq_some_iff, Option.map_eq_some_iff] at h
    obtain ⟨a, ha, b, hb, rfl⟩ := h
    rcases List.mem_append.1 ho with ho | ho
    · exact bridge_fits ha fs ho
    · exact ih hb ho

theorem build_fits {runtime : List Nat} {sources : List SourceFile} {ops : List (Op × Bool)}
    (hops : prj.buildOps runtime sources = some ops) {fs : Fs} (hdep : ∀ d, prj.depHeader = some d → prj.Leads fs d)
    {o : Op × Bool} (ho : o ∈ ops) : o.1.Fits prj fs := by
  unfold Project.buildOps at hops
  obtain ⟨bs, hb, rfl⟩ := Option.map_eq_some_iff.1 hops
  have hi : prj.Path (prj.includeDir ++ ["rust".toList] ++ ["cxx.h".toList]) := by
    rw [List.append_assoc]; exact path_include (by simp)
  have hs : prj.Path (prj.sharedDir ++ ["rust".toList] ++ ["cxx.h".toList]) := by
    rw [List.append_assoc]; exact path_shared (by simp)
  rcases List.mem_append.1 ho with ho | ho
  · rcases List.mem_append.1 ho with ho | ho
    · unfold Project.crateOps at ho
      split at ho
      · simp at ho
      · next hne =>
        simp only [List.mem_singleton] at ho
        subst ho
        have e : prj.crateDir ++ prj.includePrefix = prj.crateLink := by
          simp [Project.crateDir, Project.crateLink, hne]
        simp only [Op.Fits, e]
        exact ⟨.crate hne, .inl ⟨hne, trivial⟩⟩
    · unfold Project.includeOps at ho
      split at ho
      · next d hd =>
        simp only [List.mem_cons, List.not_mem_nil, or_false] at ho
        rcases ho with rfl | rfl
        · exact ⟨hi, .inr (hdep d hd)⟩
        · exact ⟨hs, .inr (hdep d hd)⟩
      · simp only [List.mem_cons, List.not_mem_nil, or_false] at ho
        rcases ho with rfl | rfl
        · exact hs
        · exact ⟨hi, .inr (by rw [List.append_assoc]; exact leads_shared _)⟩
  · exact bridges_fit hb fs ho

theorem op_touches (hsh : Apart (prj.outDir ++ ["cxxbridge".toList]) prj.sharedDir) {fs f : Fs} (hc : prj.Clean fs) {op : Op}
    (hf : op.Fits prj fs) {out : Option Bool} (h : op.Goes looks looksLink fs f out) : prj.Touches fs f := by
  cases op with
  | write p content =>
    obtain ⟨d, h, _⟩ := h
    exact write_goes hsh hf content h (touches_refl hc) trivial
  | link p t =>
    obtain ⟨d, h, _⟩ := h
    exact link_goes hsh hf.1 hf.2 h (touches_refl hc) trivial

theorem Op.Fits.mono {fs f : Fs} (h : prj.Touches fs f) {op : Op} (hf : op.Fits prj fs) : op.Fits prj f := by
  cases op with
  | write p content => exact hf
  | link p t =>
    refine ⟨hf.1, hf.2.imp_right fun hl => hl.mono fun q hq hn => ?_⟩
    rcases h.nodes q hq with e | e
    · exact e
    · exact absurd e.2.1 hn

theorem reaches_spares (hsh : Apart (prj.outDir ++ ["cxxbridge".toList]) prj.sharedDir) {fs f : Fs}
    {ops : List (Op × Bool)} (h : Reaches looks looksLink fs ops f) (hc : prj.Clean fs)
    (hf : ∀ o ∈ ops, o.1.Fits prj fs) : prj.Spares fs f ∧ prj.Clean f := by
  induction h with
  | stop fs ops => exact ⟨spares_refl fs, hc⟩
  | within h =>
    have := op_touches hsh hc (hf _ (List.mem_cons_self ..)) h
    exact ⟨this.spares hc.sound, this.clean⟩
  | next h _ _ ih =>
    have := op_touches hsh hc (hf _ (List.mem_cons_self ..)) h
    have r := ih this.clean fun o ho => (hf o (List.mem_cons_of_mem _ ho)).mono this
    exact ⟨(this.spares hc.sound).trans r.1, r.2⟩

/-- **C95.** A build, whether it ends or is killed at any time and whichever calls fail, changes nothing but its own
directories, if the prefix does not go on below an old link to the crate.  Missing: without this condition it is false
(`source_deleted`), and so it is if a link cannot be removed (`original_overwritten`). -/
theorem build_spares_partial (hsh : Apart (prj.outDir ++ ["cxxbridge".toList]) prj.sharedDir) {fs f : Fs} (hc : prj.Clean fs)
    {runtime : List Nat} {sources : List SourceFile} {ops : List (Op × Bool)}
    (hdep : ∀ d, prj.depHeader = some d → prj.Leads fs d) (hops : prj.buildOps runtime sources = some ops)
    (h : Reaches looks looksLink fs ops f) : prj.Spares fs f ∧ prj.Clean f :=
  reaches_spares hsh h hc fun _ ho => build_fits hops hdep ho

theorem Project.Clean.other {fs : Fs} (h : prj.Clean fs) (dep : Option Place) :
    Project.Clean { prj with depHeader := dep } fs := ⟨h.sound, h.above, h.links, h.crate⟩

/-- **C95.** The same for any number of builds one after the other, with the same prefix. -/
theorem builds_spare_partial (hsh : Apart (prj.outDir ++ ["cxxbridge".toList]) prj.sharedDir) {fs f : Fs} (hc : prj.Clean fs)
    (h : prj.History fs f) : prj.Spares fs f ∧ prj.Clean f := by
  induction h with
  | none fs => exact ⟨spares_refl fs, hc⟩
  | @build fs f f' dep runtime sources ops hdep hops h _ ih =>
    have := build_spares_partial (prj := { prj with depHeader := dep }) hsh (hc.other dep)
      (fun d hd => hdep d hd) hops h
    have h1 : prj.Spares fs f := ⟨this.1.nodes, this.1.data⟩
    have h2 : prj.Clean f := ⟨this.2.sound, this.2.above, this.2.links, this.2.crate⟩
    have r := ih h2
    exact ⟨h1.trans r.1, r.2⟩

/-- **C95.** The first build starts like this. -/
theorem fresh_clean {fs : Fs} (hs : Sound fs) (hf : prj.Fresh fs)
    (ha : ∀ q, prj.Above q → ∀ t, fs.node q ≠ some (.link t))
    (hl : ∀ q t, prj.sharedDir <+: q → fs.node q = some (.link t) → prj.Leads fs t) : prj.Clean fs := by
  refine ⟨hs, fun q h _ => ha q h, fun q t hq ht => ?_, fun q hq hne t ht => ?_⟩
  · rcases hq with h | h | h
    · rw [hf q ((List.prefix_append _ _).trans (by rw [split_dir] at h; exact h))] at ht; cases ht
    · rw [hf q ((List.prefix_append _ _).trans (by rw [split_dir] at h; exact h))] at ht; cases ht
    · exact hl q t h ht
  · have ho : prj.outDir ++ ["cxxbridge".toList] <+: prj.outDir ++ ["cxxbridge".toList, "crate".toList] ++ prj.includePrefix := by
      rw [split_dir, List.append_assoc]
      exact List.prefix_append _ _
    rcases List.prefix_or_prefix_of_prefix hq ho with h | h
    · exact ha q (.inl h) t ht
    · rw [hf q h] at ht; cases ht

end Places

/-! ### A build, and a build with a longer prefix -/

theorem goes_run {π : Type} {step : Fs → π → Ev → Fs × π} {allowed : π → Ev → Prop} (evs : List Ev)
    (h : ∀ c, ∀ e ∈ evs, allowed c e) (fs : Fs) (c : π) :
    Goes step allowed fs c (runAlone step fs c evs).1 (runAlone step fs c evs).2 := by
  induction evs generalizing fs c with
  | nil => exact .refl fs c
  | cons e evs ih =>
    rw [runAlone_cons]
    exact .next e (h c e (List.mem_cons_self ..)) (ih (fun c e he => h c e (List.mem_cons_of_mem _ he)) _ _)

/-- One call with the given events. -/
def Op.runPath : Op → Fs → List Ev → Fs × Option Bool
  | .write p content, fs, evs =>
    let r := runAlone (pathWriteStep p content) fs .start evs
    (r.1, match r.2 with | .done ok => some ok | _ => none)
  | .link p target, fs, evs =>
    let r := runAlone (pathLinkStep p target) fs .start evs
    (r.1, match r.2 with | .done ok => some ok | _ => none)

theorem runPath_goes (op : Op) (fs : Fs) {l : Proc → Ev → Prop} {ll : LinkProc → Ev → Prop} {evs : List Ev}
    (h : ∀ c, ∀ e ∈ evs, l c e) (h' : ∀ c, ∀ e ∈ evs, ll c e) :
    op.Goes l ll fs (op.runPath fs evs).1 (op.runPath fs evs).2 := by
  cases op with
  | write p content => exact ⟨_, goes_run evs h fs .start, rfl⟩
  | link p t => exact ⟨_, goes_run evs h' fs .start, rfl⟩

/-- All calls one after the other; `none` if a call that must succeed does not. -/
def execPath (evs : List Ev) : Fs → List (Op × Bool) → Option Fs
  | fs, [] => some fs
  | fs, o :: ops =>
    let r := o.1.runPath fs evs
    match r.2 with
    | none => none
    | some ok => if o.2 && !ok then none else execPath evs r.1 ops

theorem execPath_reaches {evs : List Ev} {l : Proc → Ev → Prop} {ll : LinkProc → Ev → Prop} (h : ∀ c, ∀ e ∈ evs, l c e)
    (h' : ∀ c, ∀ e ∈ evs, ll c e) {ops : List (Op × Bool)} {fs f : Fs} (hx : execPath evs fs ops = some f) :
    Reaches l ll fs ops f := by
  induction ops generalizing fs with
  | nil => simp only [execPath, Option.some.injEq] at hx; subst hx; exact .stop _ _
  | cons o ops ih =>
    simp only [execPath] at hx
    have hg := runPath_goes o.1 fs h h'
    split at hx
    · cases hx
    · next ok hok =>
      split at hx
      · cases hx
      · next hm =>
        rw [hok] at hg
        refine Reaches.next (op := o.1) (must := o.2) hg (fun hmust => ?_) (ih hx)
        simpa [hmust] using hm

theorem looksLink_any {evs : List Ev} (c : LinkProc) (e : Ev) (_ : e ∈ evs) : looksLink c e := trivial

theorem looks_evs {evs : List Ev} (he : Smooth evs) (c : Proc) (e : Ev) (h : e ∈ evs) : looks c e := by
  cases c <;> first | exact he e h | trivial

namespace TouchDemo
open Demo (n lib entries before before_sound evs evs_smooth lookup_nil)

/-- The crate of `Demo.prj` in `/m`, whose headers are included as `demo/…`. -/
def prj : Project := Demo.prj

/-- The same crate, whose headers are to be included as `demo/src/…`. -/
def prj' : Project := { prj with includePrefix := [n "demo", n "src"] }

theorem apart : Apart (prj.outDir ++ ["cxxbridge".toList]) prj.sharedDir := by decide +kernel

theorem no_links (q t : Place) : before.node q ≠ some (.link t) := by
  intro h
  have hm := lookup_mem h
  simp [entries] at hm

theorem clean : prj.Clean before :=
  fresh_clean before_sound Demo.fresh (fun q _ t => no_links q t) (fun q t _ h => absurd h (no_links q t))

def ops : List (Op × Bool) := (prj.buildOps [8, 8] [lib]).getD []

theorem ops_eq : prj.buildOps [8, 8] [lib] = some ops := by decide +kernel

/-- The first build. -/
def after : Fs := (execPath evs before ops).getD before

theorem reached : Reaches looks looksLink before ops after := by
  refine execPath_reaches (evs := evs) (looks_evs evs_smooth) looksLink_any ?_
  have : (execPath evs before ops).isSome = true := by decide +kernel
  obtain ⟨f, hf⟩ := Option.isSome_iff_exists.1 this
  rw [after, hf]; rfl

/-- The hypotheses are met by a build that writes its files and spares the source file. -/
example : prj.Spares before after ∧ after.contents [n "o", n "cxxbridge", n "include", n "demo", n "src", n "lib.rs.h"] = some [1, 2, 3] ∧
    ¬ prj.Owns [n "m", n "src", n "lib.rs"] ∧ after.node [n "m", n "src", n "lib.rs"] = some (.file 0) ∧
    after.node [n "o", n "cxxbridge", n "crate", n "demo"] = some (.link [n "m"]) :=
  ⟨(build_spares_partial apart clean (by intro d h; cases h) ops_eq reached).1, by decide +kernel, by
    intro h; rcases h with h | h <;> revert h <;> decide +kernel, by decide +kernel, by decide +kernel⟩

/-- Two builds in a row. -/
example : ∃ f, prj.History before f ∧ prj.Spares before f ∧ f.node [n "o", n "cxxbridge", n "crate", n "demo"] = some (.link [n "m"]) := by
  have h : (execPath evs after ops).isSome = true := by decide +kernel
  obtain ⟨f, hf⟩ := Option.isSome_iff_exists.1 h
  have hr : Reaches looks looksLink after ops f := execPath_reaches (looks_evs evs_smooth) looksLink_any hf
  have hh : prj.History before f :=
    .build none [8, 8] [lib] (by intro d h; cases h) ops_eq reached
      (.build none [8, 8] [lib] (by intro d h; cases h) ops_eq hr (.none _))
  refine ⟨f, hh, (builds_spare_partial apart clean hh).1, ?_⟩
  have : (execPath evs after ops).map (fun f => f.node [n "o", n "cxxbridge", n "crate", n "demo"]) = some (some (.link [n "m"])) := by
    decide +kernel
  rw [hf] at this
  simpa using this

def ops' : List (Op × Bool) := (prj'.buildOps [8, 8] [lib]).getD []

theorem ops'_eq : prj'.buildOps [8, 8] [lib] = some ops' := by decide +kernel

/-- The first call of the second build: it makes the link to the crate. -/
def second : Fs := match ops' with
  | o :: _ => (o.1.runPath after evs).1
  | [] => after

theorem reached' : Reaches looks looksLink after ops' second := by
  have : ops' ≠ [] := by decide +kernel
  unfold second
  cases h : ops' with
  | nil => exact absurd h this
  | cons o rest => exact Reaches.within (op := o.1) (runPath_goes o.1 after (looks_evs evs_smooth) looksLink_any)

end TouchDemo

/-- **C95, the full property is false.** After a build with the prefix `demo`, a build with the prefix `demo/src` removes the
directory `src` of the crate with all that is in it: the path of the new link to the crate leads through the old one. -/
theorem source_deleted : ∃ (prj : Project) (before f g : Fs) (ops ops' : List (Op × Bool)) (runtime : List Nat)
    (source : SourceFile) (dir : Name), prj.Clean before ∧ Apart (prj.outDir ++ ["cxxbridge".toList]) prj.sharedDir ∧
      prj.buildOps runtime [source] = some ops ∧ Reaches looks looksLink before ops f ∧
      Project.buildOps { prj with includePrefix := prj.includePrefix ++ [dir] } runtime [source] = some ops' ∧
      Reaches looks looksLink f ops' g ∧
      ¬ prj.Owns (prj.manifestDir ++ source.rel) ∧
      (∃ i, before.node (prj.manifestDir ++ source.rel) = some (.file i) ∧ f.node (prj.manifestDir ++ source.rel) = some (.file i)) ∧
      g.node (prj.manifestDir ++ source.rel) = none :=
  ⟨TouchDemo.prj, Demo.before, TouchDemo.after, TouchDemo.second, TouchDemo.ops, TouchDemo.ops', [8, 8], Demo.lib, Demo.n "src",
    TouchDemo.clean, TouchDemo.apart, TouchDemo.ops_eq, TouchDemo.reached, TouchDemo.ops'_eq, TouchDemo.reached', by
      intro h; rcases h with h | h <;> revert h <;> decide +kernel, ⟨0, by decide +kernel, by decide +kernel⟩, by decide +kernel⟩

namespace TouchDemo
open Demo (n lib lookup_nil)

/-- The header of the library lies in `/x`; an earlier build has made the link to it. -/
def linked : List (Place × Node) :=
  [([], .dir), ([n "x"], .dir), ([n "x", n "cxx.h"], .file 0), ([n "s"], .dir), ([n "s", n "rust"], .dir),
   ([n "s", n "rust", n "cxx.h"], .link [n "x", n "cxx.h"])]

def old : Fs := listed linked (fun _ => [5]) 1

theorem old_sound : Sound old := listed_sound (by
  intro e he
  simp only [linked, List.mem_cons, List.not_mem_nil, or_false] at he
  rcases he with rfl | rfl | rfl | rfl | rfl | rfl
  · exact ⟨by decide +kernel, fun i h => by cases h⟩
  · exact ⟨by decide +kernel, fun i h => by cases h⟩
  · exact ⟨by decide +kernel, fun i h => by cases h; decide⟩
  · exact ⟨by decide +kernel, fun i h => by cases h⟩
  · exact ⟨by decide +kernel, fun i h => by cases h⟩
  · exact ⟨by decide +kernel, fun i h => by cases h⟩)

theorem old_links {q t : Place} (h : old.node q = some (.link t)) : q = [n "s", n "rust", n "cxx.h"] ∧ t = [n "x", n "cxx.h"] := by
  have hm := lookup_mem h
  simpa [linked] using hm

theorem old_fresh : prj.Fresh old := by
  intro q hq
  refine lookup_nil fun e he => ?_
  have : ∀ e ∈ linked, ¬ prj.outDir ++ ["cxxbridge".toList] <+: e.1 := by decide +kernel
  exact fun h => this e he (h ▸ hq)

theorem old_clean : prj.Clean old := by
  refine fresh_clean old_sound old_fresh (fun q hq t ht => ?_) (fun q t _ h => ?_)
  · obtain ⟨rfl, _⟩ := old_links ht
    rcases hq with h | h <;> revert h <;> decide +kernel
  · obtain ⟨_, rfl⟩ := old_links h
    exact .inr ⟨by intro h; rcases h with h | h <;> revert h <;> decide +kernel, 0, by decide +kernel⟩

/-- The link cannot be removed, but the file it leads to can be written. -/
def refused : List Ev := [.go 9, .go 9, .go 9, .go 9, .go 9, .fail, .go 9, .go 9, .go 9]

def sharedHeader : Op := .write (prj.sharedDir ++ ["rust".toList] ++ ["cxx.h".toList]) [8, 8]

theorem refused_reached : ∃ rest, prj.buildOps [8, 8] [lib] = some rest ∧
    Reaches (fun _ _ => True) (fun _ _ => True) old rest (sharedHeader.runPath (prj.crateOps.headD (sharedHeader, true) |>.1.runPath old (List.replicate 9 (.go 20))).1 refused).1 := by
  have h1 : prj.crateOps ≠ [] := by decide +kernel
  cases hc : prj.crateOps with
  | nil => exact absurd hc h1
  | cons o os =>
    have h2 : (prj.buildOps [8, 8] [lib]).map (fun l => l.take 2) = some [o, (sharedHeader, true)] := by
      have : o = prj.crateOps.headD (sharedHeader, true) := by rw [hc]; rfl
      rw [this]
      decide +kernel
    obtain ⟨l, hl, hl2⟩ := Option.map_eq_some_iff.1 h2
    refine ⟨l, hl, ?_⟩
    match l, hl2 with
    | a :: b :: l, hl2 =>
      simp only [List.take_succ_cons, List.take_zero, List.cons.injEq, and_true] at hl2
      obtain ⟨rfl, rfl⟩ := hl2
      simp only [List.headD_cons]
      have hg := runPath_goes (l := fun _ _ => True) (ll := fun _ _ => True) a.1 old
        (evs := List.replicate 9 (.go 20)) (fun _ _ _ => trivial) (fun _ _ _ => trivial)
      have hok : (a.1.runPath old (List.replicate 9 (.go 20))).2 = some true := by
        have : a = prj.crateOps.headD (sharedHeader, true) := by rw [hc]; rfl
        rw [this]
        decide +kernel
      rw [hok] at hg
      exact Reaches.next (op := a.1) (must := a.2) hg (fun _ => rfl)
        (Reaches.within (runPath_goes sharedHeader _ (fun _ _ _ => trivial) (fun _ _ _ => trivial)))

end TouchDemo

/-- **C95, the full property is false.** If a build has linked to the header of the library and the link cannot be removed, a
build that has a header of its own writes to the file that the link leads to. -/
theorem original_overwritten : ∃ (prj : Project) (before f : Fs) (ops : List (Op × Bool)) (runtime : List Nat)
    (source : SourceFile) (q : Place) (i : Nat), prj.Clean before ∧ prj.buildOps runtime [source] = some ops ∧
      Reaches (fun _ _ => True) (fun _ _ => True) before ops f ∧ ¬ prj.Owns q ∧ before.node q = some (.file i) ∧
      f.node q = some (.file i) ∧ before.data i = [5] ∧ f.data i = runtime ∧ runtime ≠ [5] := by
  obtain ⟨ops, h1, h2⟩ := TouchDemo.refused_reached
  exact ⟨TouchDemo.prj, TouchDemo.old, _, ops, [8, 8], Demo.lib, [Demo.n "x", Demo.n "cxx.h"], 0, TouchDemo.old_clean, h1, h2, by
    intro h; rcases h with h | h <;> revert h <;> decide +kernel, by decide +kernel, by decide +kernel, by decide +kernel,
    by decide +kernel, by decide⟩

end Verif.Build
