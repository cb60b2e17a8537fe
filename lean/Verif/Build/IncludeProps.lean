import Verif.Build.IncludeSpec
import Verif.Build.WriteProps
/-!
# An included header is the one that was generated, or that lies in the crate (C94)
-/
namespace Verif.Build

/-! ### What one call does -/

/-- What a call may do to other places than its own: directories may appear above it, and things vanish below. -/
def Around (p : Place) (fs f : Fs) : Prop :=
  ∀ q, q ≠ p → f.node q = fs.node q ∨ (p <+: q ∧ f.node q = none) ∨ (q <+: p ∧ fs.node q = none ∧ f.node q = some .dir)

structure Effect (p : Place) (fs f : Fs) : Prop where
  sound : Sound f
  around : Around p fs f
  next : fs.next ≤ f.next
  data : ∀ i, i < fs.next → f.data i = fs.data i

theorem Effect.refl {p : Place} {fs : Fs} (h : Sound fs) : Effect p fs fs :=
  ⟨h, fun _ _ => .inl rfl, Nat.le_refl _, fun _ _ => rfl⟩

theorem Effect.removeTree {p : Place} {fs f : Fs} (h : Effect p fs f) (hp : f.node p = some .dir) :
    Effect p fs (f.removeTree p) := by
  have hr : f.removeTree p = { f with node := fun q => if p <+: q then none else f.node q } := by
    simp [Fs.removeTree, hp]
  rw [hr]
  refine ⟨⟨fun q n hq => ?_, fun q i hq => ?_⟩, fun q hq => ?_, h.next, h.data⟩
  · simp only at hq ⊢
    split at hq
    · exact absurd rfl hq
    · next hn => rw [if_neg (fun hc => hn (hc.trans (List.prefix_append _ _)))]; exact h.sound.tree q n hq
  · simp only at hq
    split at hq
    · cases hq
    · exact h.sound.numbered q i hq
  · by_cases hpq : p <+: q
    · exact .inr (.inl ⟨hpq, by simp [hpq]⟩)
    · simp only [if_neg hpq]; exact h.around q hq

theorem Effect.setNone {p : Place} {fs f : Fs} (h : Effect p fs f) (hp : f.node p ≠ some .dir) :
    Effect p fs (f.unlink p) := by
  have hr : f.unlink p = { f with node := setNode f.node p none } := by simp [Fs.unlink, hp]
  rw [hr]
  refine ⟨⟨fun q n hq => ?_, fun q i hq => ?_⟩, fun q hq => ?_, h.next, h.data⟩
  · simp only [setNode] at hq ⊢
    split at hq
    · exact absurd rfl hq
    · have := h.sound.tree q n hq
      rw [if_neg (fun e : q = p => hp (by rw [← e]; exact this))]; exact this
  · simp only [setNode] at hq
    split at hq
    · cases hq
    · exact h.sound.numbered q i hq
  · simp only [setNode, if_neg hq]; exact h.around q hq

theorem append_prefix_of {q p : Place} {n : Name} (h : q ++ [n] <+: p) : q <+: p ∧ q ≠ p :=
  ⟨(List.prefix_append _ _).trans h, fun e => by
    have := h.length_le
    rw [e, List.length_append, List.length_singleton] at this
    omega⟩

theorem Effect.mkdirs {p : Place} {fs f : Fs} (h : Effect p fs f) : Effect p fs (f.mkdirs p) := by
  unfold Fs.mkdirs
  split
  · next hall =>
    rw [List.all_eq_true] at hall
    have hup : ∀ q, q <+: p → q ≠ p → f.node q = none ∨ f.node q = some .dir := by
      intro q hq hne
      have hlt : q.length < p.length := by
        rcases Nat.lt_or_ge q.length p.length with h | h
        · exact h
        · exact absurd (hq.eq_of_length_le h) hne
      have := hall q.length (List.mem_range.2 hlt)
      rw [prefix_take hq] at this
      simpa using this
    refine ⟨⟨fun q n hq => ?_, fun q i hq => ?_⟩, fun q hq => ?_, h.next, h.data⟩
    · simp only at hq ⊢
      split at hq
      · next hc =>
        obtain ⟨h1, h2⟩ := append_prefix_of hc.1
        rcases hup q h1 h2 with e | e <;> simp [h1, h2, e]
      · have := h.sound.tree q n hq
        rw [if_neg (fun hc => by simp [this] at hc)]; exact this
    · simp only at hq
      split at hq
      · cases hq
      · exact h.sound.numbered q i hq
    · simp only
      split
      · next hc =>
        rcases h.around q hq with e | e | e
        · exact .inr (.inr ⟨hc.1, e ▸ hc.2.2, rfl⟩)
        · exact absurd (e.1.eq_of_length_le hc.1.length_le) (Ne.symm hq)
        · rw [e.2.2] at hc; exact absurd hc.2.2 (by simp)
      · exact h.around q hq
  · exact h

theorem dropLast_ne {p q : Place} {n : Name} (h : q ++ [n] = p) : q = p.dropLast := by rw [← h]; simp

theorem Effect.put {p : Place} {fs f : Fs} (h : Effect p fs f) (hn : f.node p = none) (hd : f.node p.dropLast = some .dir)
    (v : Node) (data : Nat → List Nat) (changes : Nat → Nat) (next : Nat) (hv : ∀ i, v = .file i → i < next)
    (hnext : f.next ≤ next) (hdata : ∀ i, i < fs.next → data i = fs.data i) :
    Effect p fs ⟨setNode f.node p (some v), data, changes, next⟩ := by
  refine ⟨⟨fun q n hq => ?_, fun q i hq => ?_⟩, fun q hq => ?_, Nat.le_trans h.next hnext, hdata⟩
  · have hq' : f.node q = some .dir := by
      simp only [setNode] at hq
      split at hq
      · next e => rw [dropLast_ne e]; exact hd
      · exact h.sound.tree q n hq
    simp only [setNode]
    rw [if_neg (fun e => by rw [e, hn] at hq'; cases hq')]; exact hq'
  · simp only [setNode] at hq
    split at hq
    · exact hv i (Option.some.inj hq)
    · exact Nat.lt_of_lt_of_le (h.sound.numbered q i hq) hnext
  · simp only [setNode, if_neg hq]; exact h.around q hq

/-- A call of `out::write` on the way. -/
def Under (p : Place) (fs f : Fs) : Proc → Prop
  | .start | .present | .reading _ _ | .removing => f = fs
  | .removingTree => f.node p = some .dir
  | .unlinking => f.node p ≠ some .dir
  | .mkdirs | .opening => f.node p = none
  | .writing i _ => fs.next ≤ i ∧ f.node p = some (.file i)
  | .done ok => ok = true → f = fs ∨ ∃ i, f.node p = some (.file i)

theorem write_effect (p : Place) (content : List Nat) {fs : Fs} (hs : Sound fs) (evs : List Ev) (he : Smooth evs) :
    Effect p fs (runAlone (writeStep p content) fs .start evs).1 ∧
    Under p fs (runAlone (writeStep p content) fs .start evs).1 (runAlone (writeStep p content) fs .start evs).2 := by
  have key : ∀ (evs : List Ev) (f : Fs) (c : Proc), Smooth evs → Effect p fs f → Under p fs f c →
      Effect p fs (runAlone (writeStep p content) f c evs).1 ∧
      Under p fs (runAlone (writeStep p content) f c evs).1 (runAlone (writeStep p content) f c evs).2 := by
    intro evs
    induction evs with
    | nil => exact fun f c _ h1 h2 => ⟨h1, h2⟩
    | cons e evs ih =>
      intro f c he h hu
      obtain ⟨n, rfl⟩ := he.head
      rw [runAlone_cons]
      cases c with
      | start =>
        simp only [writeStep]
        split
        · next hn => exact ih _ _ he.tail h hn
        · exact ih _ _ he.tail h hu
      | present =>
        simp only [writeStep]
        split <;> exact ih _ _ he.tail h hu
      | reading i acc =>
        simp only [writeStep]
        split
        · split
          · exact ih _ _ he.tail h (fun _ => .inl hu)
          · exact ih _ _ he.tail h hu
        · exact ih _ _ he.tail h hu
      | removing =>
        simp only [writeStep]
        split
        · next hn => exact ih _ _ he.tail h hn
        · next hn => exact ih _ _ he.tail h hn
        · next hn => exact ih _ _ he.tail h (show f.node p ≠ some .dir by intro e; simp_all)
      | removingTree =>
        simp only [writeStep]
        refine ih _ _ he.tail (h.removeTree hu) ?_
        have hp : f.node p = some .dir := hu
        simp [Under, Fs.removeTree, hp]
      | unlinking =>
        simp only [writeStep]
        refine ih _ _ he.tail (h.setNone hu) ?_
        have hp : f.node p ≠ some .dir := hu
        simp [Under, Fs.unlink, hp, setNode]
      | mkdirs =>
        simp only [writeStep]
        refine ih _ _ he.tail h.mkdirs ?_
        have hp : f.node p = none := hu
        simp only [Under, Fs.mkdirs]
        split
        · simp [hp]
        · exact hp
      | opening =>
        simp only [writeStep]
        have hp : f.node p = none := hu
        have ht : f.target 40 p = some p := by simp [Fs.target, hp]
        simp only [Fs.openTrunc, ht, hp]
        split
        · next hc =>
          split at hc
          · cases hc
          · exact ih _ _ he.tail h (fun h => by simp at h)
        · next fs' i hc =>
          split at hc
          · next hd =>
            cases hc
            refine ih _ _ he.tail (h.put hp hd _ _ _ _ (fun i hi => by cases hi; omega) (by omega) (fun i hi => ?_)) ?_
            · rw [upd_ne _ _ (show i ≠ f.next by have := h.next; omega)]; exact h.data i hi
            · exact ⟨h.next, by simp [setNode]⟩
          · cases hc
      | writing i off =>
        simp only [writeStep]
        split
        · exact ih _ _ he.tail h (fun _ => .inr ⟨i, hu.2⟩)
        · refine ih _ _ he.tail ⟨⟨h.sound.tree, h.sound.numbered⟩, h.around, h.next, fun k hk => ?_⟩ hu
          have : k ≠ i := by have := hu.1; omega
          simp only [Fs.writeAt, upd_ne _ _ this]
          exact h.data k hk
      | done ok => exact ih _ _ he.tail h hu
  exact key evs fs .start he (.refl hs) rfl

/-- A call that makes a symbolic link on the way. -/
def UnderLink (p target : Place) (f : Fs) : LinkProc → Prop
  | .start | .removing => True
  | .removingTree => f.node p = some .dir
  | .unlinking => f.node p ≠ some .dir
  | .mkdirs | .linking => f.node p = none
  | .done ok => ok = true → f.node p = some (.link target)

/-- What is at a place that a link was to be made at, if there is no link. -/
def Rests (p target : Place) (fs f : Fs) : Prop :=
  f.node p = fs.node p ∨ f.node p = none ∨ f.node p = some (.link target)

theorem link_effect (p target : Place) {fs : Fs} (hs : Sound fs) (evs : List Ev) (he : Smooth evs) :
    Effect p fs (runAlone (linkStep p target) fs .start evs).1 ∧
    Rests p target fs (runAlone (linkStep p target) fs .start evs).1 ∧
    UnderLink p target (runAlone (linkStep p target) fs .start evs).1 (runAlone (linkStep p target) fs .start evs).2 := by
  have key : ∀ (evs : List Ev) (f : Fs) (c : LinkProc), Smooth evs → Effect p fs f → Rests p target fs f →
      UnderLink p target f c →
      Effect p fs (runAlone (linkStep p target) f c evs).1 ∧
      Rests p target fs (runAlone (linkStep p target) f c evs).1 ∧
      UnderLink p target (runAlone (linkStep p target) f c evs).1 (runAlone (linkStep p target) f c evs).2 := by
    intro evs
    induction evs with
    | nil => exact fun f c _ h1 h2 h3 => ⟨h1, h2, h3⟩
    | cons e evs ih =>
      intro f c he h hr hu
      obtain ⟨n, rfl⟩ := he.head
      rw [runAlone_cons]
      cases c with
      | start =>
        simp only [linkStep]
        split
        · next hn => exact ih _ _ he.tail h hr hn
        · exact ih _ _ he.tail h hr trivial
      | removing =>
        simp only [linkStep]
        split
        · next hn => exact ih _ _ he.tail h hr hn
        · next hn => exact ih _ _ he.tail h hr hn
        · next hn => exact ih _ _ he.tail h hr (show f.node p ≠ some .dir by intro e; simp_all)
      | removingTree =>
        simp only [linkStep]
        have hp : f.node p = some .dir := hu
        have hn : (f.removeTree p).node p = none := by simp [Fs.removeTree, hp]
        exact ih _ _ he.tail (h.removeTree hu) (.inr (.inl hn)) hn
      | unlinking =>
        simp only [linkStep]
        have hp : f.node p ≠ some .dir := hu
        have hn : (f.unlink p).node p = none := by simp [Fs.unlink, hp, setNode]
        exact ih _ _ he.tail (h.setNone hu) (.inr (.inl hn)) hn
      | mkdirs =>
        simp only [linkStep]
        have hp : f.node p = none := hu
        have hn : (f.mkdirs p).node p = none := by
          simp only [Fs.mkdirs]
          split
          · simp [hp]
          · exact hp
        exact ih _ _ he.tail h.mkdirs (.inr (.inl hn)) hn
      | linking =>
        simp only [linkStep]
        have hp : f.node p = none := hu
        simp only [Fs.symlink, hp, true_and]
        split
        · next fs' hc =>
          split at hc
          · next hd =>
            cases hc
            refine ih _ _ he.tail (h.put hp hd _ _ _ _ (fun i hi => by cases hi) (Nat.le_refl _) h.data)
              (.inr (.inr (by simp [setNode]))) (fun _ => by simp [setNode])
          · cases hc
        · exact ih _ _ he.tail h hr (fun h => by simp at h)
      | done ok => exact ih _ _ he.tail h hr hu
  exact key evs fs .start he (.refl hs) (.inl rfl) trivial

/-- Once the directory is there, the link can be made. -/
theorem link_succeeds (p target : Place) (hp : p ≠ []) {fs : Fs} (hd : fs.node p.dropLast = some .dir) (evs : List Ev)
    (he : Smooth evs) : (runAlone (linkStep p target) fs .start evs).2 ≠ .done false := by
  have hne : p.dropLast ≠ p := fun e => dropLast_not_below hp e.symm (List.prefix_refl _)
  have hnb : ¬ p <+: p.dropLast := dropLast_not_below hp rfl
  have key : ∀ (evs : List Ev) (f : Fs) (c : LinkProc), Smooth evs → f.node p.dropLast = some .dir →
      (c = .done true ∨ c ≠ .done false ∧ (c = .linking → f.node p = none) ∧ (c = .mkdirs → f.node p = none) ∧
        (c = .removingTree → f.node p = some .dir) ∧ (c = .unlinking → f.node p ≠ some .dir)) →
      (runAlone (linkStep p target) f c evs).2 ≠ .done false := by
    intro evs
    induction evs with
    | nil =>
      intro f c _ _ hc
      rcases hc with rfl | hc
      · simp [runAlone]
      · exact hc.1
    | cons e evs ih =>
      intro f c he hf hc
      obtain ⟨n, rfl⟩ := he.head
      rw [runAlone_cons]
      cases c with
      | start =>
        simp only [linkStep]
        split
        · next h => exact ih _ _ he.tail hf (.inr ⟨by simp, by simp, fun _ => h, by simp, by simp⟩)
        · exact ih _ _ he.tail hf (.inr ⟨by simp, by simp, by simp, by simp, by simp⟩)
      | removing =>
        simp only [linkStep]
        split
        · next h => exact ih _ _ he.tail hf (.inr ⟨by simp, fun _ => h, by simp, by simp, by simp⟩)
        · next h => exact ih _ _ he.tail hf (.inr ⟨by simp, by simp, by simp, fun _ => h, by simp⟩)
        · next h => exact ih _ _ he.tail hf (.inr ⟨by simp, by simp, by simp, by simp, fun _ e => by simp_all⟩)
      | removingTree =>
        simp only [linkStep]
        have h : f.node p = some .dir := (hc.resolve_left (by simp)).2.2.2.1 rfl
        refine ih _ _ he.tail (by simp [Fs.removeTree, h, hnb, hf]) (.inr ⟨by simp, fun _ => ?_, by simp, by simp, by simp⟩)
        simp [Fs.removeTree, h]
      | unlinking =>
        simp only [linkStep]
        have h : f.node p ≠ some .dir := (hc.resolve_left (by simp)).2.2.2.2 rfl
        refine ih _ _ he.tail (by simp [Fs.unlink, h, setNode, hne, hf]) (.inr ⟨by simp, fun _ => ?_, by simp, by simp, by simp⟩)
        simp [Fs.unlink, h, setNode]
      | mkdirs =>
        simp only [linkStep]
        have h : f.node p = none := (hc.resolve_left (by simp)).2.2.1 rfl
        refine ih _ _ he.tail ?_ (.inr ⟨by simp, fun _ => ?_, by simp, by simp, by simp⟩)
        · simp only [Fs.mkdirs]
          split
          · simp [hf]
          · exact hf
        · simp only [Fs.mkdirs]
          split
          · simp [h]
          · exact h
      | linking =>
        simp only [linkStep]
        have h : f.node p = none := (hc.resolve_left (by simp)).2.1 rfl
        simp only [Fs.symlink, h, hf, and_self, if_true]
        exact ih _ _ he.tail (by simp [setNode, hne, hf]) (.inl rfl)
      | done ok =>
        rcases hc with hc | hc
        · exact ih _ _ he.tail hf (.inl hc)
        · refine ih _ _ he.tail hf (.inr hc)
  exact key evs fs .start he hd (.inr ⟨by simp, by simp, by simp, by simp, by simp⟩)

/-- The same if all that is missing are directories. -/
theorem link_succeeds_new (p target : Place) (hp : p ≠ []) {fs : Fs} (hn : fs.node p = none)
    (hup : ∀ q, q <+: p → q ≠ p → fs.node q = none ∨ fs.node q = some .dir) (evs : List Ev)
    (he : Smooth evs) : (runAlone (linkStep p target) fs .start evs).2 ≠ .done false := by
  have hall : (List.range p.length).all (fun n => fs.node (p.take n) == none || fs.node (p.take n) == some .dir) = true := by
    rw [List.all_eq_true]
    intro n hn
    have hlt := List.mem_range.1 hn
    rcases hup (p.take n) (List.take_prefix ..) (fun e => by
      have := congrArg List.length e
      rw [List.length_take] at this
      omega) with h | h <;> simp [h]
  have h1 : p.dropLast <+: p := List.dropLast_prefix p
  have h2 : p.dropLast ≠ p := fun e => dropLast_not_below hp e.symm (List.prefix_refl _)
  have hdone : ∀ (f : Fs) (evs : List Ev), runAlone (linkStep p target) f (.done true) evs = (f, .done true) := by
    intro f evs
    induction evs with
    | nil => rfl
    | cons e evs ih => rw [runAlone_cons]; exact ih
  match evs, he with
  | [], _ => simp [runAlone]
  | [e], he =>
    obtain ⟨_, rfl⟩ := he.head
    simp [runAlone, linkStep, hn]
  | [e, e2], he =>
    obtain ⟨_, rfl⟩ := he.head
    obtain ⟨_, rfl⟩ := he.tail.head
    simp [runAlone, linkStep, hn]
  | e :: e2 :: e3 :: evs, he =>
    obtain ⟨_, rfl⟩ := he.head
    obtain ⟨_, rfl⟩ := he.tail.head
    obtain ⟨_, rfl⟩ := he.tail.tail.head
    rw [runAlone_cons, runAlone_cons, runAlone_cons]
    simp only [linkStep, hn, if_true]
    have hm : (fs.mkdirs p).node p = none := by rw [Fs.mkdirs, if_pos hall]; simp [hn]
    have hd : (fs.mkdirs p).node p.dropLast = some .dir := by
      rw [Fs.mkdirs, if_pos hall]
      rcases hup _ h1 h2 with h | h <;> simp [h1, h2, h]
    simp only [Fs.symlink, hm, hd, and_self, if_true]
    rw [hdone]
    simp

/-! ### What a list of calls does -/

def Op.place : Op → Place
  | .write p _ => p
  | .link p _ => p

/-- What a call leaves at its place. -/
def Op.Leaves (fs f : Fs) : Op → Bool → Prop
  | .write p content, ok => ok = true → f.contents p = some content ∧ (f = fs ∨ ∃ i, f.node p = some (.file i))
  | .link p target, ok => Rests p target fs f ∧ (ok = true → f.node p = some (.link target)) ∧
      (p ≠ [] → fs.node p.dropLast = some .dir → ok = true) ∧
      (p ≠ [] → fs.node p = none → (∀ q, q <+: p → q ≠ p → fs.node q = none ∨ fs.node q = some .dir) → ok = true)

theorem op_effect {op : Op} {fs f : Fs} {evs : List Ev} {ok : Bool} (hs : Sound fs) (he : Smooth evs)
    (h : op.run fs evs = (f, some ok)) : Effect op.place fs f ∧ op.Leaves fs f ok := by
  cases op with
  | write p content =>
    have := write_effect p content hs evs he
    have hx := write_exact p content fs evs
    simp only [Op.run, Prod.mk.injEq] at h
    obtain ⟨rfl, h⟩ := h
    refine ⟨this.1, fun hok => ?_⟩
    subst hok
    split at h
    · next ok' hd =>
      simp only [Option.some.injEq] at h
      subst h
      rw [hd] at this
      exact ⟨hx hd, this.2 rfl⟩
    · cases h
  | link p target =>
    have := link_effect p target hs evs he
    have h1 := link_succeeds p target (fs := fs)
    have h2 := link_succeeds_new p target (fs := fs)
    simp only [Op.run, Prod.mk.injEq] at h
    obtain ⟨rfl, h⟩ := h
    split at h
    · next ok' hd =>
      simp only [Option.some.injEq] at h
      subst h
      rw [hd] at this
      refine ⟨this.1, this.2.1, this.2.2, fun hp hn => ?_, fun hp hn hup => ?_⟩
      · have := h1 hp hn evs he
        rw [hd] at this
        simpa using this
      · have := h2 hp hn hup evs he
        rw [hd] at this
        simpa using this
    · cases h

theorem Ran.split {a b : List (Op × Bool)} {oks : List Bool} {fs fs' : Fs} (h : Ran fs (a ++ b) oks fs') :
    ∃ m o1 o2, Ran fs a o1 m ∧ Ran m b o2 fs' := by
  induction a generalizing fs oks with
  | nil => exact ⟨fs, [], oks, .nil _, h⟩
  | cons x a ih =>
    cases h with
    | cons evs smooth run hmust rest =>
      obtain ⟨m, o1, o2, h1, h2⟩ := ih rest
      exact ⟨m, _, o2, .cons evs smooth run hmust h1, h2⟩

theorem Ran.head {op : Op} {must : Bool} {b : List (Op × Bool)} {oks : List Bool} {fs fs' : Fs} (hs : Sound fs)
    (h : Ran fs ((op, must) :: b) oks fs') :
    ∃ f ok o2, Effect op.place fs f ∧ op.Leaves fs f ok ∧ (must = true → ok = true) ∧ Ran f b o2 fs' := by
  cases h with
  | cons evs smooth run hmust rest =>
    have := op_effect hs smooth run
    exact ⟨_, _, _, this.1, this.2, hmust, rest⟩

theorem Ran.sound {ops : List (Op × Bool)} {oks : List Bool} {fs fs' : Fs} (hs : Sound fs) (h : Ran fs ops oks fs') :
    Sound fs' ∧ fs.next ≤ fs'.next ∧ ∀ i, i < fs.next → fs'.data i = fs.data i := by
  induction h with
  | nil => exact ⟨hs, Nat.le_refl _, fun _ _ => rfl⟩
  | cons evs smooth run hmust rest ih =>
    have he := (op_effect hs smooth run).1
    obtain ⟨h1, h2, h3⟩ := ih he.sound
    exact ⟨h1, Nat.le_trans he.next h2, fun i hi => (h3 i (by have := he.next; omega)).trans (he.data i hi)⟩

/-- What no call has to do with stays. -/
theorem Ran.keeps {ops : List (Op × Bool)} {oks : List Bool} {fs fs' : Fs} (hs : Sound fs) (h : Ran fs ops oks fs') (q : Place)
    (hq : ∀ o ∈ ops, ¬ o.1.place <+: q) (hn : fs.node q ≠ none) : fs'.node q = fs.node q := by
  induction h with
  | nil => rfl
  | @cons fs fs1 fs' op must ok ops oks evs smooth run hmust rest ih =>
    have he := (op_effect hs smooth run).1
    have h0 := hq (op, must) (List.mem_cons_self ..)
    have h1 : fs1.node q = fs.node q := by
      rcases he.around q (fun e => h0 (e ▸ List.prefix_refl _)) with e | e | e
      · exact e
      · exact absurd e.1 h0
      · exact absurd e.2.1 hn
    rw [← h1]
    exact ih he.sound (fun o ho => hq o (List.mem_cons_of_mem _ ho)) (h1 ▸ hn)

/-- Files and links appear only at the places of calls. -/
theorem Ran.only {ops : List (Op × Bool)} {oks : List Bool} {fs fs' : Fs} (hs : Sound fs) (h : Ran fs ops oks fs') (q : Place)
    (hq : ∀ o ∈ ops, o.1.place ≠ q) :
    fs'.node q = fs.node q ∨ fs'.node q = none ∨ fs'.node q = some .dir := by
  induction h with
  | nil => exact .inl rfl
  | @cons fs fs1 fs' op must ok ops oks evs smooth run hmust rest ih =>
    have he := (op_effect hs smooth run).1
    have h0 := hq (op, must) (List.mem_cons_self ..)
    rcases ih he.sound (fun o ho => hq o (List.mem_cons_of_mem _ ho)) with h1 | h1
    · rw [h1]
      rcases he.around q (Ne.symm h0) with e | e | e
      · exact .inl e
      · exact .inr (.inl e.2)
      · exact .inr (.inr e.2.2)
    · exact .inr h1

/-- What is not there is made only at or above the place of a call. -/
theorem Ran.nothing {ops : List (Op × Bool)} {oks : List Bool} {fs fs' : Fs} (hs : Sound fs) (h : Ran fs ops oks fs') (q : Place)
    (hq : ∀ o ∈ ops, ¬ q <+: o.1.place) (hn : fs.node q = none) : fs'.node q = none := by
  induction h with
  | nil => exact hn
  | @cons fs fs1 fs' op must ok ops oks evs smooth run hmust rest ih =>
    have he := (op_effect hs smooth run).1
    have h0 := hq (op, must) (List.mem_cons_self ..)
    refine ih he.sound (fun o ho => hq o (List.mem_cons_of_mem _ ho)) ?_
    rcases he.around q (fun e => h0 (e ▸ List.prefix_refl _)) with e | e | e
    · exact e.trans hn
    · exact e.2
    · exact absurd e.1 h0

theorem Ran.keeps_file {ops : List (Op × Bool)} {oks : List Bool} {fs fs' : Fs} (hs : Sound fs) (h : Ran fs ops oks fs')
    {q : Place} {i : Nat} (hq : ∀ o ∈ ops, ¬ o.1.place <+: q) (hn : fs.node q = some (.file i)) :
    fs'.node q = some (.file i) ∧ fs'.data i = fs.data i :=
  ⟨(h.keeps hs q hq (by simp [hn])).trans hn, (h.sound hs).2.2 i (hs.numbered q i hn)⟩

/-! ### Finding files -/

theorem tree_up {fs : Fs} (ht : Tree fs) {q r : Place} (hr : r ≠ []) (h : fs.node (q ++ r) ≠ none) :
    fs.node q = some .dir := by
  induction r generalizing q with
  | nil => exact absurd rfl hr
  | cons n r ih =>
    cases r with
    | nil => exact ht q n h
    | cons m r =>
      refine ht q n ?_
      have := ih (q := q ++ [n]) (by simp) (by simpa using h)
      simp [this]

theorem target_self {fs : Fs} {p : Place} (h : ∀ q, fs.node p ≠ some (.link q)) : fs.target 40 p = some p := by
  unfold Fs.target
  split
  · next q hq => exact absurd hq (h q)
  · rfl

theorem walk_plain {fs : Fs} (ht : Tree fs) {d : Place} {ns : List Name} (hns : ns ≠ []) (h : fs.node (d ++ ns) ≠ none) :
    fs.walk d ns = fs.target 40 (d ++ ns) := by
  induction ns generalizing d with
  | nil => exact absurd rfl hns
  | cons n ns ih =>
    unfold Fs.walk
    cases ns with
    | nil =>
      cases fs.target 40 (d ++ [n]) <;> rfl
    | cons m ns =>
      have hd := tree_up ht (q := d ++ [n]) (r := m :: ns) (by simp) (by simpa using h)
      rw [target_self (by simp [hd])]
      simp only
      rw [ih (by simp) (by simpa using h)]
      simp

theorem walk_append (fs : Fs) (d : Place) (a b : List Name) : fs.walk d (a ++ b) = (fs.walk d a).bind fun q => fs.walk q b := by
  induction a generalizing d with
  | nil => rfl
  | cons n a ih =>
    simp only [List.cons_append, Fs.walk]
    cases fs.target 40 (d ++ [n]) with
    | none => rfl
    | some q => exact ih q

theorem read_file {fs : Fs} (ht : Tree fs) {d : Place} {ns : List Name} {i : Nat} (hns : ns ≠ [])
    (h : fs.node (d ++ ns) = some (.file i)) : fs.read d ns = some (fs.data i) := by
  unfold Fs.read
  rw [walk_plain ht hns (by simp [h]), target_self (by simp [h])]
  simp [h]

theorem target_link {fs : Fs} {p q : Place} (h : fs.node p = some (.link q)) (n : Nat) :
    fs.target (n + 1) p = fs.target n q := by rw [Fs.target, h]

theorem target_self' {fs : Fs} {p : Place} (h : ∀ q, fs.node p ≠ some (.link q)) (n : Nat) : fs.target (n + 1) p = some p := by
  unfold Fs.target
  split
  · next q hq => exact absurd hq (h q)
  · rfl

theorem read_link {fs : Fs} (ht : Tree fs) {d q : Place} {ns : List Name} {i : Nat} (hns : ns ≠ [])
    (h : fs.node (d ++ ns) = some (.link q)) (hq : fs.node q = some (.file i)) : fs.read d ns = some (fs.data i) := by
  unfold Fs.read
  rw [walk_plain ht hns (by simp [h]), target_link h, target_self' (by simp [hq])]
  simp [hq]

theorem walk_nothing {fs : Fs} (ht : Tree fs) {d : Place} (h : fs.node d = none) (ns : List Name) :
    fs.walk d ns = some (d ++ ns) ∧ fs.node (d ++ ns) = none := by
  induction ns generalizing d with
  | nil => exact ⟨by simp [Fs.walk], by simpa using h⟩
  | cons n ns ih =>
    have hn : fs.node (d ++ [n]) = none := by
      cases hx : fs.node (d ++ [n]) with
      | none => rfl
      | some v => have := ht d n (by simp [hx]); rw [h] at this; cases this
    have := ih hn
    unfold Fs.walk
    rw [target_self (by simp [hn])]
    simpa using this

theorem read_nothing {fs : Fs} (ht : Tree fs) {d : Place} {n : Name} (h : fs.node (d ++ [n]) = none) (ns : List Name) :
    fs.read d (n :: ns) = none := by
  have := walk_nothing ht h ns
  unfold Fs.read Fs.walk
  rw [target_self (by simp [h])]
  simp only [this.1, this.2]

/-! ### The places of a build -/

theorem withAppended_header {rel h : List Name} (hh : HeaderOf rel h) : withAppendedExtension rel ".h".toList = some h := by
  obtain ⟨dir, name, rfl, rfl⟩ := hh
  simp [withAppendedExtension]

theorem withAppended_some {rel h : List Name} {suffix : List Char} (hh : withAppendedExtension rel suffix = some h) :
    ∃ dir name, rel = dir ++ [name] ∧ h = dir ++ [name ++ suffix] := by
  unfold withAppendedExtension at hh
  split at hh
  · cases hh
  · next name hl =>
    have := List.getLast?_eq_some_iff.1 hl
    obtain ⟨dir, rfl⟩ := this
    refine ⟨dir, name, rfl, ?_⟩
    simpa using hh.symm

/-- Where the calls for one source file write. -/
inductive BridgePlace (prj : Project) (rel : List Name) : Place → Prop
  | included {path : List Name} (h : Names prj.includePrefix rel path) : BridgePlace prj rel (prj.includeDir ++ path)
  | compiled (rest : List Name) : BridgePlace prj rel (prj.outDir ++ ["cxxbridge".toList] ++ ["sources".toList] ++ rest)
  | shared {path : List Name} (h : Names prj.includePrefix rel path) : BridgePlace prj rel (prj.sharedDir ++ path)
  | sharedSource (rest : List Name) (name : Name) : BridgePlace prj rel (prj.sharedDir ++ (rest ++ [name ++ ".cc".toList]))

theorem bridgeOps_some {prj : Project} {s : SourceFile} {ops : List (Op × Bool)} (h : prj.bridgeOps s = some ops) :
    ∃ hd cc, HeaderOf s.rel hd ∧ withAppendedExtension s.rel ".cc".toList = some cc ∧ ops =
    [(.write (prj.includeDir ++ (prj.includePrefix ++ hd)) s.header, true),
     (.link (prj.includeDir ++ (prj.includePrefix ++ s.rel)) (prj.includeDir ++ (prj.includePrefix ++ hd)), false),
     (.write (prj.outDir ++ ["cxxbridge".toList] ++ ["sources".toList] ++ (prj.includePrefix ++ cc)) s.implementation, true),
     (.link (prj.sharedDir ++ (prj.includePrefix ++ hd)) (prj.includeDir ++ (prj.includePrefix ++ hd)), false),
     (.link (prj.sharedDir ++ (prj.includePrefix ++ cc))
       (prj.outDir ++ ["cxxbridge".toList] ++ ["sources".toList] ++ (prj.includePrefix ++ cc)), false)] := by
  unfold Project.bridgeOps at h
  simp only [Option.bind_eq_some_iff, Option.map_eq_some_iff] at h
  obtain ⟨hd, h1, cc, h2, rfl⟩ := h
  exact ⟨hd, cc, withAppended_some h1, h2, by simp [Project.includeDir]⟩

theorem bridge_place {prj : Project} {s : SourceFile} {ops : List (Op × Bool)} (h : prj.bridgeOps s = some ops) {o : Op × Bool}
    (ho : o ∈ ops) : BridgePlace prj s.rel o.1.place := by
  obtain ⟨hd, cc, h1, h2, rfl⟩ := bridgeOps_some h
  obtain ⟨dir, name, hr, rfl⟩ := withAppended_some h2
  simp only [List.mem_cons, List.not_mem_nil, or_false] at ho
  rcases ho with rfl | rfl | rfl | rfl | rfl
  · exact .included (.inr ⟨hd, h1, rfl⟩)
  · exact .included (.inl rfl)
  · exact .compiled _
  · exact .shared (.inr ⟨hd, h1, rfl⟩)
  · have := BridgePlace.sharedSource (prj := prj) (rel := s.rel) (prj.includePrefix ++ dir) name
    rw [List.append_assoc] at this
    exact this

theorem bridges_place {prj : Project} {ss : List SourceFile} {ops : List (Op × Bool)} (h : prj.bridgesOps ss = some ops)
    {o : Op × Bool} (ho : o ∈ ops) : ∃ s ∈ ss, BridgePlace prj s.rel o.1.place := by
  induction ss generalizing ops with
  | nil => simp only [Project.bridgesOps, Option.some.injEq] at h; subst h; simp at ho
  | cons s ss ih =>
    simp only [Project.bridgesOps, Option.bind_eq_some_iff, Option.map_eq_some_iff] at h
    obtain ⟨a, ha, b, hb, rfl⟩ := h
    rcases List.mem_append.1 ho with ho | ho
    · exact ⟨s, List.mem_cons_self .., bridge_place ha ho⟩
    · obtain ⟨t, ht, hp⟩ := ih hb ho
      exact ⟨t, List.mem_cons_of_mem _ ht, hp⟩

theorem bridges_split {prj : Project} {ss : List SourceFile} {ops : List (Op × Bool)} (h : prj.bridgesOps ss = some ops)
    {s : SourceFile} (hs : s ∈ ss) : ∃ l1 l2 o1 os o2, ss = l1 ++ s :: l2 ∧ prj.bridgesOps l1 = some o1 ∧
      prj.bridgeOps s = some os ∧ prj.bridgesOps l2 = some o2 ∧ ops = o1 ++ (os ++ o2) := by
  induction ss generalizing ops with
  | nil => simp at hs
  | cons t ss ih =>
    simp only [Project.bridgesOps, Option.bind_eq_some_iff, Option.map_eq_some_iff] at h
    obtain ⟨a, ha, b, hb, rfl⟩ := h
    rcases List.mem_cons.1 hs with rfl | hs
    · exact ⟨[], ss, [], a, b, rfl, rfl, ha, hb, rfl⟩
    · obtain ⟨l1, l2, o1, os, o2, rfl, h1, h2, h3, rfl⟩ := ih hb hs
      refine ⟨t :: l1, l2, a ++ o1, os, o2, rfl, ?_, h2, h3, by simp⟩
      simp [Project.bridgesOps, ha, h1]

/-! ### Places apart -/

theorem not_prefix_names {d x y : Place} {a b : Name} (h : a ≠ b) : ¬ d ++ [a] ++ x <+: d ++ [b] ++ y := by
  simp only [List.append_assoc, List.prefix_append_right_inj, List.cons_append, List.nil_append, List.cons_prefix_cons]
  exact fun e => h e.1

theorem not_prefix_dirs {d e x y : Place} (h : Apart d e) : ¬ d ++ x <+: e ++ y ∧ ¬ e ++ x <+: d ++ y := by
  constructor
  · intro hc
    have h1 := (List.prefix_append d x).trans hc
    rcases List.prefix_or_prefix_of_prefix h1 (List.prefix_append e y) with h2 | h2
    · exact h.1 h2
    · exact h.2 h2
  · intro hc
    have h1 := (List.prefix_append e x).trans hc
    rcases List.prefix_or_prefix_of_prefix h1 (List.prefix_append d y) with h2 | h2
    · exact h.2 h2
    · exact h.1 h2

theorem names_nonempty {pre rel path : List Name} (h : Names pre rel path) (hr : rel ≠ []) : path ≠ [] := by
  rcases h with rfl | ⟨h, ⟨dir, name, rfl, rfl⟩, rfl⟩
  · simp [hr]
  · simp

/-- No call for other source files concerns what is generated from one. -/
theorem apart_included {prj : Project} (hsh : Apart (prj.outDir ++ ["cxxbridge".toList]) prj.sharedDir) {rel path : List Name}
    (hap : ∀ p, Names prj.includePrefix rel p → ¬ p <+: path) {p : Place} (h : BridgePlace prj rel p) :
    ¬ p <+: prj.includeDir ++ path := by
  cases h with
  | included h =>
    rw [List.prefix_append_right_inj]
    exact hap _ h
  | compiled rest => exact not_prefix_names (by decide)
  | shared h =>
    unfold Project.includeDir
    rw [List.append_assoc]
    exact (not_prefix_dirs hsh).2
  | sharedSource rest name =>
    unfold Project.includeDir
    rw [List.append_assoc]
    exact (not_prefix_dirs hsh).2

theorem header_not_source {pre rel h : List Name} (hh : HeaderOf rel h) : ¬ pre ++ rel <+: pre ++ h := by
  obtain ⟨dir, name, rfl, rfl⟩ := hh
  rw [List.prefix_append_right_inj, List.prefix_append_right_inj]
  intro hc
  have := hc.eq_of_length_le (by simp)
  have := congrArg (fun l => (l.head?.map List.length)) this
  simp at this

theorem header_unique {rel h h' : List Name} (hh : HeaderOf rel h) (hh' : HeaderOf rel h') : h = h' := by
  have h1 := withAppended_header hh
  rw [withAppended_header hh'] at h1
  exact (Option.some.inj h1).symm

theorem contents_file {fs : Fs} {p : Place} {c : List Nat} (hl : ∀ q, fs.node p ≠ some (.link q)) (h : fs.contents p = some c) :
    ∃ i, fs.node p = some (.file i) ∧ fs.data i = c := by
  unfold Fs.contents Fs.lookup at h
  rw [target_self hl] at h
  simp only at h
  split at h
  · next i hi => exact ⟨i, hi, by simpa using h⟩
  · cases h

theorem compiled_apart {prj : Project} {rest path : List Name} :
    ¬ prj.outDir ++ ["cxxbridge".toList] ++ ["sources".toList] ++ rest <+: prj.includeDir ++ path :=
  not_prefix_names (by decide)

theorem shared_apart {prj : Project} (hsh : Apart (prj.outDir ++ ["cxxbridge".toList]) prj.sharedDir) {rest path : List Name} :
    ¬ prj.sharedDir ++ rest <+: prj.includeDir ++ path := by
  unfold Project.includeDir
  rw [List.append_assoc]
  exact (not_prefix_dirs hsh).2

/-- The calls that set up the directories concern nothing that is generated from source files. -/
theorem start_apart {prj : Project} (hsh : Apart (prj.outDir ++ ["cxxbridge".toList]) prj.sharedDir) {runtime : List Nat}
    {path : List Name} (hp : ¬ runtimePath <+: path) {o : Op × Bool} (ho : o ∈ prj.crateOps ++ prj.includeOps runtime) :
    ¬ o.1.place <+: prj.includeDir ++ path := by
  have h1 : ¬ prj.includeDir ++ ["rust".toList] ++ ["cxx.h".toList] <+: prj.includeDir ++ path := by
    rw [List.append_assoc, List.prefix_append_right_inj]; exact hp
  have h2 : ¬ prj.sharedDir ++ ["rust".toList] ++ ["cxx.h".toList] <+: prj.includeDir ++ path := by
    rw [List.append_assoc]; exact shared_apart hsh
  rcases List.mem_append.1 ho with ho | ho
  · unfold Project.crateOps at ho
    split at ho
    · simp at ho
    · next hne =>
      simp only [List.mem_singleton] at ho
      subst ho
      simp only [Op.place, Project.crateDir, if_neg hne]
      exact not_prefix_names (by decide)
  · unfold Project.includeOps at ho
    split at ho
    all_goals
      simp only [List.mem_cons, List.not_mem_nil, or_false] at ho
      rcases ho with rfl | rfl <;> first | exact h1 | exact h2

theorem separate_parts {pre : List Name} {l1 l2 : List SourceFile} {s : SourceFile}
    (h : (l1 ++ s :: l2).Pairwise (Separate pre)) : (∀ a ∈ l1, Separate pre a s) ∧ ∀ b ∈ l2, Separate pre s b := by
  rw [List.pairwise_append, List.pairwise_cons] at h
  exact ⟨fun a ha => h.2.2 a ha s (List.mem_cons_self ..), h.2.1.1⟩

/-- The state of both paths of a source file after the build. -/
theorem generated_nodes {prj : Project} {sources : List SourceFile} {runtime : List Nat} {ops : List (Op × Bool)}
    {oks : List Bool} {fs fs' : Fs} (hu : prj.Usual sources) (hs : Sound fs)
    (hops : prj.buildOps runtime sources = some ops) (hr : Ran fs ops oks fs') {s : SourceFile} (hm : s ∈ sources)
    {h : List Name} (hh : HeaderOf s.rel h)
    (hl : ∀ q, fs.node (prj.includeDir ++ (prj.includePrefix ++ h)) ≠ some (.link q)) :
    ∃ i, fs'.node (prj.includeDir ++ (prj.includePrefix ++ h)) = some (.file i) ∧ fs'.data i = s.header ∧
      fs'.node (prj.includeDir ++ (prj.includePrefix ++ s.rel)) =
        some (.link (prj.includeDir ++ (prj.includePrefix ++ h))) := by
  unfold Project.buildOps at hops
  obtain ⟨bs, hb, rfl⟩ := Option.map_eq_some_iff.1 hops
  obtain ⟨l1, l2, o1, os, o2, rfl, h1, h2, h3, rfl⟩ := bridges_split hb hm
  obtain ⟨sep1, sep2⟩ := separate_parts hu.separate
  obtain ⟨hd, cc, hhd, hcc, rfl⟩ := bridgeOps_some h2
  obtain rfl := header_unique hh hhd
  have nh : Names prj.includePrefix s.rel (prj.includePrefix ++ h) := .inr ⟨h, hh, rfl⟩
  have nr : Names prj.includePrefix s.rel (prj.includePrefix ++ s.rel) := .inl rfl
  rw [← List.append_assoc] at hr
  obtain ⟨m, q1, q2, r1, r2⟩ := hr.split
  have sm := (r1.sound hs).1
  have hlm : ∀ q, m.node (prj.includeDir ++ (prj.includePrefix ++ h)) ≠ some (.link q) := by
    intro q hq
    rcases r1.only hs (prj.includeDir ++ (prj.includePrefix ++ h)) (fun o ho e => by
      rcases List.mem_append.1 ho with ho | ho
      · exact start_apart hu.shared (hu.runtime s hm _ nh).2 ho (e ▸ List.prefix_refl _)
      · obtain ⟨t, ht, hp⟩ := bridges_place h1 ho
        exact apart_included hu.shared (fun p hp => (sep1 t ht p _ hp nh).1) hp (e ▸ List.prefix_refl _)) with e | e | e
    · exact hl q (e ▸ hq)
    · rw [e] at hq; cases hq
    · rw [e] at hq; cases hq
  simp only [List.cons_append, List.nil_append] at r2
  obtain ⟨f, ok, q3, ef, lf, hok, r3⟩ := Ran.head sm r2
  obtain ⟨i, hi, hdi⟩ : ∃ i, f.node (prj.includeDir ++ (prj.includePrefix ++ h)) = some (.file i) ∧ f.data i = s.header := by
    obtain ⟨hc, hf⟩ := lf (hok rfl)
    refine contents_file (fun q hq => ?_) hc
    rcases hf with rfl | ⟨i, hi⟩
    · exact hlm q hq
    · rw [hi] at hq; cases hq
  have later : ∀ o ∈ o2, ∀ path, Names prj.includePrefix s.rel path → ¬ o.1.place <+: prj.includeDir ++ path := by
    intro o ho path hpath
    obtain ⟨t, ht, hp⟩ := bridges_place h3 ho
    exact apart_included hu.shared (fun p hp => (sep2 t ht _ _ hpath hp).2) hp
  obtain ⟨k1, k2⟩ := r3.keeps_file ef.sound (fun o ho => by
    simp only [List.mem_cons] at ho
    rcases ho with rfl | rfl | rfl | rfl | ho
    · simp only [Op.place, List.prefix_append_right_inj]
      rw [← List.prefix_append_right_inj prj.includePrefix]
      exact header_not_source hh
    · exact compiled_apart
    · exact shared_apart hu.shared
    · exact shared_apart hu.shared
    · exact later o ho _ nh) hi
  refine ⟨i, k1, k2.trans hdi, ?_⟩
  obtain ⟨f1, ok1, q4, ef1, lf1, _, r4⟩ := Ran.head ef.sound r3
  obtain ⟨dir, name, e1, e2⟩ := hh
  have hup : f.node (prj.includeDir ++ (prj.includePrefix ++ s.rel)).dropLast = some .dir := by
    have : (prj.includeDir ++ (prj.includePrefix ++ s.rel)).dropLast = prj.includeDir ++ (prj.includePrefix ++ dir) := by
      rw [e1, ← List.append_assoc, ← List.append_assoc, List.dropLast_concat, List.append_assoc]
    rw [this]
    refine tree_up ef.sound.tree (r := [name ++ ".h".toList]) (by simp) ?_
    rw [e2] at hi
    simp only [List.append_assoc] at hi ⊢
    rw [hi]; simp
  have hn1 : f1.node (prj.includeDir ++ (prj.includePrefix ++ s.rel)) =
      some (.link (prj.includeDir ++ (prj.includePrefix ++ h))) :=
    lf1.2.1 (lf1.2.2.1 (by rw [e1]; simp) hup)
  rw [← hn1]
  refine r4.keeps ef1.sound _ (fun o ho => ?_) (by simp [hn1])
  simp only [List.mem_cons] at ho
  rcases ho with rfl | rfl | rfl | ho
  · exact compiled_apart
  · exact shared_apart hu.shared
  · exact shared_apart hu.shared
  · exact later o ho _ nr

/-- **C94.** After a build, `#include` of the header of a source file finds what was generated from this file. -/
theorem header_found {prj : Project} {sources : List SourceFile} {runtime : List Nat} {ops : List (Op × Bool)}
    {oks : List Bool} {fs fs' : Fs} (hu : prj.Usual sources) (hs : Sound fs)
    (hops : prj.buildOps runtime sources = some ops) (hr : Ran fs ops oks fs') {s : SourceFile} (hm : s ∈ sources)
    {h : List Name} (hh : HeaderOf s.rel h)
    (hl : ∀ q, fs.node (prj.includeDir ++ (prj.includePrefix ++ h)) ≠ some (.link q)) (others : List Place) :
    fs'.include (prj.searchDirs others) (prj.includePrefix ++ h) = some s.header := by
  obtain ⟨i, h1, h2, _⟩ := generated_nodes hu hs hops hr hm hh hl
  have hne : prj.includePrefix ++ h ≠ [] := by obtain ⟨_, _, _, rfl⟩ := hh; simp
  simp only [Project.searchDirs, Fs.include]
  rw [read_file (hr.sound hs).1.tree hne h1, h2]

/-- **C94.** So does `#include` of the source file itself. -/
theorem source_found {prj : Project} {sources : List SourceFile} {runtime : List Nat} {ops : List (Op × Bool)}
    {oks : List Bool} {fs fs' : Fs} (hu : prj.Usual sources) (hs : Sound fs)
    (hops : prj.buildOps runtime sources = some ops) (hr : Ran fs ops oks fs') {s : SourceFile} (hm : s ∈ sources)
    {h : List Name} (hh : HeaderOf s.rel h)
    (hl : ∀ q, fs.node (prj.includeDir ++ (prj.includePrefix ++ h)) ≠ some (.link q)) (others : List Place) :
    fs'.include (prj.searchDirs others) (prj.includePrefix ++ s.rel) = some s.header := by
  obtain ⟨i, h1, h2, h3⟩ := generated_nodes hu hs hops hr hm hh hl
  have hne : prj.includePrefix ++ s.rel ≠ [] := by obtain ⟨_, _, e, _⟩ := hh; simp [e]
  simp only [Project.searchDirs, Fs.include]
  rw [read_link (hr.sound hs).1.tree hne h3 h1, h2]

/-! ### The header of the library -/

theorem cc_not_runtime {rest : List Name} {name : Name} : ¬ rest ++ [name ++ ".cc".toList] <+: runtimePath := by
  have hlast : ∀ m : Name, name ++ ".cc".toList = m → m.getLast? = some 'c' := by
    intro m hm; rw [← hm]; simp
  intro h
  have hm : name ++ ".cc".toList ∈ runtimePath := h.subset (by simp)
  simp only [runtimePath, List.mem_cons, List.not_mem_nil, or_false] at hm
  rcases hm with hm | hm
  · exact absurd (hlast _ hm) (by decide)
  · exact absurd (hlast _ hm) (by decide)

/-- All calls write below the two directories. -/
theorem place_below {prj : Project} {runtime : List Nat} {sources : List SourceFile} {ops : List (Op × Bool)}
    (hops : prj.buildOps runtime sources = some ops) {o : Op × Bool} (ho : o ∈ ops) :
    prj.outDir ++ ["cxxbridge".toList] <+: o.1.place ∨ prj.sharedDir <+: o.1.place := by
  unfold Project.buildOps at hops
  obtain ⟨bs, hb, rfl⟩ := Option.map_eq_some_iff.1 hops
  rcases List.mem_append.1 ho with ho | ho
  · rcases List.mem_append.1 ho with ho | ho
    · unfold Project.crateOps at ho
      split at ho
      · simp at ho
      · next hne =>
        simp only [List.mem_singleton] at ho
        subst ho
        simp only [Op.place, Project.crateDir, if_neg hne]
        exact .inl (by rw [List.append_assoc]; exact List.prefix_append _ _)
    · have h1 : prj.outDir ++ ["cxxbridge".toList] <+: prj.includeDir ++ ["rust".toList] ++ ["cxx.h".toList] := by
        unfold Project.includeDir; rw [List.append_assoc, List.append_assoc _ ["include".toList]]; exact List.prefix_append _ _
      have h2 : prj.sharedDir <+: prj.sharedDir ++ ["rust".toList] ++ ["cxx.h".toList] := by
        rw [List.append_assoc]; exact List.prefix_append _ _
      unfold Project.includeOps at ho
      split at ho
      all_goals
        simp only [List.mem_cons, List.not_mem_nil, or_false] at ho
        rcases ho with rfl | rfl <;> first | exact .inl h1 | exact .inr h2
  · obtain ⟨s, _, hp⟩ := bridges_place hb ho
    revert hp
    generalize o.1.place = p
    intro hp
    cases hp with
    | included h => unfold Project.includeDir; exact .inl (by rw [List.append_assoc]; exact List.prefix_append _ _)
    | compiled rest => exact .inl (by rw [List.append_assoc]; exact List.prefix_append _ _)
    | shared h => exact .inr (List.prefix_append _ _)
    | sharedSource rest name => exact .inr (List.prefix_append _ _)

theorem outside_apart {prj : Project} {runtime : List Nat} {sources : List SourceFile} {ops : List (Op × Bool)}
    (hops : prj.buildOps runtime sources = some ops) {o : Op × Bool} (ho : o ∈ ops) {q : Place} (hq : prj.Outside q) :
    ¬ o.1.place <+: q := by
  intro h
  rcases place_below hops ho with h' | h'
  · exact hq.1 (h'.trans h)
  · exact hq.2 (h'.trans h)

theorem shared_runtime_apart {prj : Project} (hsh : Apart (prj.outDir ++ ["cxxbridge".toList]) prj.sharedDir) {rel : List Name}
    (hrt : ∀ p, Names prj.includePrefix rel p → Apart p runtimePath) {p : Place} (h : BridgePlace prj rel p) :
    ¬ p <+: prj.sharedDir ++ runtimePath := by
  cases h with
  | included h => unfold Project.includeDir; rw [List.append_assoc]; exact (not_prefix_dirs hsh).1
  | compiled rest => rw [List.append_assoc]; exact (not_prefix_dirs hsh).1
  | shared h => rw [List.prefix_append_right_inj]; exact (hrt _ h).1
  | sharedSource rest name => rw [List.prefix_append_right_inj]; exact cc_not_runtime

/-- **C94.** After a build, `#include <rust/cxx.h>` finds the header of the library, unless another crate provides one. -/
theorem runtime_found {prj : Project} {sources : List SourceFile} {runtime : List Nat} {ops : List (Op × Bool)}
    {oks : List Bool} {fs fs' : Fs} (hu : prj.Usual sources) (hs : Sound fs)
    (hops : prj.buildOps runtime sources = some ops) (hr : Ran fs ops oks fs') (hdep : prj.depHeader = none)
    (hl : ∀ q, fs.node (prj.sharedDir ++ runtimePath) = some (.link q) → prj.Outside q ∧ ∃ i, fs.node q = some (.file i))
    (others : List Place) : fs'.include (prj.searchDirs others) runtimePath = some runtime := by
  have hout := @outside_apart prj runtime sources ops hops
  have hops' := hops
  unfold Project.buildOps at hops
  obtain ⟨bs, hb, rfl⟩ := Option.map_eq_some_iff.1 hops
  have sh' := (hr.sound hs).1
  have ei : prj.includeOps runtime = [(.write (prj.sharedDir ++ runtimePath) runtime, true),
      (.link (prj.includeDir ++ runtimePath) (prj.sharedDir ++ runtimePath), true)] := by
    simp [Project.includeOps, hdep, runtimePath]
  rw [ei] at hr hout
  rw [List.append_assoc] at hr
  obtain ⟨m, q1, q2, r1, r2⟩ := hr.split
  have sm := (r1.sound hs).1
  have crate_apart : ∀ o ∈ prj.crateOps, ¬ o.1.place <+: prj.sharedDir ++ runtimePath := by
    intro o ho
    unfold Project.crateOps at ho
    split at ho
    · simp at ho
    · next hne =>
      simp only [List.mem_singleton] at ho
      subst ho
      simp only [Op.place, Project.crateDir, if_neg hne]
      rw [List.append_assoc]; exact (not_prefix_dirs hu.shared).1
  have hlm : ∀ q, m.node (prj.sharedDir ++ runtimePath) = some (.link q) →
      prj.Outside q ∧ ∃ i, m.node q = some (.file i) := by
    intro q hq
    rcases r1.only hs (prj.sharedDir ++ runtimePath) (fun o ho e => crate_apart o ho (e ▸ List.prefix_refl _)) with e | e | e
    · rw [e] at hq
      obtain ⟨h1, i, h2⟩ := hl q hq
      exact ⟨h1, i, (r1.keeps_file hs (fun o ho => hout (by simp [ho]) h1) h2).1⟩
    · rw [e] at hq; cases hq
    · rw [e] at hq; cases hq
  simp only [List.cons_append, List.nil_append] at r2
  obtain ⟨f, ok, q3, ef, lf, hok, r3⟩ := Ran.head sm r2
  obtain ⟨hc, hf⟩ := lf (hok rfl)
  obtain ⟨r, i, hr0, hri, hrd⟩ : ∃ r i, (r = prj.sharedDir ++ runtimePath ∨
      f.node (prj.sharedDir ++ runtimePath) = some (.link r) ∧ prj.Outside r) ∧ f.node r = some (.file i) ∧
      f.data i = runtime := by
    by_cases hlink : ∃ q, f.node (prj.sharedDir ++ runtimePath) = some (.link q)
    · obtain ⟨q, hq⟩ := hlink
      rcases hf with rfl | ⟨i, hi⟩
      · obtain ⟨h1, i, h2⟩ := hlm q hq
        refine ⟨q, i, .inr ⟨hq, h1⟩, h2, ?_⟩
        unfold Fs.contents Fs.lookup at hc
        rw [target_link hq, target_self' (by simp [h2])] at hc
        simpa [h2] using hc
      · rw [hi] at hq; cases hq
    · obtain ⟨i, h1, h2⟩ := contents_file (fun q hq => hlink ⟨q, hq⟩) hc
      exact ⟨_, i, .inl rfl, h1, h2⟩
  have bridges_apart : ∀ o ∈ bs, ¬ o.1.place <+: prj.includeDir ++ runtimePath ∧ ¬ o.1.place <+: prj.sharedDir ++ runtimePath := by
    intro o ho
    obtain ⟨t, ht, hp⟩ := bridges_place hb ho
    exact ⟨apart_included hu.shared (fun p hp => (hu.runtime t ht p hp).1) hp, shared_runtime_apart hu.shared (hu.runtime t ht) hp⟩
  have rest_shared : ∀ o ∈ (Op.link (prj.includeDir ++ runtimePath) (prj.sharedDir ++ runtimePath), true) :: bs,
      ¬ o.1.place <+: prj.sharedDir ++ runtimePath := by
    intro o ho
    rcases List.mem_cons.1 ho with rfl | ho
    · simp only [Op.place, Project.includeDir]
      rw [List.append_assoc (prj.outDir ++ _)]; exact (not_prefix_dirs hu.shared).1
    · exact (bridges_apart o ho).2
  have kr := r3.keeps_file ef.sound (fun o ho => by
    rcases hr0 with rfl | ⟨_, h⟩
    · exact rest_shared o ho
    · refine hout ?_ h
      rcases List.mem_cons.1 ho with rfl | ho
      · simp
      · simp [ho]) hri
  obtain ⟨f1, ok1, q4, ef1, lf1, hok1, r4⟩ := Ran.head ef.sound r3
  have hn1 := lf1.2.1 (hok1 rfl)
  have ki : fs'.node (prj.includeDir ++ runtimePath) = some (.link (prj.sharedDir ++ runtimePath)) := by
    rw [r4.keeps ef1.sound _ (fun o ho => (bridges_apart o ho).1) (by simp [hn1]), hn1]
  have hread : fs'.read prj.includeDir runtimePath = some runtime := by
    unfold Fs.read
    rw [walk_plain sh'.tree (by decide) (by simp [ki]), target_link ki]
    rcases hr0 with rfl | ⟨h, _⟩
    · rw [target_self' (by simp [kr.1])]
      simp [kr.1, kr.2, hrd]
    · have ks := r3.keeps ef.sound _ rest_shared (by simp [h])
      rw [h] at ks
      rw [target_link ks, target_self' (by simp [kr.1])]
      simp [kr.1, kr.2, hrd]
  simp only [Project.searchDirs, Fs.include, hread]

/-- **C94.** If the `cxx` crate provides its header, that one is found. -/
theorem runtime_found_dep {prj : Project} {sources : List SourceFile} {runtime : List Nat} {ops : List (Op × Bool)}
    {oks : List Bool} {fs fs' : Fs} (hu : prj.Usual sources) (hs : Sound fs)
    (hops : prj.buildOps runtime sources = some ops) (hr : Ran fs ops oks fs') {original : Place}
    (hdep : prj.depHeader = some original) (hout : prj.Outside original) {i : Nat} (hi : fs.node original = some (.file i))
    (others : List Place) : fs'.include (prj.searchDirs others) runtimePath = some (fs.data i) := by
  have ho := @outside_apart prj runtime sources ops hops
  have ko := hr.keeps_file hs (fun o h => ho h hout) hi
  unfold Project.buildOps at hops
  obtain ⟨bs, hb, rfl⟩ := Option.map_eq_some_iff.1 hops
  have sh' := (hr.sound hs).1
  have ei : prj.includeOps runtime = [(.link (prj.includeDir ++ runtimePath) original, true),
      (.link (prj.sharedDir ++ runtimePath) original, true)] := by
    simp [Project.includeOps, hdep, runtimePath]
  rw [ei, List.append_assoc] at hr
  obtain ⟨m, q1, q2, r1, r2⟩ := hr.split
  simp only [List.cons_append, List.nil_append] at r2
  obtain ⟨f, ok, q3, ef, lf, hok, r3⟩ := Ran.head (r1.sound hs).1 r2
  have hn := lf.2.1 (hok rfl)
  have ki : fs'.node (prj.includeDir ++ runtimePath) = some (.link original) := by
    rw [r3.keeps ef.sound _ (fun o ho => by
      rcases List.mem_cons.1 ho with rfl | ho
      · exact shared_apart hu.shared
      · obtain ⟨t, ht, hp⟩ := bridges_place hb ho
        exact apart_included hu.shared (fun p hp => (hu.runtime t ht p hp).1) hp) (by simp [hn]), hn]
  simp only [Project.searchDirs, Fs.include, read_link sh'.tree (by decide) ki ko.1, ko.2]

/-! ### Other headers -/

theorem read_dirs {fs : Fs} {d : Place} {path : List Name} (hp : path ≠ [])
    (h : ∀ a b, path = a ++ b → a ≠ [] → fs.node (d ++ a) = none ∨ fs.node (d ++ a) = some .dir) : fs.read d path = none := by
  have hw : ∀ (path : List Name) (d : Place),
      (∀ a b, path = a ++ b → a ≠ [] → fs.node (d ++ a) = none ∨ fs.node (d ++ a) = some .dir) →
      fs.walk d path = some (d ++ path) := by
    intro path
    induction path with
    | nil => intro d _; simp [Fs.walk]
    | cons n ns ih =>
      intro d h
      have h1 := h [n] ns rfl (by simp)
      unfold Fs.walk
      rw [target_self (fun q hq => by rcases h1 with e | e <;> rw [e] at hq <;> cases hq)]
      simp only
      rw [ih (d ++ [n]) (fun a b e ha => by simpa using h (n :: a) b (by rw [e]; rfl) (by simp))]
      simp
  unfold Fs.read
  rw [hw path d h]
  rcases h path [] (by simp) hp with e | e <;> simp [e]

theorem ops_apart_included {prj : Project} {runtime : List Nat} {sources : List SourceFile} {ops : List (Op × Bool)}
    (hsh : Apart (prj.outDir ++ ["cxxbridge".toList]) prj.sharedDir)
    (hops : prj.buildOps runtime sources = some ops) {path : List Name}
    (hn : ∀ s ∈ sources, ∀ p, Names prj.includePrefix s.rel p → ¬ p <+: path) (hrt : ¬ runtimePath <+: path)
    {o : Op × Bool} (ho : o ∈ ops) : ¬ o.1.place <+: prj.includeDir ++ path := by
  unfold Project.buildOps at hops
  obtain ⟨bs, hb, rfl⟩ := Option.map_eq_some_iff.1 hops
  rcases List.mem_append.1 ho with ho | ho
  · exact start_apart hsh hrt ho
  · obtain ⟨t, ht, hp⟩ := bridges_place hb ho
    exact apart_included hsh (hn t ht) hp

theorem includeDir_below (prj : Project) (path : List Name) :
    prj.outDir ++ ["cxxbridge".toList] <+: prj.includeDir ++ path := by
  unfold Project.includeDir; rw [List.append_assoc]; exact List.prefix_append _ _

/-- The directory for generated headers has nothing else. -/
theorem fresh_read {prj : Project} {sources : List SourceFile} {runtime : List Nat} {ops : List (Op × Bool)}
    {oks : List Bool} {fs fs' : Fs} (hu : prj.Usual sources) (hs : Sound fs)
    (hops : prj.buildOps runtime sources = some ops) (hr : Ran fs ops oks fs') (hf : prj.Fresh fs) {path : List Name}
    (hne : path ≠ []) (hn : ∀ s ∈ sources, ∀ p, Names prj.includePrefix s.rel p → ¬ p <+: path)
    (hrt : ¬ runtimePath <+: path) : fs'.read prj.includeDir path = none := by
  refine read_dirs hne fun a b e ha => ?_
  have hab : a <+: path := ⟨b, e.symm⟩
  rcases hr.only hs (prj.includeDir ++ a) (fun o ho e => by
    exact ops_apart_included hu.shared hops (fun s hs p hp h => hn s hs p hp (h.trans hab)) (fun h => hrt (h.trans hab)) ho
      (e ▸ List.prefix_refl _)) with h | h
  · exact .inl (h.trans (hf _ (includeDir_below prj a)))
  · exact h

theorem crate_link {prj : Project} {sources : List SourceFile} {runtime : List Nat} {ops : List (Op × Bool)}
    {oks : List Bool} {fs fs' : Fs} (hu : prj.Usual sources) (hs : Sound fs)
    (hops : prj.buildOps runtime sources = some ops) (hr : Ran fs ops oks fs') (hf : prj.Fresh fs)
    (hd : fs.node prj.outDir = some .dir) (hp : prj.includePrefix ≠ []) :
    fs'.node (prj.crateDir ++ prj.includePrefix) = some (.link prj.manifestDir) := by
  unfold Project.buildOps at hops
  obtain ⟨bs, hb, rfl⟩ := Option.map_eq_some_iff.1 hops
  have ec : prj.crateOps = [(.link (prj.crateDir ++ prj.includePrefix) prj.manifestDir, false)] := by
    simp [Project.crateOps, hp]
  have ecd : prj.crateDir = prj.outDir ++ ["cxxbridge".toList] ++ ["crate".toList] := by simp [Project.crateDir, hp]
  rw [ec] at hr
  simp only [List.cons_append, List.nil_append] at hr
  obtain ⟨f, ok, q3, ef, lf, hok, r⟩ := Ran.head hs hr
  have hbelow : prj.outDir ++ ["cxxbridge".toList] <+: prj.crateDir ++ prj.includePrefix := by
    rw [ecd, List.append_assoc]; exact List.prefix_append _ _
  have hn : f.node (prj.crateDir ++ prj.includePrefix) = some (.link prj.manifestDir) := by
    refine lf.2.1 (lf.2.2.2 (by simp [hp]) (hf _ hbelow) fun q hq hne => ?_)
    rcases List.prefix_or_prefix_of_prefix hq hbelow with h | h
    · rw [List.prefix_concat_iff] at h
      rcases h with rfl | h
      · exact .inl (hf _ (List.prefix_refl _))
      · refine .inr ?_
        obtain ⟨x, hx⟩ := h
        by_cases hx0 : x = []
        · subst hx0; simp at hx; rw [hx]; exact hd
        · exact tree_up hs.tree hx0 (by rw [hx]; simp [hd])
    · exact .inl (hf _ h)
  rw [r.keeps ef.sound _ (fun o ho => ?_) (by simp [hn]), hn]
  rw [ecd]
  rcases List.mem_append.1 ho with ho | ho
  · have h1 : ¬ prj.includeDir ++ ["rust".toList] ++ ["cxx.h".toList] <+:
        prj.outDir ++ ["cxxbridge".toList] ++ ["crate".toList] ++ prj.includePrefix := by
      unfold Project.includeDir
      rw [List.append_assoc (_ ++ ["include".toList])]
      exact not_prefix_names (by decide)
    have h2 : ¬ prj.sharedDir ++ ["rust".toList] ++ ["cxx.h".toList] <+:
        prj.outDir ++ ["cxxbridge".toList] ++ ["crate".toList] ++ prj.includePrefix := by
      rw [List.append_assoc prj.sharedDir, List.append_assoc _ ["crate".toList]]; exact (not_prefix_dirs hu.shared).2
    unfold Project.includeOps at ho
    split at ho
    all_goals
      simp only [List.mem_cons, List.not_mem_nil, or_false] at ho
      rcases ho with rfl | rfl <;> first | exact h1 | exact h2
  · obtain ⟨s, _, hp⟩ := bridges_place hb ho
    revert hp
    generalize o.1.place = p
    intro hp
    cases hp with
    | included h => unfold Project.includeDir; exact not_prefix_names (by decide)
    | compiled rest => exact not_prefix_names (by decide)
    | shared h => rw [List.append_assoc _ ["crate".toList]]; exact (not_prefix_dirs hu.shared).2
    | sharedSource rest name => rw [List.append_assoc _ ["crate".toList]]; exact (not_prefix_dirs hu.shared).2

/-- **C94.** After the first build in an output directory, a file of the crate is found under its path in the crate, with the
include prefix in front, unless a generated header has the same name. -/
theorem own_found_partial {prj : Project} {sources : List SourceFile} {runtime : List Nat} {ops : List (Op × Bool)}
    {oks : List Bool} {fs fs' : Fs} (hu : prj.Usual sources) (hs : Sound fs)
    (hops : prj.buildOps runtime sources = some ops) (hr : Ran fs ops oks fs') (hf : prj.Fresh fs)
    (hd : fs.node prj.outDir = some .dir) {path : List Name} (hne : path ≠ []) {i : Nat}
    (hi : fs.node (prj.manifestDir ++ path) = some (.file i)) (hout : prj.Outside (prj.manifestDir ++ path))
    (hn : ∀ s ∈ sources, ∀ p, Names prj.includePrefix s.rel p → ¬ p <+: prj.includePrefix ++ path)
    (hrt : ¬ runtimePath <+: prj.includePrefix ++ path) (others : List Place) :
    fs'.include (prj.searchDirs others) (prj.includePrefix ++ path) = some (fs.data i) := by
  have st := (hr.sound hs).1.tree
  have k := hr.keeps_file hs (fun o ho => outside_apart hops ho hout) hi
  have hread : fs'.read prj.crateDir (prj.includePrefix ++ path) = some (fs.data i) := by
    by_cases hp : prj.includePrefix = []
    · have hc : prj.crateDir = prj.manifestDir := by simp [Project.crateDir, hp]
      rw [hp, List.nil_append, hc, read_file st hne k.1, k.2]
    · have hl := crate_link hu hs hops hr hf hd hp
      have hm : fs'.node prj.manifestDir = some .dir := tree_up st hne (by simp [k.1])
      unfold Fs.read
      rw [walk_append, walk_plain st hp (by simp [hl]), target_link hl, target_self' (by simp [hm])]
      simp only [Option.bind_some]
      rw [walk_plain st hne (by simp [k.1]), target_self (by simp [k.1])]
      simp [k.1, k.2]
  simp only [Project.searchDirs, Fs.include, fresh_read hu hs hops hr hf (by simp [hne]) hn hrt, hread]

/-- **C94.** After the first build, a path that starts neither with the include prefix nor with `rust` is looked for in the
directories of other crates only.  Missing: output directories that were used before, perhaps with another prefix. -/
theorem foreign_found_partial {prj : Project} {sources : List SourceFile} {runtime : List Nat} {ops : List (Op × Bool)}
    {oks : List Bool} {fs fs' : Fs} (hu : prj.Usual sources) (hs : Sound fs)
    (hops : prj.buildOps runtime sources = some ops) (hr : Ran fs ops oks fs') (hf : prj.Fresh fs)
    (hp : prj.includePrefix ≠ []) {first : Name} (hfirst : prj.includePrefix.head? ≠ some first) (hrust : first ≠ "rust".toList)
    (path : List Name) (others : List Place) :
    fs'.include (prj.searchDirs others) (first :: path) = fs'.include others (first :: path) := by
  have st := (hr.sound hs).1.tree
  have hnames : ∀ s ∈ sources, ∀ p, Names prj.includePrefix s.rel p → ¬ [first] <+: p := by
    intro s _ p hn hc
    obtain ⟨a, l, e⟩ := List.exists_cons_of_ne_nil hp
    rw [e] at hfirst hn
    have : ∀ x, ¬ [first] <+: (a :: l) ++ x := by
      intro x hx
      rw [List.cons_append, List.cons_prefix_cons] at hx
      exact hfirst (by simp [hx.1])
    rcases hn with rfl | ⟨h, _, rfl⟩
    · exact this _ hc
    · exact this _ hc
  have hcd : prj.crateDir = prj.outDir ++ ["cxxbridge".toList] ++ ["crate".toList] := by simp [Project.crateDir, hp]
  have key : ∀ o ∈ ops, ¬ prj.includeDir ++ [first] <+: o.1.place ∧ ¬ prj.crateDir ++ [first] <+: o.1.place := by
    intro o ho
    unfold Project.buildOps at hops
    obtain ⟨bs, hb, rfl⟩ := Option.map_eq_some_iff.1 hops
    rw [hcd]
    unfold Project.includeDir
    rcases List.mem_append.1 ho with ho | ho
    · rcases List.mem_append.1 ho with ho | ho
      · simp only [Project.crateOps, hp, if_false, List.mem_singleton] at ho
        subst ho
        simp only [Op.place, hcd]
        refine ⟨not_prefix_names (by decide), ?_⟩
        rw [List.prefix_append_right_inj]
        obtain ⟨a, l, e⟩ := List.exists_cons_of_ne_nil hp
        rw [e] at hfirst ⊢
        rw [List.cons_prefix_cons]
        exact fun h => hfirst (by simp [h.1])
      · have h1 : ¬ prj.outDir ++ ["cxxbridge".toList] ++ ["include".toList] ++ [first] <+:
            prj.includeDir ++ ["rust".toList] ++ ["cxx.h".toList] := by
          unfold Project.includeDir
          rw [List.append_assoc (_ ++ ["include".toList]), List.prefix_append_right_inj]
          simp only [List.cons_append, List.nil_append, List.cons_prefix_cons]
          exact fun h => hrust h.1
        have h2 : ¬ prj.outDir ++ ["cxxbridge".toList] ++ ["crate".toList] ++ [first] <+:
            prj.includeDir ++ ["rust".toList] ++ ["cxx.h".toList] := by
          unfold Project.includeDir
          rw [List.append_assoc (_ ++ ["include".toList])]
          exact not_prefix_names (by decide)
        have h3 : ∀ x, ¬ prj.outDir ++ ["cxxbridge".toList] ++ [x] ++ [first] <+:
            prj.sharedDir ++ ["rust".toList] ++ ["cxx.h".toList] := by
          intro x
          rw [List.append_assoc prj.sharedDir, List.append_assoc _ [x]]; exact (not_prefix_dirs hu.shared).1
        unfold Project.includeOps at ho
        split at ho
        all_goals
          simp only [List.mem_cons, List.not_mem_nil, or_false] at ho
          rcases ho with rfl | rfl <;> first | exact ⟨h1, h2⟩ | exact ⟨h3 _, h3 _⟩
    · obtain ⟨s, hs, hpl⟩ := bridges_place hb ho
      revert hpl
      generalize o.1.place = p
      intro hpl
      cases hpl with
      | included h =>
        unfold Project.includeDir
        refine ⟨?_, not_prefix_names (by decide)⟩
        rw [List.prefix_append_right_inj]
        exact hnames s hs _ h
      | compiled rest => exact ⟨not_prefix_names (by decide), not_prefix_names (by decide)⟩
      | shared h =>
        constructor
        · rw [List.append_assoc _ ["include".toList]]; exact (not_prefix_dirs hu.shared).1
        · rw [List.append_assoc _ ["crate".toList]]; exact (not_prefix_dirs hu.shared).1
      | sharedSource rest name =>
        constructor
        · rw [List.append_assoc _ ["include".toList]]; exact (not_prefix_dirs hu.shared).1
        · rw [List.append_assoc _ ["crate".toList]]; exact (not_prefix_dirs hu.shared).1
  have hi : fs'.node (prj.includeDir ++ [first]) = none :=
    hr.nothing hs _ (fun o ho => (key o ho).1) (hf _ (includeDir_below prj _))
  have hc : fs'.node (prj.crateDir ++ [first]) = none :=
    hr.nothing hs _ (fun o ho => (key o ho).2) (hf _ (by rw [hcd, List.append_assoc]; exact List.prefix_append _ _))
  simp only [Project.searchDirs, Fs.include, read_nothing st hi, read_nothing st hc]

/-! ### A build, and a build after another -/

/-- A file system that lists what is there. -/
def listed (entries : List (Place × Node)) (data : Nat → List Nat) (next : Nat) : Fs :=
  ⟨fun p => entries.lookup p, data, fun _ => 0, next⟩

theorem lookup_mem {entries : List (Place × Node)} {p : Place} {v : Node} (h : entries.lookup p = some v) : (p, v) ∈ entries := by
  induction entries with
  | nil => cases h
  | cons e entries ih =>
    obtain ⟨k, w⟩ := e
    rw [List.lookup_cons] at h
    split at h
    · next hk => simp at hk; cases h; subst hk; exact List.mem_cons_self ..
    · exact List.mem_cons_of_mem _ (ih h)

theorem listed_sound {entries : List (Place × Node)} {data : Nat → List Nat} {next : Nat}
    (h : ∀ e ∈ entries, (e.1 = [] ∨ entries.lookup e.1.dropLast = some .dir) ∧ ∀ i, e.2 = .file i → i < next) :
    Sound (listed entries data next) := by
  refine ⟨fun q n hq => ?_, fun q i hq => ?_⟩
  · cases hv : (listed entries data next).node (q ++ [n]) with
    | none => exact absurd hv hq
    | some v =>
      have := (h _ (lookup_mem hv)).1
      simpa [listed] using this
  · exact (h _ (lookup_mem hq)).2 i rfl

/-- All calls one after the other, with enough time for each. -/
def exec (evs : List Ev) : Fs → List (Op × Bool) → Fs × List (Option Bool)
  | fs, [] => (fs, [])
  | fs, o :: ops =>
    let r := o.1.run fs evs
    let rest := exec evs r.1 ops
    (rest.1, r.2 :: rest.2)

theorem exec_ran {evs : List Ev} (he : Smooth evs) {ops : List (Op × Bool)} : ∀ {fs : Fs} {oks : List Bool},
    (exec evs fs ops).2 = oks.map some → (∀ x ∈ ops.zip oks, x.1.2 = true → x.2 = true) →
    Ran fs ops oks (exec evs fs ops).1 := by
  induction ops with
  | nil =>
    intro fs oks h _
    cases oks with
    | nil => exact .nil _
    | cons _ _ => cases h
  | cons o ops ih =>
    intro fs oks h hm
    cases oks with
    | nil => cases h
    | cons ok oks =>
      simp only [exec, List.map_cons, List.cons.injEq] at h
      have hr := ih (fs := (o.1.run fs evs).1) h.2 (fun x hx => hm x (by simp [hx]))
      refine Ran.cons (op := o.1) (must := o.2) evs he (Prod.ext rfl h.1) (fun hmust => ?_) hr
      exact hm ((o.1, o.2), ok) (by simp) hmust

namespace Demo

def n (s : String) : Name := s.toList

/-- A crate in `/m` with a bridge in `src/lib.rs` and a header of its own. -/
def prj : Project := ⟨[n "demo"], [n "m"], [n "o"], [n "s"], none⟩

def lib : SourceFile := ⟨[n "src", n "lib.rs"], [1, 2, 3], [4, 5]⟩

def entries : List (Place × Node) :=
  [([], .dir), ([n "m"], .dir), ([n "m", n "src"], .dir), ([n "m", n "src", n "lib.rs"], .file 0),
   ([n "m", n "src", n "own.h"], .file 1), ([n "o"], .dir)]

def before : Fs := listed entries (fun i => if i = 1 then [7] else [9]) 2

def evs : List Ev := List.replicate 9 (.go 20)

theorem evs_smooth : Smooth evs := by
  intro e he
  rw [List.mem_replicate.1 he |>.2]
  simp

def ops : List (Op × Bool) := (prj.buildOps [8, 8] [lib]).getD []

theorem ops_eq : prj.buildOps [8, 8] [lib] = some ops := by decide +kernel

theorem before_sound : Sound before := listed_sound (by
  intro e he
  simp only [entries, List.mem_cons, List.not_mem_nil, or_false] at he
  rcases he with rfl | rfl | rfl | rfl | rfl | rfl
  · exact ⟨by decide +kernel, fun i h => by cases h⟩
  · exact ⟨by decide +kernel, fun i h => by cases h⟩
  · exact ⟨by decide +kernel, fun i h => by cases h⟩
  · exact ⟨by decide +kernel, fun i h => by cases h; decide⟩
  · exact ⟨by decide +kernel, fun i h => by cases h; decide⟩
  · exact ⟨by decide +kernel, fun i h => by cases h⟩)

theorem ran : Ran before ops [true, true, true, true, true, true, true, true] (exec evs before ops).1 :=
  exec_ran evs_smooth (by decide +kernel) (by decide +kernel)

theorem header_eq {h : List Name} (hh : HeaderOf lib.rel h) : h = [n "src", n "lib.rs.h"] :=
  header_unique hh ⟨[n "src"], n "lib.rs", rfl, by decide +kernel⟩

theorem usual : prj.Usual [lib] := by
  refine ⟨by decide +kernel, by simp, fun s hs p hp => ?_⟩
  simp only [List.mem_singleton] at hs
  subst hs
  rcases hp with rfl | ⟨h, hh, rfl⟩
  · decide +kernel
  · rw [header_eq hh]; decide +kernel

theorem lookup_nil {entries : List (Place × Node)} {q : Place} (h : ∀ e ∈ entries, e.1 ≠ q) : entries.lookup q = none := by
  cases hv : entries.lookup q with
  | none => rfl
  | some v => exact absurd rfl (h _ (lookup_mem hv))

theorem fresh : prj.Fresh before := by
  intro q hq
  refine lookup_nil fun e he => ?_
  have : ∀ e ∈ entries, ¬ prj.outDir ++ ["cxxbridge".toList] <+: e.1 := by decide +kernel
  exact fun h => this e he (h ▸ hq)

/-- The hypotheses of the theorems are met, and the files are found. -/
example : (exec evs before ops).1.include (prj.searchDirs []) [n "demo", n "src", n "lib.rs.h"] = some [1, 2, 3] :=
  header_found usual before_sound ops_eq ran (s := lib) (by simp) ⟨[n "src"], n "lib.rs", rfl, by decide +kernel⟩
    (h := [n "src", n "lib.rs.h"])
    (by rw [show before.node _ = none from by decide +kernel]; intro q h; cases h) []

example : (exec evs before ops).1.include (prj.searchDirs []) [n "demo", n "src", n "lib.rs"] = some [1, 2, 3] :=
  source_found usual before_sound ops_eq ran (s := lib) (by simp) ⟨[n "src"], n "lib.rs", rfl, by decide +kernel⟩
    (h := [n "src", n "lib.rs.h"])
    (by rw [show before.node _ = none from by decide +kernel]; intro q h; cases h) []

example : (exec evs before ops).1.include (prj.searchDirs []) runtimePath = some [8, 8] :=
  runtime_found usual before_sound ops_eq ran rfl
    (by rw [show before.node _ = none from by decide +kernel]; intro q h; cases h) []

example : (exec evs before ops).1.include (prj.searchDirs []) [n "demo", n "src", n "own.h"] = some [7] :=
  own_found_partial usual before_sound ops_eq ran fresh (by decide +kernel) (path := [n "src", n "own.h"]) (i := 1) (by simp)
    (by decide +kernel) (by constructor <;> decide +kernel)
    (fun s hs p hp => by
      simp only [List.mem_singleton] at hs
      subst hs
      rcases hp with rfl | ⟨h, hh, rfl⟩
      · decide +kernel
      · rw [header_eq hh]; decide +kernel) (by decide +kernel) []

/-- The same with a header that the `cxx` crate provides. -/
def prjDep : Project := { prj with depHeader := some [n "m", n "src", n "own.h"] }

example : ∃ ops oks fs', prjDep.buildOps [8, 8] [lib] = some ops ∧ Ran before ops oks fs' ∧
    prjDep.Outside [n "m", n "src", n "own.h"] :=
  ⟨(prjDep.buildOps [8, 8] [lib]).getD [], [true, true, true, true, true, true, true, true], _, by decide +kernel,
    exec_ran evs_smooth (by decide +kernel) (by decide +kernel), by constructor <;> decide +kernel⟩

example (d : Place) : (exec evs before ops).1.include (prj.searchDirs [d]) [n "other", n "x.h"] =
    (exec evs before ops).1.include [d] [n "other", n "x.h"] :=
  foreign_found_partial usual before_sound ops_eq ran fresh (by decide) (by decide) (by decide) _ _

/-- The crate later: the bridge is gone, and the user has written `src/lib.rs.h` themselves. -/
def later : Fs :=
  listed (entries ++ [([n "m", n "src", n "lib.rs.h"], .file 2), ([n "o", n "cxxbridge"], .dir),
    ([n "o", n "cxxbridge", n "include"], .dir), ([n "o", n "cxxbridge", n "include", n "demo"], .dir),
    ([n "o", n "cxxbridge", n "include", n "demo", n "src"], .dir),
    ([n "o", n "cxxbridge", n "include", n "demo", n "src", n "lib.rs.h"], .file 3)])
    (fun i => if i = 2 then [6, 6] else if i = 3 then [1, 2, 3] else [9]) 4

def opsLater : List (Op × Bool) := (prj.buildOps [8, 8] []).getD []

end Demo

open Demo in
/-- **C94.** In an output directory that was used before, a header that is no longer generated hides the file of the crate
with the same name.  (A file or link that an earlier build has made is never removed.) -/
theorem stale_header : Sound later ∧ ∃ ops oks fs', prj.buildOps [8, 8] [] = some ops ∧ Ran later ops oks fs' ∧
    later.node (prj.manifestDir ++ [n "src", n "lib.rs.h"]) = some (.file 2) ∧ later.data 2 = [6, 6] ∧
    fs'.include (prj.searchDirs []) (prj.includePrefix ++ [n "src", n "lib.rs.h"]) = some [1, 2, 3] := by
  refine ⟨listed_sound ?_, opsLater, [true, true, true], (exec evs later opsLater).1, by decide +kernel,
    exec_ran evs_smooth (by decide +kernel) (by decide +kernel), by decide +kernel, by decide +kernel, by decide +kernel⟩
  intro e he
  refine ⟨?_, ?_⟩
  · revert e; decide +kernel
  · intro i hi
    simp only [entries, List.cons_append, List.nil_append, List.mem_cons, List.not_mem_nil, or_false] at he
    rcases he with rfl | rfl | rfl | rfl | rfl | rfl | rfl | rfl | rfl | rfl | rfl | rfl <;> cases hi <;> decide

end Verif.Build
