import Verif.Build.CopySpec
import Verif.Build.IncludeProps
/-!
# Without symbolic links the headers of a crate are found as well (C98)
-/
namespace Verif.Build

/-! ### Names -/

theorem takeWhile_stop {l r : List Char} {c : Char} (hl : ∀ x ∈ l, x ≠ c) : (l ++ c :: r).takeWhile (· ≠ c) = l := by
  induction l with
  | nil => simp
  | cons x l ih => simpa [hl x (by simp)] using ih (fun y hy => hl y (by simp [hy]))

theorem dropWhile_stop {l r : List Char} {c : Char} (hl : ∀ x ∈ l, x ≠ c) : (l ++ c :: r).dropWhile (· ≠ c) = c :: r := by
  induction l with
  | nil => simp
  | cons x l ih => simpa [hl x (by simp)] using ih (fun y hy => hl y (by simp [hy]))

theorem extension_exact {name ext : Name} (hx : '.' ∉ ext) : extension name = some ext ↔ ∃ stem, name = stem ++ '.' :: ext ∧ stem ≠ [] := by
  unfold extension
  constructor
  · intro h
    have hsplit := List.takeWhile_append_dropWhile (p := fun c => decide (c ≠ '.')) (l := name.reverse)
    split at h
    · next a b l hd =>
      have ha : a = '.' := by
        have := List.head?_dropWhile_not (fun c => decide (c ≠ '.')) name.reverse
        rw [hd] at this
        simpa using this
      rw [hd] at hsplit
      have := congrArg List.reverse hsplit
      simp only [List.reverse_append, List.reverse_cons, List.reverse_reverse] at this
      refine ⟨(b :: l).reverse, ?_, by simp⟩
      rw [← this, Option.some.inj h, ha]
      simp
    · cases h
  · rintro ⟨stem, rfl, hs⟩
    have hr : (stem ++ '.' :: ext).reverse = ext.reverse ++ '.' :: stem.reverse := by simp
    have hx' : ∀ x ∈ ext.reverse, x ≠ '.' := fun x hx' e => hx (by rw [← e]; simpa using hx')
    rw [hr, takeWhile_stop hx', dropWhile_stop hx']
    cases hsr : stem.reverse with
    | nil => exact absurd (List.reverse_eq_nil_iff.1 hsr) hs
    | cons b l => simp

theorem isHeader_exact (name : Name) : isHeader name = true ↔ HeaderName name := by
  unfold isHeader HeaderName
  simp only [decide_eq_true_eq, List.mem_cons, List.not_mem_nil, or_false]
  constructor
  · rintro (h | h | h)
    · obtain ⟨s, hs, hn⟩ := (extension_exact (by decide)).1 h; exact ⟨s, _, hs, hn, .inl rfl⟩
    · obtain ⟨s, hs, hn⟩ := (extension_exact (by decide)).1 h; exact ⟨s, _, hs, hn, .inr (.inl rfl)⟩
    · obtain ⟨s, hs, hn⟩ := (extension_exact (by decide)).1 h; exact ⟨s, _, hs, hn, .inr (.inr rfl)⟩
  · rintro ⟨s, e, hs, hn, rfl | rfl | rfl⟩
    · exact .inl ((extension_exact (by decide)).2 ⟨s, hs, hn⟩)
    · exact .inr (.inl ((extension_exact (by decide)).2 ⟨s, hs, hn⟩))
    · exact .inr (.inr ((extension_exact (by decide)).2 ⟨s, hs, hn⟩))

/-! ### What is kept -/

/-- The state while headers are copied to a directory in which there was nothing: outside nothing changes but for
directories above, and inside there are directories and new files, with `P` of their contents. -/
structure Kept (fs : Fs) (dst : Place) (P : List Name → List Nat → Prop) (Q : List Name → Prop) (f : Fs) : Prop where
  out : ∀ q, ¬ dst <+: q → f.node q = fs.node q ∨ (q <+: dst ∧ fs.node q = none ∧ f.node q = some .dir)
  data : ∀ i, i < fs.next → f.data i = fs.data i
  next : fs.next ≤ f.next
  sound : Sound f
  own : ∀ rel v, f.node (dst ++ rel) = some v → (v = .dir ∧ Q rel) ∨ ∃ i, v = .file i ∧ fs.next ≤ i ∧ P rel (f.data i)

section
variable {fs f : Fs} {dst : Place} {P : List Name → List Nat → Prop} {Q : List Name → Prop}

theorem Kept.refl (hs : Sound fs) (hd : ∀ q, dst <+: q → fs.node q = none) : Kept fs dst P Q fs :=
  ⟨fun _ _ => .inl rfl, fun _ _ => rfl, Nat.le_refl _, hs, fun rel v h => by rw [hd _ (List.prefix_append ..)] at h; cases h⟩

theorem mkdirs_changed {f : Fs} {p q : Place} (h : (f.mkdirs p).node q ≠ f.node q) :
    q <+: p ∧ q ≠ p ∧ f.node q = none ∧ (f.mkdirs p).node q = some .dir := by
  unfold Fs.mkdirs at h ⊢
  split at h
  · next hall =>
    rw [if_pos hall]
    simp only at h ⊢
    split at h
    · next hc => exact ⟨hc.1, hc.2.1, hc.2.2, by simp [hc]⟩
    · exact absurd rfl h
  · exact absurd rfl h

theorem mkdirs_rest (f : Fs) (p : Place) : (f.mkdirs p).data = f.data ∧ (f.mkdirs p).next = f.next := by
  unfold Fs.mkdirs
  split <;> exact ⟨rfl, rfl⟩

theorem Kept.mkdirs (h : Kept fs dst P Q f) {r : List Name} {n : Name} (hQ : ∀ d, d <+: r → Q d) :
    Kept fs dst P Q (f.mkdirs (dst ++ r ++ [n])) := by
  have hr := mkdirs_rest f (dst ++ r ++ [n])
  have hprefix : ∀ q, q <+: dst ++ r ++ [n] → q ≠ dst ++ r ++ [n] → q <+: dst ++ r := by
    intro q hq hne
    rw [List.prefix_concat_iff] at hq
    rcases hq with hq | hq
    · exact absurd hq hne
    · exact hq
  refine ⟨fun q hq => ?_, ?_, ?_, (Effect.refl h.sound |>.mkdirs (p := dst ++ r ++ [n])).sound, fun rel v hv => ?_⟩
  · by_cases he : (f.mkdirs (dst ++ r ++ [n])).node q = f.node q
    · rw [he]; exact h.out q hq
    · obtain ⟨h1, h2, h3, h4⟩ := mkdirs_changed he
      refine .inr ⟨?_, ?_, h4⟩
      · rcases List.prefix_or_prefix_of_prefix (hprefix q h1 h2) (List.prefix_append dst r) with h | h
        · exact h
        · exact absurd h hq
      · rcases h.out q hq with h' | h'
        · rw [← h']; exact h3
        · exact h'.2.1
  · rw [hr.1]; exact h.data
  · rw [hr.2]; exact h.next
  · rw [hr.1]
    by_cases he : (f.mkdirs (dst ++ r ++ [n])).node (dst ++ rel) = f.node (dst ++ rel)
    · rw [he] at hv; exact h.own rel v hv
    · obtain ⟨h1, h2, h3, h4⟩ := mkdirs_changed he
      rw [h4] at hv
      exact .inl ⟨(Option.some.inj hv).symm, hQ _ ((List.prefix_append_right_inj _).1 (hprefix _ h1 h2))⟩

theorem Kept.unlink (h : Kept fs dst P Q f) (r : List Name) : Kept fs dst P Q (f.unlink (dst ++ r)) := by
  by_cases hd : f.node (dst ++ r) = some .dir
  · rw [Fs.unlink, if_pos hd]; exact h
  · have he := (Effect.refl (p := dst ++ r) h.sound).setNone hd
    rw [Fs.unlink, if_neg hd] at he ⊢
    refine ⟨fun q hq => ?_, h.data, h.next, he.sound, fun rel v hv => ?_⟩
    · simp only [setNode]
      rw [if_neg (fun e => hq (by rw [e]; exact List.prefix_append ..))]
      exact h.out q hq
    · simp only [setNode] at hv
      split at hv
      · cases hv
      · exact h.own rel v hv

theorem unlink_node (f : Fs) {p q : Place} (h : q ≠ p) : (f.unlink p).node q = f.node q := by
  unfold Fs.unlink
  split
  · rfl
  · simp [setNode, h]

theorem patch_nil (chunk : List Nat) : patch [] 0 chunk = chunk := by simp [patch]

/-- What `fs::copy` does. -/
theorem Kept.copyFile (o : Copying) (h : Kept fs dst P Q f) {i : Nat} {r : List Name}
    (free : (∀ rel b, P rel b) ∨ ∀ j, f.node (dst ++ r) ≠ some (.file j))
    (hP : ∀ b, (o.bytes (dst ++ r) = none → i < f.next → b = f.data i) → P r b) :
    Kept fs dst P Q (o.copyFile f i (dst ++ r)) ∧ (∀ q, q ≠ dst ++ r → (o.copyFile f i (dst ++ r)).node q = f.node q) ∧
    (o.opens (dst ++ r) = true → f.node (dst ++ r) = none → f.node (dst ++ r).dropLast = some .dir →
      ∃ j, (o.copyFile f i (dst ++ r)).node (dst ++ r) = some (.file j)) := by
  have hnl : ∀ q, f.node (dst ++ r) ≠ some (.link q) := by
    intro q hq
    rcases h.own r _ hq with ⟨h', -⟩ | ⟨_, h', -⟩ <;> cases h'
  unfold Copying.copyFile
  split
  · next hop =>
    unfold Fs.openTrunc
    rw [target_self hnl]
    simp only
    cases hv : f.node (dst ++ r) with
    | none =>
      simp only
      by_cases hd : f.node (dst ++ r).dropLast = some .dir
      · rw [if_pos hd]
        have heff := (Effect.refl (p := dst ++ r) h.sound).put hv hd (.file f.next)
          (upd (upd f.data f.next []) f.next (patch [] 0 (((upd f.data f.next []) i).take
            ((o.bytes (dst ++ r)).getD (upd f.data f.next [] i).length)))) f.changes (f.next + 1)
          (by rintro i ⟨⟩; omega) (by omega) (fun i hi => by
            have : i ≠ f.next := by omega
            simp [upd, this])
        refine ⟨⟨fun q hq => ?_, fun k hk => ?_, ?_, ⟨heff.sound.tree, heff.sound.numbered⟩, fun rel v hv' => ?_⟩,
          fun q hq => ?_, fun _ _ _ => ⟨f.next, ?_⟩⟩
        · simp only [Fs.writeAt, setNode]
          rw [if_neg (fun e => hq (by rw [e]; exact List.prefix_append ..))]
          exact h.out q hq
        · have : k ≠ f.next := by have := h.next; omega
          simp only [Fs.writeAt, upd, if_neg this]
          exact h.data k hk
        · simp only [Fs.writeAt]; have := h.next; omega
        · simp only [Fs.writeAt, setNode] at hv'
          split at hv'
          · next he =>
            have hrel : rel = r := List.append_cancel_left he
            subst hrel
            refine .inr ⟨f.next, (Option.some.inj hv').symm, h.next, hP _ ?_⟩
            intro hb hi
            have : i ≠ f.next := by omega
            simp [Fs.writeAt, upd, this, patch, hb]
          · rcases h.own rel v hv' with h' | ⟨k, rfl, hk1, hk2⟩
            · exact .inl h'
            · have : k ≠ f.next := by have := h.sound.numbered _ _ hv'; omega
              refine .inr ⟨k, rfl, hk1, ?_⟩
              simp only [Fs.writeAt, upd, if_neg this]
              exact hk2
        · simp [Fs.writeAt, setNode, hq]
        · simp [Fs.writeAt, setNode]
      · rw [if_neg hd]
        exact ⟨h, fun _ _ => rfl, fun _ _ hd' => absurd hd' hd⟩
    | some v =>
      cases v with
      | dir => exact ⟨h, fun _ _ => rfl, fun _ hn => by cases hn⟩
      | link q => exact absurd hv (hnl q)
      | file j =>
        have hall : ∀ rel b, P rel b := by
          rcases free with h' | h'
          · exact h'
          · exact absurd hv (h' j)
        have hj : fs.next ≤ j := by
          rcases h.own r _ hv with ⟨h', -⟩ | ⟨_, h', h'', -⟩
          · cases h'
          · cases h'; exact h''
        refine ⟨⟨h.out, fun k hk => ?_, h.next, ⟨h.sound.tree, h.sound.numbered⟩, fun rel v hv' => ?_⟩,
          fun _ _ => rfl, fun _ hn => by cases hn⟩
        · have : k ≠ j := by omega
          simp only [Fs.writeAt, upd, if_neg this]
          exact h.data k hk
        · rcases h.own rel v hv' with h' | ⟨k, hk, hk1, -⟩
          · exact .inl h'
          · exact .inr ⟨k, hk, hk1, hall _ _⟩
  · next hop => exact ⟨h, fun _ _ => rfl, fun h' => absurd h' hop⟩

end

/-! ### Whatever fails, nothing else is changed -/

section
variable {fs : Fs} {dst : Place} (o : Copying)

theorem replace_safe {f : Fs} {r : List Name} {i : Nat} (h : Kept fs dst (fun _ _ => True) (fun _ => True) f) :
    Kept fs dst (fun _ _ => True) (fun _ => True) (o.replace f i (dst ++ r)) := by
  unfold Copying.replace
  split
  · exact ((h.unlink r).copyFile o (.inl fun _ _ => trivial) (fun _ _ => trivial)).1
  · exact (h.copyFile o (.inl fun _ _ => trivial) (fun _ _ => trivial)).1

theorem entries_safe {sub : Option (Fs → Place → Place → Fs)} {src : Place} {r : List Name}
    (hsub : ∀ s, sub = some s → ∀ f S r', Kept fs dst (fun _ _ => True) (fun _ => True) f →
      Kept fs dst (fun _ _ => True) (fun _ => True) (s f S (dst ++ r'))) (names : List Name) :
    ∀ created f, Kept fs dst (fun _ _ => True) (fun _ => True) f →
      Kept fs dst (fun _ _ => True) (fun _ => True) (o.entries sub src (dst ++ r) created f names) := by
  induction names with
  | nil => intro _ f h; exact h
  | cons n names ih =>
    intro created f h
    unfold Copying.entries
    split
    · exact ih _ _ h
    · split
      · next s _ =>
        split
        · exact ih _ _ h
        · refine ih _ _ ?_
          rw [List.append_assoc]
          exact hsub s rfl _ _ _ h
      · split
        · split
          · refine ih _ _ ?_
            rw [List.append_assoc]
            exact replace_safe o h
          · split
            · exact h
            · next g hg =>
              refine ih _ _ ?_
              have : Kept fs dst (fun _ _ => True) (fun _ => True) g := by
                unfold Copying.createDir at hg
                split at hg
                · cases hg; exact h.mkdirs (fun _ _ => trivial)
                · cases hg
              rw [List.append_assoc]
              exact replace_safe o this
        · exact ih _ _ h
      · exact ih _ _ h

theorem copyHeaders_safe (depth : Nat) : ∀ f src r, Kept fs dst (fun _ _ => True) (fun _ => True) f →
    Kept fs dst (fun _ _ => True) (fun _ => True) (o.copyHeaders depth f src (dst ++ r)) := by
  induction depth with
  | zero => intro f src r h; exact entries_safe o (fun _ hs => by cases hs) _ _ _ h
  | succ depth ih =>
    intro f src r h
    exact entries_safe o (fun s hs f S r' hf => by cases hs; exact ih f S r' hf) _ _ _ h

end

/-- **C98**.  Whatever fails while the headers are copied, and whatever there is to copy: if nothing was in the directory of
the copies, then nothing outside of it is changed, except that directories may be made above it. -/
theorem copy_safe (o : Copying) {fs : Fs} (hs : Sound fs) {dst : Place} (hd : ∀ q, dst <+: q → fs.node q = none)
    (depth : Nat) (src : Place) :
    (∀ q, ¬ dst <+: q → (o.copyHeaders depth fs src dst).node q = fs.node q ∨
      (q <+: dst ∧ fs.node q = none ∧ (o.copyHeaders depth fs src dst).node q = some .dir)) ∧
    ∀ q i, fs.node q = some (.file i) → (o.copyHeaders depth fs src dst).data i = fs.data i := by
  have := copyHeaders_safe o depth fs src [] (Kept.refl hs hd)
  rw [List.append_nil] at this
  exact ⟨this.out, fun q i hi => this.data i (hs.numbered q i hi)⟩

/-! ### If nothing fails, all headers are copied -/

/-- There is a file at a place. -/
def Fs.IsFile (f : Fs) (p : Place) : Prop := ∃ j, f.node p = some (.file j)

/-- Files and directories stay. -/
def Grows (f f' : Fs) : Prop := ∀ q, (f.IsFile q → f'.IsFile q) ∧ (f.node q = some .dir → f'.node q = some .dir)

theorem Grows.refl (f : Fs) : Grows f f := fun _ => ⟨id, id⟩

theorem Grows.trans {f g h : Fs} (h1 : Grows f g) (h2 : Grows g h) : Grows f h := fun q =>
  ⟨fun h => (h2 q).1 ((h1 q).1 h), fun h => (h2 q).2 ((h1 q).2 h)⟩

theorem Grows.mkdirs (f : Fs) (p : Place) : Grows f (f.mkdirs p) := by
  intro q
  by_cases he : (f.mkdirs p).node q = f.node q
  · simp only [Fs.IsFile, he]; exact ⟨id, id⟩
  · obtain ⟨-, -, h3, -⟩ := mkdirs_changed he
    refine ⟨?_, ?_⟩
    · rintro ⟨j, hj⟩
      rw [h3] at hj; cases hj
    · intro h
      rw [h3] at h; cases h

section
variable {fs : Fs} {src dst : Place} {max : Nat} {o : Copying}

/-- What may be in the copy. -/
def Fine (fs : Fs) (src : Place) (max : Nat) (rel : List Name) (b : List Nat) : Prop :=
  fs.OwnHeader src max rel ∧ ∃ i, fs.node (src ++ rel) = some (.file i) ∧ b = fs.data i

/-- A directory of the crate that is copied from. -/
structure Open (fs : Fs) (src : Place) (r : List Name) : Prop where
  dir : fs.node (src ++ r) = some .dir
  visible : ∀ n ∈ r, n.head? ≠ some '.'
  own : ∀ d, d <+: r → d ≠ [] → ¬ fs.Closed (src ++ d)

theorem above_dir (h : Ready fs src dst) {q : Place} (hq : q <+: dst) (hne : q ≠ dst) : fs.node q = some .dir := by
  obtain ⟨x, hx⟩ := List.eq_nil_or_concat dst |>.resolve_left h.nonempty
  obtain ⟨n, rfl⟩ := hx
  rw [List.concat_eq_append] at *
  have hp := h.parent
  simp only [List.dropLast_concat] at hp
  rw [List.prefix_concat_iff] at hq
  rcases hq with hq | ⟨t, ht⟩
  · exact absurd hq hne
  · cases t with
    | nil => rw [List.append_nil] at ht; rw [ht]; exact hp
    | cons m t => exact tree_up h.sound.tree (r := m :: t) (by simp) (by rw [ht, hp]; simp)

/-- Seen from a directory that is copied from, everything but the copy is as it was. -/
theorem seen {f : Fs} {P : List Name → List Nat → Prop} {Q : List Name → Prop} (hr : Ready fs src dst) (hk : Kept fs dst P Q f)
    {q : Place} (hq : ¬ dst <+: q) : f.node q = fs.node q := by
  rcases hk.out q hq with h | ⟨h1, h2, -⟩
  · exact h
  · rw [above_dir hr h1 (fun e => hq (by rw [e]; exact List.prefix_refl _))] at h2
    cases h2

/-- If the copy is seen from a directory that is copied from, it is closed. -/
theorem copy_seen (hr : Ready fs src dst) {r : List Name} (ho : Open fs src r) {n : Name} (h : dst <+: src ++ r ++ [n]) :
    dst = src ++ r ++ [n] ∧ fs.Closed (src ++ r ++ [n]) := by
  have hsrc : ¬ dst <+: src := fun hc => by have := hr.source; rw [hr.fresh _ hc] at this; cases this
  have : src <+: dst := by
    rcases List.prefix_or_prefix_of_prefix h (List.prefix_append_of_prefix (List.prefix_append src r)) with h' | h'
    · exact absurd h' hsrc
    · exact h'
  obtain ⟨a, ha⟩ := this
  obtain ⟨d, hd1, hd2, hd3⟩ := hr.guarded a ha.symm
  have har : a <+: r ++ [n] := by
    rw [← ha, List.append_assoc] at h
    exact (List.prefix_append_right_inj _).1 h
  have hdr : d <+: r ++ [n] := hd1.trans har
  rw [List.prefix_concat_iff] at hdr
  rcases hdr with rfl | hdr
  · have : a = r ++ [n] := har.eq_of_length_le hd1.length_le
    subst this
    rw [← List.append_assoc] at ha hd3
    exact ⟨ha.symm, hd3⟩
  · exact absurd hd3 (ho.own d hdr hd2)

theorem open_dirs (hs : Sound fs) {r : List Name} (ho : Open fs src r) : ∀ d, d <+: r → fs.node (src ++ d) = some .dir := by
  rintro d ⟨t, rfl⟩
  cases t with
  | nil => simpa using ho.dir
  | cons m t => exact tree_up hs.tree (r := m :: t) (by simp) (by rw [List.append_assoc, ho.dir]; simp)

/-- One header. -/
theorem replace_exact (hs : Sound fs) (hsm : o.Smooth fs) {f : Fs} {r : List Name} {n : Name}
    (hk : Kept fs dst (Fine fs src max) (fun d => fs.node (src ++ d) = some .dir) f) {i : Nat}
    (hi : fs.node (src ++ r ++ [n]) = some (.file i)) (hown : fs.OwnHeader src max (r ++ [n])) (hdir : f.node (dst ++ r) = some .dir) :
    Kept fs dst (Fine fs src max) (fun d => fs.node (src ++ d) = some .dir) (o.replace f i (dst ++ r ++ [n])) ∧
    Grows f (o.replace f i (dst ++ r ++ [n])) ∧ (o.replace f i (dst ++ r ++ [n])).IsFile (dst ++ r ++ [n]) := by
  rw [List.append_assoc] at hi
  have hnd : f.node (dst ++ r ++ [n]) ≠ some .dir := by
    intro hd
    rw [List.append_assoc] at hd
    rcases hk.own _ _ hd with ⟨-, h⟩ | ⟨_, h, -⟩
    · rw [hi] at h; cases h
    · cases h
  unfold Copying.replace
  rw [if_pos (hsm.remove _)]
  have hu := hk.unlink (r ++ [n])
  have hun : (f.unlink (dst ++ r ++ [n])).node (dst ++ r ++ [n]) = none := by
    rw [Fs.unlink, if_neg hnd]; simp [setNode]
  have hne : dst ++ r ≠ dst ++ r ++ [n] := by
    intro h
    have := congrArg List.length h
    simp at this
  have hud : (f.unlink (dst ++ r ++ [n])).node (dst ++ r) = some .dir := by rw [unlink_node f hne]; exact hdir
  rw [← List.append_assoc] at hu
  have hnext : (f.unlink (dst ++ r ++ [n])).next = f.next ∧ (f.unlink (dst ++ r ++ [n])).data = f.data := by
    rw [Fs.unlink, if_neg hnd]; exact ⟨rfl, rfl⟩
  have hi' : i < fs.next := hs.numbered _ _ hi
  have hc := hu.copyFile o (i := i) (r := r ++ [n]) (.inr fun j hj => by rw [← List.append_assoc, hun] at hj; cases hj) (by
    intro b hb
    refine ⟨hown, i, hi, ?_⟩
    rw [hb (hsm.bytes _) (by rw [hnext.1]; exact Nat.lt_of_lt_of_le hi' hk.next), hnext.2]
    exact hk.data i hi')
  rw [← List.append_assoc] at hc
  obtain ⟨h1, h2, h3⟩ := hc
  have h3 := h3 (hsm.opens _) hun (by rw [List.dropLast_concat]; exact hud)
  refine ⟨h1, fun q => ?_, h3⟩
  by_cases he : q = dst ++ r ++ [n]
  · rw [he]; exact ⟨fun _ => h3, fun h => absurd h hnd⟩
  · simp only [Fs.IsFile, h2 q he, unlink_node f he]; exact ⟨id, id⟩

/-- What the copy from one directory of the crate does. -/
def Complete (fs : Fs) (src dst : Place) (max : Nat) (r : List Name) (f f' : Fs) : Prop :=
  Kept fs dst (Fine fs src max) (fun d => fs.node (src ++ d) = some .dir) f' ∧ Grows f f' ∧
  ∀ rel, rel ≠ [] → fs.OwnHeader src max (r ++ rel) → f'.IsFile (dst ++ (r ++ rel))

theorem mkdirs_all (hr : Ready fs src dst) {f : Fs} {r : List Name} {n : Name} (ho : Open fs src r)
    (hk : Kept fs dst (Fine fs src max) (fun d => fs.node (src ++ d) = some .dir) f) :
    (f.mkdirs (dst ++ r ++ [n])).node (dst ++ r) = some .dir := by
  have hup : ∀ q, q <+: dst ++ r → f.node q = none ∨ f.node q = some .dir := by
    intro q hq
    by_cases hqd : dst <+: q
    · obtain ⟨d, rfl⟩ := hqd
      cases hn : f.node (dst ++ d) with
      | none => exact .inl rfl
      | some v =>
        rcases hk.own d v hn with ⟨rfl, -⟩ | ⟨i, rfl, -, -, i', hi', -⟩
        · exact .inr rfl
        · rw [open_dirs hr.sound ho d ((List.prefix_append_right_inj _).1 hq)] at hi'; cases hi'
    · rw [seen hr hk hqd]
      right
      rcases List.prefix_or_prefix_of_prefix hq (List.prefix_append dst r) with h | h
      · exact above_dir hr h (fun e => hqd (by rw [e]; exact List.prefix_refl _))
      · exact absurd h hqd
  unfold Fs.mkdirs
  rw [if_pos]
  · simp only
    rcases hup _ (List.prefix_refl _) with h | h <;> simp [h]
  · rw [List.all_eq_true]
    intro k hk'
    have hk' := List.mem_range.1 hk'
    simp only [List.length_append, List.length_singleton] at hk'
    have : (dst ++ r ++ [n]).take k = (dst ++ r).take k := by
      rw [List.take_append_of_le_length (by simp only [List.length_append]; omega)]
    rw [this]
    rcases hup _ (List.take_prefix k (dst ++ r)) with h | h <;> simp [h]

theorem entries_exact (hr : Ready fs src dst) (hsm : o.Smooth fs) {depth : Nat} {sub : Option (Fs → Place → Place → Fs)}
    {r : List Name} (ho : Open fs src r) (hlen : r.length + depth = max)
    (hnone : sub = none → depth = 0)
    (hsub : ∀ s, sub = some s → ∀ f n, Open fs src (r ++ [n]) →
      Kept fs dst (Fine fs src max) (fun d => fs.node (src ++ d) = some .dir) f →
      Complete fs src dst max (r ++ [n]) f (s f (src ++ r ++ [n]) (dst ++ r ++ [n]))) (names : List Name) :
    ∀ created f, (created = true → f.node (dst ++ r) = some .dir) →
      Kept fs dst (Fine fs src max) (fun d => fs.node (src ++ d) = some .dir) f →
      let f' := o.entries sub (src ++ r) (dst ++ r) created f names
      Kept fs dst (Fine fs src max) (fun d => fs.node (src ++ d) = some .dir) f' ∧ Grows f f' ∧
      ∀ n ∈ names, ∀ rel, fs.OwnHeader src max (r ++ n :: rel) → f'.IsFile (dst ++ (r ++ n :: rel)) := by
  induction names with
  | nil => intro created f _ hk; exact ⟨hk, Grows.refl f, nofun⟩
  | cons n names ih =>
    intro created f hc hk
    -- the rest of the loop, after the entry has been dealt with
    have rest : ∀ created' g, (created' = true → g.node (dst ++ r) = some .dir) →
        Kept fs dst (Fine fs src max) (fun d => fs.node (src ++ d) = some .dir) g → Grows f g →
        (∀ rel, fs.OwnHeader src max (r ++ n :: rel) → g.IsFile (dst ++ (r ++ n :: rel))) →
        Kept fs dst (Fine fs src max) (fun d => fs.node (src ++ d) = some .dir)
            (o.entries sub (src ++ r) (dst ++ r) created' g names) ∧
          Grows f (o.entries sub (src ++ r) (dst ++ r) created' g names) ∧
          ∀ n' ∈ n :: names, ∀ rel, fs.OwnHeader src max (r ++ n' :: rel) →
            (o.entries sub (src ++ r) (dst ++ r) created' g names).IsFile (dst ++ (r ++ n' :: rel)) := by
      intro created' g hg1 hg2 hg3 hg4
      obtain ⟨h1, h2, h3⟩ := ih created' g hg1 hg2
      refine ⟨h1, hg3.trans h2, fun n' hn' rel hrel => ?_⟩
      rcases List.mem_cons.1 hn' with rfl | hn'
      · exact (h2 _).1 (hg4 rel hrel)
      · exact h3 n' hn' rel hrel
    -- an entry with nothing to copy
    have skip : (∀ rel, ¬ fs.OwnHeader src max (r ++ n :: rel)) →
        Kept fs dst (Fine fs src max) (fun d => fs.node (src ++ d) = some .dir)
            (o.entries sub (src ++ r) (dst ++ r) created f names) ∧
          Grows f (o.entries sub (src ++ r) (dst ++ r) created f names) ∧
          ∀ n' ∈ n :: names, ∀ rel, fs.OwnHeader src max (r ++ n' :: rel) →
            (o.entries sub (src ++ r) (dst ++ r) created f names).IsFile (dst ++ (r ++ n' :: rel)) :=
      fun hno => rest created f hc hk (Grows.refl f) (fun rel hrel => absurd hrel (hno rel))
    have hcons : ∀ rel : List Name, r ++ n :: rel = r ++ [n] ++ rel := fun rel => by simp
    have below : fs.node (src ++ r ++ [n]) ≠ some .dir → ∀ rel, fs.OwnHeader src max (r ++ n :: rel) → rel = [] := by
      intro hnd rel hrel
      cases rel with
      | nil => rfl
      | cons m rel =>
        obtain ⟨i, hi⟩ := hrel.file
        refine absurd (tree_up hr.sound.tree (q := src ++ r ++ [n]) (r := m :: rel) (by simp) ?_) hnd
        rw [hcons, ← List.append_assoc, ← List.append_assoc] at hi
        rw [hi]
        simp
    unfold Copying.entries
    split
    · next hhid => exact skip (fun rel hrel => hrel.visible n (by simp) hhid)
    · next hvis =>
      by_cases hseen : dst <+: src ++ r ++ [n]
      · -- the copy itself
        obtain ⟨he, hcl⟩ := copy_seen hr ho hseen
        have hno : ∀ rel, ¬ fs.OwnHeader src max (r ++ n :: rel) := by
          intro rel hrel
          obtain ⟨i, hi⟩ := hrel.file
          rw [hr.fresh _ (hseen.trans (by rw [hcons, ← List.append_assoc, ← List.append_assoc]; exact List.prefix_append ..))] at hi
          cases hi
        cases hf : f.node (src ++ r ++ [n]) with
        | none => exact skip hno
        | some v =>
          cases v with
          | link q => exact skip hno
          | dir =>
            cases sub with
            | none => exact skip hno
            | some s =>
              simp only
              rw [if_pos]
              · exact skip hno
              · rw [Bool.or_eq_true]
                rcases hcl with h | h
                · exact .inl ((hsm.found _).2 h)
                · exact .inr ((hsm.found _).2 h)
          | file i =>
            rw [← he] at hf
            rcases hk.own [] (.file i) (by simpa using hf) with ⟨h, -⟩ | ⟨_, -, -, h, -⟩
            · cases h
            · obtain ⟨d, m, hdm, -⟩ := h.header
              exact absurd hdm (by simp)
      · rw [seen hr hk hseen]
        have hno : fs.node (src ++ r ++ [n]) ≠ some .dir → (∀ i, fs.node (src ++ r ++ [n]) ≠ some (.file i)) →
            ∀ rel, ¬ fs.OwnHeader src max (r ++ n :: rel) := by
          intro h1 h2 rel hrel
          have := below h1 rel hrel
          subst this
          obtain ⟨i, hi⟩ := hrel.file
          exact h2 i (by simpa using hi)
        have hcd : ∀ rel, fs.Closed (src ++ r ++ [n]) → fs.node (src ++ r ++ [n]) = some .dir → ¬ fs.OwnHeader src max (r ++ n :: rel) := by
          intro rel hcl hd hrel
          refine hrel.own (r ++ [n]) (hcons rel ▸ List.prefix_append ..) (by simp) ?_ (by rw [← List.append_assoc]; exact hcl)
          intro he
          obtain ⟨i, hi⟩ := hrel.file
          rw [← he, ← List.append_assoc, hd] at hi
          cases hi
        cases hd : fs.node (src ++ r ++ [n]) with
        | none => exact skip (hno (fun h => by rw [hd] at h; cases h) (fun i h => by rw [hd] at h; cases h))
        | some v =>
          cases v with
          | link q => exact skip (hno (fun h => by rw [hd] at h; cases h) (fun i h => by rw [hd] at h; cases h))
          | dir =>
            cases sub with
            | none =>
              refine skip (fun rel hrel => ?_)
              have hz := hnone rfl
              have hl := hrel.shallow
              simp only [List.length_append, List.length_cons] at hl
              have : rel.length = 0 := by omega
              rw [List.length_eq_zero_iff.1 this] at hrel
              obtain ⟨i, hi⟩ := hrel.file
              rw [← List.append_assoc, hd] at hi
              cases hi
            | some s =>
              simp only
              split
              · next hfound =>
                rw [Bool.or_eq_true, hsm.found, hsm.found] at hfound
                exact skip (fun rel => hcd rel hfound hd)
              · next hfound =>
                rw [Bool.or_eq_true, hsm.found, hsm.found] at hfound
                have hop : Open fs src (r ++ [n]) := by
                  refine ⟨by rw [← List.append_assoc]; exact hd, ?_, ?_⟩
                  · intro m hm
                    rcases List.mem_append.1 hm with hm | hm
                    · exact ho.visible m hm
                    · rw [List.mem_singleton.1 hm]; exact hvis
                  · intro d hd1 hd2
                    rw [List.prefix_concat_iff] at hd1
                    rcases hd1 with rfl | hd1
                    · rw [← List.append_assoc]; exact hfound
                    · exact ho.own d hd1 hd2
                obtain ⟨h1, h2, h3⟩ := hsub s rfl f n hop hk
                refine rest created _ (fun h => (h2 _).2 (hc h)) h1 h2 ?_
                intro rel hrel
                cases rel with
                | nil =>
                  obtain ⟨i, hi⟩ := hrel.file
                  rw [← List.append_assoc, hd] at hi
                  cases hi
                | cons m rel =>
                  rw [hcons] at hrel ⊢
                  exact h3 _ (by simp) hrel
          | file i =>
            have hf := hd
            simp only
            have hnd : fs.node (src ++ r ++ [n]) ≠ some .dir := by rw [hf]; simp
            split
            · next hh =>
              have hown : fs.OwnHeader src max (r ++ [n]) := by
                refine ⟨⟨i, by rw [← List.append_assoc]; exact hf⟩, ⟨r, n, rfl, (isHeader_exact n).1 hh⟩, ?_, ?_, ?_⟩
                · intro m hm
                  rcases List.mem_append.1 hm with hm | hm
                  · exact ho.visible m hm
                  · rw [List.mem_singleton.1 hm]; exact hvis
                · simp only [List.length_append, List.length_singleton]; omega
                · intro d hd1 hd2 hd3
                  rw [List.prefix_concat_iff] at hd1
                  exact ho.own d (hd1.resolve_left hd3) hd2
              have go : ∀ g, Grows f g → Kept fs dst (Fine fs src max) (fun d => fs.node (src ++ d) = some .dir) g →
                  g.node (dst ++ r) = some .dir → _ := fun g hg1 hg2 hg3 =>
                let ⟨h1, h2, h3⟩ := replace_exact hr.sound hsm hg2 hf hown hg3
                rest true _ (fun _ => (h2 _).2 hg3) h1 (hg1.trans h2) (fun rel hrel => by
                  rw [below hnd rel hrel, ← List.append_assoc]; exact h3)
              split
              · next hcr => exact go f (Grows.refl f) hk (hc hcr)
              · have hmk := mkdirs_all (n := n) hr ho hk
                have hcd : o.createDir f (dst ++ r) n = some (f.mkdirs (dst ++ r ++ [n])) := by
                  rw [Copying.createDir, hmk, hsm.mkdir]; simp
                rw [hcd]
                exact go _ (Grows.mkdirs f _) (hk.mkdirs (open_dirs hr.sound ho)) hmk
            · next hh =>
              refine skip (fun rel hrel => ?_)
              have := below hnd rel hrel
              subst this
              obtain ⟨d, m, hdm, hm⟩ := hrel.header
              have : n = m := by
                have := congrArg List.getLast? hdm
                simpa using this
              subst this
              exact hh ((isHeader_exact n).2 hm)

theorem walk_unlinked {f : Fs} (h : ∀ rel q, f.node (dst ++ rel) ≠ some (.link q)) : ∀ ns rel, f.walk (dst ++ rel) ns =
    some (dst ++ (rel ++ ns)) := by
  intro ns
  induction ns with
  | nil => intro rel; simp [Fs.walk]
  | cons n ns ih =>
    intro rel
    unfold Fs.walk
    rw [List.append_assoc, target_self (h _)]
    simp only [ih]
    simp

theorem own_entry (hr : Ready fs src dst) {f : Fs} {P : List Name → List Nat → Prop} {Q : List Name → Prop} (hk : Kept fs dst P Q f)
    (hsm : o.Smooth fs) {r : List Name} (ho : Open fs src r) {n : Name} {rel : List Name}
    (h : fs.OwnHeader src max (r ++ n :: rel)) : n ∈ o.ls f (src ++ r) := by
  have hnot : ∀ q, fs.node q ≠ none → ¬ dst <+: q := fun q hq hc => hq (hr.fresh q hc)
  have hdir : f.node (src ++ r) = some .dir := by rw [seen hr hk (hnot _ (by simp [ho.dir]))]; exact ho.dir
  have hn : fs.node (src ++ r ++ [n]) ≠ none := by
    obtain ⟨i, hi⟩ := h.file
    cases rel with
    | nil => rw [← List.append_assoc] at hi; rw [hi]; simp
    | cons m rel =>
      have : src ++ (r ++ n :: m :: rel) = src ++ r ++ [n] ++ m :: rel := by simp
      rw [this] at hi
      rw [tree_up hr.sound.tree (r := m :: rel) (by simp) (by rw [hi]; simp)]
      simp
  refine (hsm.ls f _ hdir ?_ n).2 (by rw [seen hr hk (hnot _ hn)]; exact hn)
  obtain ⟨l, hl⟩ := hr.finite (src ++ r)
  refine ⟨l ++ dst.getLast?.toList, fun m hm => ?_⟩
  by_cases hd : dst <+: src ++ r ++ [m]
  · rw [(copy_seen hr ho hd).1]; simp
  · rw [seen hr hk hd] at hm
    exact List.mem_append_left _ (hl m hm)

theorem complete (hr : Ready fs src dst) (hsm : o.Smooth fs) (depth : Nat) : ∀ {r : List Name} {f : Fs}, Open fs src r →
    r.length + depth = max → Kept fs dst (Fine fs src max) (fun d => fs.node (src ++ d) = some .dir) f →
    Complete fs src dst max r f (o.copyHeaders depth f (src ++ r) (dst ++ r)) := by
  have finish : ∀ {r : List Name} {f f' : Fs}, Open fs src r →
      Kept fs dst (Fine fs src max) (fun d => fs.node (src ++ d) = some .dir) f →
      (Kept fs dst (Fine fs src max) (fun d => fs.node (src ++ d) = some .dir) f' ∧ Grows f f' ∧
        ∀ n ∈ o.ls f (src ++ r), ∀ rel, fs.OwnHeader src max (r ++ n :: rel) → f'.IsFile (dst ++ (r ++ n :: rel))) →
      Complete fs src dst max r f f' := by
    intro r f f' ho hk ⟨h1, h2, h3⟩
    refine ⟨h1, h2, fun rel hne hrel => ?_⟩
    cases rel with
    | nil => exact absurd rfl hne
    | cons n rel => exact h3 n (own_entry hr hk hsm ho hrel) rel hrel
  induction depth with
  | zero =>
    intro r f ho hl hk
    exact finish ho hk (entries_exact hr hsm ho hl (fun _ => rfl) (fun s hs => by cases hs) _ false f (by simp) hk)
  | succ depth ih =>
    intro r f ho hl hk
    refine finish ho hk (entries_exact hr hsm ho hl (fun h => by cases h) ?_ _ false f (by simp) hk)
    intro s hs f n ho' hk'
    cases hs
    have := ih ho' (by simp only [List.length_append, List.length_singleton]; omega) hk'
    simpa only [List.append_assoc] using this

theorem copied (hr : Ready fs src dst) (hsm : o.Smooth fs) (max : Nat) : Sound (o.copyHeaders max fs src dst) ∧
    (∀ rel, fs.OwnHeader src max rel → rel ≠ [] ∧ (o.copyHeaders max fs src dst).IsFile (dst ++ rel)) ∧
    (∀ rel j, (o.copyHeaders max fs src dst).node (dst ++ rel) = some (.file j) → fs.OwnHeader src max rel ∧
      fs.contents (src ++ rel) = some ((o.copyHeaders max fs src dst).data j)) ∧
    (∀ rel q, (o.copyHeaders max fs src dst).node (dst ++ rel) ≠ some (.link q)) := by
  have ho : Open fs src [] := ⟨by simpa using hr.source, nofun, fun d hd hne => absurd (List.prefix_nil.1 hd) hne⟩
  obtain ⟨hk, -, hall⟩ := complete (max := max) (r := []) hr hsm max ho (by simp) (Kept.refl hr.sound hr.fresh)
  simp only [List.append_nil] at hk hall
  refine ⟨hk.sound, fun rel h => ?_, fun rel j hj => ?_, fun r q hq => ?_⟩
  · have hne : rel ≠ [] := by
      obtain ⟨d, n, rfl, -⟩ := h.header
      simp
    exact ⟨hne, hall rel hne h⟩
  · rcases hk.own rel _ hj with ⟨h, -⟩ | ⟨j', hj', -, h1, i, h2, h3⟩
    · cases h
    · cases hj'
      refine ⟨h1, ?_⟩
      rw [h3, Fs.contents, Fs.lookup, target_self (by rw [h2]; nofun)]
      simp [h2]
  · rcases hk.own r _ hq with ⟨h, -⟩ | ⟨j', hj', -⟩
    · cases h
    · cases hj'

/-- **C98**.  If no call fails, then below the directory of the copies one finds the headers of the crate, with their
contents, and nothing else. -/
theorem copy_exact (hr : Ready fs src dst) (hsm : o.Smooth fs) (rel : List Name) :
    (fs.OwnHeader src max rel → (o.copyHeaders max fs src dst).read dst rel = fs.contents (src ++ rel) ∧
      fs.contents (src ++ rel) ≠ none) ∧
    (¬ fs.OwnHeader src max rel → (o.copyHeaders max fs src dst).read dst rel = none) := by
  obtain ⟨hs, h1, h2, h3⟩ := copied (o := o) hr hsm max
  constructor
  · intro h
    obtain ⟨hne, j, hj⟩ := h1 rel h
    rw [read_file hs.tree hne hj, (h2 rel j hj).2]
    exact ⟨rfl, nofun⟩
  · intro h
    have hw := walk_unlinked h3 rel []
    rw [List.append_nil, List.nil_append] at hw
    unfold Fs.read
    rw [hw]
    simp only
    split
    · next j hj => exact absurd (h2 rel j hj).1 h
    · rfl

theorem found_depth {crateDir pre : Place} (hpre : pre ≠ []) (hr : Ready fs src (crateDir ++ pre)) (hsm : o.Smooth fs)
    (rel : List Name) (others : List Place) :
    (fs.OwnHeader src max rel →
      (o.copyHeaders max fs src (crateDir ++ pre)).include (crateDir :: others) (pre ++ rel) = fs.contents (src ++ rel) ∧
      fs.contents (src ++ rel) ≠ none) ∧
    (¬ fs.OwnHeader src max rel →
      (o.copyHeaders max fs src (crateDir ++ pre)).include (crateDir :: others) (pre ++ rel) =
      (o.copyHeaders max fs src (crateDir ++ pre)).include others (pre ++ rel)) := by
  obtain ⟨hs, h1, h2, h3⟩ := copied (o := o) hr hsm max
  have hex := copy_exact (max := max) hr hsm rel
  have hwalk : (o.copyHeaders max fs src (crateDir ++ pre)).node (crateDir ++ pre) ≠ none →
      (o.copyHeaders max fs src (crateDir ++ pre)).read crateDir (pre ++ rel) =
      (o.copyHeaders max fs src (crateDir ++ pre)).read (crateDir ++ pre) rel := by
    intro h
    have := h3 []
    rw [List.append_nil] at this
    unfold Fs.read
    rw [walk_append, walk_plain hs.tree hpre h, target_self this]
    rfl
  constructor
  · intro h
    obtain ⟨hne, j, hj⟩ := h1 rel h
    have hd := tree_up hs.tree hne (by rw [hj]; nofun)
    obtain ⟨h4, h5⟩ := hex.1 h
    rw [← hwalk (by rw [hd]; nofun)] at h4
    refine ⟨?_, h5⟩
    rw [Fs.include, h4]
    cases hc : fs.contents (src ++ rel) with
    | none => exact absurd hc h5
    | some b => rfl
  · intro h
    have : (o.copyHeaders max fs src (crateDir ++ pre)).read crateDir (pre ++ rel) = none := by
      by_cases hn : (o.copyHeaders max fs src (crateDir ++ pre)).node (crateDir ++ pre) = none
      · refine read_dirs (by simp [hpre]) fun a b hab _ => ?_
        rcases List.prefix_or_prefix_of_prefix (⟨b, hab.symm⟩ : a <+: pre ++ rel) (List.prefix_append pre rel) with ha | ⟨t, rfl⟩
        · by_cases he : a = pre
          · subst he; exact .inl hn
          · have hlt : crateDir ++ a <+: crateDir ++ pre := (List.prefix_append_right_inj _).2 ha
            have hd := above_dir hr hlt (fun h => he (List.append_cancel_left h))
            right
            rcases (copy_safe o hr.sound hr.fresh max src).1 (crateDir ++ a) (fun hc => he (ha.eq_of_length_le
              ((List.prefix_append_right_inj _).1 hc).length_le)) with h | ⟨_, h, _⟩
            · rw [h, hd]
            · rw [hd] at h; cases h
        · left
          rw [← List.append_assoc]
          exact (walk_nothing hs.tree hn t).2
      · rw [hwalk hn]; exact hex.2 h
    rw [Fs.include, this]

/-- **C98**.  So an `#include` below the crate's prefix gives the header of the crate, if it is one, and otherwise what the
other directories have. -/
theorem copy_found {crateDir pre : Place} (hpre : pre ≠ []) (hr : Ready fs src (crateDir ++ pre)) (hsm : o.Smooth fs)
    (rel : List Name) (others : List Place) :
    (fs.OwnHeader src 6 rel →
      (o.copyHeaders maxDepth fs src (crateDir ++ pre)).include (crateDir :: others) (pre ++ rel) = fs.contents (src ++ rel) ∧
      fs.contents (src ++ rel) ≠ none) ∧
    (¬ fs.OwnHeader src 6 rel →
      (o.copyHeaders maxDepth fs src (crateDir ++ pre)).include (crateDir :: others) (pre ++ rel) =
      (o.copyHeaders maxDepth fs src (crateDir ++ pre)).include others (pre ++ rel)) :=
  found_depth hpre hr hsm rel others

/-- The mark that is written before the copy (gen/build/src/lib.rs:369-373) is the one that `Ready` asks for, unless the crate
lies in its own output directory. -/
theorem copy_marked {crateDir pre : Place} {i : Nat} (hmark : fs.node (crateDir ++ ["CACHEDIR.TAG".toList]) = some (.file i))
    (hout : ¬ crateDir <+: src) : ∀ a, crateDir ++ pre = src ++ a → ∃ d, d <+: a ∧ d ≠ [] ∧ fs.Closed (src ++ d) := by
  intro a ha
  rcases List.prefix_or_prefix_of_prefix (⟨a, ha.symm⟩ : src <+: crateDir ++ pre) (List.prefix_append crateDir pre) with
    ⟨d, rfl⟩ | h
  · rw [List.append_assoc] at ha
    refine ⟨d, ⟨pre, List.append_cancel_left ha⟩, fun h => hout (by simp [h]), .inr ⟨_, target_self (by rw [hmark]; nofun), ?_⟩⟩
    rw [hmark]
    nofun
  · exact absurd h hout

end

/-- There is always a run in which no call fails. -/
theorem smooth_exists (fs : Fs) : ∃ o : Copying, o.Smooth fs := by
  classical
  refine ⟨⟨fun f p => if h : f.Finite p then h.choose.filter fun n => f.node (p ++ [n]) ≠ none else [], fun p => fs.Has p,
    fun _ => true, fun _ => true, fun _ => true, fun _ => none⟩, ?_, by simp, by simp, by simp, by simp, by simp⟩
  intro f p _ hf n
  simp only [hf, dite_true, List.mem_filter, decide_eq_true_eq]
  exact ⟨fun h => h.2, fun h => ⟨hf.choose_spec n h, h⟩⟩

/-! ### A crate with its target directory in it -/

theorem listed_finite (entries : List (Place × Node)) (data : Nat → List Nat) (next : Nat) (p : Place) :
    (listed entries data next).Finite p := by
  refine ⟨entries.filterMap fun e => e.1.getLast?, fun n h => ?_⟩
  cases hv : (listed entries data next).node (p ++ [n]) with
  | none => exact absurd hv h
  | some v => exact List.mem_filterMap.2 ⟨_, lookup_mem hv, by simp⟩

namespace CopyDemo

def n (s : String) : Name := s.toList

/-- A crate in `/m`, with headers, another crate in it, and the target directory. -/
def entries : List (Place × Node) :=
  [([], .dir), ([n "m"], .dir), ([n "m", n "Cargo.toml"], .file 0), ([n "m", n "src"], .dir),
   ([n "m", n "src", n "a.h"], .file 1), ([n "m", n "src", n "b.hxx"], .file 2), ([n "m", n ".git"], .dir),
   ([n "m", n ".git", n "c.h"], .file 3), ([n "m", n "sub"], .dir), ([n "m", n "sub", n "Cargo.toml"], .file 4),
   ([n "m", n "sub", n "d.h"], .file 5), ([n "m", n "src", n "l.h"], .link [n "m", n "src", n "a.h"]),
   ([n "m", n "o"], .dir), ([n "m", n "o", n "crate"], .dir), ([n "m", n "o", n "crate", n "CACHEDIR.TAG"], .file 6)]

def before : Fs := listed entries (fun i => [i]) 7

def src : Place := [n "m"]
def crateDir : Place := [n "m", n "o", n "crate"]
def pre : List Name := [n "demo"]

theorem sound : Sound before := listed_sound (by
  have h : ∀ e ∈ entries, (e.1 = [] ∨ entries.lookup e.1.dropLast = some .dir) := by decide +kernel
  have h' : ∀ e ∈ entries, (match e.2 with | .file i => decide (i < 7) | _ => true) = true := by decide +kernel
  refine fun e he => ⟨h e he, fun i hi => ?_⟩
  have := h' e he
  rw [hi] at this
  simpa using this)

theorem ready : Ready before src (crateDir ++ pre) := by
  refine ⟨sound, listed_finite _ _ _, by decide +kernel, fun q hq => ?_, by decide +kernel, by decide, fun a ha => ?_⟩
  · refine Demo.lookup_nil fun e he => ?_
    have : ∀ e ∈ entries, ¬ crateDir ++ pre <+: e.1 := by decide +kernel
    exact fun h => this e he (h ▸ hq)
  · have : a = [n "o", n "crate", n "demo"] := List.append_cancel_left (as := src) (by rw [← ha]; rfl)
    subst this
    refine ⟨[n "o", n "crate"], ⟨[n "demo"], rfl⟩, by decide, .inr ⟨_, rfl, by decide +kernel⟩⟩

theorem closed_exact (p : Place) : before.Closed p ↔ ∃ x ∈ [n "Cargo.toml", n "CACHEDIR.TAG"],
    (before.target 40 (p ++ [x])).any fun q => (before.node q).isSome := by
  simp only [Fs.Closed, Fs.Has, List.mem_cons, List.not_mem_nil, or_false, exists_eq_or_imp, exists_eq_left, Option.any_eq_true,
    Option.isSome_iff_ne_none, n]

theorem own : before.OwnHeader src maxDepth [n "src", n "a.h"] := by
  refine ⟨⟨1, by decide +kernel⟩, ⟨[n "src"], n "a.h", rfl, ['a'], ['h'], by decide +kernel, by simp, .inl (by decide +kernel)⟩,
    by decide +kernel, by decide, fun d hd h1 h2 => ?_⟩
  have : d = [n "src"] := by
    obtain ⟨t, ht⟩ := hd
    match d, t, ht with
    | [], _, _ => exact absurd rfl h1
    | [a], _, ht => simp at ht; rw [ht.1]
    | [a, b], [], ht => exact absurd (by simpa using ht) h2
  subst this
  rw [closed_exact]
  decide +kernel

/-- The header is found, with the contents it has in the crate. -/
example {o : Copying} (ho : o.Smooth before) : (o.copyHeaders maxDepth before src (crateDir ++ pre)).include [crateDir]
    [n "demo", n "src", n "a.h"] = some [1] :=
  ((copy_found (by decide) ready ho [n "src", n "a.h"] []).1 own).1.trans (by decide +kernel)

theorem not_own {rel : List Name} (h : ¬ before.OwnHeader src maxDepth rel) {o : Copying} (ho : o.Smooth before) :
    (o.copyHeaders maxDepth before src (crateDir ++ pre)).include [crateDir] (pre ++ rel) = none :=
  (copy_found (by decide) ready ho rel []).2 h

/-- A header in another crate is not found, nor is one in a hidden directory, a symbolic link, or one with another extension,
though all of them would be if there was a symbolic link to the crate. -/
example {o : Copying} (ho : o.Smooth before) : ∀ rel ∈ [[n "sub", n "d.h"], [n ".git", n "c.h"], [n "src", n "l.h"],
    [n "src", n "b.hxx"]], (o.copyHeaders maxDepth before src (crateDir ++ pre)).include [crateDir] (pre ++ rel) = none := by
  intro rel hrel
  refine not_own (fun h => ?_) ho
  simp only [List.mem_cons, List.not_mem_nil, or_false] at hrel
  rcases hrel with rfl | rfl | rfl | rfl
  · exact h.own [n "sub"] ⟨[n "d.h"], rfl⟩ (by simp) (by decide +kernel) ((closed_exact _).2 (by decide +kernel))
  · exact h.visible (n ".git") (by simp) (by decide +kernel)
  · obtain ⟨i, hi⟩ := h.file
    rw [show before.node _ = some (.link [n "m", n "src", n "a.h"]) from by decide +kernel] at hi
    cases hi
  · obtain ⟨d, x, hx, hh⟩ := h.header
    have : x = n "b.hxx" := by
      have := congrArg List.getLast? hx
      simpa using this.symm
    subst this
    rw [← isHeader_exact] at hh
    revert hh
    decide +kernel

/-- The link would find them. -/
example : before.read src [n "sub", n "d.h"] = some [5] ∧ before.read src [n "src", n "l.h"] = some [1] ∧
    before.read src [n "src", n "b.hxx"] = some [2] := by decide +kernel

example : ∃ o : Copying, o.Smooth before := smooth_exists before

end CopyDemo

end Verif.Build
