import Verif.Build.WriteSpec
/-!
# Written files hold what was to be written
-/
namespace Verif.Build

theorem patch_get (d : List Nat) (off : Nat) (c : List Nat) (j : Nat) :
    (patch d off c)[j]? = if j < off then (if j < d.length then d[j]? else some 0)
      else if j < off + c.length then c[j - off]? else d[j]? := by
  have hl : (d ++ List.replicate (off - d.length) 0).length ≥ off := by simp; omega
  unfold patch
  by_cases h1 : j < off
  · rw [if_pos h1, List.append_assoc, List.getElem?_append_left (by rw [List.length_take]; omega),
      List.getElem?_take, if_pos h1]
    by_cases h2 : j < d.length
    · rw [if_pos h2, List.getElem?_append_left h2]
    · rw [if_neg h2, List.getElem?_append_right (by omega), List.getElem?_replicate, if_pos (by omega)]
  · rw [if_neg h1, List.append_assoc, List.getElem?_append_right (by rw [List.length_take]; omega)]
    have ht : (List.take off (d ++ List.replicate (off - d.length) 0)).length = off := by rw [List.length_take]; omega
    rw [ht]
    by_cases h2 : j < off + c.length
    · rw [if_pos h2, List.getElem?_append_left (by omega)]
    · rw [if_neg h2, List.getElem?_append_right (by omega), List.getElem?_drop]
      congr 1; omega

theorem patch_length (d : List Nat) (off : Nat) (c : List Nat) : (patch d off c).length = max (off + c.length) d.length := by
  simp [patch]; omega

theorem target_extends {fs fs' : Fs} (h : ∀ q, fs.node q ≠ none → fs'.node q = fs.node q) {n : Nat} {p q : Place}
    (ht : fs.target n p = some q) (hq : fs.node q ≠ none) : fs'.target n p = some q := by
  induction n generalizing p with
  | zero => cases ht
  | succ n ih =>
    unfold Fs.target at ht ⊢
    split at ht
    · next r hr =>
      rw [h p (by rw [hr]; nofun), hr]
      exact ih ht
    · next hr =>
      injection ht with hpq
      subst hpq
      rw [h _ hq]
      split
      · next r hr' => exact absurd hr' (hr r)
      · rfl

theorem lookup_extends {fs fs' : Fs} (h : ∀ q, fs.node q ≠ none → fs'.node q = fs.node q) {p : Place} {i : Nat}
    (hl : fs.lookup p = some i) : fs'.lookup p = some i := by
  unfold Fs.lookup at hl ⊢
  split at hl
  · cases hl
  · next q hq =>
    split at hl
    · next k hk =>
      cases hl
      rw [target_extends h hq (by rw [hk]; nofun)]
      simp only [h q (by rw [hk]; nofun), hk]
    · cases hl

theorem target_create {fs fs' : Fs} {q : Place} {v : Node} (hv : ∀ r, v ≠ .link r) (hn : fs.node q = none)
    (h : fs'.node = setNode fs.node q (some v)) {n : Nat} {p : Place} (ht : fs.target n p = some q) :
    fs'.target n p = some q := by
  induction n generalizing p with
  | zero => cases ht
  | succ n ih =>
    unfold Fs.target at ht ⊢
    split at ht
    · next r hr =>
      have hp : p ≠ q := fun e => by rw [e, hn] at hr; cases hr
      have : fs'.node p = some (.link r) := by rw [h, setNode, if_neg hp, hr]
      rw [this]
      exact ih ht
    · cases ht
      have : fs'.node q = some v := by rw [h, setNode, if_pos rfl]
      rw [this]
      split
      · next r hr => cases hr; exact absurd rfl (hv r)
      · rfl

theorem target_congr {fs fs' : Fs} (h : fs'.node = fs.node) (n : Nat) (p : Place) : fs'.target n p = fs.target n p := by
  induction n generalizing p with
  | zero => rfl
  | succ n ih =>
    unfold Fs.target
    rw [h]
    split
    · exact ih _
    · rfl

theorem lookup_congr {fs fs' : Fs} (h : fs'.node = fs.node) (p : Place) : fs'.lookup p = fs.lookup p := by
  unfold Fs.lookup
  rw [target_congr h, h]

/-- A file that was opened for writing is empty, and is what one finds under its path. -/
theorem openTrunc_spec {fs fs' : Fs} {p : Place} {i : Nat} (h : fs.openTrunc p = some (fs', i)) :
    fs'.lookup p = some i ∧ fs'.data i = [] := by
  unfold Fs.openTrunc at h
  split at h
  · cases h
  · next q hq =>
    split at h
    · next k hk =>
      cases h
      refine ⟨?_, by simp⟩
      refine (lookup_congr (fs := fs) rfl p).trans ?_
      simp [Fs.lookup, hq, hk]
    · cases h
    · cases h
    · next hk =>
      split at h
      · cases h
        refine ⟨?_, by simp⟩
        unfold Fs.lookup
        rw [target_create (v := .file fs.next) nofun hk rfl hq]
        simp [setNode]
      · cases h

/-! ### Several scripts that write the same file -/

/-- The script is bound to open the file for writing. -/
def Pending : Proc → Prop
  | .removing | .removingTree | .unlinking | .mkdirs | .opening => True
  | _ => False

/-- The file is right, or will be when those who are writing it have finished. -/
def Good (content : List Nat) (s : Sys Proc) (i : Nat) : Prop :=
  (s.fs.data i).length ≤ content.length ∧
  ∀ j, j < content.length → (s.fs.data i)[j]? = content[j]? ∨ ∃ pid off, s.proc pid = .writing i off ∧ off ≤ j

/-- The script has only looked. -/
def Looking (fs : Fs) (p : Place) : Proc → Prop
  | .start | .present => True
  | .reading i acc => fs.lookup p = some i ∧ acc = (fs.data i).take acc.length
  | _ => False

def Inv (p : Place) (content : List Nat) (s : Sys Proc) : Prop :=
  (∃ pid, s.proc pid = .done false) ∨ (∃ pid, Pending (s.proc pid)) ∨
  (∃ i, s.fs.lookup p = some i ∧ Good content s i) ∨ ∀ pid, Looking s.fs p (s.proc pid)

theorem inv_now {p : Place} {content : List Nat} {fs : Fs} {f : Nat → Proc} {k : Nat} {c : Proc}
    (h : Pending c ∨ c = .done false) : Inv p content ⟨fs, upd f k c⟩ := by
  rcases h with h | h
  · exact .inr (.inl ⟨k, by simpa using h⟩)
  · exact .inl ⟨k, by simpa using h⟩

/-- A script that neither changes anything nor was writing. -/
theorem inv_quiet {p : Place} {content : List Nat} {s : Sys Proc} {k : Nat} {c : Proc} (hi : Inv p content s)
    (h1 : s.proc k ≠ .done false) (h2 : ¬ Pending (s.proc k)) (h3 : ∀ i off, s.proc k ≠ .writing i off)
    (h4 : (∀ pid, Looking s.fs p (s.proc pid)) → Looking s.fs p c ∨ Inv p content ⟨s.fs, upd s.proc k c⟩) :
    Inv p content ⟨s.fs, upd s.proc k c⟩ := by
  rcases hi with ⟨pid, h⟩ | ⟨pid, h⟩ | ⟨i, h, hg⟩ | h
  · have : pid ≠ k := fun e => h1 (e ▸ h)
    exact .inl ⟨pid, by simpa [upd_ne _ _ this] using h⟩
  · have : pid ≠ k := fun e => h2 (e ▸ h)
    exact .inr (.inl ⟨pid, by simpa [upd_ne _ _ this] using h⟩)
  · refine .inr (.inr (.inl ⟨i, h, hg.1, fun j hj => ?_⟩))
    rcases hg.2 j hj with h | ⟨pid, off, h, ho⟩
    · exact .inl h
    · have : pid ≠ k := fun e => h3 i off (e ▸ h)
      exact .inr ⟨pid, off, by simpa [upd_ne _ _ this] using h, ho⟩
  · rcases h4 h with h5 | h5
    · refine .inr (.inr (.inr fun pid => ?_))
      by_cases e : pid = k
      · subst e; simpa using h5
      · simpa [upd_ne _ _ e] using h pid
    · exact h5

theorem inv_step {p : Place} {content : List Nat} {s : Sys Proc} (hi : Inv p content s) (e : Nat × Ev) :
    Inv p content (sysStep (writeStep p content) s e) := by
  obtain ⟨k, ev⟩ := e
  unfold sysStep
  dsimp only
  cases hk : s.proc k with
  | start =>
    cases ev with
    | fail => exact inv_now (.inl trivial)
    | go n =>
      simp only [writeStep]
      split
      · exact inv_now (.inl trivial)
      · exact inv_quiet hi (by rw [hk]; nofun) (by rw [hk]; exact id) (by rw [hk]; nofun) fun _ => .inl trivial
  | present =>
    cases ev with
    | fail => exact inv_now (.inl trivial)
    | go n =>
      simp only [writeStep]
      split
      · exact inv_now (.inl trivial)
      · next i hl =>
        exact inv_quiet hi (by rw [hk]; nofun) (by rw [hk]; exact id) (by rw [hk]; nofun) fun _ => .inl ⟨hl, by simp⟩
  | reading i acc =>
    cases ev with
    | fail => exact inv_now (.inl trivial)
    | go n =>
      simp only [writeStep]
      split
      · next hc =>
        split
        · next ha =>
          refine inv_quiet hi (by rw [hk]; nofun) (by rw [hk]; exact id) (by rw [hk]; nofun) fun h => .inr ?_
          have hlook := h k
          rw [hk] at hlook
          obtain ⟨hl, hp⟩ := hlook
          refine .inr (.inr (.inl ⟨i, hl, ?_⟩))
          have hd : (s.fs.data i).length ≤ acc.length := by
            simpa [List.take_eq_nil_iff] using hc
          have : s.fs.data i = content := by
            rw [← ha, hp, List.take_of_length_le hd]
          exact ⟨by simp [this], fun j _ => .inl (by simp [this])⟩
        · exact inv_now (.inl trivial)
      · refine inv_quiet hi (by rw [hk]; nofun) (by rw [hk]; exact id) (by rw [hk]; nofun) fun h => .inl ?_
        have hlook := h k
        rw [hk] at hlook
        obtain ⟨hl, hp⟩ := hlook
        refine ⟨hl, ?_⟩
        have hpre := List.prefix_iff_eq_take.1 (List.take_prefix (n + 1) ((s.fs.data i).drop acc.length))
        generalize List.take (n + 1) ((s.fs.data i).drop acc.length) = chunk at hpre
        rw [List.length_append, List.take_add, ← hp, ← hpre]
  | removing =>
    cases ev with
    | fail => exact inv_now (.inl trivial)
    | go n => simp only [writeStep]; split <;> exact inv_now (.inl trivial)
  | removingTree => cases ev <;> exact inv_now (.inl trivial)
  | unlinking => cases ev <;> exact inv_now (.inl trivial)
  | mkdirs => cases ev <;> exact inv_now (.inl trivial)
  | opening =>
    cases ev with
    | fail => exact inv_now (.inr rfl)
    | go n =>
      simp only [writeStep]
      split
      · exact inv_now (.inr rfl)
      · next fs' i ho =>
        obtain ⟨h1, h2⟩ := openTrunc_spec ho
        refine .inr (.inr (.inl ⟨i, h1, by simp [h2], fun j _ => .inr ⟨k, 0, by simp, Nat.zero_le _⟩⟩))
  | done ok =>
    have : upd s.proc k (.done ok) = s.proc := by rw [← hk]; exact upd_self ..
    cases ev <;> simpa only [writeStep, this] using hi
  | writing i off =>
    simp only [writeStep]
    split
    · next hle =>
      rcases hi with ⟨pid, h⟩ | ⟨pid, h⟩ | ⟨m, h, hg⟩ | h
      · have : pid ≠ k := fun e => by rw [e, hk] at h; cases h
        exact .inl ⟨pid, by simpa [upd_ne _ _ this] using h⟩
      · have : pid ≠ k := fun e => by rw [e, hk] at h; exact h
        exact .inr (.inl ⟨pid, by simpa [upd_ne _ _ this] using h⟩)
      · refine .inr (.inr (.inl ⟨m, h, hg.1, fun j hj => ?_⟩))
        rcases hg.2 j hj with h | ⟨pid, o, h, ho⟩
        · exact .inl h
        · have : pid ≠ k := fun e => by
            rw [e, hk] at h; cases h; omega
          exact .inr ⟨pid, o, by simpa [upd_ne _ _ this] using h, ho⟩
      · have := h k
        rw [hk] at this
        exact this.elim
    · next hlt =>
      cases ev with
      | fail => exact inv_now (.inr rfl)
      | go n =>
        dsimp only
        have hcl : ((content.drop off).take (n + 1)).length ≤ content.length - off := by
          rw [List.length_take, List.length_drop]; omega
        rcases hi with ⟨pid, h⟩ | ⟨pid, h⟩ | ⟨m, h, hg⟩ | h
        · have : pid ≠ k := fun e => by rw [e, hk] at h; cases h
          exact .inl ⟨pid, by simpa [upd_ne _ _ this] using h⟩
        · have : pid ≠ k := fun e => by rw [e, hk] at h; exact h
          exact .inr (.inl ⟨pid, by simpa [upd_ne _ _ this] using h⟩)
        · refine .inr (.inr (.inl ⟨m, (lookup_congr rfl p).trans h, ?_⟩))
          by_cases hm : m = i
          · subst hm
            refine ⟨?_, fun j hj => ?_⟩
            · simp only [Fs.writeAt, upd_same, patch_length]
              have := hg.1
              omega
            · simp only [Fs.writeAt, upd_same, patch_get]
              by_cases h1 : j < off
              · rw [if_pos h1]
                rcases hg.2 j hj with hd | ⟨pid, o, hp, ho⟩
                · have : j < (s.fs.data m).length := by
                    rw [List.getElem?_eq_getElem hj] at hd
                    exact (List.getElem?_eq_some_iff.1 hd).1
                  rw [if_pos this]
                  exact .inl hd
                · have hpk : pid ≠ k := fun e => by rw [e, hk] at hp; cases hp; omega
                  exact .inr ⟨pid, o, by simpa [upd_ne _ _ hpk] using hp, ho⟩
              · rw [if_neg h1]
                by_cases h2 : j < off + ((content.drop off).take (n + 1)).length
                · rw [if_pos h2]
                  left
                  have h3 : j - off < n + 1 := by
                    have := List.length_take_le (n + 1) (content.drop off)
                    omega
                  rw [List.getElem?_take, if_pos h3, List.getElem?_drop]
                  congr 1; omega
                · exact .inr ⟨k, _, upd_same .., by omega⟩
          · refine ⟨?_, fun j hj => ?_⟩
            · simpa only [Fs.writeAt, upd_ne _ _ hm] using hg.1
            · simp only [Fs.writeAt, upd_ne _ _ hm]
              rcases hg.2 j hj with hd | ⟨pid, o, hp, ho⟩
              · exact .inl hd
              · have hpk : pid ≠ k := fun e => by rw [e, hk] at hp; cases hp; exact hm rfl
                exact .inr ⟨pid, o, by simpa [upd_ne _ _ hpk] using hp, ho⟩
        · have := h k
          rw [hk] at this
          exact this.elim

theorem inv_run {p : Place} {content : List Nat} (sched : List (Nat × Ev)) {s : Sys Proc} (hi : Inv p content s) :
    Inv p content (runSys (writeStep p content) s sched) := by
  induction sched generalizing s with
  | nil => exact hi
  | cons e sched ih => exact ih (inv_step hi e)

/-- **C61.** Any number of build scripts write the same bytes to the same path at the same time, on any file system, with any
interleaving of their system calls, any of which may fail.  Once every script that has begun has reported success, the path
leads to a file with exactly these bytes. -/
theorem concurrent_write (p : Place) (content : List Nat) (fs : Fs) (sched : List (Nat × Ev))
    (h : AllOk (runSys (writeStep p content) ⟨fs, fun _ => .start⟩ sched)) :
    (runSys (writeStep p content) ⟨fs, fun _ => .start⟩ sched).fs.contents p = some content := by
  have hi := inv_run (p := p) (content := content) sched
    (show Inv p content ⟨fs, fun _ => .start⟩ from .inr (.inr (.inr fun _ => trivial)))
  generalize runSys (writeStep p content) ⟨fs, fun _ => .start⟩ sched = s at h hi
  obtain ⟨hall, pid0, h0⟩ := h
  rcases hi with ⟨pid, h⟩ | ⟨pid, h⟩ | ⟨i, h, hg⟩ | h
  · rcases hall pid with e | e <;> rw [e] at h <;> cases h
  · rcases hall pid with e | e <;> rw [e] at h <;> cases h
  · have hd : s.fs.data i = content := by
      apply List.ext_getElem?
      intro j
      by_cases hj : j < content.length
      · rcases hg.2 j hj with h | ⟨pid, off, h, -⟩
        · exact h
        · rcases hall pid with e | e <;> rw [e] at h <;> cases h
      · rw [List.getElem?_eq_none (by have := hg.1; omega), List.getElem?_eq_none (by omega)]
    simp [Fs.contents, h, hd]
  · have := h pid0
    rw [h0] at this
    exact this.elim

/-! ### One script -/

theorem runAlone_sys {π : Type} (step : Fs → π → Ev → Fs × π) (evs : List Ev) (fs : Fs) (c : π) (f : Nat → π) :
    runSys step ⟨fs, upd f 0 c⟩ (evs.map fun e => (0, e)) =
      ⟨(runAlone step fs c evs).1, upd f 0 (runAlone step fs c evs).2⟩ := by
  induction evs generalizing fs c with
  | nil => rfl
  | cons e evs ih =>
    have : sysStep step ⟨fs, upd f 0 c⟩ (0, e) = ⟨(step fs c e).1, upd f 0 (step fs c e).2⟩ := by
      simp [sysStep, upd_upd]
    show runSys step (sysStep step ⟨fs, upd f 0 c⟩ (0, e)) _ = _
    rw [this, ih]
    rfl

/-- **C42.** Whatever the file system holds at the path and elsewhere: a stale or half written file, a directory, a symbolic
link that leads somewhere or nowhere, or nothing.  However the system calls end, if the write reports success, the path
leads to a file with exactly the bytes that were to be written.  This includes what a script leaves behind that was killed
at any moment. -/
theorem write_exact (p : Place) (content : List Nat) (fs : Fs) (evs : List Ev)
    (h : (runAlone (writeStep p content) fs .start evs).2 = .done true) :
    (runAlone (writeStep p content) fs .start evs).1.contents p = some content := by
  have hs := runAlone_sys (writeStep p content) evs fs .start (fun _ => .start)
  have hu : upd (fun _ => Proc.start) 0 Proc.start = fun _ => Proc.start := by funext j; simp [upd]
  rw [hu] at hs
  have := concurrent_write p content fs (evs.map fun e => (0, e)) (by
    rw [hs]
    refine ⟨fun pid => ?_, 0, by simpa using h⟩
    by_cases hp : pid = 0
    · subst hp; right; simpa using h
    · left; simp [upd, hp])
  rwa [hs] at this

theorem runAlone_cons {π : Type} (step : Fs → π → Ev → Fs × π) (fs : Fs) (c : π) (e : Ev) (evs : List Ev) :
    runAlone step fs c (e :: evs) = runAlone step (step fs c e).1 (step fs c e).2 evs := rfl

theorem Smooth.tail {e : Ev} {evs : List Ev} (h : Smooth (e :: evs)) : Smooth evs :=
  fun x hx => h x (List.mem_cons_of_mem _ hx)

theorem Smooth.head {e : Ev} {evs : List Ev} (h : Smooth (e :: evs)) : ∃ n, e = .go n := by
  cases e with
  | fail => exact absurd rfl (h _ (List.mem_cons_self ..))
  | go n => exact ⟨n, rfl⟩

theorem runAlone_done (p : Place) (content : List Nat) (fs : Fs) (ok : Bool) (evs : List Ev) :
    runAlone (writeStep p content) fs (.done ok) evs = (fs, .done ok) := by
  induction evs with
  | nil => rfl
  | cons e evs ih => rw [runAlone_cons]; cases e <;> exact ih

theorem untouched_reading {p : Place} {content : List Nat} {fs : Fs} {i : Nat} (hd : fs.data i = content) (evs : List Ev)
    (h : Smooth evs) (acc : List Nat) (ha : acc = content.take acc.length) :
    (runAlone (writeStep p content) fs (.reading i acc) evs).1 = fs ∧
    (content.length - acc.length + 1 ≤ evs.length →
      (runAlone (writeStep p content) fs (.reading i acc) evs).2 = .done true) := by
  induction evs generalizing acc with
  | nil => exact ⟨rfl, fun h => by simp at h⟩
  | cons e evs ih =>
    obtain ⟨n, rfl⟩ := h.head
    rw [runAlone_cons]
    simp only [writeStep, hd]
    split
    · next hc =>
      have hl : content.length ≤ acc.length := by
        simpa [List.take_eq_nil_iff] using hc
      have : acc = content := by rw [ha, List.take_of_length_le hl]
      rw [if_pos this, runAlone_done]
      exact ⟨rfl, fun _ => rfl⟩
    · next hc =>
      have hpre := List.prefix_iff_eq_take.1 (List.take_prefix (n + 1) (content.drop acc.length))
      have hpos : 0 < (List.take (n + 1) (content.drop acc.length)).length := List.length_pos_iff.2 hc
      have hlt : acc.length < content.length := by
        rw [List.length_take, List.length_drop] at hpos; omega
      generalize List.take (n + 1) (content.drop acc.length) = chunk at hpre hpos
      have := ih h.tail (acc ++ chunk) (by rw [List.length_append, List.take_add, ← ha, ← hpre])
      refine ⟨this.1, fun hl => this.2 ?_⟩
      simp only [List.length_append, List.length_cons] at hl ⊢
      omega

/-- **C42.** If the path already leads to a file with the bytes that are to be written, nothing in the file system changes, not
even the time of the last change of the file, and the write succeeds. -/
theorem write_untouched (p : Place) (content : List Nat) (fs : Fs) (h : fs.contents p = some content) (evs : List Ev)
    (he : Smooth evs) :
    (runAlone (writeStep p content) fs .start evs).1 = fs ∧
    (content.length + 3 ≤ evs.length → (runAlone (writeStep p content) fs .start evs).2 = .done true) := by
  obtain ⟨i, hl, hd⟩ := Option.map_eq_some_iff.1 h
  have hn : fs.node p ≠ none := by
    intro hn
    unfold Fs.lookup at hl
    simp [Fs.target, hn] at hl
  cases evs with
  | nil => exact ⟨rfl, fun h => by simp at h⟩
  | cons e evs =>
    obtain ⟨n, rfl⟩ := he.head
    rw [runAlone_cons]
    simp only [writeStep, if_neg hn]
    replace he := he.tail
    cases evs with
    | nil => exact ⟨rfl, fun h => by simp at h⟩
    | cons e evs =>
      obtain ⟨n, rfl⟩ := he.head
      rw [runAlone_cons]
      simp only [writeStep, hl]
      have := untouched_reading (p := p) hd evs he.tail [] (by simp)
      refine ⟨this.1, fun hlen => this.2 ?_⟩
      simp only [List.length_cons, List.length_nil] at hlen ⊢
      omega

/-- Writing twice is writing once. -/
theorem write_twice (p : Place) (content : List Nat) (fs : Fs) (evs evs' : List Ev)
    (h : (runAlone (writeStep p content) fs .start evs).2 = .done true) (he : Smooth evs') :
    (runAlone (writeStep p content) (runAlone (writeStep p content) fs .start evs).1 .start evs').1 =
      (runAlone (writeStep p content) fs .start evs).1 :=
  (write_untouched p content _ (write_exact p content fs evs h) evs' he).1

/-! ### Nothing else changes -/

/-- What a script that meets no failure may have done. -/
def Frame (p : Place) (fs0 fs : Fs) : Proc → Prop
  | .start | .present | .reading _ _ | .removing => fs.node p = fs0.node p
  | .removingTree => fs.node p = some .dir
  | .unlinking => fs.node p ≠ some .dir
  | .mkdirs | .opening => fs.node p = none
  | .writing i _ => fs0.next ≤ i
  | .done _ => True

/-- **C42.** Where no system call fails, everything else stays as it is: what lies outside the path, the bytes and the time of
change of every file that was there before.  In particular the file that a symbolic link at the path leads to is left
alone. -/
theorem write_frame (p : Place) (content : List Nat) (fs : Fs) (evs : List Ev) (he : Smooth evs)
    (hnum : Numbered fs) :
    (∀ q, ¬ p <+: q → fs.node q ≠ none → (runAlone (writeStep p content) fs .start evs).1.node q = fs.node q) ∧
    ∀ i, i < fs.next → (runAlone (writeStep p content) fs .start evs).1.data i = fs.data i ∧
      (runAlone (writeStep p content) fs .start evs).1.changes i = fs.changes i := by
  have key : ∀ (evs : List Ev) (f : Fs) (c : Proc), Smooth evs → Frame p fs f c → fs.next ≤ f.next →
      (∀ q, ¬ p <+: q → fs.node q ≠ none → f.node q = fs.node q) →
      (∀ i, i < fs.next → f.data i = fs.data i ∧ f.changes i = fs.changes i) →
      (∀ q, ¬ p <+: q → fs.node q ≠ none → (runAlone (writeStep p content) f c evs).1.node q = fs.node q) ∧
      ∀ i, i < fs.next → (runAlone (writeStep p content) f c evs).1.data i = fs.data i ∧
        (runAlone (writeStep p content) f c evs).1.changes i = fs.changes i := by
    intro evs
    induction evs with
    | nil => exact fun f c _ _ _ h1 h2 => ⟨h1, h2⟩
    | cons e evs ih =>
      intro f c he hf hx h1 h2
      obtain ⟨n, rfl⟩ := he.head
      rw [runAlone_cons]
      cases c with
      | start =>
        simp only [writeStep]
        split
        · next h => exact ih _ _ he.tail h hx h1 h2
        · exact ih _ _ he.tail hf hx h1 h2
      | present =>
        simp only [writeStep]
        split <;> exact ih _ _ he.tail hf hx h1 h2
      | reading i acc =>
        simp only [writeStep]
        split
        · split
          · exact ih _ _ he.tail trivial hx h1 h2
          · exact ih _ _ he.tail hf hx h1 h2
        · exact ih _ _ he.tail hf hx h1 h2
      | removing =>
        simp only [writeStep]
        split
        · next h => exact ih _ _ he.tail h hx h1 h2
        · next h => exact ih _ _ he.tail h hx h1 h2
        · next h => exact ih _ _ he.tail (show f.node p ≠ some .dir by intro e; simp_all) hx h1 h2
      | removingTree =>
        simp only [writeStep]
        have hp : f.node p = some .dir := hf
        have hr : f.removeTree p = { f with node := fun q => if p <+: q then none else f.node q } := by
          simp [Fs.removeTree, hp]
        rw [hr]
        refine ih _ _ he.tail (by simp [Frame]) hx (fun q hq hn => ?_) h2
        simp only [if_neg hq]
        exact h1 q hq hn
      | unlinking =>
        simp only [writeStep]
        have hp : f.node p ≠ some .dir := hf
        have hr : f.unlink p = { f with node := setNode f.node p none } := by simp [Fs.unlink, hp]
        rw [hr]
        refine ih _ _ he.tail (by simp [Frame, setNode]) hx (fun q hq hn => ?_) h2
        have : q ≠ p := fun e => hq (e ▸ List.prefix_refl _)
        simp only [setNode, if_neg this]
        exact h1 q hq hn
      | mkdirs =>
        simp only [writeStep]
        have hp : f.node p = none := hf
        unfold Fs.mkdirs
        split
        · refine ih _ _ he.tail (by simp [Frame, hp]) hx (fun q hq hn => ?_) h2
          have := h1 q hq hn
          simp only [this, hn, and_false, if_false]
        · exact ih _ _ he.tail hf hx h1 h2
      | opening =>
        simp only [writeStep]
        have hp : f.node p = none := hf
        have ht : f.target 40 p = some p := by simp [Fs.target, hp]
        simp only [Fs.openTrunc, ht, hp]
        split
        · next h =>
          split at h
          · cases h
          · exact ih _ _ he.tail trivial hx h1 h2
        · next fs' i h =>
          split at h
          · cases h
            refine ih _ _ he.tail hx (by simp; omega) (fun q hq hn => ?_) (fun i hi => ?_)
            · have : q ≠ p := fun e => hq (e ▸ List.prefix_refl _)
              simp only [setNode, if_neg this]
              exact h1 q hq hn
            · have : i ≠ f.next := by omega
              simp only [upd_ne _ _ this]
              exact h2 i hi
          · cases h
      | writing i off =>
        simp only [writeStep]
        split
        · exact ih _ _ he.tail trivial hx h1 h2
        · refine ih _ _ he.tail hf hx h1 (fun k hk => ?_)
          have hf' : fs.next ≤ i := hf
          have : k ≠ i := by omega
          simp only [Fs.writeAt, upd_ne _ _ this]
          exact h2 k hk
      | done ok =>
        simp only [writeStep]
        exact ih _ _ he.tail trivial hx h1 h2
  exact key evs fs .start he rfl (Nat.le_refl _) (fun _ _ _ => rfl) (fun _ _ => ⟨rfl, rfl⟩)

/-! ### The write succeeds -/

/-- From here on the script succeeds within `n` system calls, if none fails. -/
def Finishes (p : Place) (content : List Nat) (fs : Fs) (c : Proc) (n : Nat) : Prop :=
  ∀ evs, Smooth evs → n ≤ evs.length → (runAlone (writeStep p content) fs c evs).2 = .done true

theorem finishes_step {p : Place} {content : List Nat} {fs : Fs} {c : Proc} {n : Nat}
    (h : ∀ k, Finishes p content (writeStep p content fs c (.go k)).1 (writeStep p content fs c (.go k)).2 n) :
    Finishes p content fs c (n + 1) := by
  intro evs he hl
  cases evs with
  | nil => simp at hl
  | cons e evs =>
    obtain ⟨k, rfl⟩ := he.head
    rw [runAlone_cons]
    exact h k evs he.tail (by simpa using hl)

theorem finishes_mono {p : Place} {content : List Nat} {fs : Fs} {c : Proc} {n m : Nat} (h : Finishes p content fs c n)
    (hm : n ≤ m) : Finishes p content fs c m := fun evs he hl => h evs he (by omega)

theorem finishes_done (p : Place) (content : List Nat) (fs : Fs) (n : Nat) : Finishes p content fs (.done true) n := by
  intro evs _ _
  rw [runAlone_done]

theorem finishes_writing (p : Place) (content : List Nat) (i : Nat) : ∀ (n : Nat) (fs : Fs) (off : Nat),
    content.length ≤ off + n → Finishes p content fs (.writing i off) (n + 1)
  | 0, fs, off, h => finishes_step fun k => by
    simp only [writeStep, if_pos (show content.length ≤ off by omega)]
    exact finishes_done _ _ _ _
  | n + 1, fs, off, h => finishes_step fun k => by
    simp only [writeStep]
    split
    · exact finishes_done _ _ _ _
    · next hlt =>
      refine finishes_writing p content i n _ _ ?_
      rw [List.length_take, List.length_drop]
      omega

theorem finishes_opening (p : Place) (content : List Nat) (fs : Fs) (hn : fs.node p = none)
    (hd : fs.node p.dropLast = some .dir) : Finishes p content fs .opening (content.length + 2) :=
  finishes_step fun k => by
    have ht : fs.target 40 p = some p := by simp [Fs.target, hn]
    simp only [writeStep, Fs.openTrunc, ht, hn, hd, if_true]
    exact finishes_writing p content _ _ _ _ (by omega)

theorem dropLast_not_below {p q : Place} (hp : p ≠ []) (h : q = p.dropLast) : ¬ p <+: q := by
  intro hpre
  have := hpre.length_le
  rw [h, List.length_dropLast] at this
  have := List.length_pos_iff.2 hp
  omega

theorem finishes_removing (p : Place) (content : List Nat) (fs : Fs) (hp : p ≠ []) (hd : fs.node p.dropLast = some .dir) :
    Finishes p content fs .removing (content.length + 4) :=
  finishes_step fun k => by
    simp only [writeStep]
    have hpd : p.dropLast ≠ p := fun e => dropLast_not_below hp e.symm (List.prefix_refl _)
    split
    · next h => exact finishes_mono (finishes_opening p content fs h hd) (by omega)
    · next h =>
      refine finishes_step fun k => ?_
      have hr : fs.removeTree p = { fs with node := fun q => if p <+: q then none else fs.node q } := by
        simp [Fs.removeTree, h]
      simp only [writeStep, hr]
      refine finishes_opening p content _ (by simp) ?_
      simp only [if_neg (dropLast_not_below hp rfl)]
      exact hd
    · next v hv h =>
      refine finishes_step fun k => ?_
      have hne : fs.node p ≠ some .dir := by intro e; simp_all
      have hr : fs.unlink p = { fs with node := setNode fs.node p none } := by simp [Fs.unlink, hne]
      simp only [writeStep, hr]
      refine finishes_opening p content _ (by simp [setNode]) ?_
      simp only [setNode, if_neg hpd]
      exact hd

theorem finishes_reading (p : Place) (content : List Nat) (fs : Fs) (hp : p ≠ []) (hd : fs.node p.dropLast = some .dir)
    (i : Nat) : ∀ (n : Nat) (acc : List Nat), (fs.data i).length ≤ acc.length + n →
      Finishes p content fs (.reading i acc) (n + content.length + 5)
  | 0, acc, h => finishes_step fun k => by
    have : ((fs.data i).drop acc.length).take (k + 1) = [] := by
      rw [List.drop_of_length_le (by omega)]; rfl
    simp only [writeStep, this, if_true]
    split
    · exact finishes_done _ _ _ _
    · exact finishes_mono (finishes_removing p content fs hp hd) (by omega)
  | n + 1, acc, h => by
    rw [show n + 1 + content.length + 5 = (n + content.length + 5) + 1 by omega]
    refine finishes_step fun k => ?_
    simp only [writeStep]
    split
    · split
      · exact finishes_done _ _ _ _
      · exact finishes_mono (finishes_removing p content fs hp hd) (by omega)
    · next hne =>
      refine finishes_reading p content fs hp hd i n _ ?_
      have := List.length_pos_iff.2 hne
      rw [List.length_append]
      omega

theorem prefix_take {p q : Place} (h : q <+: p) : p.take q.length = q := (List.prefix_iff_eq_take.1 h).symm

theorem finishes_mkdirs (p : Place) (content : List Nat) (fs : Fs) (hp : p ≠ []) (hn : fs.node p = none)
    (hup : ∀ q, q <+: p → q ≠ p → fs.node q = none ∨ fs.node q = some .dir) :
    Finishes p content fs .mkdirs (content.length + 3) :=
  finishes_step fun k => by
    have hall : (List.range p.length).all (fun n => fs.node (p.take n) == none || fs.node (p.take n) == some .dir) = true := by
      rw [List.all_eq_true]
      intro n hn
      have hlt := List.mem_range.1 hn
      rcases hup (p.take n) (List.take_prefix ..) (fun e => by
        have := congrArg List.length e
        rw [List.length_take] at this
        omega) with h | h <;> simp [h]
    simp only [writeStep, Fs.mkdirs, hall, if_true]
    refine finishes_opening p content _ (by simp [hn]) ?_
    have h1 : p.dropLast <+: p := List.dropLast_prefix p
    have h2 : p.dropLast ≠ p := fun e => dropLast_not_below hp e.symm (List.prefix_refl _)
    rcases hup _ h1 h2 with h | h
    · simp [h1, h2, h]
    · simp [h]

/-- **C42.** A write that meets no failure succeeds, unless something other than a directory lies above the path.  A file
system lists nothing below what is not a directory. -/
theorem write_completes (p : Place) (content : List Nat) (fs : Fs) (hp : p ≠ [])
    (htree : ∀ q n, fs.node (q ++ [n]) ≠ none → fs.node q = some .dir)
    (hup : ∀ q, q <+: p → q ≠ p → fs.node q = none ∨ fs.node q = some .dir) :
    ∃ n, ∀ evs, Smooth evs → n ≤ evs.length → (runAlone (writeStep p content) fs .start evs).2 = .done true := by
  by_cases hn : fs.node p = none
  · refine ⟨content.length + 3 + 1, finishes_step fun k => ?_⟩
    simp only [writeStep, hn, if_true]
    exact finishes_mkdirs p content fs hp hn hup
  · have hd : fs.node p.dropLast = some .dir := by
      refine htree p.dropLast (p.getLast hp) ?_
      rw [List.dropLast_concat_getLast]
      exact hn
    cases hl : fs.lookup p with
    | none =>
      refine ⟨content.length + 4 + 1 + 1, finishes_step fun k => ?_⟩
      simp only [writeStep, if_neg hn]
      refine finishes_step fun k => ?_
      simp only [writeStep, hl]
      exact finishes_removing p content fs hp hd
    | some i =>
      refine ⟨(fs.data i).length + content.length + 5 + 1 + 1, finishes_step fun k => ?_⟩
      simp only [writeStep, if_neg hn]
      refine finishes_step fun k => ?_
      simp only [writeStep, hl]
      exact finishes_reading p content fs hp hd i _ [] (by simp)

/-! ### Examples -/

/-- A file system with a stale file at `/t/a`, a link to it at `/t/l`, and nothing else. -/
def sampleFs : Fs where
  node := fun p =>
    if p = [] then some .dir else if p = [['t']] then some .dir
    else if p = [['t'], ['a']] then some (.file 0) else if p = [['t'], ['l']] then some (.link [['t'], ['a']]) else none
  data := fun i => if i = 0 then [1, 2, 3] else []
  changes := fun _ => 0
  next := 1

/-- Writing where the link is: the link is replaced and the file it led to is left alone. -/
example :
    let r := runAlone (writeStep [['t'], ['l']] [7, 8]) sampleFs .start (List.replicate 12 (.go 0))
    r.2 = .done true ∧ r.1.contents [['t'], ['l']] = some [7, 8] ∧ r.1.contents [['t'], ['a']] = some [1, 2, 3] := by
  decide +kernel

example : Numbered sampleFs := by
  intro p i h
  unfold sampleFs at h ⊢
  dsimp only at h ⊢
  split at h
  · cases h
  · split at h
    · cases h
    · split at h
      · cases h; omega
      · split at h <;> cases h

/-- Two scripts write a new file at the same time. -/
example :
    AllOk (runSys (writeStep [['t'], ['n']] [7, 8]) ⟨sampleFs, fun _ => .start⟩
      ([0, 1, 0, 1, 0, 0, 1, 0, 1, 1, 0, 1].map fun k => (k, .go 0))) := by
  constructor
  · intro pid
    match pid with
    | 0 => right; decide +kernel
    | 1 => right; decide +kernel
    | n + 2 =>
      left
      rfl
  · exact ⟨0, by decide +kernel⟩

/-- While another script is still writing the file, one that has reported success can find it gone. -/
theorem written_file_vanishes : ∃ sched,
    let s := runSys (writeStep [['t'], ['n']] [7, 8]) ⟨sampleFs, fun _ => .start⟩ sched
    s.proc 0 = .done true ∧ s.fs.contents [['t'], ['n']] = none :=
  ⟨[(0, .go 0), (0, .go 0), (0, .go 0), (0, .go 0), (1, .go 0), (1, .go 0), (1, .go 0), (1, .go 0), (0, .go 0), (0, .go 0),
    (1, .go 0), (1, .go 0)], by decide +kernel⟩

end Verif.Build
