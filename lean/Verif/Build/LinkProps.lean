import Verif.Build.WriteProps
/-!
# Links made by several build scripts at once
-/
namespace Verif.Build

/-- The script has seen to it that what was there before is gone. -/
def Cleared : LinkProc → Prop
  | .mkdirs | .linking | .done _ => True
  | _ => False

def LinkPending : LinkProc → Prop
  | .removing | .removingTree | .unlinking | .mkdirs | .linking => True
  | _ => False

structure LinkInv (p content : Place) (s : Sys LinkProc) : Prop where
  main : (∃ pid, s.proc pid = .done false) ∨ (∃ pid, LinkPending (s.proc pid)) ∨
    s.fs.node p = some (.link content) ∨ ∀ pid, s.proc pid = .start
  clear : ∀ pid, Cleared (s.proc pid) → s.fs.node p = none ∨ s.fs.node p = some (.link content)
  tree : ∀ pid, s.proc pid = .removingTree → ∀ i, s.fs.node p ≠ some (.file i)
  single : ∀ pid, s.proc pid = .unlinking → s.fs.node p ≠ some .dir

/-- How a step may change what is at the path. -/
def Moves (content : Place) (a b : Option Node) : Prop := b = a ∨ b = none ∨ b = some (.link content)

/-- All that a step has to satisfy besides keeping the claim about the end. -/
theorem link_keep {p content : Place} {s : Sys LinkProc} (hi : LinkInv p content s) {k : Nat} {c : LinkProc} {fs : Fs}
    (hm : Moves content (s.fs.node p) (fs.node p))
    (main : (∃ pid, upd s.proc k c pid = .done false) ∨ (∃ pid, LinkPending (upd s.proc k c pid)) ∨
      fs.node p = some (.link content) ∨ ∀ pid, upd s.proc k c pid = .start)
    (hc : Cleared c → fs.node p = none ∨ fs.node p = some (.link content))
    (ht : c = .removingTree → ∀ i, fs.node p ≠ some (.file i))
    (hs : c = .unlinking → fs.node p ≠ some .dir) : LinkInv p content ⟨fs, upd s.proc k c⟩ := by
  refine ⟨main, fun pid h => ?_, fun pid h => ?_, fun pid h => ?_⟩
  · by_cases e : pid = k
    · subst e
      exact hc (by simpa using h)
    · have := hi.clear pid (by simpa [upd_ne _ _ e] using h)
      rcases hm with hm | hm | hm
      · show fs.node p = none ∨ _
        rw [hm]; exact this
      · exact .inl hm
      · exact .inr hm
  · by_cases e : pid = k
    · subst e
      exact ht (by simpa using h)
    · have := hi.tree pid (by simpa [upd_ne _ _ e] using h)
      intro i
      show fs.node p ≠ _
      rcases hm with hm | hm | hm <;> rw [hm]
      · exact this i
      · nofun
      · nofun
  · by_cases e : pid = k
    · subst e
      exact hs (by simpa using h)
    · have := hi.single pid (by simpa [upd_ne _ _ e] using h)
      show fs.node p ≠ _
      rcases hm with hm | hm | hm <;> rw [hm]
      · exact this
      · nofun
      · nofun

theorem link_pending {p content : Place} {s : Sys LinkProc} (hi : LinkInv p content s) {k : Nat} {c : LinkProc} {fs : Fs}
    (hm : Moves content (s.fs.node p) (fs.node p)) (hp : LinkPending c)
    (hc : Cleared c → fs.node p = none ∨ fs.node p = some (.link content))
    (ht : c = .removingTree → ∀ i, fs.node p ≠ some (.file i))
    (hs : c = .unlinking → fs.node p ≠ some .dir) : LinkInv p content ⟨fs, upd s.proc k c⟩ :=
  link_keep hi hm (.inr (.inl ⟨k, by simpa using hp⟩)) hc ht hs

theorem mkdirs_node (fs : Fs) (p : Place) : (fs.mkdirs p).node p = fs.node p := by
  unfold Fs.mkdirs
  split
  · simp
  · rfl

theorem link_step {p content : Place} {s : Sys LinkProc} (hi : LinkInv p content s) (e : Nat × Ev)
    (he : e.2 = .fail → s.proc e.1 = .mkdirs ∨ s.proc e.1 = .linking ∨ ∃ ok, s.proc e.1 = .done ok) :
    LinkInv p content (sysStep (linkStep p content) s e) := by
  obtain ⟨k, ev⟩ := e
  unfold sysStep
  dsimp only at he ⊢
  cases hk : s.proc k with
  | start =>
    cases ev with
    | fail => rw [hk] at he; simp at he
    | go n =>
      simp only [linkStep]
      split
      · next h => exact link_pending hi (.inl rfl) trivial (fun _ => .inl h) nofun nofun
      · exact link_pending hi (.inl rfl) trivial nofun nofun nofun
  | removing =>
    cases ev with
    | fail => rw [hk] at he; simp at he
    | go n =>
      simp only [linkStep]
      split
      · next h => exact link_pending hi (.inl rfl) trivial (fun _ => .inl h) nofun nofun
      · next h => exact link_pending hi (.inl rfl) trivial nofun (fun _ i => by rw [h]; nofun) nofun
      · exact link_pending hi (.inl rfl) trivial nofun nofun (fun _ e => by simp_all)
  | removingTree =>
    cases ev with
    | fail => rw [hk] at he; simp at he
    | go n =>
      have hne := hi.tree k hk
      have hr : s.fs.removeTree p = { s.fs with node := fun q => if p <+: q then none else s.fs.node q } := by
        unfold Fs.removeTree
        split
        · next i h => exact absurd h (hne i)
        · rfl
      have h0 : (s.fs.removeTree p).node p = none := by rw [hr]; simp
      exact link_pending hi (.inr (.inl h0)) trivial (fun _ => .inl h0) nofun nofun
  | unlinking =>
    cases ev with
    | fail => rw [hk] at he; simp at he
    | go n =>
      have h0 : (s.fs.unlink p).node p = none := by simp [Fs.unlink, hi.single k hk, setNode]
      exact link_pending hi (.inr (.inl h0)) trivial (fun _ => .inl h0) nofun nofun
  | mkdirs =>
    have hc := hi.clear k (by rw [hk]; trivial)
    cases ev with
    | fail => exact link_pending hi (.inl rfl) trivial (fun _ => hc) nofun nofun
    | go n =>
      refine link_pending hi (.inl (mkdirs_node ..)) trivial (fun _ => ?_) nofun nofun
      rw [show (linkStep p content s.fs .mkdirs (.go n)).1 = s.fs.mkdirs p from rfl, mkdirs_node]
      exact hc
  | linking =>
    have hc := hi.clear k (by rw [hk]; trivial)
    cases ev with
    | fail => exact link_keep hi (.inl rfl) (.inl ⟨k, by simp [linkStep]⟩) (fun _ => hc) nofun nofun
    | go n =>
      simp only [linkStep]
      split
      · next fs' h =>
        have h0 : fs'.node p = some (.link content) := by
          unfold Fs.symlink at h
          split at h
          · cases h; simp [setNode]
          · cases h
        exact link_keep hi (.inr (.inr h0)) (.inr (.inr (.inl h0))) (fun _ => .inr h0) nofun nofun
      · refine link_keep hi (.inl rfl) ?_ (fun _ => hc) nofun nofun
        rcases hc with hc | hc
        · exact .inl ⟨k, by simp [hc]⟩
        · exact .inr (.inr (.inl hc))
  | done ok =>
    have : upd s.proc k (.done ok) = s.proc := by rw [← hk]; exact upd_self ..
    cases ev <;> simpa only [linkStep, this] using hi

/-- **C61.** Any number of build scripts make the same link at the same time, in place of anything, with any interleaving of
their system calls.  If none fails to see or to remove what is there, then once every script that has begun has reported
success, the link is there. -/
theorem concurrent_link (p content : Place) (fs : Fs) (sched : List (Nat × Ev))
    (hc : Careful p content ⟨fs, fun _ => .start⟩ sched)
    (h : LinksOk (runSys (linkStep p content) ⟨fs, fun _ => .start⟩ sched)) :
    (runSys (linkStep p content) ⟨fs, fun _ => .start⟩ sched).fs.node p = some (.link content) := by
  have key : ∀ (sched : List (Nat × Ev)) (s : Sys LinkProc), Careful p content s sched → LinkInv p content s →
      LinkInv p content (runSys (linkStep p content) s sched) := by
    intro sched
    induction sched with
    | nil => exact fun s _ hi => hi
    | cons e sched ih => exact fun s hc hi => ih _ hc.2 (link_step hi e hc.1)
  have hi := key sched _ hc ⟨.inr (.inr (.inr fun _ => rfl)), nofun, nofun, nofun⟩
  generalize runSys (linkStep p content) ⟨fs, fun _ => .start⟩ sched = s at h hi
  obtain ⟨hall, pid0, h0⟩ := h
  rcases hi.main with ⟨pid, h⟩ | ⟨pid, h⟩ | h | h
  · rcases hall pid with e | e <;> rw [e] at h <;> cases h
  · rcases hall pid with e | e <;> rw [e] at h <;> cases h
  · exact h
  · rw [h pid0] at h0; cases h0

/-- One after the other: three scripts replace the stale file at `/t/a` by a link. -/
example : Careful [['t'], ['a']] [['t'], ['x']] ⟨sampleFs, fun _ => .start⟩
      ([0, 1, 0, 1, 0, 0, 1, 2, 1, 2, 2, 2].map fun k => (k, .go 0)) ∧
    LinksOk (runSys (linkStep [['t'], ['a']] [['t'], ['x']]) ⟨sampleFs, fun _ => .start⟩
      ([0, 1, 0, 1, 0, 0, 1, 2, 1, 2, 2, 2].map fun k => (k, .go 0))) := by
  refine ⟨?_, fun pid => ?_, 0, by decide +kernel⟩
  · simp [Careful]
  · match pid with
    | 0 => right; decide +kernel
    | 1 => right; decide +kernel
    | 2 => right; decide +kernel
    | n + 3 => left; rfl

/-- If what was at the path cannot be removed, the script takes it for the link and reports success: here a stale file stays. -/
theorem stale_link : ∃ evs,
    let r := runAlone (linkStep [['t'], ['a']] [['t'], ['x']]) sampleFs .start evs
    r.2 = .done true ∧ r.1.node [['t'], ['a']] = some (.file 0) :=
  ⟨[.go 0, .go 0, .fail, .go 0], by decide +kernel⟩

end Verif.Build
