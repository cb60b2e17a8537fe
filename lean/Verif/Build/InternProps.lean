import Verif.Build.InternModel
/-!
# Interned strings keep their text
-/
namespace Verif.Build

structure InternInv (s : InternState) (issued : List (Text × StrRef)) : Prop where
  issued : ∀ x ∈ issued, x.2 ∈ s.set ∧ reads s.heap x.2 = some x.1
  unique : ∀ r ∈ s.set, ∀ r' ∈ s.set, reads s.heap r = reads s.heap r' → r = r'
  kept : ∀ r ∈ s.set, r.len ≠ 0 → s.others r.addr = false
  live : ∀ r ∈ s.set, ∃ t, reads s.heap r = some t
  others : ∀ a, s.others a = true → ∃ t, s.heap a = some t

/-- What is reported by a step. -/
def report : InternOp → Option StrRef → List (Text × StrRef)
  | .intern t _, some r => [(t, r)]
  | _, _ => []

theorem reads_upd {heap : Nat → Option Text} {a : Nat} {v : Option Text} {r : StrRef} (h : r.len = 0 ∨ r.addr ≠ a) :
    reads (upd heap a v) r = reads heap r := by
  unfold reads
  rcases h with h | h
  · simp [h]
  · rw [upd_ne _ _ h]

theorem reads_live {heap : Nat → Option Text} {r : StrRef} {t : Text} (h : reads heap r = some t) :
    r.len = 0 ∨ heap r.addr = some t := by
  unfold reads at h
  split at h
  · next e => exact .inl e
  · split at h
    · next u hu =>
      split at h
      · cases h; exact .inr hu
      · cases h
    · cases h

theorem intern_step {s s' : InternState} {op : InternOp} {obs : Option StrRef} {issued : List (Text × StrRef)}
    (hi : InternInv s issued) (h : internStep s op = .ok (s', obs)) : InternInv s' (issued ++ report op obs) := by
  cases op with
  | intern t addr =>
    simp only [internStep] at h
    split at h
    · next r hf =>
      cases h
      have hm := List.mem_of_find?_eq_some hf
      have hr := List.find?_some hf
      simp only [beq_iff_eq] at hr
      refine ⟨fun x hx => ?_, hi.unique, hi.kept, hi.live, hi.others⟩
      rcases List.mem_append.1 hx with hx | hx
      · exact hi.issued x hx
      · cases List.mem_singleton.1 hx
        exact ⟨hm, hr⟩
    · next hf =>
      have hnone : ∀ r ∈ s.set, reads s.heap r ≠ some t := by
        intro r hr
        simpa using List.find?_eq_none.1 hf r hr
      split at h
      · next ht =>
        cases h
        subst ht
        have hnew : reads s.heap ⟨1, 0⟩ = some [] := rfl
        refine ⟨fun x hx => ?_, ?_, ?_, ?_, hi.others⟩
        · rcases List.mem_append.1 hx with hx | hx
          · exact ⟨List.mem_cons_of_mem _ (hi.issued x hx).1, (hi.issued x hx).2⟩
          · cases List.mem_singleton.1 hx
            exact ⟨List.mem_cons_self .., hnew⟩
        · intro r hr r' hr' he
          rcases List.mem_cons.1 hr with rfl | hr <;> rcases List.mem_cons.1 hr' with rfl | hr'
          · rfl
          · exact absurd (he.symm.trans hnew) (hnone r' hr')
          · exact absurd (he.trans hnew) (hnone r hr)
          · exact hi.unique r hr r' hr' he
        · intro r hr hl
          rcases List.mem_cons.1 hr with rfl | hr
          · exact absurd rfl hl
          · exact hi.kept r hr hl
        · intro r hr
          rcases List.mem_cons.1 hr with rfl | hr
          · exact ⟨_, hnew⟩
          · exact hi.live r hr
      · next ht =>
        split at h
        · cases h
        · next ha =>
          cases h
          have hold : ∀ r ∈ s.set, reads (upd s.heap addr (some t)) r = reads s.heap r := by
            intro r hr
            apply reads_upd
            obtain ⟨u, hu⟩ := hi.live r hr
            rcases reads_live hu with h | h
            · exact .inl h
            · right
              intro e
              rw [e, ha] at h
              cases h
          have hnew : reads (upd s.heap addr (some t)) ⟨addr, t.length⟩ = some t := by
            have : t.length ≠ 0 := by simpa using ht
            simp [reads, this]
          refine ⟨fun x hx => ?_, ?_, ?_, ?_, ?_⟩
          · rcases List.mem_append.1 hx with hx | hx
            · obtain ⟨h1, h2⟩ := hi.issued x hx
              exact ⟨List.mem_cons_of_mem _ h1, by rw [hold _ h1]; exact h2⟩
            · cases List.mem_singleton.1 hx
              exact ⟨List.mem_cons_self .., hnew⟩
          · intro r hr r' hr' he
            rcases List.mem_cons.1 hr with rfl | hr <;> rcases List.mem_cons.1 hr' with rfl | hr'
            · rfl
            · rw [hnew, hold _ hr'] at he
              exact absurd he.symm (hnone r' hr')
            · rw [hnew, hold _ hr] at he
              exact absurd he (hnone r hr)
            · rw [hold _ hr, hold _ hr'] at he
              exact hi.unique r hr r' hr' he
          · intro r hr hl
            rcases List.mem_cons.1 hr with rfl | hr
            · dsimp only
              cases ho : s.others addr with
              | false => rfl
              | true =>
                obtain ⟨u, hu⟩ := hi.others addr ho
                rw [ha] at hu
                cases hu
            · exact hi.kept r hr hl
          · intro r hr
            rcases List.mem_cons.1 hr with rfl | hr
            · exact ⟨_, hnew⟩
            · obtain ⟨u, hu⟩ := hi.live r hr
              exact ⟨u, by rw [hold r hr]; exact hu⟩
          · intro a hao
            by_cases e : a = addr
            · subst e; exact ⟨t, upd_same ..⟩
            · dsimp only
              rw [upd_ne _ _ e]
              exact hi.others a hao
  | alloc t addr =>
    simp only [internStep] at h
    split at h
    · cases h
    · next ha =>
      cases h
      have haddr : ∀ r ∈ s.set, r.len = 0 ∨ r.addr ≠ addr := by
        intro r hr
        obtain ⟨u, hu⟩ := hi.live r hr
        rcases reads_live hu with h | h
        · exact .inl h
        · right
          intro e
          rw [e, ha] at h
          cases h
      have hold : ∀ r ∈ s.set, reads (upd s.heap addr (some t)) r = reads s.heap r := fun r hr => reads_upd (haddr r hr)
      refine ⟨fun x hx => ?_, ?_, ?_, ?_, ?_⟩
      · simp only [report, List.append_nil] at hx
        obtain ⟨h1, h2⟩ := hi.issued x hx
        exact ⟨h1, by rw [hold _ h1]; exact h2⟩
      · intro r hr r' hr' he
        rw [hold _ hr, hold _ hr'] at he
        exact hi.unique r hr r' hr' he
      · intro r hr hl
        dsimp only
        rw [upd_ne _ _ ((haddr r hr).resolve_left hl)]
        exact hi.kept r hr hl
      · intro r hr
        obtain ⟨u, hu⟩ := hi.live r hr
        exact ⟨u, by rw [hold r hr]; exact hu⟩
      · intro a hao
        by_cases e : a = addr
        · subst e; exact ⟨t, upd_same ..⟩
        · dsimp only at hao ⊢
          rw [upd_ne _ _ e] at hao ⊢
          exact hi.others a hao
  | free addr =>
    simp only [internStep] at h
    split at h
    · next ho =>
      cases h
      have haddr : ∀ r ∈ s.set, r.len = 0 ∨ r.addr ≠ addr := by
        intro r hr
        by_cases hl : r.len = 0
        · exact .inl hl
        · right
          intro e
          have := hi.kept r hr hl
          rw [e, ho] at this
          cases this
      have hold : ∀ r ∈ s.set, reads (upd s.heap addr none) r = reads s.heap r := fun r hr => reads_upd (haddr r hr)
      refine ⟨fun x hx => ?_, ?_, ?_, ?_, ?_⟩
      · simp only [report, List.append_nil] at hx
        obtain ⟨h1, h2⟩ := hi.issued x hx
        exact ⟨h1, by rw [hold _ h1]; exact h2⟩
      · intro r hr r' hr' he
        rw [hold _ hr, hold _ hr'] at he
        exact hi.unique r hr r' hr' he
      · intro r hr hl
        dsimp only
        rw [upd_ne _ _ ((haddr r hr).resolve_left hl)]
        exact hi.kept r hr hl
      · intro r hr
        obtain ⟨u, hu⟩ := hi.live r hr
        exact ⟨u, by rw [hold r hr]; exact hu⟩
      · intro a hao
        by_cases e : a = addr
        · subst e; simp at hao
        · dsimp only at hao ⊢
          rw [upd_ne _ _ e] at hao ⊢
          exact hi.others a hao
    · cases h

/-- Everything that calls have returned, with their arguments. -/
def returned : List InternOp → List (Option StrRef) → List (Text × StrRef)
  | op :: ops, b :: bs => report op b ++ returned ops bs
  | _, _ => []

theorem intern_runs {s s' : InternState} {ops : List InternOp} {obs : List (Option StrRef)}
    {issued : List (Text × StrRef)} (hi : InternInv s issued) (h : runOps internStep s ops = .ok (s', obs)) :
    InternInv s' (issued ++ returned ops obs) := by
  induction ops generalizing s obs issued with
  | nil => cases h; simpa [returned] using hi
  | cons op ops ih =>
    simp only [runOps] at h
    split at h
    · cases h
    · next s1 b h1 =>
      split at h
      · cases h
      · next s2 bs h2 =>
        cases h
        have := ih (intern_step hi h1) h2
        rwa [List.append_assoc] at this

/-- **C46.**  After any history of calls, by any threads, and of whatever the rest of the program does with memory, each
result of `intern` still reads as the text it was called with, and two results are the same pointer exactly if the
texts are the same. -/
theorem interned_text {ops : List InternOp} {s : InternState} {obs : List (Option StrRef)}
    (h : runOps internStep .init ops = .ok (s, obs)) :
    (∀ (i : Nat) (t : Text) (a : Nat) (r : StrRef), ops[i]? = some (.intern t a) → obs[i]? = some (some r) → reads s.heap r = some t) ∧
    (∀ (i j : Nat) (t u : Text) (a b : Nat) (r q : StrRef), ops[i]? = some (.intern t a) → obs[i]? = some (some r) →
      ops[j]? = some (.intern u b) → obs[j]? = some (some q) → (r = q ↔ t = u)) := by
  have hi := intern_runs (s := .init) (issued := []) ⟨nofun, nofun, nofun, nofun, nofun⟩ h
  rw [List.nil_append] at hi
  have hmem : ∀ (ops : List InternOp) (obs : List (Option StrRef)) (i : Nat) (t : Text) (a : Nat) (r : StrRef), ops[i]? = some (.intern t a) →
      obs[i]? = some (some r) → (t, r) ∈ returned ops obs := by
    intro ops
    induction ops with
    | nil => intro obs i t a r h; simp at h
    | cons op ops ih =>
      intro obs i t a r h1 h2
      cases obs with
      | nil => simp at h2
      | cons b bs =>
        rw [returned]
        cases i with
        | zero =>
          simp only [List.getElem?_cons_zero, Option.some.injEq] at h1 h2
          subst h1 h2
          exact List.mem_append_left _ (by simp [report])
        | succ i =>
          simp only [List.getElem?_cons_succ] at h1 h2
          exact List.mem_append_right _ (ih bs i t a r h1 h2)
  refine ⟨fun i t a r h1 h2 => (hi.issued _ (hmem ops obs i t a r h1 h2)).2, ?_⟩
  intro i j t u a b r q h1 h2 h3 h4
  obtain ⟨m1, e1⟩ := hi.issued _ (hmem ops obs i t a r h1 h2)
  obtain ⟨m2, e2⟩ := hi.issued _ (hmem ops obs j u b q h3 h4)
  dsimp only at m1 e1 m2 e2
  constructor
  · rintro rfl
    rw [e1] at e2
    exact Option.some.inj e2
  · rintro rfl
    exact hi.unique r m1 q m2 (e1.trans e2.symm)

/-- Every call returns something, if the allocator returns memory that is not in use. -/
theorem intern_returns (s : InternState) (t : Text) (addr : Nat) (h : s.heap addr = none) :
    ∃ s' r, internStep s (.intern t addr) = .ok (s', some r) := by
  simp only [internStep, h]
  split
  · exact ⟨_, _, rfl⟩
  · split <;> exact ⟨_, _, rfl⟩

/-- Two texts, one of them twice, while other memory comes and goes. -/
example : ∃ s, runOps internStep .init
    [.intern "ab".toList 100, .alloc "x".toList 200, .intern "".toList 7, .free 200, .intern "cd".toList 200,
      .intern "ab".toList 300] =
    .ok (s, [some ⟨100, 2⟩, none, some ⟨1, 0⟩, none, some ⟨200, 2⟩, some ⟨100, 2⟩]) := ⟨_, rfl⟩

end Verif.Build
