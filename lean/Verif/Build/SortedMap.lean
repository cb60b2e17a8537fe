import Verif.Build.DepsModel
/-!
# Maps that are kept in the order of their keys
-/
namespace Verif.Build

theorem char_toNat_inj {a b : Char} (h : a.toNat = b.toNat) : a = b := by
  apply Char.ext
  exact UInt32.toNat_inj.1 h

theorem keyLt_irrefl (a : Text) : keyLt a a = false := by
  induction a with
  | nil => rfl
  | cons c a ih => simp [keyLt, ih]

theorem keyLt_trans {a b c : Text} (h1 : keyLt a b = true) (h2 : keyLt b c = true) : keyLt a c = true := by
  induction a generalizing b c with
  | nil =>
    cases c with
    | nil => cases b <;> simp [keyLt] at h1 h2
    | cons z c => rfl
  | cons x a ih =>
    cases b with
    | nil => simp [keyLt] at h1
    | cons y b =>
      cases c with
      | nil => simp [keyLt] at h2
      | cons z c =>
        simp only [keyLt, Bool.or_eq_true, decide_eq_true_eq, Bool.and_eq_true, beq_iff_eq] at h1 h2 ⊢
        rcases h1 with h1 | ⟨rfl, h1⟩
        · rcases h2 with h2 | ⟨rfl, h2⟩
          · left; omega
          · left; exact h1
        · rcases h2 with h2 | ⟨rfl, h2⟩
          · left; exact h2
          · right; exact ⟨rfl, ih h1 h2⟩

theorem keyLt_total (a b : Text) : keyLt a b = true ∨ a = b ∨ keyLt b a = true := by
  induction a generalizing b with
  | nil => cases b <;> simp [keyLt]
  | cons x a ih =>
    cases b with
    | nil => simp [keyLt]
    | cons y b =>
      simp only [keyLt, Bool.or_eq_true, decide_eq_true_eq, Bool.and_eq_true, beq_iff_eq, List.cons.injEq]
      rcases Nat.lt_trichotomy x.toNat y.toNat with h | h | h
      · exact .inl (.inl h)
      · have := char_toNat_inj h
        subst this
        rcases ih b with h | h | h
        · exact .inl (.inr ⟨rfl, h⟩)
        · exact .inr (.inl ⟨rfl, h⟩)
        · exact .inr (.inr (.inr ⟨rfl, h⟩))
      · exact .inr (.inr (.inl h))

theorem keyLt_asymm {a b : Text} (h : keyLt a b = true) : keyLt b a = false := by
  cases hb : keyLt b a with
  | false => rfl
  | true =>
    have := keyLt_trans h hb
    rw [keyLt_irrefl] at this
    cases this

/-- The value under a key. -/
def value {β : Type} (key : Text) : List (Text × β) → Option β
  | [] => none
  | (k, v) :: rest => if k = key then some v else value key rest

/-- The keys are in order, and each occurs once. -/
def Ordered {β : Type} (m : List (Text × β)) : Prop := m.Pairwise fun a b => keyLt a.1 b.1 = true

theorem value_none {β : Type} {key : Text} {m : List (Text × β)} (h : ∀ kv ∈ m, kv.1 ≠ key) : value key m = none := by
  induction m with
  | nil => rfl
  | cons kv m ih =>
    rw [value, if_neg (h kv (List.mem_cons_self ..))]
    exact ih fun x hx => h x (List.mem_cons_of_mem _ hx)

theorem value_mem {β : Type} {key : Text} {m : List (Text × β)} {v : β} (h : value key m = some v) : (key, v) ∈ m := by
  induction m with
  | nil => cases h
  | cons kv m ih =>
    obtain ⟨k, w⟩ := kv
    rw [value] at h
    split at h
    · next e => cases h; subst e; exact List.mem_cons_self ..
    · exact List.mem_cons_of_mem _ (ih h)

theorem mem_value {β : Type} {m : List (Text × β)} (ho : Ordered m) {key : Text} {v : β} (h : (key, v) ∈ m) :
    value key m = some v := by
  induction m with
  | nil => cases h
  | cons kv m ih =>
    obtain ⟨k, w⟩ := kv
    rw [value]
    rcases List.mem_cons.1 h with h | h
    · cases h; simp
    · have hlt := (List.pairwise_cons.1 ho).1 _ h
      rw [if_neg fun e => by rw [e, keyLt_irrefl] at hlt; cases hlt]
      exact ih (List.pairwise_cons.1 ho).2 h

theorem alter_keys {β : Type} {dflt : β} {key : Text} {f : β → β} {m : List (Text × β)} {kv : Text × β}
    (h : kv ∈ alter dflt key f m) : kv.1 = key ∨ ∃ w, (kv.1, w) ∈ m := by
  induction m with
  | nil => simp [alter] at h; simp [h]
  | cons x m ih =>
    obtain ⟨k, v⟩ := x
    rw [alter] at h
    split at h
    · next e =>
      rcases List.mem_cons.1 h with rfl | h
      · exact .inl e
      · exact .inr ⟨kv.2, List.mem_cons_of_mem _ h⟩
    · split at h
      · rcases List.mem_cons.1 h with rfl | h
        · exact .inl rfl
        · exact .inr ⟨kv.2, h⟩
      · rcases List.mem_cons.1 h with rfl | h
        · exact .inr ⟨v, List.mem_cons_self ..⟩
        · rcases ih h with h | ⟨w, h⟩
          · exact .inl h
          · exact .inr ⟨w, List.mem_cons_of_mem _ h⟩

theorem alter_ordered {β : Type} (dflt : β) (key : Text) (f : β → β) {m : List (Text × β)} (h : Ordered m) :
    Ordered (alter dflt key f m) := by
  induction m with
  | nil => simp [alter, Ordered]
  | cons x m ih =>
    obtain ⟨k, v⟩ := x
    have hc := List.pairwise_cons.1 h
    rw [alter]
    split
    · exact List.pairwise_cons.2 hc
    · next hne =>
      split
      · next hlt =>
        refine List.pairwise_cons.2 ⟨fun y hy => ?_, h⟩
        rcases List.mem_cons.1 hy with rfl | hy
        · exact hlt
        · exact keyLt_trans hlt (hc.1 y hy)
      · next hlt =>
        refine List.pairwise_cons.2 ⟨fun y hy => ?_, ih hc.2⟩
        rcases alter_keys hy with e | ⟨w, hw⟩
        · rcases keyLt_total k key with h | h | h
          · rw [e]; exact h
          · exact absurd h hne
          · exact absurd h hlt
        · exact hc.1 (y.1, w) hw

theorem value_alter {β : Type} (dflt : β) (key : Text) (f : β → β) {m : List (Text × β)} (h : Ordered m) (key' : Text) :
    value key' (alter dflt key f m) = if key' = key then some (f ((value key m).getD dflt)) else value key' m := by
  induction m with
  | nil =>
    by_cases e : key' = key
    · subst e; simp [alter, value]
    · simp [alter, value, e, Ne.symm e]
  | cons x m ih =>
    obtain ⟨k, v⟩ := x
    have hc := List.pairwise_cons.1 h
    rw [alter]
    split
    · next e =>
      subst e
      by_cases e' : key' = k
      · subst e'; simp [value]
      · simp [value, e', Ne.symm e']
    · next hne =>
      split
      · next hlt =>
        have hv : value key ((k, v) :: m) = none := by
          refine value_none fun y hy e => ?_
          have : keyLt key y.1 = true := by
            rcases List.mem_cons.1 hy with rfl | hy
            · exact hlt
            · exact keyLt_trans hlt (hc.1 y hy)
          rw [e, keyLt_irrefl] at this
          cases this
        by_cases e' : key' = key
        · subst e'
          rw [value, if_pos rfl, if_pos rfl, hv]
          rfl
        · rw [value, if_neg (Ne.symm e'), if_neg e']
      · have := ih hc.2
        by_cases e' : key' = k
        · subst e'
          simp [value, hne]
        · rw [value, if_neg (Ne.symm e'), this]
          simp [value, hne, Ne.symm e']

theorem ordered_ext {β : Type} {m n : List (Text × β)} (hm : Ordered m) (hn : Ordered n)
    (h : ∀ key, value key m = value key n) : m = n := by
  have mem : ∀ {m n : List (Text × β)}, Ordered m → (∀ key, value key m = value key n) → ∀ kv, kv ∈ m → kv ∈ n := by
    intro m n hm h kv hkv
    obtain ⟨k, v⟩ := kv
    exact value_mem ((h k).symm.trans (mem_value hm hkv))
  have nodup : ∀ {m : List (Text × β)}, Ordered m → m.Nodup := by
    intro m hm
    refine List.Pairwise.imp (fun {a b} h e => ?_) hm
    rw [e, keyLt_irrefl] at h
    cases h
  refine List.Perm.eq_of_pairwise (le := fun a b : Text × β => keyLt a.1 b.1 = true) (fun a b _ _ h1 h2 => ?_) hm hn ?_
  · rw [keyLt_asymm h1] at h2; cases h2
  · exact (List.perm_ext_iff_of_nodup (nodup hm) (nodup hn)).2 fun kv =>
      ⟨mem hm h kv, mem hn (fun k => (h k).symm) kv⟩

end Verif.Build
