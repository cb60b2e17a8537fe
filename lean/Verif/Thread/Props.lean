import Verif.Thread.Spec
/-!
# Safe code cannot race through smart pointers
-/
namespace Verif.Thread

/-! ### Which types are `Send` and `Sync` -/

/-- **C75** (the rule).  A type is `Send` exactly if all it owns is `Send` and all it shares is `Send` and `Sync`; it is
`Sync` exactly if all it owns is `Sync` and all it shares is `Send` and `Sync`. -/
theorem traits_exact (t : RTy) :
    ((traits t).send = true ↔ (∀ b, Has t b → b.send = true) ∧ (∀ b, Shares t b → b.send = true ∧ b.sync = true)) ∧
    ((traits t).sync = true ↔ (∀ b, Has t b → b.sync = true) ∧ (∀ b, Shares t b → b.send = true ∧ b.sync = true)) := by
  induction t with
  | base b =>
    constructor <;> constructor
    · intro h; exact ⟨fun c hc => by cases hc; exact h, fun c hc => by cases hc⟩
    · intro h; exact h.1 b (.base b)
    · intro h; exact ⟨fun c hc => by cases hc; exact h, fun c hc => by cases hc⟩
    · intro h; exact h.1 b (.base b)
  | pair a c iha ihc =>
    simp only [traits, auto, List.all_cons, List.all_nil, Bool.and_true, Bool.and_eq_true, iha, ihc]
    constructor <;> constructor
    · rintro ⟨⟨h1, h2⟩, h3, h4⟩
      exact ⟨fun b hb => by cases hb with | fst h => exact h1 b h | snd h => exact h3 b h,
        fun b hb => by cases hb with | fst h => exact h2 b h | snd h => exact h4 b h⟩
    · rintro ⟨h1, h2⟩
      exact ⟨⟨fun b hb => h1 b (.fst hb), fun b hb => h2 b (.fst hb)⟩, fun b hb => h1 b (.snd hb),
        fun b hb => h2 b (.snd hb)⟩
    · rintro ⟨⟨h1, h2⟩, h3, h4⟩
      exact ⟨fun b hb => by cases hb with | fst h => exact h1 b h | snd h => exact h3 b h,
        fun b hb => by cases hb with | fst h => exact h2 b h | snd h => exact h4 b h⟩
    · rintro ⟨h1, h2⟩
      exact ⟨⟨fun b hb => h1 b (.fst hb), fun b hb => h2 b (.fst hb)⟩, fun b hb => h1 b (.snd hb),
        fun b hb => h2 b (.snd hb)⟩
  | vector t ih =>
    simp only [traits, auto, plain, List.all_cons, List.all_nil, Bool.and_true, Bool.true_and, ih]
    constructor <;> constructor
    · rintro ⟨h1, h2⟩
      exact ⟨fun b hb => by cases hb with | vector h => exact h1 b h, fun b hb => by cases hb with | vector h => exact h2 b h⟩
    · rintro ⟨h1, h2⟩; exact ⟨fun b hb => h1 b (.vector hb), fun b hb => h2 b (.vector hb)⟩
    · rintro ⟨h1, h2⟩
      exact ⟨fun b hb => by cases hb with | vector h => exact h1 b h, fun b hb => by cases hb with | vector h => exact h2 b h⟩
    · rintro ⟨h1, h2⟩; exact ⟨fun b hb => h1 b (.vector hb), fun b hb => h2 b (.vector hb)⟩
  | uniq t ih =>
    simp only [traits, ih]
    constructor <;> constructor
    · rintro ⟨h1, h2⟩
      exact ⟨fun b hb => by cases hb with | uniq h => exact h1 b h, fun b hb => by cases hb with | uniq h => exact h2 b h⟩
    · rintro ⟨h1, h2⟩; exact ⟨fun b hb => h1 b (.uniq hb), fun b hb => h2 b (.uniq hb)⟩
    · rintro ⟨h1, h2⟩
      exact ⟨fun b hb => by cases hb with | uniq h => exact h1 b h, fun b hb => by cases hb with | uniq h => exact h2 b h⟩
    · rintro ⟨h1, h2⟩; exact ⟨fun b hb => h1 b (.uniq hb), fun b hb => h2 b (.uniq hb)⟩
  | shared t ih =>
    have key : ((traits t).send = true ∧ (traits t).sync = true) ↔
        (∀ b, Has (.shared t) b → False) ∧ (∀ b, Shares (.shared t) b → b.send = true ∧ b.sync = true) := by
      rw [ih.1, ih.2]
      constructor
      · rintro ⟨⟨h1, h2⟩, h3, h4⟩
        refine ⟨fun b hb => (by cases hb), fun b hb => ?_⟩
        cases hb with
        | shared h => exact ⟨h1 b h, h3 b h⟩
        | sharedDeep h => exact h2 b h
      · rintro ⟨-, h⟩
        exact ⟨⟨fun b hb => (h b (.shared hb)).1, fun b hb => h b (.sharedDeep hb)⟩,
          fun b hb => (h b (.shared hb)).2, fun b hb => h b (.sharedDeep hb)⟩
    simp only [traits, Bool.and_eq_true, key]
    constructor <;> exact ⟨fun ⟨_, h2⟩ => ⟨fun b hb => (by cases hb), h2⟩, fun ⟨_, h2⟩ => ⟨fun b hb => (by cases hb), h2⟩⟩
  | weak t ih =>
    have key : ((traits t).send = true ∧ (traits t).sync = true) ↔
        (∀ b, Has (.weak t) b → False) ∧ (∀ b, Shares (.weak t) b → b.send = true ∧ b.sync = true) := by
      rw [ih.1, ih.2]
      constructor
      · rintro ⟨⟨h1, h2⟩, h3, h4⟩
        refine ⟨fun b hb => (by cases hb), fun b hb => ?_⟩
        cases hb with
        | weak h => exact ⟨h1 b h, h3 b h⟩
        | weakDeep h => exact h2 b h
      · rintro ⟨-, h⟩
        exact ⟨⟨fun b hb => (h b (.weak hb)).1, fun b hb => h b (.weakDeep hb)⟩,
          fun b hb => (h b (.weak hb)).2, fun b hb => h b (.weakDeep hb)⟩
    simp only [traits, Bool.and_eq_true, key]
    constructor <;> exact ⟨fun ⟨_, h2⟩ => ⟨fun b hb => (by cases hb), h2⟩, fun ⟨_, h2⟩ => ⟨fun b hb => (by cases hb), h2⟩⟩

/-- **C75** (types that C++ defines).  An opaque C++ type is neither `Send` nor `Sync` unless the user says so; a C++
string is both. -/
theorem cxx_type_traits (n : Nat) : cxxType n = ⟨false, false⟩ ∧ cxxString = ⟨true, true⟩ := by
  constructor
  · simp [cxxType, auto, opaque', rawPtr]
  · rfl

/-! ### Values and types -/

/-- The control blocks a value points to. -/
def ptrs : Val → List Nat
  | .shared b | .weak b => [b]
  | .pair v w => ptrs v ++ ptrs w
  | .uniq v => ptrs v
  | _ => []

theorem strong_ptrs {v : Val} {b : Nat} (h : b ∈ strong v) : b ∈ ptrs v := by
  induction v with
  | pair v w ihv ihw =>
    rcases List.mem_append.1 h with h | h
    · exact List.mem_append_left _ (ihv h)
    · exact List.mem_append_right _ (ihw h)
  | uniq v ih => exact ih h
  | shared b => exact h
  | _ => cases h

inductive HasTy (s : State) : Val → RTy → Prop
  | obj {o : Nat} {ob : Object} (h : s.objs o = some ob) : HasTy s (.obj o) (.base ob.traits)
  | nil (t : RTy) : HasTy s .nil (.vector t)
  | cons {v w : Val} {t : RTy} (h : HasTy s v t) (hw : HasTy s w (.vector t)) : HasTy s (.pair v w) (.vector t)
  | pair {v w : Val} {a b : RTy} (h : HasTy s v a) (hw : HasTy s w b) : HasTy s (.pair v w) (.pair a b)
  | nullU (t : RTy) : HasTy s .null (.uniq t)
  | nullS (t : RTy) : HasTy s .null (.shared t)
  | nullW (t : RTy) : HasTy s .null (.weak t)
  | uniq {v : Val} {t : RTy} (h : HasTy s v t) : HasTy s (.uniq v) (.uniq t)
  | shared {b : Nat} {c : Block} (h : s.blocks b = some c) : HasTy s (.shared b) (.shared c.ty)
  | weak {b : Nat} {c : Block} (h : s.blocks b = some c) : HasTy s (.weak b) (.weak c.ty)

/-- More objects and blocks. -/
structure Extends (s s' : State) : Prop where
  objs : ∀ o ob, s.objs o = some ob → s'.objs o = some ob
  blocks : ∀ b c, s.blocks b = some c → s'.blocks b = some c

theorem HasTy.mono {s s' : State} (he : Extends s s') {v : Val} {t : RTy} (h : HasTy s v t) : HasTy s' v t := by
  induction h with
  | obj h => exact .obj (he.objs _ _ h)
  | nil t => exact .nil t
  | cons _ _ ih ihw => exact .cons ih ihw
  | pair _ _ ih ihw => exact .pair ih ihw
  | nullU t => exact .nullU t
  | nullS t => exact .nullS t
  | nullW t => exact .nullW t
  | uniq _ ih => exact .uniq ih
  | shared h => exact .shared (he.blocks _ _ h)
  | weak h => exact .weak (he.blocks _ _ h)

/-- Everything that may go to another thread. -/
def Both (t : RTy) : Prop := (traits t).send = true ∧ (traits t).sync = true

theorem ptr_exists {s : State} {v : Val} {t : RTy} (h : HasTy s v t) {b : Nat} (hb : b ∈ ptrs v) :
    ∃ c, s.blocks b = some c := by
  induction h with
  | cons _ _ ih ihw | pair _ _ ih ihw =>
    rcases List.mem_append.1 hb with hb | hb
    · exact ih hb
    · exact ihw hb
  | uniq _ ih => exact ih hb
  | shared h | weak h => rw [List.mem_singleton.1 hb]; exact ⟨_, h⟩
  | _ => cases hb

theorem owned_exists {s : State} {v : Val} {t : RTy} (h : HasTy s v t) {o : Nat} (ho : o ∈ owned v) :
    ∃ ob, s.objs o = some ob := by
  induction h with
  | cons _ _ ih ihw | pair _ _ ih ihw =>
    rcases List.mem_append.1 ho with ho | ho
    · exact ih ho
    · exact ihw ho
  | uniq _ ih => exact ih ho
  | obj h => rw [List.mem_singleton.1 ho]; exact ⟨_, h⟩
  | _ => cases ho

theorem send_owned {s : State} {v : Val} {t : RTy} (h : HasTy s v t) (ht : (traits t).send = true) :
    (∀ o ∈ owned v, ∀ ob, s.objs o = some ob → ob.traits.send = true) ∧
    (∀ b ∈ ptrs v, ∀ c, s.blocks b = some c → Both c.ty) := by
  induction h with
  | @obj o ob h =>
    refine ⟨fun o' ho ob' hob => ?_, fun b hb => by cases hb⟩
    rw [List.mem_singleton.1 ho, h, Option.some.injEq] at hob
    rw [← hob]; exact ht
  | nil t => exact ⟨fun o ho => (by cases ho), fun b hb => by cases hb⟩
  | cons _ _ ih ihw =>
    have ht' := ht
    simp only [traits, auto, plain, List.all_cons, List.all_nil, Bool.and_true, Bool.true_and] at ht
    obtain ⟨h1, h2⟩ := ih ht
    obtain ⟨h3, h4⟩ := ihw ht'
    exact ⟨fun o ho => (List.mem_append.1 ho).elim (h1 o) (h3 o), fun b hb => (List.mem_append.1 hb).elim (h2 b) (h4 b)⟩
  | pair _ _ ih ihw =>
    simp only [traits, auto, List.all_cons, List.all_nil, Bool.and_true, Bool.and_eq_true] at ht
    obtain ⟨h1, h2⟩ := ih ht.1
    obtain ⟨h3, h4⟩ := ihw ht.2
    exact ⟨fun o ho => (List.mem_append.1 ho).elim (h1 o) (h3 o), fun b hb => (List.mem_append.1 hb).elim (h2 b) (h4 b)⟩
  | nullU t | nullS t | nullW t => exact ⟨fun o ho => (by cases ho), fun b hb => by cases hb⟩
  | uniq _ ih => exact ih ht
  | shared h | weak h =>
    refine ⟨fun o ho => (by cases ho), fun b hb c hc => ?_⟩
    rw [List.mem_singleton.1 hb, h, Option.some.injEq] at hc
    rw [← hc]
    simpa [traits, Both] using ht

theorem sync_owned {s : State} {v : Val} {t : RTy} (h : HasTy s v t) (ht : (traits t).sync = true) :
    (∀ o ∈ owned v, ∀ ob, s.objs o = some ob → ob.traits.sync = true) ∧
    (∀ b ∈ ptrs v, ∀ c, s.blocks b = some c → Both c.ty) := by
  induction h with
  | @obj o ob h =>
    refine ⟨fun o' ho ob' hob => ?_, fun b hb => by cases hb⟩
    rw [List.mem_singleton.1 ho, h, Option.some.injEq] at hob
    rw [← hob]; exact ht
  | nil t => exact ⟨fun o ho => (by cases ho), fun b hb => by cases hb⟩
  | cons _ _ ih ihw =>
    have ht' := ht
    simp only [traits, auto, plain, List.all_cons, List.all_nil, Bool.and_true, Bool.true_and] at ht
    obtain ⟨h1, h2⟩ := ih ht
    obtain ⟨h3, h4⟩ := ihw ht'
    exact ⟨fun o ho => (List.mem_append.1 ho).elim (h1 o) (h3 o), fun b hb => (List.mem_append.1 hb).elim (h2 b) (h4 b)⟩
  | pair _ _ ih ihw =>
    simp only [traits, auto, List.all_cons, List.all_nil, Bool.and_true, Bool.and_eq_true] at ht
    obtain ⟨h1, h2⟩ := ih ht.1
    obtain ⟨h3, h4⟩ := ihw ht.2
    exact ⟨fun o ho => (List.mem_append.1 ho).elim (h1 o) (h3 o), fun b hb => (List.mem_append.1 hb).elim (h2 b) (h4 b)⟩
  | nullU t | nullS t | nullW t => exact ⟨fun o ho => (by cases ho), fun b hb => by cases hb⟩
  | uniq _ ih => exact ih ht
  | shared h | weak h =>
    refine ⟨fun o ho => (by cases ho), fun b hb c hc => ?_⟩
    rw [List.mem_singleton.1 hb, h, Option.some.injEq] at hc
    rw [← hc]
    simpa [traits, Both] using ht

/-! ### The invariant -/

/-- Thread `k` may point to block `b`. -/
def Good (s : State) (k : ThreadId) (b : Nat) : Prop := ∀ c, s.blocks b = some c → k = c.home ∨ Both c.ty

/-- Thread `k` may own this value. -/
structure ValOk (s : State) (k : ThreadId) (t : RTy) (v : Val) : Prop where
  ty : HasTy s v t
  nodup : (owned v).Nodup
  good : ∀ b ∈ ptrs v, Good s k b
  home : ∀ o ∈ owned v, ∀ ob, s.objs o = some ob → ob.traits.send = true ∨ k = ob.home

/-- No variable and no block owns the object. -/
def Free (s : State) (o : Nat) : Prop :=
  (∀ x v, s.vars x = some v → o ∉ owned v.val) ∧ (∀ b c, s.blocks b = some c → o ∉ owned c.val)

structure Inv (s : State) : Prop where
  var : ∀ x v, s.vars x = some v → ValOk s v.owner v.ty v.val
  block : ∀ b c, s.blocks b = some c → ValOk s c.home c.ty c.val
  loan : ∀ k x, (k, x) ∈ s.loans → ∃ v, s.vars x = some v ∧ (k = v.owner ∨ (traits v.ty).sync = true)
  varVar : ∀ x y v w o, s.vars x = some v → s.vars y = some w → o ∈ owned v.val → o ∈ owned w.val → x = y
  varBlock : ∀ x b v c o, s.vars x = some v → s.blocks b = some c → o ∈ owned v.val → o ∉ owned c.val
  blockBlock : ∀ b b' c c' o, s.blocks b = some c → s.blocks b' = some c' → o ∈ owned c.val → o ∈ owned c'.val → b = b'

theorem Good.mono {s s' : State} (he : Extends s s') {k : ThreadId} {b : Nat} (hx : ∃ c, s.blocks b = some c)
    (h : Good s k b) : Good s' k b := by
  obtain ⟨c, hc⟩ := hx
  intro c' hc'
  rw [he.blocks _ _ hc, Option.some.injEq] at hc'
  exact hc' ▸ h c hc

theorem ValOk.mono {s s' : State} (he : Extends s s') {k : ThreadId} {t : RTy} {v : Val} (h : ValOk s k t v) :
    ValOk s' k t v := by
  refine ⟨h.ty.mono he, h.nodup, fun b hb => (h.good b hb).mono he (ptr_exists h.ty hb), fun o ho ob hob => ?_⟩
  obtain ⟨ob', hob'⟩ := owned_exists h.ty ho
  rw [he.objs _ _ hob', Option.some.injEq] at hob
  exact hob ▸ h.home o ho ob' hob'

theorem upd_same {α : Type} (f : Nat → Option α) (i : Nat) (v : Option α) : upd f i v i = v := by simp [upd]
theorem upd_ne {α : Type} (f : Nat → Option α) {i j : Nat} (v : Option α) (h : j ≠ i) : upd f i v j = f j := by
  simp [upd, h]

theorem inv_init : Inv init := by
  constructor <;> intros <;> first | (rename_i h; cases h) | skip
  all_goals simp_all [init]

theorem extends_put (s : State) (x : Nat) (v : Slot) : Extends s (s.put x v) := ⟨fun _ _ h => h, fun _ _ h => h⟩
theorem extends_del (s : State) (x : Nat) : Extends s (s.del x) := ⟨fun _ _ h => h, fun _ _ h => h⟩

/-- No loan of a variable that is not there. -/
theorem Inv.noLoan {s : State} (h : Inv s) {x : Nat} (hx : s.vars x = none) : ∀ l ∈ s.loans, l.2 ≠ x := by
  rintro ⟨k, y⟩ hl rfl
  obtain ⟨v, hv, _⟩ := h.loan k y hl
  rw [hx] at hv; cases hv

theorem inv_put {s : State} (h : Inv s) {y : Nat} (hy : s.vars y = none) {k : ThreadId} {t : RTy} {v : Val}
    (hv : ValOk s k t v) (hf : ∀ o ∈ owned v, Free s o) : Inv (s.put y ⟨k, t, v⟩) := by
  have he := extends_put s y ⟨k, t, v⟩
  have split : ∀ {x : Nat} {w : Slot}, (s.put y ⟨k, t, v⟩).vars x = some w →
      (x = y ∧ w = ⟨k, t, v⟩) ∨ (x ≠ y ∧ s.vars x = some w) := by
    intro x w hx
    by_cases hxy : x = y
    · subst hxy
      simp only [State.put, upd_same, Option.some.injEq] at hx
      exact .inl ⟨rfl, hx.symm⟩
    · simp only [State.put, upd_ne _ _ hxy] at hx
      exact .inr ⟨hxy, hx⟩
  constructor
  · intro x w hx
    rcases split hx with ⟨rfl, rfl⟩ | ⟨_, hx⟩
    · exact hv.mono he
    · exact (h.var x w hx).mono he
  · intro b c hb; exact (h.block b c hb).mono he
  · intro j x hl
    obtain ⟨w, hw, hs⟩ := h.loan j x hl
    refine ⟨w, ?_, hs⟩
    have : x ≠ y := by rintro rfl; rw [hy] at hw; cases hw
    simp only [State.put, upd_ne _ _ this]; exact hw
  · intro x z w u o hx hz ho ho'
    rcases split hx with ⟨rfl, rfl⟩ | ⟨_, hx'⟩ <;> rcases split hz with ⟨rfl, rfl⟩ | ⟨_, hz'⟩
    · rfl
    · exact absurd ho' ((hf o ho).1 z u hz')
    · exact absurd ho ((hf o ho').1 x w hx')
    · exact h.varVar x z w u o hx' hz' ho ho'
  · intro x b w c o hx hb ho
    rcases split hx with ⟨rfl, rfl⟩ | ⟨_, hx⟩
    · exact (hf o ho).2 b c hb
    · exact h.varBlock x b w c o hx hb ho
  · intro b b' c c' o hb hb'; exact h.blockBlock b b' c c' o hb hb'

theorem del_vars {s : State} {x y : Nat} {w : Slot} (h : (s.del x).vars y = some w) : y ≠ x ∧ s.vars y = some w := by
  by_cases hxy : y = x
  · subst hxy; simp [State.del, upd_same] at h
  · simp only [State.del, upd_ne _ _ hxy] at h; exact ⟨hxy, h⟩

theorem inv_del {s : State} (h : Inv s) {x : Nat} (hl : ∀ l ∈ s.loans, l.2 ≠ x) : Inv (s.del x) := by
  have he := extends_del s x
  constructor
  · intro y w hy; exact (h.var y w (del_vars hy).2).mono he
  · intro b c hb; exact (h.block b c hb).mono he
  · intro j y hj
    obtain ⟨w, hw, hs⟩ := h.loan j y hj
    refine ⟨w, ?_, hs⟩
    have : y ≠ x := hl _ hj
    simp only [State.del, upd_ne _ _ this]; exact hw
  · intro y z w u o hy hz; exact h.varVar y z w u o (del_vars hy).2 (del_vars hz).2
  · intro y b w c o hy hb; exact h.varBlock y b w c o (del_vars hy).2 hb
  · intro b b' c c' o hb hb'; exact h.blockBlock b b' c c' o hb hb'

theorem Free.del {s : State} {o : Nat} (h : Free s o) (x : Nat) : Free (s.del x) o :=
  ⟨fun y w hy => h.1 y w (del_vars hy).2, h.2⟩

theorem free_del {s : State} (h : Inv s) {x : Nat} {v : Slot} (hx : s.vars x = some v) :
    ∀ o ∈ owned v.val, Free (s.del x) o := by
  intro o ho
  refine ⟨fun y w hy ho' => ?_, fun b c hb => h.varBlock x b v c o hx hb ho⟩
  obtain ⟨hyx, hy⟩ := del_vars hy
  exact hyx (h.varVar y x w v o hy hx ho' ho)

/-- A value that is put somewhere else. -/
theorem Free.put {s : State} {o : Nat} (h : Free s o) {y : Nat} {w : Slot} (hw : o ∉ owned w.val) : Free (s.put y w) o := by
  refine ⟨fun x u hx => ?_, h.2⟩
  by_cases hxy : x = y
  · subst hxy
    simp only [State.put, upd_same, Option.some.injEq] at hx
    rw [← hx]; exact hw
  · simp only [State.put, upd_ne _ _ hxy] at hx
    exact h.1 x u hx

theorem mine_some {s : State} {k : ThreadId} {x : Nat} {v : Slot} (h : mine s k x = some v) :
    s.vars x = some v ∧ v.owner = k ∧ ∀ l ∈ s.loans, l.2 ≠ x := by
  unfold mine at h
  cases hx : s.vars x with
  | none => rw [hx] at h; cases h
  | some w =>
    rw [hx] at h
    simp only at h
    split at h
    · rename_i hc
      cases h
      exact ⟨rfl, hc.1, hc.2⟩
    · cases h

theorem visible_some {s : State} {k : ThreadId} {x : Nat} {v : Slot} (h : visible s k x = some v) :
    s.vars x = some v ∧ (v.owner = k ∨ (k, x) ∈ s.loans) := by
  unfold visible at h
  cases hx : s.vars x with
  | none => rw [hx] at h; cases h
  | some w =>
    rw [hx] at h
    simp only at h
    split at h
    · rename_i hc; cases h; exact ⟨rfl, hc⟩
    · cases h

theorem fresh_some {s : State} {x : Nat} {u : Unit} (h : fresh s x = some u) : s.vars x = none := by
  unfold fresh at h
  split at h
  · rename_i hx; simpa using hx
  · cases h

/-- What a thread can see it may point to. -/
theorem Inv.seen {s : State} (h : Inv s) {k : ThreadId} {x : Nat} {v : Slot} (hx : s.vars x = some v)
    (hk : v.owner = k ∨ (k, x) ∈ s.loans) : ∀ b ∈ ptrs v.val, Good s k b := by
  intro b hb
  rcases hk with rfl | hk
  · exact (h.var x v hx).good b hb
  · obtain ⟨w, hw, hs⟩ := h.loan k x hk
    rw [hx, Option.some.injEq] at hw
    subst hw
    rcases hs with rfl | hs
    · exact (h.var x v hx).good b hb
    · intro c hc; exact .inr ((sync_owned (h.var x v hx).ty hs).2 b hb c hc)

/-- Blocks behind blocks. -/
theorem Inv.deeper {s : State} (h : Inv s) {k : ThreadId} {b : Nat} {c : Block} (hb : s.blocks b = some c)
    (hg : Good s k b) : ∀ b' ∈ ptrs c.val, Good s k b' := by
  intro b' hb'
  rcases hg c hb with rfl | hg
  · exact (h.block b c hb).good b' hb'
  · intro c' hc'; exact .inr ((send_owned (h.block b c hb).ty hg.1).2 b' hb' c' hc')

theorem place_ok {s : State} (h : Inv s) {k : ThreadId} (path : List Proj) :
    ∀ {t t' : RTy} {v v' : Val}, HasTy s v t → (∀ b ∈ ptrs v, Good s k b) → place s path (t, v) = some (t', v') →
      HasTy s v' t' ∧ (∀ b ∈ ptrs v', Good s k b) ∧
      (∀ o ∈ owned v', o ∈ owned v ∨ ∃ b c, s.blocks b = some c ∧ Good s k b ∧ o ∈ owned c.val) := by
  induction path with
  | nil =>
    intro t t' v v' ht hg hp
    simp only [place, Option.some.injEq, Prod.mk.injEq] at hp
    obtain ⟨rfl, rfl⟩ := hp
    exact ⟨ht, hg, fun o ho => .inl ho⟩
  | cons p ps ih =>
    intro t t' v v' ht hg hp
    unfold place at hp
    split at hp
    · rename_i heq; cases heq
    · rename_i heq heq'
      cases heq'; cases heq
      cases ht with
      | pair h1 h2 =>
        obtain ⟨r1, r2, r3⟩ := ih h1 (fun b hb => hg b (List.mem_append_left _ hb)) hp
        exact ⟨r1, r2, fun o ho => (r3 o ho).imp_left (List.mem_append_left _)⟩
    · rename_i heq heq'
      cases heq'; cases heq
      cases ht with
      | pair h1 h2 =>
        obtain ⟨r1, r2, r3⟩ := ih h2 (fun b hb => hg b (List.mem_append_right _ hb)) hp
        exact ⟨r1, r2, fun o ho => (r3 o ho).imp_left (List.mem_append_right _)⟩
    · rename_i heq heq'
      cases heq'; cases heq
      cases ht with
      | cons h1 h2 =>
        obtain ⟨r1, r2, r3⟩ := ih h1 (fun b hb => hg b (List.mem_append_left _ hb)) hp
        exact ⟨r1, r2, fun o ho => (r3 o ho).imp_left (List.mem_append_left _)⟩
    · rename_i heq heq'
      cases heq'; cases heq
      cases ht with
      | cons h1 h2 =>
        obtain ⟨r1, r2, r3⟩ := ih h2 (fun b hb => hg b (List.mem_append_right _ hb)) hp
        exact ⟨r1, r2, fun o ho => (r3 o ho).imp_left (List.mem_append_right _)⟩
    · rename_i heq heq'
      cases heq'; cases heq
      cases ht with
      | uniq h1 =>
        obtain ⟨r1, r2, r3⟩ := ih h1 (fun b hb => hg b hb) hp
        exact ⟨r1, r2, r3⟩
    · rename_i b heq heq'
      cases heq'; cases heq
      split at hp
      · rename_i c hc
        have hgb := hg b (by simp [ptrs])
        obtain ⟨r1, r2, r3⟩ := ih (h.block b c hc).ty (h.deeper hc hgb) hp
        refine ⟨r1, r2, fun o ho => .inr ?_⟩
        rcases r3 o ho with ho | ho
        · exact ⟨b, c, hc, hgb, ho⟩
        · exact ho
      · cases hp
    · cases hp

theorem placeMut_owned (path : List Proj) :
    ∀ {t t' : RTy} {v v' : Val}, placeMut path (t, v) = some (t', v') → ∀ o ∈ owned v', o ∈ owned v := by
  induction path with
  | nil =>
    intro t t' v v' hp
    simp only [placeMut, Option.some.injEq, Prod.mk.injEq] at hp
    obtain ⟨rfl, rfl⟩ := hp
    exact fun o ho => ho
  | cons p ps ih =>
    intro t t' v v' hp
    unfold placeMut at hp
    split at hp
    · rename_i heq; cases heq
    · rename_i heq heq'; cases heq'; cases heq
      exact fun o ho => List.mem_append_left _ (ih hp o ho)
    · rename_i heq heq'; cases heq'; cases heq
      exact fun o ho => List.mem_append_right _ (ih hp o ho)
    · rename_i heq heq'; cases heq'; cases heq
      exact fun o ho => List.mem_append_left _ (ih hp o ho)
    · rename_i heq heq'; cases heq'; cases heq
      exact fun o ho => List.mem_append_right _ (ih hp o ho)
    · rename_i heq heq'; cases heq'; cases heq
      exact fun o ho => ih hp o ho
    · cases hp

theorem cascade_good {s : State} (h : Inv s) {k : ThreadId} :
    ∀ (last avail : List Nat), (∀ b ∈ avail, Good s k b) → cascade s avail last = true → ∀ b ∈ last, Good s k b := by
  intro last
  induction last with
  | nil => intro _ _ _ b hb; cases hb
  | cons a rest ih =>
    intro avail hg hc b hb
    simp only [cascade, Bool.and_eq_true, decide_eq_true_eq] at hc
    have hga := hg a hc.1
    rcases List.mem_cons.1 hb with rfl | hb
    · exact hga
    · refine ih _ ?_ hc.2 b hb
      intro d hd
      rcases List.mem_append.1 hd with hd | hd
      · exact hg d hd
      · cases hb' : s.blocks a with
        | none => rw [hb'] at hd; cases hd
        | some c => rw [hb'] at hd; exact h.deeper hb' hga d (strong_ptrs hd)

/-! ### Every step keeps the invariant -/

theorem put_del (s : State) (x : Nat) (v : Slot) : (s.del x).put x v = s.put x v := by
  simp only [State.put, State.del, State.mk.injEq, true_and, and_true]
  funext j
  by_cases h : j = x
  · subst h; simp [upd]
  · simp [upd, h]

theorem del_none (s : State) (x : Nat) : (s.del x).vars x = none := by simp [State.del, upd]

theorem put_vars_ne (s : State) {x y : Nat} (v : Slot) (h : y ≠ x) : (s.put x v).vars y = s.vars y := by
  simp [State.put, upd, h]

theorem guard_some {p : Prop} [Decidable p] {u : Unit} (h : (guard p : Option Unit) = some u) : p := by
  by_cases hp : p
  · exact hp
  · simp [guard, hp] at h

theorem bind_some {α β : Type} {x : Option α} {f : α → Option β} {b : β} (h : (x >>= f) = some b) :
    ∃ a, x = some a ∧ f a = some b := by
  cases x with
  | none => cases h
  | some a => exact ⟨a, rfl, h⟩

theorem ValOk.uniq {s : State} {k : ThreadId} {t : RTy} {v : Val} (h : ValOk s k t v) : ValOk s k (.uniq t) (.uniq v) :=
  ⟨.uniq h.ty, h.nodup, h.good, h.home⟩

theorem ValOk.ofNone {s : State} {k : ThreadId} {t : RTy} {v : Val} (ht : HasTy s v t) (ho : owned v = []) (hp : ptrs v = []) :
    ValOk s k t v :=
  ⟨ht, by simp [ho], by simp [hp], by simp [ho]⟩

/-- A pointer that a thread gets from a place it sees. -/
theorem ValOk.ofPtr {s : State} {k : ThreadId} {t : RTy} {v : Val} {b : Nat} (ht : HasTy s v t) (ho : owned v = [])
    (hp : ptrs v = [b]) (hg : Good s k b) : ValOk s k t v :=
  ⟨ht, by simp [ho], by simpa [hp] using hg, by simp [ho]⟩

theorem inv_make {s : State} (h : Inv s) {k : ThreadId} {x o : Nat} {b : Traits} (hx : s.vars x = none)
    (ho : s.objs o = none) :
    Inv { s.put x ⟨k, .base b, .obj o⟩ with objs := upd s.objs o (some ⟨k, b⟩) } := by
  let s1 : State := { s with objs := upd s.objs o (some ⟨k, b⟩) }
  have he : Extends s s1 := by
    refine ⟨fun o' ob hob => ?_, fun _ _ h => h⟩
    have : o' ≠ o := by rintro rfl; rw [ho] at hob; cases hob
    change upd s.objs o _ o' = _
    rw [upd_ne _ _ this]; exact hob
  have h1 : Inv s1 := ⟨fun y v hy => (h.var y v hy).mono he, fun c d hc => (h.block c d hc).mono he, h.loan, h.varVar,
    h.varBlock, h.blockBlock⟩
  have hob : s1.objs o = some ⟨k, b⟩ := upd_same _ _ _
  have := inv_put (s := s1) h1 (y := x) hx (k := k) (t := .base b) (v := .obj o)
    ⟨.obj hob, by simp [owned], by simp [ptrs], fun o' ho' ob' hob' => by
      rw [List.mem_singleton.1 ho', hob, Option.some.injEq] at hob'
      rw [← hob']; exact .inr rfl⟩
    (fun o' ho' => by
      rw [List.mem_singleton.1 ho']
      refine ⟨fun y v hy hv => ?_, fun c d hc hd => ?_⟩
      · obtain ⟨ob, hob⟩ := owned_exists (h.var y v hy).ty hv
        rw [ho] at hob; cases hob
      · obtain ⟨ob, hob⟩ := owned_exists (h.block c d hc).ty hd
        rw [ho] at hob; cases hob)
  exact this

theorem inv_share {s : State} (h : Inv s) {k : ThreadId} {y b : Nat} {t : RTy} {v : Val} (hy : s.vars y = none)
    (hb : s.blocks b = none) (hv : ValOk s k t v) (hf : ∀ o ∈ owned v, Free s o) :
    Inv { s.put y ⟨k, .shared t, .shared b⟩ with blocks := upd s.blocks b (some ⟨k, t, v⟩) } := by
  let s1 : State := { s with blocks := upd s.blocks b (some ⟨k, t, v⟩) }
  have he : Extends s s1 := by
    refine ⟨fun _ _ h => h, fun b' c hc => ?_⟩
    have : b' ≠ b := by rintro rfl; rw [hb] at hc; cases hc
    change upd s.blocks b _ b' = _
    rw [upd_ne _ _ this]; exact hc
  have split : ∀ {b' : Nat} {c : Block}, s1.blocks b' = some c → (b' = b ∧ c = ⟨k, t, v⟩) ∨ s.blocks b' = some c := by
    intro b' c hc
    by_cases hbb : b' = b
    · subst hbb
      have hc : upd s.blocks b' (some ⟨k, t, v⟩) b' = some c := hc
      rw [upd_same, Option.some.injEq] at hc
      exact .inl ⟨rfl, hc.symm⟩
    · have hc : upd s.blocks b (some ⟨k, t, v⟩) b' = some c := hc
      rw [upd_ne _ _ hbb] at hc
      exact .inr hc
  have h1 : Inv s1 := by
    constructor
    · intro x w hx; exact (h.var x w hx).mono he
    · intro b' c hc
      rcases split hc with ⟨rfl, rfl⟩ | hc
      · exact hv.mono he
      · exact (h.block b' c hc).mono he
    · exact h.loan
    · exact h.varVar
    · intro x b' w c o hx hc ho
      rcases split hc with ⟨rfl, rfl⟩ | hc
      · exact fun ho' => (hf o ho').1 x w hx ho
      · exact h.varBlock x b' w c o hx hc ho
    · intro b1 b2 c1 c2 o h1 h2 ho1 ho2
      rcases split h1 with ⟨rfl, rfl⟩ | h1' <;> rcases split h2 with ⟨rfl, rfl⟩ | h2'
      · rfl
      · exact absurd ho2 ((hf o ho1).2 b2 c2 h2')
      · exact absurd ho1 ((hf o ho2).2 b1 c1 h1')
      · exact h.blockBlock b1 b2 c1 c2 o h1' h2' ho1 ho2
  have hbl : s1.blocks b = some ⟨k, t, v⟩ := upd_same _ _ _
  exact inv_put (s := s1) h1 (y := y) hy (k := k) (t := .shared t) (v := .shared b)
    (.ofPtr (.shared (c := ⟨k, t, v⟩) hbl) rfl rfl (fun c hc => by rw [hbl, Option.some.injEq] at hc; rw [← hc]; exact .inl rfl))
    (fun o ho => by cases ho)

theorem ValOk.pair {s : State} {k : ThreadId} {a b t : RTy} {v w : Val} (hv : ValOk s k a v) (hw : ValOk s k b w)
    (ht : HasTy s (.pair v w) t) (hd : ∀ o ∈ owned v, o ∉ owned w) : ValOk s k t (.pair v w) :=
  ⟨ht, List.nodup_append.2 ⟨hv.nodup, hw.nodup, fun _ ho _ ho' e => hd _ ho (e ▸ ho')⟩,
    fun b hb => (List.mem_append.1 hb).elim (hv.good b) (hw.good b),
    fun o ho => (List.mem_append.1 ho).elim (hv.home o) (hw.home o)⟩

theorem ValOk.unpair {s : State} {k : ThreadId} {a b t : RTy} {v w : Val} (h : ValOk s k t (.pair v w)) (hv : HasTy s v a)
    (hw : HasTy s w b) : ValOk s k a v ∧ ValOk s k b w ∧ ∀ o ∈ owned v, o ∉ owned w := by
  have hn := List.nodup_append.1 h.nodup
  exact ⟨⟨hv, hn.1, fun b hb => h.good b (List.mem_append_left _ hb), fun o ho => h.home o (List.mem_append_left _ ho)⟩,
    ⟨hw, hn.2.1, fun b hb => h.good b (List.mem_append_right _ hb), fun o ho => h.home o (List.mem_append_right _ ho)⟩,
    fun o ho ho' => hn.2.2 o ho o ho' rfl⟩

/-- Take a variable. -/
theorem take {s : State} (h : Inv s) {k : ThreadId} {x : Nat} {v : Slot} (hm : mine s k x = some v) :
    Inv (s.del x) ∧ ValOk (s.del x) k v.ty v.val ∧ (∀ o ∈ owned v.val, Free (s.del x) o) := by
  obtain ⟨hx, rfl, hl⟩ := mine_some hm
  exact ⟨inv_del h hl, (h.var x v hx).mono (extends_del s x), free_del h hx⟩

/-- Take another one. -/
theorem take_two {s : State} (h : Inv s) {k : ThreadId} {x y : Nat} {v w : Slot} (hm : mine s k x = some v)
    (hn : mine s k y = some w) (hxy : x ≠ y) :
    Inv ((s.del x).del y) ∧ ValOk ((s.del x).del y) k v.ty v.val ∧ ValOk ((s.del x).del y) k w.ty w.val ∧
      (∀ o ∈ owned v.val, Free ((s.del x).del y) o) ∧ (∀ o ∈ owned w.val, Free ((s.del x).del y) o) ∧
      (∀ o ∈ owned v.val, o ∉ owned w.val) := by
  obtain ⟨h1, h2, h3⟩ := take h hm
  obtain ⟨hx, -, -⟩ := mine_some hm
  obtain ⟨hy, rfl, hl⟩ := mine_some hn
  have hy' : (s.del x).vars y = some w := by
    simp only [State.del, upd_ne _ _ (Ne.symm hxy)]; exact hy
  refine ⟨inv_del h1 hl, h2.mono (extends_del _ _), ((h1.var y w hy').mono (extends_del _ _)), fun o ho => (h3 o ho).del y,
    free_del h1 hy', fun o ho ho' => hxy (h.varVar x y v w o hx hy ho ho')⟩

theorem inv_step {s s' : State} (h : Inv s) {k : ThreadId} {op : Op} {es : List Event} (hs : step s k op = some (s', es)) :
    Inv s' := by
  cases op with
  | make x o b =>
    simp only [step] at hs
    obtain ⟨_, hx, hs⟩ := bind_some hs
    obtain ⟨_, ho, hs⟩ := bind_some hs
    have ho := guard_some ho
    cases hs
    exact inv_make h (fresh_some hx) (by simpa using ho)
  | unique x y =>
    simp only [step] at hs
    obtain ⟨v, hv, hs⟩ := bind_some hs
    obtain ⟨_, hy, hs⟩ := bind_some hs
    cases hs
    obtain ⟨h1, h2, h3⟩ := take h hv
    exact inv_put h1 (fresh_some hy) h2.uniq h3
  | share x y b =>
    simp only [step] at hs
    obtain ⟨v, hv, hs⟩ := bind_some hs
    obtain ⟨_, hy, hs⟩ := bind_some hs
    obtain ⟨_, hb, hs⟩ := bind_some hs
    have hb := guard_some hb
    cases hs
    obtain ⟨h1, h2, h3⟩ := take h hv
    exact inv_share h1 (fresh_some hy) (by simpa [State.del] using hb) h2 h3
  | null y t =>
    simp only [step] at hs
    obtain ⟨_, hy, hs⟩ := bind_some hs
    split at hs
    · cases hs; exact inv_put h (fresh_some hy) (.ofNone (.nullU _) rfl rfl) (fun o ho => by cases ho)
    · cases hs; exact inv_put h (fresh_some hy) (.ofNone (.nullS _) rfl rfl) (fun o ho => by cases ho)
    · cases hs; exact inv_put h (fresh_some hy) (.ofNone (.nullW _) rfl rfl) (fun o ho => by cases ho)
    · cases hs
  | pack x y z =>
    simp only [step] at hs
    obtain ⟨v, hv, hs⟩ := bind_some hs
    obtain ⟨w, hw, hs⟩ := bind_some hs
    obtain ⟨_, hxy, hs⟩ := bind_some hs
    obtain ⟨_, hz, hs⟩ := bind_some hs
    have hxy := guard_some hxy
    cases hs
    obtain ⟨h1, h2, h3, h4, h5, h6⟩ := take_two h hv hw hxy
    exact inv_put h1 (fresh_some hz) (h2.pair h3 (.pair h2.ty h3.ty) h6)
      (fun o ho => (List.mem_append.1 ho).elim (h4 o) (h5 o))
  | unpack x y z =>
    simp only [step] at hs
    obtain ⟨v, hv, hs⟩ := bind_some hs
    obtain ⟨_, hy, hs⟩ := bind_some hs
    obtain ⟨_, hz, hs⟩ := bind_some hs
    obtain ⟨_, hyz, hs⟩ := bind_some hs
    have hyz := guard_some hyz
    obtain ⟨h1, h2, h3⟩ := take h hv
    split at hs
    · rename_i a b va vb et ev
      cases hs
      rw [et, ev] at h2
      rw [ev] at h3
      cases h2.ty with
      | pair ha hb =>
        obtain ⟨g1, g2, g3⟩ := h2.unpair ha hb
        have i1 := inv_put h1 (fresh_some hy) g1 (fun o ho => h3 o (List.mem_append_left _ ho))
        refine inv_put i1 ?_ (g2.mono (extends_put _ _ _)) (fun o ho => (h3 o (List.mem_append_right _ ho)).put (fun ho' => g3 o ho' ho))
        rw [put_vars_ne _ _ (Ne.symm hyz)]
        exact fresh_some hz
    · cases hs
  | vector y t =>
    simp only [step] at hs
    obtain ⟨_, hy, hs⟩ := bind_some hs
    cases hs
    exact inv_put h (fresh_some hy) (.ofNone (.uniq (.nil t)) rfl rfl) (fun o ho => by cases ho)
  | push x y =>
    simp only [step] at hs
    obtain ⟨v, hv, hs⟩ := bind_some hs
    obtain ⟨w, hw, hs⟩ := bind_some hs
    obtain ⟨_, hxy, hs⟩ := bind_some hs
    have hxy := guard_some hxy
    obtain ⟨h1, h2, h3, h4, h5, h6⟩ := take_two h hw hv (Ne.symm hxy)
    split at hs
    · rename_i t vs et ev
      split at hs
      · rename_i hwt
        cases hs
        rw [et, ev] at h3
        rw [ev] at h5 h6
        subst hwt
        have hvs : ValOk ((s.del y).del x) k (.vector w.ty) vs := by
          cases h3.ty with
          | uniq hvs => exact ⟨hvs, h3.nodup, h3.good, h3.home⟩
        rw [← put_del]
        exact inv_put h1 (del_none _ _) (h2.pair hvs (.cons h2.ty hvs.ty) h6).uniq
          (fun o ho => (List.mem_append.1 ho).elim (h4 o) (h5 o))
      · cases hs
    · cases hs
  | pop x y =>
    simp only [step] at hs
    obtain ⟨v, hv, hs⟩ := bind_some hs
    obtain ⟨_, hy, hs⟩ := bind_some hs
    obtain ⟨h1, h2, h3⟩ := take h hv
    obtain ⟨hx, -, -⟩ := mine_some hv
    split at hs
    · rename_i t w vs et ev
      cases hs
      rw [et, ev] at h2
      rw [ev] at h3
      have hyx : y ≠ x := by
        rintro rfl
        rw [fresh_some hy] at hx; cases hx
      cases h2.ty with
      | uniq hvs =>
        cases hvs with
        | cons ha hb =>
          have h2' : ValOk (s.del x) k (.vector t) (.pair w vs) := ⟨.cons ha hb, h2.nodup, h2.good, h2.home⟩
          obtain ⟨g1, g2, g3⟩ := h2'.unpair ha hb
          have i1 := inv_put h1 (del_none s x) g2.uniq (fun o ho => h3 o (List.mem_append_right _ ho))
          rw [put_del] at i1
          refine inv_put i1 ?_ (ValOk.mono (s := s.del x) (s' := s.put x ⟨k, .uniq (.vector t), .uniq vs⟩) ⟨fun _ _ h => h, fun _ _ h => h⟩ g1) (fun o ho => ?_)
          · rw [put_vars_ne _ _ hyx]; exact fresh_some hy
          · rw [← put_del]
            exact (h3 o (List.mem_append_left _ ho)).put (g3 o ho)
    · cases hs
  | clone x path y =>
    simp only [step] at hs
    obtain ⟨v, hv, hs⟩ := bind_some hs
    obtain ⟨_, hy, hs⟩ := bind_some hs
    obtain ⟨⟨t, p⟩, hp, hs⟩ := bind_some hs
    obtain ⟨hx, hk⟩ := visible_some hv
    obtain ⟨g1, g2, -⟩ := place_ok h path (h.var x v hx).ty (h.seen hx hk) hp
    split at hs
    · rename_i heq; cases heq
      cases hs
      exact inv_put h (fresh_some hy) (.ofPtr g1 rfl rfl (g2 _ (by simp [ptrs]))) (fun o ho => by cases ho)
    · rename_i heq; cases heq
      cases hs
      exact inv_put h (fresh_some hy) (.ofPtr g1 rfl rfl (g2 _ (by simp [ptrs]))) (fun o ho => by cases ho)
    · cases hs
  | downgrade x path y =>
    simp only [step] at hs
    obtain ⟨v, hv, hs⟩ := bind_some hs
    obtain ⟨_, hy, hs⟩ := bind_some hs
    obtain ⟨⟨t, p⟩, hp, hs⟩ := bind_some hs
    obtain ⟨hx, hk⟩ := visible_some hv
    obtain ⟨g1, g2, -⟩ := place_ok h path (h.var x v hx).ty (h.seen hx hk) hp
    split at hs
    · rename_i heq; cases heq
      cases hs
      cases g1 with
      | shared hb => exact inv_put h (fresh_some hy) (.ofPtr (.weak hb) rfl rfl (g2 _ (by simp [ptrs]))) (fun o ho => by cases ho)
    · cases hs
  | upgrade x path y alive =>
    simp only [step] at hs
    obtain ⟨v, hv, hs⟩ := bind_some hs
    obtain ⟨_, hy, hs⟩ := bind_some hs
    obtain ⟨⟨t, p⟩, hp, hs⟩ := bind_some hs
    obtain ⟨hx, hk⟩ := visible_some hv
    obtain ⟨g1, g2, -⟩ := place_ok h path (h.var x v hx).ty (h.seen hx hk) hp
    split at hs
    · rename_i heq; cases heq
      cases hs
      cases g1 with
      | weak hb =>
        cases alive with
        | true => exact inv_put h (fresh_some hy) (.ofPtr (.shared hb) rfl rfl (g2 _ (by simp [ptrs]))) (fun o ho => by cases ho)
        | false => exact inv_put h (fresh_some hy) (.ofNone (.nullS _) rfl rfl) (fun o ho => by cases ho)
    · cases hs
  | read x path =>
    simp only [step] at hs
    obtain ⟨v, hv, hs⟩ := bind_some hs
    obtain ⟨p, hp, hs⟩ := bind_some hs
    cases hs; exact h
  | write x path =>
    simp only [step] at hs
    obtain ⟨v, hv, hs⟩ := bind_some hs
    obtain ⟨p, hp, hs⟩ := bind_some hs
    cases hs; exact h
  | drop x last =>
    simp only [step] at hs
    obtain ⟨v, hv, hs⟩ := bind_some hs
    obtain ⟨_, _, hs⟩ := bind_some hs
    cases hs; exact (take h hv).1
  | send x j =>
    simp only [step] at hs
    obtain ⟨v, hv, hs⟩ := bind_some hs
    obtain ⟨h1, h2, h3⟩ := take h hv
    split at hs
    · rename_i ht
      cases hs
      rw [← put_del]
      obtain ⟨g1, g2⟩ := send_owned h2.ty ht
      exact inv_put h1 (del_none s x) ⟨h2.ty, h2.nodup, fun b hb c hc => .inr (g2 b hb c hc), fun o ho ob hob => .inl (g1 o ho ob hob)⟩ h3
    · cases hs
  | lend x j =>
    simp only [step] at hs
    obtain ⟨v, hv, hs⟩ := bind_some hs
    obtain ⟨hx, -⟩ := visible_some hv
    split at hs
    · rename_i ht
      cases hs
      have he : Extends s { s with loans := (j, x) :: s.loans } := ⟨fun _ _ h => h, fun _ _ h => h⟩
      refine ⟨fun y w hy => (h.var y w hy).mono he, fun c d hc => (h.block c d hc).mono he, fun i y hl => ?_, h.varVar,
        h.varBlock, h.blockBlock⟩
      rcases List.mem_cons.1 hl with hl | hl
      · cases hl; exact ⟨v, hx, .inr ht⟩
      · exact h.loan i y hl
    · cases hs
  | giveBack x =>
    simp only [step] at hs
    cases hs
    have he : Extends s { s with loans := s.loans.filter (fun l => decide (l ≠ (k, x))) } := ⟨fun _ _ h => h, fun _ _ h => h⟩
    exact ⟨fun y w hy => (h.var y w hy).mono he, fun c d hc => (h.block c d hc).mono he,
      fun i y hl => h.loan i y (List.mem_filter.1 hl).1, h.varVar, h.varBlock, h.blockBlock⟩

theorem run_inv {s : State} {es : List Event} (h : Run s es) : Inv s := by
  induction h with
  | init => exact inv_init
  | step k op _ hs ih => exact inv_step ih hs

/-! ### What a step does to objects -/

/-- The value of a block is of a thread's own making, or may go to it. -/
theorem Inv.behind {s : State} (h : Inv s) {k : ThreadId} {b o : Nat} {c : Block} {ob : Object}
    (hb : s.blocks b = some c) (hg : Good s k b) (ho : o ∈ owned c.val) (hob : s.objs o = some ob) :
    ob.traits.send = true ∨ k = ob.home := by
  rcases hg c hb with rfl | hg
  · exact (h.block b c hb).home o ho ob hob
  · exact .inl ((send_owned (h.block b c hb).ty hg.1).1 o ho ob hob)

/-- How a thread comes to an object. -/
inductive Way (s : State) (k : ThreadId) (o : Nat) : Access → Prop
  /-- It owns it, and nobody has borrowed it. -/
  | own (a : Access) {x : Nat} {v : Slot} (hx : mine s k x = some v) (ho : o ∈ owned v.val) : Way s k o a
  /-- It sees it. -/
  | see {x : Nat} {v : Slot} (hx : visible s k x = some v) (ho : o ∈ owned v.val) : Way s k o .read
  /-- It has a pointer to the block where it is. -/
  | block (a : Access) (ha : a ≠ .write) {b : Nat} {c : Block} (hb : s.blocks b = some c) (hg : Good s k b)
      (ho : o ∈ owned c.val) : Way s k o a

theorem way {s s' : State} (h : Inv s) {k : ThreadId} {op : Op} {es : List Event} (hs : step s k op = some (s', es))
    {e : Event} (he : e ∈ es) : e.thread = k ∧ Way s k e.obj e.access := by
  cases op with
  | read x path =>
    simp only [step] at hs
    obtain ⟨v, hv, hs⟩ := bind_some hs
    obtain ⟨⟨t, p⟩, hp, hs⟩ := bind_some hs
    cases hs
    obtain ⟨o, ho, rfl⟩ := List.mem_map.1 he
    obtain ⟨hx, hk⟩ := visible_some hv
    obtain ⟨-, -, g⟩ := place_ok h path (h.var x v hx).ty (h.seen hx hk) hp
    refine ⟨rfl, ?_⟩
    rcases g o ho with ho | ⟨b, c, hb, hg, ho⟩
    · exact .see hv ho
    · exact .block _ (by simp) hb hg ho
  | write x path =>
    simp only [step] at hs
    obtain ⟨v, hv, hs⟩ := bind_some hs
    obtain ⟨⟨t, p⟩, hp, hs⟩ := bind_some hs
    cases hs
    obtain ⟨o, ho, rfl⟩ := List.mem_map.1 he
    exact ⟨rfl, .own _ hv (placeMut_owned path hp o ho)⟩
  | drop x last =>
    simp only [step] at hs
    obtain ⟨v, hv, hs⟩ := bind_some hs
    obtain ⟨_, hc, hs⟩ := bind_some hs
    have hc := guard_some hc
    cases hs
    obtain ⟨hx, rfl, -⟩ := mine_some hv
    rcases List.mem_append.1 he with he | he
    · obtain ⟨o, ho, rfl⟩ := List.mem_map.1 he
      exact ⟨rfl, .own _ hv ho⟩
    · obtain ⟨b, hb, he⟩ := List.mem_flatMap.1 he
      have hg := cascade_good h last _ (fun b hb => h.seen hx (.inl rfl) b (strong_ptrs hb)) hc b hb
      cases hbl : s.blocks b with
      | none => rw [hbl] at he; cases he
      | some c =>
        rw [hbl] at he
        obtain ⟨o, ho, rfl⟩ := List.mem_map.1 he
        exact ⟨rfl, .block _ (by simp) hbl hg ho⟩
  | _ =>
    exfalso
    simp only [step] at hs
    repeat' first
      | (obtain ⟨_, _, hs⟩ := bind_some hs)
      | (split at hs)
      | (cases hs; done)
    all_goals (cases hs; cases he)

/-- Objects stay. -/
theorem step_objs {s s' : State} {k : ThreadId} {op : Op} {es : List Event} (hs : step s k op = some (s', es))
    {o : Nat} {ob : Object} (ho : s.objs o = some ob) : s'.objs o = some ob := by
  cases op with
  | make x o' b =>
    simp only [step] at hs
    obtain ⟨_, hx, hs⟩ := bind_some hs
    obtain ⟨_, hn, hs⟩ := bind_some hs
    have hn := guard_some hn
    cases hs
    have : o ≠ o' := by rintro rfl; rw [ho] at hn; cases hn
    change upd s.objs o' _ o = _
    rw [upd_ne _ _ this]; exact ho
  | _ =>
    simp only [step] at hs
    repeat' first
      | (obtain ⟨_, _, hs⟩ := bind_some hs)
      | (split at hs)
      | (cases hs; done)
    all_goals (cases hs; exact ho)

/-! ### The theorems -/

/-- **C75** (an object stays with its thread).  In every program of safe code, whatever its threads do and in whatever
order: an object of a type that is not `Send` is written to and destroyed only by the thread that made it, and if the
type is not `Sync` either, read only by that thread. -/
theorem object_stays {s : State} {es : List Event} (h : Run s es) {e : Event} (he : e ∈ es) :
    ∃ ob, s.objs e.obj = some ob ∧
      (e.access ≠ .read → ob.traits.send = false → e.thread = ob.home) ∧
      (ob.traits.send = false → ob.traits.sync = false → e.thread = ob.home) := by
  induction h with
  | init => cases he
  | @step s s' es es' k op hr hs ih =>
    rcases List.mem_append.1 he with he | he
    · obtain ⟨ob, h1, h2⟩ := ih he
      exact ⟨ob, step_objs hs h1, h2⟩
    · have hi := run_inv hr
      obtain ⟨thread, access, obj⟩ := e
      obtain ⟨hthr, w⟩ := way hi hs he
      simp only at hthr w ⊢
      subst hthr
      cases w with
      | own a hx ho =>
        obtain ⟨hx, hk, -⟩ := mine_some hx
        obtain ⟨ob, hob⟩ := owned_exists (hi.var _ _ hx).ty ho
        have := (hi.var _ _ hx).home _ ho ob hob
        rw [hk] at this
        exact ⟨ob, step_objs hs hob, fun _ hn => by simpa [hn] using this, fun hn _ => by simpa [hn] using this⟩
      | see hx ho =>
        obtain ⟨hx, hk⟩ := visible_some hx
        obtain ⟨ob, hob⟩ := owned_exists (hi.var _ _ hx).ty ho
        have hm := (hi.var _ _ hx).home _ ho ob hob
        refine ⟨ob, step_objs hs hob, fun hn => absurd rfl hn, fun hn hn' => ?_⟩
        simp only [hn, Bool.false_eq_true, false_or] at hm
        rcases hk with hk | hk
        · rw [← hk]; exact hm
        · obtain ⟨w, hw, hsy⟩ := hi.loan _ _ hk
          rw [hx, Option.some.injEq] at hw
          subst hw
          rcases hsy with hsy | hsy
          · rw [hsy]; exact hm
          · have := (sync_owned (hi.var _ _ hx).ty hsy).1 _ ho ob hob
            rw [hn'] at this; cases this
      | block a ha hb hg ho =>
        obtain ⟨ob, hob⟩ := owned_exists (hi.block _ _ hb).ty ho
        have := hi.behind hb hg ho hob
        exact ⟨ob, step_objs hs hob, fun _ hn => by simpa [hn] using this, fun hn _ => by simpa [hn] using this⟩

/-- **C75** (no race).  In every state that a program of safe code can be in: if the next steps of two different threads
can access the same object, neither of them writes to it, and the type of the object is `Sync`. -/
theorem no_race {s : State} {es : List Event} (h : Run s es) {j k : ThreadId} (hjk : j ≠ k) {a a' : Access} {o : Nat}
    (hj : Can s j a o) (hk : Can s k a' o) :
    a ≠ .write ∧ a' ≠ .write ∧ ∃ ob, s.objs o = some ob ∧ ob.traits.sync = true := by
  have hi := run_inv h
  -- a thread that owns the object, or sees it in a variable
  have var : ∀ {i : ThreadId} {x : Nat} {v : Slot}, s.vars x = some v → (v.owner = i ∨ (i, x) ∈ s.loans) →
      o ∈ owned v.val → ∃ ob, s.objs o = some ob ∧ (ob.traits.sync = true ∨ v.owner = i) := by
    intro i x v hx hk ho
    obtain ⟨ob, hob⟩ := owned_exists (hi.var _ _ hx).ty ho
    refine ⟨ob, hob, ?_⟩
    rcases hk with hk | hk
    · exact .inr hk
    · obtain ⟨w, hw, hsy⟩ := hi.loan _ _ hk
      rw [hx, Option.some.injEq] at hw
      subst hw
      rcases hsy with hsy | hsy
      · exact .inr hsy.symm
      · exact .inl ((sync_owned (hi.var _ _ hx).ty hsy).1 _ ho ob hob)
  -- two threads at the same variable
  have two : ∀ {i i' : ThreadId}, i ≠ i' → ∀ {x y : Nat} {v w : Slot}, visible s i x = some v → visible s i' y = some w →
      o ∈ owned v.val → o ∈ owned w.val → ∃ ob, s.objs o = some ob ∧ ob.traits.sync = true := by
    intro i i' hii x y v w hx hy ho ho'
    obtain ⟨hx, h1⟩ := visible_some hx
    obtain ⟨hy, h2⟩ := visible_some hy
    obtain rfl := hi.varVar x y v w o hx hy ho ho'
    rw [hx, Option.some.injEq] at hy
    subst hy
    obtain ⟨ob, hob, r1⟩ := var hx h1 ho
    obtain ⟨ob', hob', r2⟩ := var hx h2 ho
    rw [hob, Option.some.injEq] at hob'
    subst hob'
    refine ⟨ob, hob, ?_⟩
    rcases r1 with r1 | r1
    · exact r1
    · rcases r2 with r2 | r2
      · exact r2
      · exact absurd (r1.symm.trans r2) hii
  -- nobody else sees what a thread has for itself
  have excl : ∀ {i i' : ThreadId}, i ≠ i' → ∀ {x : Nat} {v : Slot}, mine s i x = some v → o ∈ owned v.val →
      ∀ {a : Access}, Way s i' o a → False := by
    intro i i' hii x v hm ho a hw
    obtain ⟨hx, hown, hl⟩ := mine_some hm
    have seen : ∀ {y : Nat} {w : Slot}, s.vars y = some w → (w.owner = i' ∨ (i', y) ∈ s.loans) → o ∈ owned w.val → False := by
      intro y w hy hk ho'
      obtain rfl := hi.varVar x y v w o hx hy ho ho'
      rw [hx, Option.some.injEq] at hy
      subst hy
      rcases hk with hk | hk
      · exact hii (hown.symm.trans hk)
      · exact hl _ hk rfl
    cases hw with
    | own _ hy ho' =>
      obtain ⟨hy, hk, -⟩ := mine_some hy
      exact seen hy (.inl hk) ho'
    | see hy ho' =>
      obtain ⟨hy, hk⟩ := visible_some hy
      exact seen hy hk ho'
    | block _ _ hb _ ho' => exact hi.varBlock x _ v _ o hx hb ho ho'
  obtain ⟨op, s1, es1, hs1, he1⟩ := hj
  obtain ⟨op', s2, es2, hs2, he2⟩ := hk
  have w1 := (way hi hs1 he1).2
  have w2 := (way hi hs2 he2).2
  simp only at w1 w2
  cases w1 with
  | own _ hx ho => exact (excl hjk hx ho w2).elim
  | see hx ho =>
    cases w2 with
    | own _ hy ho' => exact (excl hjk.symm hy ho' (.see hx ho)).elim
    | see hy ho' => exact ⟨by simp, by simp, two hjk hx hy ho ho'⟩
    | block _ _ hb _ ho' => exact (hi.varBlock _ _ _ _ o (visible_some hx).1 hb ho ho').elim
  | block _ ha hb hg ho =>
    cases w2 with
    | own _ hy ho' => exact (excl hjk.symm hy ho' (.block _ ha hb hg ho)).elim
    | see hy ho' => exact (hi.varBlock _ _ _ _ o (visible_some hy).1 hb ho' ho).elim
    | block _ ha' hb' hg' ho' =>
      refine ⟨ha, ha', ?_⟩
      obtain rfl := hi.blockBlock _ _ _ _ o hb hb' ho ho'
      rw [hb, Option.some.injEq] at hb'
      subst hb'
      obtain ⟨ob, hob⟩ := owned_exists (hi.block _ _ hb).ty ho
      refine ⟨ob, hob, ?_⟩
      rcases hg _ hb with r1 | r1
      · rcases hg' _ hb with r2 | r2
        · exact absurd (r1.trans r2.symm) hjk
        · exact (sync_owned (hi.block _ _ hb).ty r2.2).1 _ ho ob hob
      · exact (sync_owned (hi.block _ _ hb).ty r1.2).1 _ ho ob hob

/-! ### Cases -/

/-- A program: thread 1 makes a string in a `SharedPtr`, gives a clone to thread 2, and both read it; it also makes an
object of an opaque type, and moves it into a `SharedPtr` and keeps a `WeakPtr`. -/
def sample : List (ThreadId × Op) :=
  [(1, .make 0 0 cxxString), (1, .share 0 1 0), (1, .clone 1 [] 2), (1, .send 2 2),
   (1, .make 3 1 (cxxType 0)), (1, .share 3 4 1), (1, .downgrade 4 [] 5), (1, .upgrade 5 [] 6 true),
   (2, .read 2 [.deref]), (1, .read 1 [.deref]), (1, .drop 6 []), (1, .drop 4 [1])]

def runAll : State → List (ThreadId × Op) → Option (State × List Event)
  | s, [] => some (s, [])
  | s, (k, op) :: rest => do
    let (s, es) ← step s k op
    let (s, es') ← runAll s rest
    some (s, es ++ es')

theorem run_of {l : List (ThreadId × Op)} : ∀ {s s' : State} {es es' : List Event}, Run s es → runAll s l = some (s', es') →
    Run s' (es ++ es') := by
  induction l with
  | nil => intro s s' es es' h hr; cases hr; rw [List.append_nil]; exact h
  | cons p rest ih =>
    intro s s' es es' h hr
    obtain ⟨⟨s1, e1⟩, h1, hr⟩ := bind_some hr
    obtain ⟨⟨s2, e2⟩, h2, hr⟩ := bind_some hr
    cases hr
    rw [← List.append_assoc]
    exact ih (.step p.1 p.2 h h1) h2

example : (runAll init sample).map (·.2) = some [⟨2, .read, 0⟩, ⟨1, .read, 0⟩, ⟨1, .destroy, 1⟩] := by decide +kernel

/-- The program has this run, with events of two threads. -/
example : ∃ s, Run s [⟨2, .read, 0⟩, ⟨1, .read, 0⟩, ⟨1, .destroy, 1⟩] := by
  have h : (runAll init sample).map (·.2) = some [⟨2, .read, 0⟩, ⟨1, .read, 0⟩, ⟨1, .destroy, 1⟩] := by decide +kernel
  cases hr : runAll init sample with
  | none => rw [hr] at h; cases h
  | some p =>
    rw [hr] at h
    simp only [Option.map_some, Option.some.injEq] at h
    exact ⟨p.1, h ▸ run_of .init hr⟩

/-- A `SharedPtr`, a `WeakPtr`, a `UniquePtr` or a vector of an opaque type cannot be sent, nor a clone of it; one of a
type that is `Sync` alone cannot be shared with a thread. -/
example : (runAll init [(1, .make 0 0 (cxxType 0)), (1, .share 0 1 0), (1, .send 1 2)]).isNone ∧
    (runAll init [(1, .make 0 0 (cxxType 0)), (1, .unique 0 1), (1, .send 1 2)]).isNone ∧
    (runAll init [(1, .make 0 0 ⟨false, true⟩), (1, .share 0 1 0), (1, .downgrade 1 [] 2), (1, .lend 2 2)]).isNone ∧
    (runAll init [(1, .make 0 0 ⟨true, false⟩), (1, .share 0 1 0), (1, .send 1 2)]).isNone ∧
    (runAll init [(1, .make 0 0 ⟨true, false⟩), (1, .unique 0 1), (1, .send 1 2), (2, .write 1 [.deref])]).isSome := by
  decide +kernel

end Verif.Thread
