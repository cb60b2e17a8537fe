import Verif.Words.Spec
/-!
# C86: strings, vectors and slices keep their contents and have one owner
-/
namespace Verif.Words

/-! ### The heap -/

theorem ptrs_perm {h h' : Heap} (hp : h.Perm h') (hn : (h.map (·.ptr)).Nodup) : (h'.map (·.ptr)).Nodup :=
  (hp.map _).nodup_iff.1 hn

theorem find_block {h rest : Heap} {b : Block} (hp : h.Perm (b :: rest)) (hn : (h.map (·.ptr)).Nodup) :
    h.find? (fun x => decide (x.ptr = b.ptr)) = some b ∧ (h.eraseP (fun x => decide (x.ptr = b.ptr))).Perm rest := by
  have hm : b ∈ h := hp.mem_iff.2 (List.mem_cons_self ..)
  have aux : ∀ {h : Heap}, b ∈ h → (h.map (·.ptr)).Nodup →
      h.find? (fun x => decide (x.ptr = b.ptr)) = some b ∧ h.Perm (b :: h.eraseP (fun x => decide (x.ptr = b.ptr))) := by
    intro h
    induction h with
    | nil => intro hm; cases hm
    | cons x h ih =>
      intro hm hn
      simp only [List.map_cons, List.nodup_cons] at hn
      by_cases hx : x.ptr = b.ptr
      · have : x = b := by
          rcases List.mem_cons.1 hm with e | e
          · exact e.symm
          · exact absurd (List.mem_map.2 ⟨b, e, hx.symm⟩) hn.1
        subst this
        exact ⟨by simp, by simp⟩
      · have hmh : b ∈ h := by
          rcases List.mem_cons.1 hm with e | e
          · exact absurd (e ▸ rfl) hx
          · exact e
        obtain ⟨h1, h2⟩ := ih hmh hn.2
        refine ⟨by simp [List.find?_cons, hx, h1], ?_⟩
        rw [List.eraseP_cons_of_neg (by simpa using hx)]
        exact (h2.cons x).trans (List.Perm.swap ..)
  obtain ⟨h1, h2⟩ := aux hm hn
  exact ⟨h1, (List.perm_cons b).1 (h2.symm.trans hp)⟩

theorem free_block {h rest : Heap} {b : Block} (hp : h.Perm (b :: rest)) (hn : (h.map (·.ptr)).Nodup) (hc : 0 < b.cap) :
    ∃ h', free h b.ptr b.cap = some h' ∧ h'.Perm rest := by
  obtain ⟨h1, h2⟩ := find_block hp hn
  refine ⟨_, ?_, h2⟩
  unfold free
  rw [if_neg (by omega), h1]
  simp

theorem nodup_rest {h bs rest : Heap} (hp : h.Perm (bs ++ rest)) (hn : (h.map (·.ptr)).Nodup) : (rest.map (·.ptr)).Nodup := by
  have := ptrs_perm hp hn
  rw [List.map_append, List.nodup_append] at this
  exact this.2.1

theorem free_holds {h rest bs : Heap} {r : Raw} {slots : List (List Nat)} (ho : Holds r slots bs) (hp : h.Perm (bs ++ rest))
    (hn : (h.map (·.ptr)).Nodup) : ∃ h', free h r.ptr r.cap = some h' ∧ h'.Perm rest := by
  cases ho with
  | nothing => exact ⟨h, by simp [free], hp⟩
  | block hc => exact free_block (b := ⟨_, _, _⟩) hp hn hc

theorem elements_holds {h rest bs : Heap} {r : Raw} {slots : List (List Nat)} (ho : Holds r slots bs) (hp : h.Perm (bs ++ rest))
    (hn : (h.map (·.ptr)).Nodup) : elements h r = some slots := by
  cases ho with
  | nothing => simp [elements]
  | @block ptr cap _ hc =>
    have := (find_block (b := ⟨ptr, cap, slots⟩) hp hn).1
    unfold elements
    simp only at this ⊢
    rw [if_neg (by omega), this]
    simp

theorem drop_strings {L : Layouts} {e : Elem} (he : e = .string ∨ e = .rustString) {slots strings : List (List Nat)} {bs : List Block}
    (ho : HoldsStrings L slots strings bs) : ∀ {h rest : Heap}, h.Perm (bs ++ rest) → (h.map (·.ptr)).Nodup →
    ∃ h', dropElems L e h slots = some h' ∧ h'.Perm rest := by
  induction ho with
  | nil => intro h rest hp hn; exact ⟨h, rfl, hp⟩
  | @cons ws slots bytes strings b bs hs hss ih =>
    intro h rest hp hn
    rw [List.append_assoc] at hp
    obtain ⟨h1, e1, p1⟩ := free_holds hs hp hn
    obtain ⟨h2, e2, p2⟩ := ih p1 (ptrs_perm p1.symm (nodup_rest hp hn))
    refine ⟨h2, ?_, p2⟩
    have : dropElem L h e ws = some h1 := by rcases he with rfl | rfl <;> exact e1
    simp [dropElems, this, e2]

theorem drop_plain (L : Layouts) (h : Heap) (slots : List (List Nat)) : dropElems L .plain h slots = some h := by
  induction slots with
  | nil => rfl
  | cons s ss ih => simpa [dropElems, dropElem] using ih

theorem drop_vec {L : Layouts} {e : Elem} {r : Raw} {v : Val} {bs : List Block} (ho : HoldsVec L e r v bs) {h rest : Heap}
    (hp : h.Perm (bs ++ rest)) (hn : (h.map (·.ptr)).Nodup) : ∃ h', dropVec L h e r = some h' ∧ h'.Perm rest := by
  cases ho with
  | items ho =>
    obtain ⟨h', e1, p1⟩ := free_holds ho hp hn
    exact ⟨h', by simp [dropVec, elements_holds ho hp hn, drop_plain, e1], p1⟩
  | @strings e r slots strings b bs he ho hss =>
    have hp' : h.Perm (b ++ (bs ++ rest)) := by rw [List.append_assoc] at hp; exact hp
    have hq : h.Perm (bs ++ (b ++ rest)) := by
      refine hp'.trans ?_
      rw [← List.append_assoc, ← List.append_assoc]
      exact List.perm_append_comm.append_right rest
    obtain ⟨h1, e1, p1⟩ := drop_strings he hss hq hn
    obtain ⟨h2, e2, p2⟩ := free_holds ho p1 (ptrs_perm p1.symm (nodup_rest hq hn))
    exact ⟨h2, by simp [dropVec, elements_holds ho hp' hn, e1, e2], p2⟩

/-- Dropping a value frees its allocations, each once, and nothing else. -/
theorem drop_owned {L : Layouts} {o : Owner} {v : Kind × Val} {bs : List Block} (ho : Owns L o v bs) {h rest : Heap}
    (hp : h.Perm (bs ++ rest)) (hn : (h.map (·.ptr)).Nodup) : ∃ h', drop L h o = some h' ∧ h'.Perm rest := by
  cases ho with
  | string hs => exact free_holds hs hp hn
  | rustString hs => exact free_holds hs hp hn
  | vec hv => exact drop_vec hv hp hn
  | rustVec hv => exact drop_vec hv hp hn

/-! ### Allocation -/

theorem fresh_le (h : Heap) : ∀ b ∈ h, b.ptr < fresh h := by
  have mono : ∀ (h : Heap) n, n ≤ h.foldl (fun n b => max n (b.ptr + 1)) n := by
    intro h
    induction h with
    | nil => intro n; exact Nat.le_refl _
    | cons x h ih => intro n; exact Nat.le_trans (Nat.le_max_left ..) (ih _)
  have gen : ∀ (h : Heap) n, ∀ b ∈ h, b.ptr < h.foldl (fun n b => max n (b.ptr + 1)) n := by
    intro h
    induction h with
    | nil => intro n b hb; cases hb
    | cons x h ih =>
      intro n b hb
      rcases List.mem_cons.1 hb with rfl | hb
      · exact Nat.lt_of_lt_of_le (Nat.lt_of_lt_of_le (Nat.lt_succ_self _) (Nat.le_max_right ..)) (mono h _)
      · exact ih _ b hb
  exact gen h 1

theorem allocate_holds (h : Heap) (slots : List (List Nat)) (spare : Nat) (hn : (h.map (·.ptr)).Nodup) :
    ∃ bs, Holds (allocate h slots spare).2 slots bs ∧ (allocate h slots spare).1 = bs ++ h ∧
      ((allocate h slots spare).1.map (·.ptr)).Nodup ∧ (allocate h slots spare).2.cap = slots.length + spare := by
  unfold allocate
  by_cases hc : slots.length + spare = 0
  · simp only [hc, if_true]
    have : slots = [] := List.length_eq_zero_iff.1 (by omega)
    subst this
    exact ⟨[], .nothing, rfl, hn, by simp⟩
  · simp only [hc, if_false]
    refine ⟨[⟨fresh h, slots.length + spare, slots⟩], .block (by omega), rfl, ?_, trivial⟩
    simp only [List.map_cons, List.nodup_cons]
    refine ⟨fun hm => ?_, hn⟩
    obtain ⟨b, hb, he⟩ := List.mem_map.1 hm
    have := fresh_le h b hb
    omega

theorem allocateAll_holds (L : Layouts) (ss : List (List Nat)) : ∀ (h : Heap), (h.map (·.ptr)).Nodup →
    ∃ bs, HoldsStrings L (allocateAll L h ss).2 ss bs ∧ (allocateAll L h ss).1.Perm (bs ++ h) ∧
      ((allocateAll L h ss).1.map (·.ptr)).Nodup := by
  induction ss with
  | nil => intro h hn; exact ⟨[], .nil, .refl _, hn⟩
  | cons s ss ih =>
    intro h hn
    obtain ⟨b, h1, h2, h3, _⟩ := allocate_holds h (s.map ([·])) 0 hn
    obtain ⟨bs, k1, k2, k3⟩ := ih (allocate h (s.map ([·])) 0).1 h3
    refine ⟨b ++ bs, .cons (by rw [L.string.back]; exact h1) k1, ?_, k3⟩
    refine k2.trans ?_
    rw [h2, ← List.append_assoc]
    exact List.perm_append_comm.append_right h

theorem allocateAll_length (L : Layouts) (ss : List (List Nat)) : ∀ h, (allocateAll L h ss).2.length = ss.length := by
  induction ss with
  | nil => intro h; rfl
  | cons s ss ih => intro h; simp [allocateAll, ih]

/-! ### Programs -/

/-- The heap is what the values own. -/
def Inv (L : Layouts) (st : State) (vs : List (Kind × Val)) : Prop :=
  ∃ owned : List Owned, st.owners = owned.map (·.owner) ∧ vs = owned.map (·.value) ∧
    (∀ x ∈ owned, Owns L x.owner x.value x.blocks) ∧ st.heap.Perm (owned.flatMap (·.blocks)) ∧ (st.heap.map (·.ptr)).Nodup

theorem erase_map {α β : Type} (f : α → β) (l : List α) (i : Nat) : (l.map f).eraseIdx i = (l.eraseIdx i).map f := by
  induction l generalizing i with
  | nil => rfl
  | cons a l ih => cases i <;> simp [ih]

theorem flatMap_get {l : List Owned} {i : Nat} {x : Owned} (h : l[i]? = some x) :
    (l.flatMap (·.blocks)).Perm (x.blocks ++ (l.eraseIdx i).flatMap (·.blocks)) := by
  induction l generalizing i with
  | nil => simp at h
  | cons a l ih =>
    cases i with
    | zero => simp only [List.getElem?_cons_zero, Option.some.injEq] at h; subst h; exact .refl _
    | succ i =>
      simp only [List.getElem?_cons_succ] at h
      simp only [List.flatMap_cons, List.eraseIdx_cons_succ]
      refine ((ih h).append_left _).trans ?_
      rw [← List.append_assoc, ← List.append_assoc]
      exact List.perm_append_comm.append_right _

theorem flatMap_set {l : List Owned} {i : Nat} {x y : Owned} (h : l[i]? = some x) (hb : y.blocks = x.blocks) :
    (l.set i y).flatMap (·.blocks) = l.flatMap (·.blocks) := by
  induction l generalizing i with
  | nil => simp at h
  | cons a l ih =>
    cases i with
    | zero => simp only [List.getElem?_cons_zero, Option.some.injEq] at h; subst h; simp [hb]
    | succ i => simp only [List.getElem?_cons_succ] at h; simp [ih h]

/-- A conversion changes neither the value nor what belongs to it, and drops nothing. -/
theorem convert_owns {L : Layouts} {o : Owner} {k : Kind} {v : Val} {bs : List Block} (ho : Owns L o (k, v) bs) (c : Conv) :
    (convert L c o = none ∧ k.to c = none) ∨
    ∃ out k', convert L c o = some out ∧ out.dropped = [] ∧ k.to c = some k' ∧ Owns L out.result (k', v) bs := by
  have eq : ∀ {r r' : Raw}, r' = r → ∀ {bytes b}, HoldsString r bytes b → HoldsString r' bytes b := by
    intro r r' e; subst e; exact id
  cases ho with
  | @string r bytes b hs =>
    cases c <;> first | exact .inl ⟨rfl, rfl⟩ | skip
    refine .inr ⟨_, _, rfl, rfl, rfl, ?_⟩
    have := Owns.rustString (L := L) (ws := L.string.write r) (eq (L.string.back r) hs)
    rw [L.string.back] at this
    exact this
  | @rustString ws bytes b hs =>
    cases c <;> first | exact .inl ⟨rfl, rfl⟩ | skip
    exact .inr ⟨_, _, rfl, rfl, rfl, .string hs⟩
  | @vec e r v b hv =>
    cases c <;> first | exact .inl ⟨rfl, rfl⟩ | skip
    · refine .inr ⟨_, _, rfl, rfl, rfl, .rustVec ?_⟩
      simp only [vecFrom, (L.vec e).back]; exact hv
    · cases e with
      | plain => exact .inl ⟨rfl, rfl⟩
      | rustString => exact .inl ⟨rfl, rfl⟩
      | string =>
        refine .inr ⟨_, _, rfl, rfl, rfl, .rustVec ?_⟩
        simp only [vecFrom, fromRawParts, (L.vec .rustString).back]
        cases hv with
        | strings _ h1 h2 => exact .strings (.inr rfl) h1 h2
  | @rustVec e ws v b hv =>
    cases c <;> first | exact .inl ⟨rfl, rfl⟩ | skip
    · exact .inr ⟨_, _, rfl, rfl, rfl, .vec hv⟩
    · cases e with
      | plain => exact .inl ⟨rfl, rfl⟩
      | string => exact .inl ⟨rfl, rfl⟩
      | rustString =>
        refine .inr ⟨_, _, rfl, rfl, rfl, .vec ?_⟩
        simp only [fromRawParts, intoVec]
        generalize hr : (L.vec .rustString).read ws = r at hv
        cases hv with
        | strings _ h1 h2 => exact .strings (.inl rfl) h1 h2

theorem step_inv {L : Layouts} {st : State} {vs : List (Kind × Val)} (hi : Inv L st vs) (op : Op) :
    ∃ st', step L st op = some st' ∧ Inv L st' (does vs op) := by
  obtain ⟨owned, ho, hv, hw, hp, hn⟩ := hi
  have add : ∀ (h : Heap) (o : Owner) (v : Kind × Val) (bs : List Block), Owns L o v bs → h.Perm (bs ++ st.heap) →
      (h.map (·.ptr)).Nodup → Inv L ⟨h, st.owners ++ [o]⟩ (vs ++ [v]) := by
    intro h o v bs h1 h2 h3
    refine ⟨owned ++ [⟨o, v, bs⟩], by simp [ho], by simp [hv], ?_, ?_, h3⟩
    · intro x hx
      rcases List.mem_append.1 hx with hx | hx
      · exact hw x hx
      · simp only [List.mem_singleton] at hx; subst hx; exact h1
    · simp only [List.flatMap_append, List.flatMap_cons, List.flatMap_nil, List.append_nil]
      exact h2.trans ((hp.append_left bs).trans List.perm_append_comm)
  cases op with
  | makeString bytes spare =>
    obtain ⟨bs, h1, h2, h3, h4⟩ := allocate_holds st.heap (bytes.map ([·])) spare hn
    refine ⟨_, rfl, add (allocate st.heap (bytes.map ([·])) spare).1 (.string (allocate st.heap (bytes.map ([·])) spare).2) _ bs ?_ (by rw [h2]) h3⟩
    have := Owns.string (L := L) (r := (allocate st.heap (bytes.map ([·])) spare).2) (bytes := bytes) h1
    rw [h4, List.length_map] at this
    exact this
  | makeVec items spare =>
    obtain ⟨bs, h1, h2, h3, h4⟩ := allocate_holds st.heap items spare hn
    refine ⟨_, rfl, add (allocate st.heap items spare).1 (.vec .plain (allocate st.heap items spare).2) _ bs (.vec ?_) (by rw [h2]) h3⟩
    have := HoldsVec.items (L := L) h1
    rw [h4] at this
    exact this
  | makeStrings strings spare =>
    obtain ⟨bs, h1, h2, h3⟩ := allocateAll_holds L strings st.heap hn
    obtain ⟨b, k1, k2, k3, k4⟩ := allocate_holds (allocateAll L st.heap strings).1 (allocateAll L st.heap strings).2 spare h3
    refine ⟨_, rfl, add (allocate (allocateAll L st.heap strings).1 (allocateAll L st.heap strings).2 spare).1
      (.vec .string (allocate (allocateAll L st.heap strings).1 (allocateAll L st.heap strings).2 spare).2) _ (b ++ bs) (.vec ?_) ?_ k3⟩
    · have := HoldsVec.strings (L := L) (.inl rfl) k1 h1
      rw [k4, allocateAll_length] at this
      exact this
    · rw [k2, List.append_assoc]
      exact h2.append_left b
  | convert i c =>
    have hlen : st.owners[i]? = (owned[i]?).map (·.owner) := by rw [ho, List.getElem?_map]
    have hlen' : vs[i]? = (owned[i]?).map (·.value) := by rw [hv, List.getElem?_map]
    cases hx : owned[i]? with
    | none =>
      rw [hx] at hlen hlen'
      refine ⟨st, by simp [step, hlen], ?_⟩
      simp only [does, hlen']
      exact ⟨owned, ho, hv, hw, hp, hn⟩
    | some x =>
      rw [hx] at hlen hlen'
      obtain ⟨xo, ⟨k, v⟩, xb⟩ := x
      have hxo := hw _ (List.mem_of_getElem? hx)
      rcases convert_owns hxo c with ⟨h1, h2⟩ | ⟨out, k', h1, h2, h3, h4⟩
      · refine ⟨st, by simp [step, hlen, h1], ?_⟩
        simp only [does, hlen', h2, Option.map_some]
        exact ⟨owned, ho, hv, hw, hp, hn⟩
      · refine ⟨⟨st.heap, st.owners.set i out.result⟩, by simp [step, hlen, h1, h2, dropAll], ?_⟩
        simp only [does, hlen', h3, Option.map_some]
        refine ⟨owned.set i ⟨out.result, (k', v), xb⟩, by simp [ho, List.map_set], by simp [hv, List.map_set], ?_, ?_, hn⟩
        · intro y hy
          rcases List.mem_or_eq_of_mem_set hy with hy | hy
          · exact hw y hy
          · subst hy; exact h4
        · rw [flatMap_set (y := ⟨out.result, (k', v), xb⟩) hx rfl]; exact hp
  | drop i =>
    have hlen : st.owners[i]? = (owned[i]?).map (·.owner) := by rw [ho, List.getElem?_map]
    cases hx : owned[i]? with
    | none =>
      rw [hx] at hlen
      refine ⟨st, by simp [step, hlen], ?_⟩
      have : vs.length ≤ i := by rw [hv, List.length_map]; exact List.getElem?_eq_none_iff.1 hx
      simp only [does]
      rw [List.eraseIdx_of_length_le this]
      exact ⟨owned, ho, hv, hw, hp, hn⟩
    | some x =>
      rw [hx] at hlen
      have hxo := hw _ (List.mem_of_getElem? hx)
      have hq := hp.trans (flatMap_get hx)
      obtain ⟨h', e1, p1⟩ := drop_owned hxo hq hn
      refine ⟨⟨h', st.owners.eraseIdx i⟩, by simp [step, hlen, e1], ?_⟩
      refine ⟨owned.eraseIdx i, by simp only [ho, erase_map], by simp only [does, hv, erase_map], ?_, p1,
        ptrs_perm p1.symm (nodup_rest hq hn)⟩
      intro y hy
      exact hw y (List.mem_of_mem_eraseIdx hy)

theorem run_inv (L : Layouts) (ops : List Op) : ∀ {st : State} {vs : List (Kind × Val)}, Inv L st vs →
    ∃ st', run L st ops = some st' ∧ Inv L st' (ops.foldl does vs) := by
  induction ops with
  | nil => intro st vs hi; exact ⟨st, rfl, hi⟩
  | cons op ops ih =>
    intro st vs hi
    obtain ⟨st1, e1, i1⟩ := step_inv hi op
    obtain ⟨st2, e2, i2⟩ := ih i1
    exact ⟨st2, by simp [run, e1, e2], i2⟩

/-- **C86** (owners).  Whatever layouts the compiler chooses and whatever a program does with strings and vectors, handing them
to C++ and taking them back in any order: there is no undefined behavior, each value has the contents and the capacity it was made
with, and each allocation belongs to exactly one value. -/
theorem one_owner (L : Layouts) (ops : List Op) :
    ∃ st, run L ⟨[], []⟩ ops = some st ∧
      ∃ owned : List Owned, st.owners = owned.map (·.owner) ∧ values ops = owned.map (·.value) ∧
        (∀ x ∈ owned, Owns L x.owner x.value x.blocks) ∧ st.heap.Perm (owned.flatMap (·.blocks)) ∧
        (st.heap.map (·.ptr)).Nodup :=
  run_inv L ops ⟨[], rfl, rfl, by simp, .refl _, by simp⟩

/-- **C86** (leaks).  When all values are dropped, no allocation is left. -/
theorem no_leak (L : Layouts) (ops : List Op) (h : values ops = []) : run L ⟨[], []⟩ ops = some ⟨[], []⟩ := by
  obtain ⟨st, e, owned, h1, h2, h3, h4, _⟩ := one_owner L ops
  rw [h] at h2
  have : owned = [] := List.map_eq_nil_iff.1 h2.symm
  subst this
  have hh : st.heap = [] := by simpa using h4
  obtain ⟨heap, owners⟩ := st
  simp only at hh h1
  rw [e, hh, h1]
  rfl

/-- **C86** (references to strings and vectors).  What C++ gets for a reference to a `String` or a `Vec` is, at the same address,
the same string or vector; and for a value handed over, C++ sees what Rust had. -/
theorem seen_same (L : Layouts) :
    (∀ s, seenAsString L (stringFrom L s) = s) ∧ (∀ e v, seenAsVec L e (vecFrom L e v) = v) ∧
    (∀ ws, asString L ws = seenAsString L ws) ∧ (∀ e ws, asVec L e ws = seenAsVec L e ws) :=
  ⟨L.string.back, fun e => (L.vec e).back, fun _ => rfl, fun _ _ => rfl⟩

/-- **C86** (references to vectors of strings), partial: `&Vec<String>` becomes `&Vec<RustString>` with the same contents if the
compiler has chosen the same layout for the two.  Rust does not promise it, see `strings_confused`. -/
theorem strings_seen_partial (L : Layouts) (h : L.vec .string = L.vec .rustString) (v : Raw) (ws : List Nat) :
    seenAsVec L .rustString (fromRefVecString ((L.vec .string).write v)) = v ∧
    seenAsVec L .string (asVecString ws) = seenAsVec L .rustString ws := by
  constructor
  · unfold seenAsVec fromRefVecString
    rw [h, (L.vec .rustString).back]
  · unfold seenAsVec asVecString
    rw [h]

/-- **C86** (slices).  A slice handed to C++ has there the pointer and the length it has in Rust, and back; likewise for strings. -/
theorem slices_same (L : Layouts) :
    (∀ s, cxxSlicePtr L (sliceFrom L s) = s.ptr ∧ cxxSliceLen L (sliceFrom L s) = s.len) ∧
    (∀ ptr len, asSlice L (cxxSliceNew L ptr len) = ⟨ptr, len⟩) ∧
    (∀ s, asSlice L (sliceFrom L s) = s) ∧
    (∀ s, cxxStrPtr L (strFrom L s) = s.ptr ∧ cxxStrLen L (strFrom L s) = s.len) ∧
    (∀ s, asStr L (cxxStrNew L s) = s) ∧ (∀ s, asStr L (strFrom L s) = s) := by
  refine ⟨fun s => ?_, fun p l => ?_, fun s => ?_, fun s => ?_, L.str.back, L.str.back⟩
  · simp [cxxSlicePtr, cxxSliceLen, slicePtr, sliceLen, sliceFrom, sliceFromRawParts, L.slice.back]
  · simp [asSlice, slicePtr, sliceLen, cxxSliceNew, sliceFromRawParts, L.slice.back]
  · simp [asSlice, slicePtr, sliceLen, sliceFrom, sliceFromRawParts, L.slice.back]
  · simp [cxxStrPtr, cxxStrLen, strFrom, L.str.back]

/-! ### Witnesses -/

/-- Pointer, capacity, length. -/
def pcl : Layout Raw 3 where
  write r := [r.ptr, r.cap, r.len]
  read ws := match ws with | [p, c, l] => ⟨p, c, l⟩ | _ => ⟨0, 0, 0⟩
  sized _ := rfl
  back _ := rfl

/-- Capacity, pointer, length. -/
def cpl : Layout Raw 3 where
  write r := [r.cap, r.ptr, r.len]
  read ws := match ws with | [c, p, l] => ⟨p, c, l⟩ | _ => ⟨0, 0, 0⟩
  sized _ := rfl
  back _ := rfl

def fat : Layout Fat 2 where
  write s := [s.ptr, s.len]
  read ws := match ws with | [p, l] => ⟨p, l⟩ | _ => ⟨0, 0⟩
  sized _ := rfl
  back _ := rfl

/-- All vectors in the same order. -/
def uniform : Layouts := ⟨cpl, fun _ => pcl, fat, fat⟩

/-- Vectors of `RustString` in another order than vectors of `String`. -/
def mixed : Layouts := ⟨cpl, fun e => if e = .rustString then cpl else pcl, fat, fat⟩

/-- A program that hands over strings and vectors, takes them back and drops them on either side. -/
def sampleOps : List Op :=
  [.makeString [104, 105] 3, .makeStrings [[97], [], [98, 99]] 1, .makeVec [[1], [2]] 0, .convert 0 .stringFrom,
   .convert 1 .fromVecString, .convert 2 .vecFrom, .convert 1 .stringFrom, .drop 2, .convert 1 .intoVecString, .convert 0 .intoString,
   .convert 1 .fromVecString]

example : values sampleOps = [(.string, .string [104, 105] 5), (.rustVec .rustString, .strings [[97], [], [98, 99]] 4)] := by
  decide +kernel

example : (run mixed ⟨[], []⟩ sampleOps).map (·.owners) =
    some [.string ⟨1, 5, 2⟩, .rustVec .rustString [4, 4, 3]] := by decide +kernel

example : (run mixed ⟨[], []⟩ (sampleOps ++ [.drop 1, .drop 0])).map (fun st => (st.heap, st.owners)) = some ([], []) := by decide +kernel

example : uniform.vec .string = uniform.vec .rustString := rfl

/-- The full statement does not follow from what Rust promises: with other layouts for `Vec<String>` and `Vec<RustString>`, what
`from_ref_vec_string` gives has another pointer and capacity (src/rust_vec.rs:86-92), while `from_vec_string` (78-84) does not depend on it. -/
theorem strings_confused :
    seenAsVec mixed .rustString (fromRefVecString ((mixed.vec .string).write ⟨4096, 8, 3⟩)) = ⟨8, 4096, 3⟩ ∧
    (fromVecString mixed ⟨4096, 8, 3⟩).result = .rustVec .rustString ((mixed.vec .rustString).write ⟨4096, 8, 3⟩) := by
  constructor <;> rfl

end Verif.Words
