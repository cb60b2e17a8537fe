import Verif.Load.Spec
/-!
# Enums from headers have the variants that C++ has
-/
namespace Verif.Load
open Spec Verif.Discriminant

/-! ### The walk over the dump -/

def innerOf : Option (Nat × Int) → List Node
  | none => []
  | some (casts, v) => [dumpValue v casts]

/-- What `traverse` does at a member of the enum `i`. -/
def member (lex : Lex) (i : Nat) (st : State) : Member → State
  | .constant name v => (addConstant lex st i name (innerOf v)).1
  | .note => st

theorem traverse_value (lex : Lex) (v : Int) (n : Nat) (idx : Option Nat) (st : State) :
    traverse lex (dumpValue v n) idx st = st := by
  induction n with
  | zero => simp [dumpValue, traverse, traverseAll]
  | succ n ih => simp [dumpValue, traverse, traverseAll, ih]

theorem traverse_member (lex : Lex) (i : Nat) (st : State) (m : Member) :
    traverse lex (dumpMember m) (some i) st = member lex i st m := by
  cases m with
  | note => simp [dumpMember, traverse, traverseAll, member]
  | constant name v =>
    cases v with
    | none =>
      simp only [dumpMember, traverse, member, innerOf]
      split <;> next h => rw [h]; try simp [traverseAll]
    | some p =>
      obtain ⟨n, v⟩ := p
      simp only [dumpMember, traverse, member, innerOf]
      split <;> next h => rw [h]; try simp [traverseAll, traverse_value]

theorem traverse_members (lex : Lex) (i : Nat) (ms : List Member) (st : State) :
    traverseAll lex (ms.map dumpMember) (some i) st = ms.foldl (member lex i) st := by
  induction ms generalizing st with
  | nil => simp [traverseAll]
  | cons m ms ih => simp only [List.map_cons, traverseAll, traverse_member, ih, List.foldl_cons]

/-- What `traverse` does at the declaration of an enum. -/
def visit (lex : Lex) (st : State) (p : List String × EnumDecl) : State :=
  match st.enums.findIdx? (·.is p.2.name p.1) with
  | none => st
  | some i =>
    match st.enums[i]? with
    | none => st
    | some e =>
      if e.variants ≠ [] then st.error .multiple
      else
        match p.2.underlying with
        | none => st.error .implicitRepr
        | some t => p.2.members.foldl (member lex i) (setRepr st i t)

def State.at_ (st : State) (s : List String) : State := { st with stack := s }

theorem setRepr_at (st : State) (s) (i t) : setRepr (st.at_ s) i t = (setRepr st i t).at_ s := by
  unfold setRepr; split <;> rfl

theorem member_at (lex i) (st : State) (s) (m) : member lex i (st.at_ s) m = (member lex i st m).at_ s := by
  cases m with
  | note => rfl
  | constant name v =>
    simp only [member, addConstant, State.at_]
    cases st.enums[i]? with
    | none => rfl
    | some e =>
      simp only
      split
      · cases discriminantOf (innerOf v) e.variants with
        | error err => rfl
        | ok r =>
          obtain ⟨d, err⟩ := r
          cases err <;> rfl
      · rfl

theorem members_at (lex i) (ms : List Member) (st : State) (s) :
    ms.foldl (member lex i) (st.at_ s) = (ms.foldl (member lex i) st).at_ s := by
  induction ms generalizing st with
  | nil => rfl
  | cons m ms ih => rw [List.foldl_cons, member_at, ih, List.foldl_cons]

theorem visit_at (lex) (st : State) (s) (p) : visit lex (st.at_ s) p = (visit lex st p).at_ s := by
  simp only [visit]
  change (match st.enums.findIdx? (·.is p.2.name p.1) with | none => _ | some i => _) = _
  cases st.enums.findIdx? (·.is p.2.name p.1) with
  | none => rfl
  | some i =>
    simp only
    change (match st.enums[i]? with | none => _ | some e => _) = _
    cases st.enums[i]? with
    | none => rfl
    | some e =>
      simp only
      split
      · rfl
      · split
        · rfl
        · rw [setRepr_at, members_at]

theorem visits_at (lex) (l : List (List String × EnumDecl)) (st : State) (s) : l.foldl (visit lex) (st.at_ s) = (l.foldl (visit lex) st).at_ s := by
  induction l generalizing st with
  | nil => rfl
  | cons p l ih => rw [List.foldl_cons, visit_at, ih, List.foldl_cons]

theorem visits_stack (lex) (l : List (List String × EnumDecl)) (st : State) : (l.foldl (visit lex) st).stack = st.stack := by
  have := visits_at lex l st st.stack
  have h : st.at_ st.stack = st := rfl
  rw [h] at this
  exact (congrArg State.stack this).trans rfl

mutual
theorem traverse_dump (lex : Lex) : ∀ (item : Item) (st : State),
    traverse lex (dump item) none st = (enumsOf true st.stack item).foldl (visit lex) st
  | .ns none items, st => by simp [dump, traverse, enumsOf]
  | .ns (some name) items, st => by
    have h := traverse_dumps lex items (st.at_ (st.stack ++ [name]))
    simp only [dump, traverse, enumsOf]
    change State.at_ (traverseAll lex (dumps items) none (st.at_ (st.stack ++ [name])))
      (traverseAll lex (dumps items) none (st.at_ (st.stack ++ [name]))).stack.dropLast = _
    rw [h, visits_stack]
    simp only [State.at_, List.dropLast_concat]
    have := visits_at lex (enumsOfAll true (st.stack ++ [name]) items) (st.at_ (st.stack ++ [name])) st.stack
    simp only [State.at_] at this
    exact this.symm
  | .enum d, st => by
    simp only [dump, traverse, enumsOf, List.foldl_cons, List.foldl_nil, visit, traverse_members]
    rfl
  | .unnamedEnum t ms, st => by simp [dump, traverse, enumsOf]
  | .transparent items, st => by simp only [dump, traverse, enumsOf, traverse_dumps lex items st]
  | .body items, st => by simp only [dump, traverse, enumsOf, if_true, traverse_dumps lex items st]
theorem traverse_dumps (lex : Lex) : ∀ (items : List Item) (st : State),
    traverseAll lex (dumps items) none st = (enumsOfAll true st.stack items).foldl (visit lex) st
  | [], st => by simp [dumps, traverseAll, enumsOfAll]
  | i :: is, st => by
    simp only [dumps, traverseAll, enumsOfAll, List.foldl_append, traverse_dump lex i st]
    rw [traverse_dumps lex is, visits_stack]
end

/-! ### Enumerators -/

theorem constantOf_value (v : Int) (n : Nat) : constantOf (dumpValue v n) =
    match fromStr (some v) with
    | some d => .constant d
    | none => .fail := by
  induction n with
  | zero => rfl
  | succ n ih => exact ih

/-- What is known about the value before: `next` is the one after it. -/
def Good (variants : List Variant) (next : Int) : Prop :=
  match variants.getLast? with
  | none => next = 0
  | some l => number l.disc + 1 = next ∧ (l.disc.neg = true → l.disc.mag ≠ 0)

theorem fromStr_some {v : Int} {d : Disc} (h : fromStr (some v) = some d) :
    number d = v ∧ (d.neg = true → d.mag ≠ 0) := by
  simp only [fromStr] at h
  split at h
  · cases h
    simp only [number, decide_eq_true_eq]
    refine ⟨?_, by omega⟩
    split <;> omega
  · cases h

theorem succ_some {d d' : Disc} (hd : d.neg = true → d.mag ≠ 0) (h : succ d = some d') :
    number d' = number d + 1 ∧ (d'.neg = true → d'.mag ≠ 0) := by
  obtain ⟨n, m⟩ := d
  cases n with
  | false =>
    simp only [succ, Bool.false_eq_true, if_false] at h
    split at h
    · cases h; simp [number]
    · cases h
  | true =>
    simp only [succ, if_true] at h
    have hm : m ≠ 0 := hd rfl
    split at h
    · next h1 => cases h; simp only [number, Disc.zero, h1]; simp
    · next h1 =>
      cases h
      simp only [number, if_true]
      refine ⟨by omega, fun _ => by omega⟩

/-- The value that C++ gives the enumerator, and the one after it. -/
def valueOf (next : Int) : Option (Nat × Int) → Int
  | none => next
  | some (_, v) => v

theorem discriminant_right {v : Option (Nat × Int)} {variants : List Variant} {next : Int} {d : Disc}
    (hg : Good variants next) (h : discriminantOf (innerOf v) variants = .ok (d, none)) :
    number d = valueOf next v ∧ (d.neg = true → d.mag ≠ 0) := by
  cases v with
  | none =>
    simp only [innerOf, discriminantOf, discriminantValue] at h
    unfold Good at hg
    split at h
    · next hl =>
      rw [hl] at hg
      cases h
      exact ⟨by rw [hg]; rfl, by simp [Disc.zero]⟩
    · next l hl =>
      rw [hl] at hg
      split at h
      · next d' hs =>
        cases h
        obtain ⟨h1, h2⟩ := succ_some hg.2 hs
        exact ⟨by rw [h1, hg.1]; rfl, h2⟩
      · cases h
  | some p =>
    obtain ⟨n, v⟩ := p
    simp only [innerOf, discriminantOf, discriminantValue, constantOf_value] at h
    cases hf : fromStr (some v) with
    | none => rw [hf] at h; cases h
    | some d' =>
      rw [hf] at h
      cases h
      exact fromStr_some hf

theorem Good.push {vs : List Variant} {n r : String} {d : Disc} (h : d.neg = true → d.mag ≠ 0) :
    Good (vs ++ [⟨n, r, d⟩]) (number d + 1) := by
  unfold Good
  simp only [List.getLast?_concat]
  exact ⟨trivial, h⟩

theorem member_errors (lex : Lex) (i : Nat) (st : State) (m : Member) :
    ∃ es, (member lex i st m).errors = st.errors ++ es := by
  cases m with
  | note => exact ⟨[], by simp [member]⟩
  | constant name v =>
    simp only [member, addConstant]
    cases st.enums[i]? with
    | none => exact ⟨[], by simp⟩
    | some e =>
      simp only
      split
      · cases discriminantOf (innerOf v) e.variants with
        | error err => exact ⟨[err], rfl⟩
        | ok r =>
          obtain ⟨d, err⟩ := r
          cases err with
          | none => exact ⟨[], by simp [State.update]⟩
          | some err => exact ⟨[err], rfl⟩
      · exact ⟨[_], rfl⟩

theorem members_errors (lex : Lex) (i : Nat) (ms : List Member) (st : State) :
    ∃ es, (ms.foldl (member lex i) st).errors = st.errors ++ es := by
  induction ms generalizing st with
  | nil => exact ⟨[], by simp⟩
  | cons m ms ih =>
    obtain ⟨a, ha⟩ := member_errors lex i st m
    obtain ⟨b, hb⟩ := ih (member lex i st m)
    exact ⟨a ++ b, by rw [List.foldl_cons, hb, ha, List.append_assoc]⟩

theorem modify_set {l : List Enum} {i : Nat} {e : Enum} (h : l[i]? = some e) (f : Enum → Enum) :
    l.modify i f = l.set i (f e) := by
  apply List.ext_getElem?
  intro k
  rw [List.getElem?_modify, List.getElem?_set]
  obtain ⟨hlt, -⟩ := List.getElem?_eq_some_iff.1 h
  by_cases hk : i = k
  · subst hk
    simp only [h, if_true, Option.map_some, hlt]
    rfl
  · simp [hk]

/-- Without an error, an enumerator is added with its value. -/
theorem member_clean (lex : Lex) (i : Nat) (st : State) (e : Enum) (next : Int) (name : String)
    (v : Option (Nat × Int)) (hi : st.enums[i]? = some e) (hg : Good e.variants next)
    (he : (member lex i st (.constant name v)).errors = st.errors) :
    ∃ d, member lex i st (.constant name v) = { st with enums := st.enums.set i { e with
        variants := e.variants ++ [⟨name, rustName lex name e.variants.length, d⟩] } } ∧
      number d = valueOf next v ∧ (d.neg = true → d.mag ≠ 0) := by
  simp only [member, addConstant, hi] at he ⊢
  split at he
  · next hn =>
    rw [if_pos hn]
    cases hd : discriminantOf (innerOf v) e.variants with
    | error err => rw [hd] at he; simp [State.error] at he
    | ok r =>
      obtain ⟨d, err⟩ := r
      rw [hd] at he
      cases err with
      | some err => simp [State.error, State.update] at he
      | none =>
        obtain ⟨h1, h2⟩ := discriminant_right hg hd
        exact ⟨d, by simp only [State.update, modify_set hi], h1, h2⟩
  · simp [State.error] at he

/-- Without an error, the variants that are added are the enumerators, with their values, and the names in Rust are
the names in C++ where they can be. -/
theorem members_clean (lex : Lex) (i : Nat) : ∀ (ms : List Member) (st : State) (e : Enum) (next : Int),
    st.enums[i]? = some e → Good e.variants next → (ms.foldl (member lex i) st).errors = st.errors →
    ∃ vs, ms.foldl (member lex i) st = { st with enums := st.enums.set i { e with variants := e.variants ++ vs } } ∧
      vs.map (fun v => (v.cxx, number v.disc)) = values next ms ∧
      ∀ (k : Nat) v, vs[k]? = some v → v.rust = rustName lex v.cxx (e.variants.length + k) := by
  intro ms
  induction ms with
  | nil =>
    intro st e next hi _ _
    refine ⟨[], ?_, rfl, fun k v h => (by simp at h)⟩
    obtain ⟨hlt, he⟩ := List.getElem?_eq_some_iff.1 hi
    have : st.enums.set i e = st.enums := by
      apply List.ext_getElem?
      intro k
      rw [List.getElem?_set]
      by_cases hk : i = k
      · subst hk; simp [hlt, he]
      · simp [hk]
    simp [this]
  | cons m ms ih =>
    intro st e next hi hg he
    obtain ⟨a, ha⟩ := member_errors lex i st m
    obtain ⟨b, hb⟩ := members_errors lex i ms (member lex i st m)
    rw [List.foldl_cons] at he ⊢
    rw [hb, ha, List.append_assoc] at he
    have hab : a ++ b = [] := by simpa using he
    obtain ⟨rfl, rfl⟩ := List.append_eq_nil_iff.1 hab
    rw [List.append_nil] at ha hb
    cases m with
    | note => exact ih st e next hi hg hb
    | constant name v =>
      obtain ⟨d, hm, hd1, hd2⟩ := member_clean lex i st e next name v hi hg ha
      obtain ⟨hlt, -⟩ := List.getElem?_eq_some_iff.1 hi
      have hi' : (member lex i st (.constant name v)).enums[i]? = some { e with
          variants := e.variants ++ [⟨name, rustName lex name e.variants.length, d⟩] } := by
        rw [hm]; simp [hlt]
      obtain ⟨vs, h1, h2, h3⟩ := ih (member lex i st (.constant name v)) _ _ hi' (Good.push hd2) hb
      refine ⟨⟨name, rustName lex name e.variants.length, d⟩ :: vs, ?_, ?_, ?_⟩
      · rw [h1, hm]
        simp only [List.set_set, List.append_assoc, List.cons_append, List.nil_append]
      · rw [List.map_cons, h2, hd1]
        cases v with
        | none => rfl
        | some p => rfl
      · intro k w hw
        cases k with
        | zero => simp only [List.getElem?_cons_zero, Option.some.injEq] at hw; rw [← hw]; rfl
        | succ k =>
          have := h3 k w (by simpa using hw)
          simp only [List.length_append, List.length_cons, List.length_nil] at this
          rw [this]
          congr 1
          omega

/-- Names that syn takes and values that fit are added without an error. -/
theorem members_fine (lex : Lex) (i : Nat) : ∀ (ms : List Member) (st : State) (e : Enum) (next : Int),
    st.enums[i]? = some e → Good e.variants next →
    (∀ p ∈ values next ms, lex.any p.1 = true ∧ p.2.natAbs < u64Size) →
    (ms.foldl (member lex i) st).errors = st.errors := by
  intro ms
  induction ms with
  | nil => intros; rfl
  | cons m ms ih =>
    intro st e next hi hg hv
    cases m with
    | note => exact ih st e next hi hg hv
    | constant name v =>
      have hval : values next (.constant name v :: ms) = (name, valueOf next v) :: values (valueOf next v + 1) ms := by
        cases v with
        | none => rfl
        | some p => rfl
      rw [hval] at hv
      obtain ⟨hn, hr⟩ := hv _ List.mem_cons_self
      have herr : (member lex i st (.constant name v)).errors = st.errors := by
        simp only [member, addConstant, hi, hn, if_true]
        have : ∃ d, discriminantOf (innerOf v) e.variants = .ok (d, none) := by
          cases v with
          | some p =>
            obtain ⟨n, v⟩ := p
            simp only [innerOf, discriminantOf, discriminantValue, constantOf_value, fromStr]
            have hr : v.natAbs < u64Size := hr
            rw [if_pos hr]
            exact ⟨_, rfl⟩
          | none =>
            simp only [innerOf, discriminantOf, discriminantValue]
            unfold Good at hg
            cases hl : e.variants.getLast? with
            | none => exact ⟨_, rfl⟩
            | some l =>
              rw [hl] at hg
              have hs : ∃ d, succ l.disc = some d := by
                obtain ⟨⟨_, _, ⟨neg, mag⟩⟩⟩ : ∃ x, x = l := ⟨l, rfl⟩
                unfold succ
                split
                · split <;> exact ⟨_, rfl⟩
                · next hneg =>
                  have hneg : l.disc.neg = false := by simpa using hneg
                  have := hg.1
                  simp only [number, hneg, Bool.false_eq_true, if_false] at this
                  have hr : next.natAbs < u64Size := hr
                  rw [if_pos (by omega)]
                  exact ⟨_, rfl⟩
              obtain ⟨d, hs⟩ := hs
              simp only [hs]
              exact ⟨_, rfl⟩
        obtain ⟨d, hd⟩ := this
        rw [hd]
        rfl
      obtain ⟨d, hm, hd1, hd2⟩ := member_clean lex i st e next name v hi hg herr
      obtain ⟨hlt, -⟩ := List.getElem?_eq_some_iff.1 hi
      have hi' : (member lex i st (.constant name v)).enums[i]? = some { e with
          variants := e.variants ++ [⟨name, rustName lex name e.variants.length, d⟩] } := by
        rw [hm]; simp [hlt]
      rw [List.foldl_cons, ih _ _ _ hi' (Good.push hd2) (by rw [hd1]; exact fun p hp => hv p (List.mem_cons_of_mem _ hp)),
        herr]

/-! ### Declarations -/

theorem setRepr_errors (st : State) (i : Nat) (t : QualType) : ∃ es, (setRepr st i t).errors = st.errors ++ es := by
  unfold setRepr
  split
  · exact ⟨[], by simp [State.update]⟩
  · exact ⟨[_], rfl⟩

theorem visit_errors (lex : Lex) (st : State) (p : List String × EnumDecl) :
    ∃ es, (visit lex st p).errors = st.errors ++ es := by
  unfold visit
  split
  · exact ⟨[], by simp⟩
  · split
    · exact ⟨[], by simp⟩
    · split
      · exact ⟨[_], rfl⟩
      · split
        · exact ⟨[_], rfl⟩
        · next t _ =>
          obtain ⟨a, ha⟩ := setRepr_errors st _ t
          obtain ⟨b, hb⟩ := members_errors lex _ p.2.members (setRepr st _ t)
          exact ⟨a ++ b, by rw [hb, ha, List.append_assoc]⟩

theorem visits_errors (lex : Lex) (l : List (List String × EnumDecl)) (st : State) :
    ∃ es, (l.foldl (visit lex) st).errors = st.errors ++ es := by
  induction l generalizing st with
  | nil => exact ⟨[], by simp⟩
  | cons p l ih =>
    obtain ⟨a, ha⟩ := visit_errors lex st p
    obtain ⟨b, hb⟩ := ih (visit lex st p)
    exact ⟨a ++ b, by rw [List.foldl_cons, hb, ha, List.append_assoc]⟩

theorem ffiName_ctype {t n : String} (h : ffiName t = some n) : ctype n = t := by
  unfold ffiName at h
  split at h <;> cases h <;> rfl

theorem ffiName_integer {t : String} (h : t ∈ integerTypes) : ∃ n, ffiName t = some n := by
  simp only [integerTypes, List.mem_cons, List.not_mem_nil, or_false] at h
  rcases h with rfl | rfl | rfl | rfl | rfl | rfl | rfl | rfl | rfl | rfl | rfl <;> exact ⟨_, rfl⟩

/-- A declaration that is taken without an error. -/
theorem visit_clean (lex : Lex) (st : State) (p : List String × EnumDecl) (i : Nat) (e : Enum)
    (hf : st.enums.findIdx? (·.is p.2.name p.1) = some i) (hi : st.enums[i]? = some e)
    (he : (visit lex st p).errors = st.errors) :
    e.variants = [] ∧ ∃ vs name t,
      visit lex st p = { st with enums := st.enums.set i { e with repr := some name, variants := vs } } ∧
      vs.map (fun v => (v.cxx, number v.disc)) = p.2.values ∧ p.2.underlying = some t ∧ ctype name = canonical t ∧
      ∀ (k : Nat) v, vs[k]? = some v → v.rust = rustName lex v.cxx k := by
  simp only [visit, hf, hi] at he ⊢
  split at he
  · simp [State.error] at he
  · next hv =>
    have hv : e.variants = [] := by simpa using hv
    rw [if_neg (by simp [hv])]
    split at he
    · simp [State.error] at he
    · next t ht =>
      obtain ⟨b, hb⟩ := members_errors lex i p.2.members (setRepr st i t)
      cases hn : ffiName (t.desugared.getD t.qualType) with
      | none =>
        have : (setRepr st i t).errors = st.errors ++ [.unsupportedRepr] := by simp [setRepr, hn, State.error, State.update]
        rw [hb, this] at he
        simp at he
      | some name =>
        have hs : setRepr st i t = { st with enums := st.enums.set i { e with repr := some name } } := by
          simp only [setRepr, hn, State.update, modify_set hi]
        obtain ⟨hlt, -⟩ := List.getElem?_eq_some_iff.1 hi
        obtain ⟨vs, h1, h2, h3⟩ := members_clean lex i p.2.members (setRepr st i t) { e with repr := some name } 0
          (by rw [hs]; simp [hlt]) (by simp [Good, hv]) (by rw [he, hs])
        refine ⟨hv, vs, name, t, ?_, h2, ht, ffiName_ctype hn, ?_⟩
        · rw [h1, hs]
          simp only [List.set_set, hv, List.nil_append]
        · simpa [hv] using h3

/-- A declaration that can be taken is taken without an error. -/
theorem visit_fine (lex : Lex) (st : State) (p : List String × EnumDecl)
    (h : ∀ i e, st.enums.findIdx? (·.is p.2.name p.1) = some i → st.enums[i]? = some e →
      e.variants = [] ∧ (∃ t, p.2.underlying = some t ∧ canonical t ∈ integerTypes) ∧
      ∀ q ∈ p.2.values, lex.any q.1 = true ∧ q.2.natAbs < u64Size) :
    (visit lex st p).errors = st.errors := by
  unfold visit
  split
  · rfl
  · next i hf =>
    split
    · rfl
    · next e hi =>
      obtain ⟨hv, ⟨t, ht, hc⟩, hq⟩ := h i e hf hi
      rw [if_neg (by simp [hv])]
      simp only [ht]
      obtain ⟨name, hn⟩ := ffiName_integer hc
      have hs : setRepr st i t = { st with enums := st.enums.set i { e with repr := some name } } := by
        simp only [canonical] at hn
        simp only [setRepr, hn, State.update, modify_set hi]
      obtain ⟨hlt, -⟩ := List.getElem?_eq_some_iff.1 hi
      rw [members_fine lex i p.2.members (setRepr st i t) { e with repr := some name } 0
        (by rw [hs]; simp [hlt]) (by simp [Good, hv]) hq, hs]

/-! ### All declarations -/

/-- The declaration is one of the enum `e`. -/
def hits (e : Enum) (p : List String × EnumDecl) : Bool := decide (p.1 = e.ns ∧ p.2.name = e.cxx)

theorem is_hits (e : Enum) (p : List String × EnumDecl) : e.is p.2.name p.1 = hits e p := by
  simp only [Enum.is, hits]
  by_cases h1 : e.cxx = p.2.name <;> by_cases h2 : e.ns = p.1
  · simp [h1, h2]
  · simp [h2, Ne.symm h2]
  · simp [h1, Ne.symm h1]
  · simp [h1, Ne.symm h1]

/-- What is known of the enum `e`, which was `e0`, after the declarations `done`.  `first`: no enum before it in the
bridge has the same name in C++. -/
structure Holds (lex : Lex) (first : Prop) (e0 : Enum) (done : List (List String × EnumDecl)) (e : Enum) : Prop where
  ns : e.ns = e0.ns
  cxx : e.cxx = e0.cxx
  other : ¬ first → e.variants = []
  mine : first →
    (e.variants = [] ∧ ∀ p ∈ done.filter (hits e0), p.2.values = []) ∨
    (∃ pre p, done.filter (hits e0) = pre ++ [p] ∧ (∀ q ∈ pre, q.2.values = []) ∧ p.2.values ≠ [] ∧ Mirrors e p.2 ∧
      ∀ (k : Nat) v, e.variants[k]? = some v → v.rust = rustName lex v.cxx k)

/-- No enum before `i` has the same name in C++ as the one at `i`. -/
def First (l : List Enum) (i : Nat) (e : Enum) : Prop := ∀ (j : Nat) e', j < i → l[j]? = some e' → ¬ (e'.ns = e.ns ∧ e'.cxx = e.cxx)

/-- What is known of all enums. -/
def Inv (lex : Lex) (l0 : List Enum) (done : List (List String × EnumDecl)) (l : List Enum) : Prop :=
  l.length = l0.length ∧ ∀ (i : Nat) e0 e, l0[i]? = some e0 → l[i]? = some e → Holds lex (First l0 i e0) e0 done e

theorem hits_same {e e' : Enum} (h1 : e.ns = e'.ns) (h2 : e.cxx = e'.cxx) (p) : hits e p = hits e' p := by
  simp [hits, h1, h2]

theorem inv_names {lex l0 done l} (h : Inv lex l0 done l) {i : Nat} {e0 : Enum} (hi : l0[i]? = some e0) :
    ∃ e, l[i]? = some e ∧ e.ns = e0.ns ∧ e.cxx = e0.cxx := by
  obtain ⟨hlt, -⟩ := List.getElem?_eq_some_iff.1 hi
  have hl : i < l.length := by rw [h.1]; exact hlt
  have := h.2 i e0 l[i] hi (List.getElem?_eq_getElem hl)
  exact ⟨_, List.getElem?_eq_getElem hl, this.ns, this.cxx⟩

theorem inv_back {lex l0 done l} (h : Inv lex l0 done l) {i : Nat} {e : Enum} (hi : l[i]? = some e) :
    ∃ e0, l0[i]? = some e0 ∧ e.ns = e0.ns ∧ e.cxx = e0.cxx := by
  obtain ⟨hlt, -⟩ := List.getElem?_eq_some_iff.1 hi
  have hl : i < l0.length := by rw [← h.1]; exact hlt
  have := h.2 i l0[i] e (List.getElem?_eq_getElem hl) hi
  exact ⟨_, List.getElem?_eq_getElem hl, this.ns, this.cxx⟩

/-- The enum that a declaration is taken for is the first of that name. -/
theorem find_first {lex l0 done l} (h : Inv lex l0 done l) {p : List String × EnumDecl} {i : Nat}
    (hf : l.findIdx? (·.is p.2.name p.1) = some i) :
    ∃ e0 e, l0[i]? = some e0 ∧ l[i]? = some e ∧ First l0 i e0 ∧ hits e0 p = true := by
  obtain ⟨hlt, hp, hno⟩ := List.findIdx?_eq_some_iff_getElem.1 hf
  obtain ⟨e0, h0, hn1, hn2⟩ := inv_back h (List.getElem?_eq_getElem hlt)
  rw [is_hits, hits_same hn1 hn2] at hp
  refine ⟨e0, _, h0, List.getElem?_eq_getElem hlt, ?_, hp⟩
  intro j e' hj he' ⟨hs1, hs2⟩
  obtain ⟨ej, hej, hj1, hj2⟩ := inv_names h he'
  obtain ⟨hjl, hje⟩ := List.getElem?_eq_some_iff.1 hej
  have := hno j hj
  rw [hje, is_hits, hits_same hj1 hj2, hits_same hs1 hs2] at this
  exact this hp

theorem find_some {lex l0 done l} (h : Inv lex l0 done l) {p : List String × EnumDecl} {i : Nat} {e0 : Enum}
    (hi : l0[i]? = some e0) (hfirst : First l0 i e0) (hh : hits e0 p = true) :
    l.findIdx? (·.is p.2.name p.1) = some i := by
  obtain ⟨e, he, h1, h2⟩ := inv_names h hi
  obtain ⟨hlt, hge⟩ := List.getElem?_eq_some_iff.1 he
  rw [List.findIdx?_eq_some_iff_getElem]
  refine ⟨hlt, by rw [hge, is_hits, hits_same h1 h2, hh], ?_⟩
  intro j hj hc
  obtain ⟨ej, hj0, hj1, hj2⟩ := inv_back h (List.getElem?_eq_getElem (show j < l.length by omega))
  rw [is_hits, hits_same hj1 hj2] at hc
  apply hfirst j ej hj hj0
  simp only [hits, decide_eq_true_eq] at hc hh
  exact ⟨hc.1.symm.trans hh.1, hc.2.symm.trans hh.2⟩

theorem inv_step {lex : Lex} {l0 done} {st : State} {p : List String × EnumDecl} (h : Inv lex l0 done st.enums)
    (he : (visit lex st p).errors = st.errors) : Inv lex l0 (done ++ [p]) (visit lex st p).enums := by
  cases hf : st.enums.findIdx? (·.is p.2.name p.1) with
  | none =>
    have hv : visit lex st p = st := by simp only [visit, hf]
    rw [hv]
    refine ⟨h.1, fun i e0 e hi0 hi => ?_⟩
    have H := h.2 i e0 e hi0 hi
    refine ⟨H.ns, H.cxx, H.other, fun hfirst => ?_⟩
    have hno : hits e0 p = false := by
      apply Classical.byContradiction
      intro hc
      have := find_some h hi0 hfirst (by simpa using hc)
      rw [hf] at this
      cases this
    rw [List.filter_append]
    simpa [hno] using H.mine hfirst
  | some i =>
    obtain ⟨e0, e, hi0, hi, hfirst, hhit⟩ := find_first h hf
    obtain ⟨hv, vs, name, t, hvis, hvals, ht, hc, hnames⟩ := visit_clean lex st p i e hf hi he
    obtain ⟨hlt, -⟩ := List.getElem?_eq_some_iff.1 hi
    rw [hvis]
    refine ⟨by simp [h.1], fun j f0 f hj0 hj => ?_⟩
    simp only [List.getElem?_set] at hj
    by_cases hij : i = j
    · subst hij
      simp only [if_true, hlt, Option.some.injEq] at hj
      rw [hi0] at hj0
      cases hj0
      have H := h.2 i e0 e hi0 hi
      subst hj
      refine ⟨H.ns, H.cxx, fun hn => absurd hfirst hn, fun _ => ?_⟩
      have hfil : (done ++ [p]).filter (hits e0) = done.filter (hits e0) ++ [p] := by
        rw [List.filter_append]; simp [hhit]
      rw [hfil]
      have hempty : ∀ q ∈ done.filter (hits e0), q.2.values = [] := by
        rcases H.mine hfirst with ⟨-, h⟩ | ⟨pre, q, -, -, hne, hm, -⟩
        · exact h
        · have := hm.1
          rw [hv] at this
          exact absurd this.symm hne
      by_cases hpv : p.2.values = []
      · left
        refine ⟨?_, ?_⟩
        · rw [hpv] at hvals
          simpa using hvals
        · intro q hq
          rcases List.mem_append.1 hq with hq | hq
          · exact hempty q hq
          · simp only [List.mem_cons, List.not_mem_nil, or_false] at hq
            rw [hq, hpv]
      · right
        exact ⟨_, p, rfl, hempty, hpv, ⟨hvals, t, name, ht, rfl, hc⟩, hnames⟩
    · simp only [hij, if_false] at hj
      have H := h.2 j f0 f hj0 hj
      refine ⟨H.ns, H.cxx, H.other, fun hfj => ?_⟩
      have hno : hits f0 p = false := by
        apply Classical.byContradiction
        intro hcc
        have := find_some h hj0 hfj (by simpa using hcc)
        rw [hf] at this
        cases this
        exact hij rfl
      rw [List.filter_append]
      simpa [hno] using H.mine hfj

theorem inv_steps {lex : Lex} {l0} : ∀ (vs : List (List String × EnumDecl)) (done) (st : State),
    Inv lex l0 done st.enums → (vs.foldl (visit lex) st).errors = st.errors →
    Inv lex l0 (done ++ vs) (vs.foldl (visit lex) st).enums := by
  intro vs
  induction vs with
  | nil => intro done st h _; simpa using h
  | cons p vs ih =>
    intro done st h he
    obtain ⟨a, ha⟩ := visit_errors lex st p
    obtain ⟨b, hb⟩ := visits_errors lex vs (visit lex st p)
    rw [List.foldl_cons] at he ⊢
    rw [hb, ha, List.append_assoc] at he
    have hab : a ++ b = [] := by simpa using he
    obtain ⟨rfl, rfl⟩ := List.append_eq_nil_iff.1 hab
    rw [List.append_nil] at ha hb
    have := ih (done ++ [p]) _ (inv_step h ha) hb
    simpa using this

theorem inv_start (lex : Lex) (l : List Enum) (h : ∀ e ∈ l, e.variants = []) : Inv lex l [] l := by
  refine ⟨rfl, fun i e0 e h0 h1 => ?_⟩
  rw [h0] at h1
  cases h1
  have := h e0 (List.mem_of_getElem? h0)
  exact ⟨rfl, rfl, fun _ => this, fun _ => .inl ⟨this, by simp⟩⟩

theorem declarations_hits (unit : List Item) (e : Enum) :
    declarations true unit e.ns e.cxx = ((enumsOfAll true [] unit).filter (hits e)).map (·.2) := rfl

/-- The enums of a bridge that want their variants from a header. -/
def wanted (enums : List Enum) : List Enum := enums.filter (fun e => e.fromHeader && e.variants.isEmpty)

theorem traverse_unit (lex : Lex) (unit : List Item) (st : State) (h : st.stack = []) :
    traverse lex (dumpUnit unit) none st = (enumsOfAll true [] unit).foldl (visit lex) st := by
  simp only [dumpUnit, traverse, traverse_dumps, h]

theorem load_clean {lex : Lex} {enums : List Enum} {unit : List Item} {out : List Enum}
    (h : load lex enums (some (dumpUnit unit)) = ([], out)) :
    (∀ e ∈ enums, e.fromHeader = true → e.variants = []) ∧
    Inv lex (wanted enums) (enumsOfAll true [] unit) out ∧ ∀ e ∈ out, e.variants ≠ [] := by
  have early : ∀ l, ((enums.filter (fun e => e.fromHeader && !e.variants.isEmpty)).map
      (fun _ => Err.explicitVariants)) ++ l = [] → ∀ e ∈ enums, e.fromHeader = true → e.variants = [] := by
    intro l hl e he hf
    have h1 := (List.append_eq_nil_iff.1 hl).1
    rw [List.map_eq_nil_iff, List.filter_eq_nil_iff] at h1
    have := h1 e he
    simpa [hf] using this
  have hwant : ∀ e ∈ wanted enums, e.variants = [] := by
    intro e he
    have := (List.mem_filter.1 he).2
    simp at this
    exact this.2
  simp only [load] at h
  have hw : enums.filter (fun e => e.fromHeader && e.variants.isEmpty) = wanted enums := rfl
  rw [hw] at h
  split at h
  · next hnil =>
    simp only [Prod.mk.injEq] at h
    refine ⟨early [] (by rw [List.append_nil, h.1]), ?_, ?_⟩
    · rw [hnil, ← h.2]
      exact ⟨rfl, fun i e0 e h0 => (by simp at h0)⟩
    · rw [← h.2]; simp
  · rw [traverse_unit lex unit _ rfl] at h
    simp only [Prod.mk.injEq, List.append_eq_nil_iff] at h
    obtain ⟨⟨h1, h2⟩, h3⟩ := h
    obtain ⟨es, hes⟩ := visits_errors lex (enumsOfAll true [] unit)
      ⟨(enums.filter (fun e => e.fromHeader && !e.variants.isEmpty)).map (fun _ => Err.explicitVariants), [], wanted enums⟩
    rw [h1] at hes
    refine ⟨early es hes.symm, ?_, ?_⟩
    · have := inv_steps (lex := lex) (l0 := wanted enums) (enumsOfAll true [] unit) []
        ⟨(enums.filter (fun e => e.fromHeader && !e.variants.isEmpty)).map (fun _ => Err.explicitVariants), [],
          wanted enums⟩ (inv_start lex _ hwant)
        (by rw [h1]; exact (List.append_eq_nil_iff.1 hes.symm).1.symm)
      rw [h3] at this
      simpa using this
    · intro e he
      rw [List.map_eq_nil_iff, List.filter_eq_nil_iff] at h2
      have := h2 e (by rw [h3]; exact he)
      simpa using this

/-! ### The theorems -/

/-- **C82**, partial.  If loading reports no error, then every enum that wants its variants from a header has exactly one
definition in the C++ translation unit, and it has got the enumerators of that definition: their names, their values and
their order, and the underlying type.  Where the name in C++ is an identifier in Rust, it is the name in Rust.

Missing, because the code does not check it: enums in the bodies of classes and functions are taken for enums of the
namespace around them (`local_enum_taken`), so `NoLocal` is needed. -/
theorem load_faithful_partial {lex : Lex} {enums : List Enum} {unit : List Item} {out : List Enum}
    (h : load lex enums (some (dumpUnit unit)) = ([], out)) {i : Nat} {e0 : Enum} (hi : (wanted enums)[i]? = some e0)
    (hlocal : NoLocal unit e0.ns e0.cxx) :
    ∃ e pre d, out[i]? = some e ∧ e.ns = e0.ns ∧ e.cxx = e0.cxx ∧
      declarations false unit e0.ns e0.cxx = pre ++ [d] ∧ (∀ q ∈ pre, q.values = []) ∧ d.values ≠ [] ∧
      Mirrors e d ∧ ∀ v ∈ e.variants, lex.rust v.cxx = true → v.rust = v.cxx := by
  obtain ⟨-, hinv, hne⟩ := load_clean h
  obtain ⟨e, he, hn1, hn2⟩ := inv_names hinv hi
  have H := hinv.2 i e0 e hi he
  have hv := hne e (List.mem_of_getElem? he)
  have hfirst : First (wanted enums) i e0 := Classical.byContradiction fun hc => hv (H.other hc)
  rcases H.mine hfirst with ⟨h0, -⟩ | ⟨pre, p, hd, hpre, hp, hm, hr⟩
  · exact absurd h0 hv
  · refine ⟨e, pre.map (·.2), p.2, he, hn1, hn2, ?_, ?_, hp, hm, ?_⟩
    · rw [← hlocal, declarations_hits, hd]
      simp
    · intro q hq
      obtain ⟨q', hq', rfl⟩ := List.mem_map.1 hq
      exact hpre q' hq'
    · intro v hvm hlex
      obtain ⟨k, hk⟩ := List.getElem?_of_mem hvm
      rw [hr k v hk]
      simp [rustName, hlex]

/-- Nothing is loaded without being asked for, and nothing that was asked for is forgotten: the enums with
`#![variants_from_header]` are those that come back, none of them had variants of its own, and all of them have some
now. -/
theorem load_complete {lex : Lex} {enums : List Enum} {unit : List Item} {out : List Enum}
    (h : load lex enums (some (dumpUnit unit)) = ([], out)) :
    out.map (fun e => (e.ns, e.cxx)) = (enums.filter (·.fromHeader)).map (fun e => (e.ns, e.cxx)) ∧
    (∀ e ∈ enums, e.fromHeader = true → e.variants = []) ∧ ∀ e ∈ out, e.variants ≠ [] := by
  obtain ⟨h1, hinv, hne⟩ := load_clean h
  refine ⟨?_, h1, hne⟩
  have hw : wanted enums = enums.filter (·.fromHeader) := by
    apply List.filter_congr
    intro e he
    cases hf : e.fromHeader with
    | false => rfl
    | true => simp [h1 e he hf]
  rw [← hw]
  apply List.ext_getElem?
  intro i
  simp only [List.getElem?_map]
  cases hi : (wanted enums)[i]? with
  | none =>
    have : out[i]? = none := by
      rw [List.getElem?_eq_none_iff] at hi ⊢
      rw [hinv.1]
      exact hi
    rw [this]
  | some e0 =>
    obtain ⟨e, he, hn1, hn2⟩ := inv_names hinv hi
    rw [he]
    simp [hn1, hn2]

/-- Without the dump nothing is loaded. -/
theorem load_needs_dump {lex : Lex} {enums : List Enum} {e : Enum} (he : e ∈ enums) (hf : e.fromHeader = true) :
    (load lex enums none).1 ≠ [] := by
  simp only [load]
  cases hv : e.variants.isEmpty with
  | true =>
    have hm : e ∈ enums.filter (fun e => e.fromHeader && e.variants.isEmpty) := List.mem_filter.2 ⟨he, by simp [hf, hv]⟩
    rw [if_neg (List.ne_nil_of_mem hm)]
    simp
  | false =>
    have hm : e ∈ enums.filter (fun e => e.fromHeader && !e.variants.isEmpty) := List.mem_filter.2 ⟨he, by simp [hf, hv]⟩
    have hne := List.ne_nil_of_mem hm
    split
    · simpa using ⟨e, he, hf, by simpa using hv⟩
    · simp

/-- The declarations of an enum that can be loaded: one definition, in the end, and an underlying type that has a name
in `core::ffi`. -/
def Fit (lex : Lex) (ds : List EnumDecl) : Prop :=
  ∃ pre d, ds = pre ++ [d] ∧ (∀ q ∈ pre, q.values = []) ∧ d.values ≠ [] ∧
    (∀ q ∈ ds, ∃ t, q.underlying = some t ∧ canonical t ∈ integerTypes) ∧
    ∀ q ∈ d.values, lex.any q.1 = true ∧ q.2.natAbs < 2 ^ 64

theorem fit_start {α : Type} {pre : List α} {d : α} {a b : List α} {x : α} (h : pre ++ [d] = a ++ x :: b) :
    (∀ y ∈ a, y ∈ pre) ∧ (x ∈ pre ∨ x = d) := by
  induction pre generalizing a with
  | nil =>
    cases a with
    | nil => simp only [List.nil_append, List.cons.injEq] at h; exact ⟨fun y hy => (by cases hy), .inr h.1.symm⟩
    | cons c a => simp at h
  | cons c pre ih =>
    cases a with
    | nil => simp only [List.cons_append, List.nil_append, List.cons.injEq] at h; exact ⟨fun y hy => (by cases hy), .inl (by simp [h.1])⟩
    | cons c' a =>
      simp only [List.cons_append, List.cons.injEq] at h
      obtain ⟨h1, h2⟩ := ih h.2
      refine ⟨fun y hy => ?_, h2.imp (List.mem_cons_of_mem _) id⟩
      rcases List.mem_cons.1 hy with rfl | hy
      · simp [h.1]
      · exact List.mem_cons_of_mem _ (h1 y hy)

theorem steps_fine {lex : Lex} {l0 : List Enum} {all : List (List String × EnumDecl)}
    (hfit : ∀ (i : Nat) e0, l0[i]? = some e0 → Fit lex ((all.filter (hits e0)).map (·.2))) :
    ∀ (vs done : List (List String × EnumDecl)) (st : State), all = done ++ vs → Inv lex l0 done st.enums →
      (vs.foldl (visit lex) st).errors = st.errors := by
  intro vs
  induction vs with
  | nil => intros; rfl
  | cons p vs ih =>
    intro done st hall hinv
    have hp : (visit lex st p).errors = st.errors := by
      apply visit_fine
      intro i e hf hi
      obtain ⟨e0, e', hi0, hi', hfirst, hhit⟩ := find_first hinv hf
      rw [hi] at hi'
      cases hi'
      obtain ⟨pre, d, hds, hpre, hd, hty, hval⟩ := hfit i e0 hi0
      have hsplit : pre ++ [d] = (done.filter (hits e0)).map (·.2) ++ p.2 :: (vs.filter (hits e0)).map (·.2) := by
        rw [← hds, hall, List.filter_append, List.filter_cons, if_pos hhit]
        simp
      obtain ⟨h1, h2⟩ := fit_start hsplit
      refine ⟨?_, hty p.2 (by rw [hds, hsplit]; simp), ?_⟩
      · rcases (hinv.2 i e0 e hi0 hi).mine hfirst with ⟨h, -⟩ | ⟨pre', q, hq, -, hne, -⟩
        · exact h
        · exact absurd (hpre q.2 (h1 q.2 (List.mem_map.2 ⟨q, by rw [hq]; simp, rfl⟩))) hne
      · intro q hq
        rcases h2 with h2 | rfl
        · rw [hpre p.2 h2] at hq; cases hq
        · exact hval q hq
    rw [List.foldl_cons, ih (done ++ [p]) _ (by simp [hall]) (inv_step hinv hp), hp]

/-- Enums that can be loaded are loaded: if the enums that want their variants from a header list none themselves, differ
in their names, and are each defined once, after any declarations in advance, with an underlying type and values that
Rust can represent, then no error is reported. -/
theorem load_accepts {lex : Lex} {enums : List Enum} {unit : List Item}
    (hnone : ∀ e ∈ enums, e.fromHeader = true → e.variants = [])
    (hdist : (enums.filter (·.fromHeader)).Pairwise fun a b => ¬ (a.ns = b.ns ∧ a.cxx = b.cxx))
    (hfit : ∀ e ∈ enums, e.fromHeader = true → Fit lex (declarations true unit e.ns e.cxx)) :
    (load lex enums (some (dumpUnit unit))).1 = [] := by
  have hw : wanted enums = enums.filter (·.fromHeader) := by
    apply List.filter_congr
    intro e he
    cases hf : e.fromHeader with
    | false => rfl
    | true => simp [hnone e he hf]
  have hearly : enums.filter (fun e => e.fromHeader && !e.variants.isEmpty) = [] := by
    rw [List.filter_eq_nil_iff]
    intro e he
    cases hf : e.fromHeader with
    | false => simp
    | true => simp [hnone e he hf]
  have hwant : ∀ e ∈ wanted enums, e ∈ enums ∧ e.fromHeader = true := by
    intro e he
    rw [hw] at he
    exact List.mem_filter.1 he
  have hfits : ∀ (i : Nat) e0, (wanted enums)[i]? = some e0 →
      Fit lex (((enumsOfAll true [] unit).filter (hits e0)).map (·.2)) := by
    intro i e0 h
    obtain ⟨h1, h2⟩ := hwant e0 (List.mem_of_getElem? h)
    exact hfit e0 h1 h2
  have hstart := inv_start lex (wanted enums) (fun e he => hnone e (hwant e he).1 (hwant e he).2)
  simp only [load]
  have hw' : enums.filter (fun e => e.fromHeader && e.variants.isEmpty) = wanted enums := rfl
  rw [hw', hearly]
  split
  · rfl
  · simp only [List.map_nil]
    have herr := steps_fine hfits (enumsOfAll true [] unit) [] ⟨[], [], wanted enums⟩ rfl hstart
    have hinv := inv_steps (enumsOfAll true [] unit) [] ⟨[], [], wanted enums⟩ hstart herr
    rw [traverse_unit lex unit _ rfl, herr]
    simp only [List.nil_append, List.map_eq_nil_iff, List.filter_eq_nil_iff]
    intro e he
    obtain ⟨i, hi⟩ := List.getElem?_of_mem he
    obtain ⟨e0, hi0, -, -⟩ := inv_back hinv hi
    have hfirst : First (wanted enums) i e0 := by
      intro j e' hj he' hc
      rw [hw] at he' hi0
      obtain ⟨hjl, rfl⟩ := List.getElem?_eq_some_iff.1 he'
      obtain ⟨hil, rfl⟩ := List.getElem?_eq_some_iff.1 hi0
      exact List.pairwise_iff_getElem.1 hdist j i hjl hil hj hc
    obtain ⟨pre, d, hds, hpre, hd, -⟩ := hfits i e0 hi0
    rcases (hinv.2 i e0 e hi0 hi).mine hfirst with ⟨-, h⟩ | ⟨pre', q, -, -, hne, hm, -⟩
    · have hmem : d ∈ ((enumsOfAll true [] unit).filter (hits e0)).map (·.2) := by rw [hds]; simp
      obtain ⟨q, hq, rfl⟩ := List.mem_map.1 hmem
      exact absurd (h q (by simpa using hq)) hd
    · have := hm.1
      intro hemp
      have hemp : e.variants = [] := by simpa using hemp
      rw [hemp] at this
      exact hne this.symm

/-! ### Nothing that Rust cannot represent -/

/-- Every variant so far has a name that can be a token and a value of at most 64 bits. -/
def AllFit (lex : Lex) (l : List Enum) : Prop :=
  ∀ e ∈ l, ∀ v ∈ e.variants, lex.any v.cxx = true ∧ v.disc.mag < 2 ^ 64

theorem AllFit.modify {lex : Lex} {l : List Enum} {i : Nat} {f : Enum → Enum} (h : AllFit lex l)
    (hf : ∀ e, l[i]? = some e → ∀ v ∈ (f e).variants, v ∈ e.variants ∨ lex.any v.cxx = true ∧ v.disc.mag < 2 ^ 64) :
    AllFit lex (l.modify i f) := by
  intro e he v hv
  obtain ⟨k, hk⟩ := List.getElem?_of_mem he
  rw [List.getElem?_modify] at hk
  cases hl : l[k]? with
  | none => simp [hl] at hk
  | some e0 =>
    have hm := List.mem_of_getElem? hl
    rw [hl] at hk
    simp only [Option.map_eq_map, Option.map_some, Option.some.injEq] at hk
    split at hk
    · next hik =>
      subst hik
      subst hk
      rcases hf e0 hl v hv with h' | h'
      · exact h e0 hm v h'
      · exact h'
    · have hk : e0 = e := by simpa using hk
      subst hk
      exact h e0 hm v hv

theorem constantOf_small (v : Int) (n : Nat) {d : Disc} (h : constantOf (dumpValue v n) = .constant d) : d.mag < 2 ^ 64 := by
  rw [constantOf_value] at h
  cases hf : fromStr (some v) with
  | none => simp [hf] at h
  | some d' =>
    simp only [hf, Parsed.constant.injEq] at h
    subst h
    simp only [fromStr] at hf
    split at hf
    · next hlt => cases hf; exact hlt
    · cases hf

theorem succ_small {d d' : Disc} (hd : d.mag < 2 ^ 64) (h : succ d = some d') : d'.mag < 2 ^ 64 := by
  unfold succ at h
  split at h
  · split at h
    · cases h; exact Nat.two_pow_pos _
    · cases h; exact Nat.lt_of_le_of_lt (Nat.sub_le _ _) hd
  · split at h
    · next hlt => cases h; exact hlt
    · cases h

theorem discriminantOf_small {v : Option (Nat × Int)} {variants : List Variant} {d : Disc} {err : Option Err}
    (hv : ∀ w ∈ variants, w.disc.mag < 2 ^ 64) (h : discriminantOf (innerOf v) variants = .ok (d, err)) :
    d.mag < 2 ^ 64 := by
  unfold discriminantOf at h
  split at h
  · next d' hd =>
    cases h
    cases v with
    | none => cases hd
    | some p => obtain ⟨n, v⟩ := p; exact constantOf_small v n hd
  · split at h
    · cases h; exact Nat.two_pow_pos _
    · next last hl =>
      split at h
      · next d' hs => cases h; exact succ_small (hv _ (List.mem_of_getLast? hl)) hs
      · cases h
  · cases h; exact Nat.two_pow_pos _

theorem member_fit {lex : Lex} {i : Nat} {st : State} {m : Member} (h : AllFit lex st.enums) :
    AllFit lex (member lex i st m).enums := by
  cases m with
  | note => exact h
  | constant name v =>
    simp only [member, addConstant]
    cases hi : st.enums[i]? with
    | none => exact h
    | some e =>
      simp only
      split
      · next hany =>
        have hm := List.mem_of_getElem? hi
        cases hd : discriminantOf (innerOf v) e.variants with
        | error err => exact h
        | ok r =>
          obtain ⟨d, err⟩ := r
          simp only
          have hs := discriminantOf_small (fun w hw => (h e hm w hw).2) hd
          have key : AllFit lex (st.enums.modify i (fun e' => { e' with
              variants := e'.variants ++ [⟨name, rustName lex name e'.variants.length, d⟩] })) := by
            refine h.modify fun e' he' w hw => ?_
            rcases List.mem_append.1 hw with hw | hw
            · exact .inl hw
            · rw [List.mem_singleton.1 hw]; exact .inr ⟨hany, hs⟩
          cases err <;> exact key
      · exact h

theorem members_fit {lex : Lex} {i : Nat} (ms : List Member) : ∀ {st : State}, AllFit lex st.enums →
    AllFit lex (ms.foldl (member lex i) st).enums := by
  induction ms with
  | nil => exact fun h => h
  | cons m ms ih => exact fun h => ih (member_fit h)

theorem visit_fit {lex : Lex} {st : State} {p : List String × EnumDecl} (h : AllFit lex st.enums) :
    AllFit lex (visit lex st p).enums := by
  unfold visit
  split
  · exact h
  · split
    · exact h
    · split
      · exact h
      · split
        · exact h
        · refine members_fit _ ?_
          unfold setRepr
          split <;> exact h.modify fun e _ v hv => .inl hv

theorem visits_fit {lex : Lex} (l : List (List String × EnumDecl)) : ∀ {st : State}, AllFit lex st.enums →
    AllFit lex (l.foldl (visit lex) st).enums := by
  induction l with
  | nil => exact fun h => h
  | cons p l ih => exact fun h => ih (visit_fit h)

/-- A name or a value that Rust cannot represent does not get through: if loading reports no error, then for every enum
that wants its variants from a header the definition in C++ has only names that can be tokens and values of at most 64
bits. -/
theorem load_representable {lex : Lex} {enums : List Enum} {unit : List Item} {out : List Enum}
    (h : load lex enums (some (dumpUnit unit)) = ([], out)) {e0 : Enum} (h0 : e0 ∈ wanted enums) {d : EnumDecl}
    (hd : d ∈ declarations true unit e0.ns e0.cxx) :
    ∀ q ∈ d.values, lex.any q.1 = true ∧ q.2.natAbs < 2 ^ 64 := by
  obtain ⟨-, hinv, hne⟩ := load_clean h
  obtain ⟨i, hi⟩ := List.getElem?_of_mem h0
  obtain ⟨e, he, -, -⟩ := inv_names hinv hi
  have hmem := List.mem_of_getElem? he
  have H := hinv.2 i e0 e hi he
  have hv := hne e hmem
  have hfirst : First (wanted enums) i e0 := Classical.byContradiction fun hc => hv (H.other hc)
  have hfit : AllFit lex out := by
    simp only [load] at h
    have hw : enums.filter (fun e => e.fromHeader && e.variants.isEmpty) = wanted enums := rfl
    rw [hw] at h
    have hstart : AllFit lex (wanted enums) := by
      intro e he v hv
      have := (List.mem_filter.1 he).2
      simp only [Bool.and_eq_true, List.isEmpty_iff] at this
      rw [this.2] at hv
      cases hv
    split at h
    · next hnil => rw [hnil] at h0; cases h0
    · rw [traverse_unit lex unit _ rfl] at h
      simp only [Prod.mk.injEq] at h
      rw [← h.2]
      exact visits_fit _ hstart
  rcases H.mine hfirst with ⟨h0, -⟩ | ⟨pre, p, hds, hpre, -, hm, -⟩
  · exact absurd h0 hv
  · rw [declarations_hits, hds] at hd
    simp only [List.map_append, List.map_cons, List.map_nil, List.mem_append, List.mem_singleton] at hd
    intro q hq
    rcases hd with hd | rfl
    · obtain ⟨q', hq', rfl⟩ := List.mem_map.1 hd
      rw [hpre q' hq'] at hq
      cases hq
    · rw [← hm.1] at hq
      obtain ⟨v, hvm, rfl⟩ := List.mem_map.1 hq
      obtain ⟨h1, h2⟩ := hfit e hmem v hvm
      refine ⟨h1, ?_⟩
      simp only [number]
      split <;> simpa using h2

theorem repr_inj {i j : Nat} (h : Nat.repr i = Nat.repr j) : i = j := by
  have := congrArg String.toList h
  rw [Nat.toList_repr, Nat.toList_repr] at this
  rw [← Nat.ofDigitChars_ten_toDigits (n := i), this, Nat.ofDigitChars_ten_toDigits]

/-- The names in Rust are distinct, if the enumerators are, as C++ demands, and none is called like the made-up names. -/
theorem rust_names_distinct {lex : Lex} {e : Enum}
    (hr : ∀ (k : Nat) v, e.variants[k]? = some v → v.rust = rustName lex v.cxx k)
    (hd : (e.variants.map (·.cxx)).Nodup) (hn : ∀ v ∈ e.variants, ∀ k : Nat, v.cxx ≠ "__Variant" ++ toString k) :
    (e.variants.map (·.rust)).Nodup := by
  rw [List.nodup_iff_pairwise_ne, List.pairwise_map, List.pairwise_iff_getElem] at hd ⊢
  intro i j hi hj hij heq
  have h1 := hr i _ (List.getElem?_eq_getElem hi)
  have h2 := hr j _ (List.getElem?_eq_getElem hj)
  have hne := hd i j hi hj hij
  rw [h1, h2] at heq
  have ni := hn e.variants[i] (List.getElem_mem hi)
  have nj := hn e.variants[j] (List.getElem_mem hj)
  unfold rustName at heq
  split at heq <;> split at heq
  · exact hne heq
  · exact ni j heq
  · exact nj i heq.symm
  · have := repr_inj (i := i) (j := j) (by
      have := congrArg String.toList heq
      simp only [String.toList_append] at this
      exact String.toList_inj.1 (List.append_cancel_left this))
    omega

/-! ### Examples and counterexamples -/

private def lexAll : Lex := ⟨fun _ => true, fun s => s ≠ "type"⟩
private def int : QualType := ⟨"int", none⟩
private def byte : QualType := ⟨"uint8_t", some "unsigned char"⟩
private def want (ns : List String) (n : String) : Enum := ⟨ns, n, true, [], none⟩

/-- `namespace a { enum class E : uint8_t; extern "C++" { enum E : uint8_t { /* */ type = 3, B }; } }
namespace { enum E : int { C }; }  struct S { enum F : int { D }; };` -/
private def sample : List Item :=
  [.ns (some "a") [.enum ⟨"E", some byte, []⟩,
     .transparent [.enum ⟨"E", some byte, [.note, .constant "type" (some (1, 3)), .constant "B" none]⟩]],
   .ns none [.enum ⟨"E", some int, [.constant "C" none]⟩],
   .body [.enum ⟨"F", some int, [.constant "D" none]⟩]]

example : load lexAll [want ["a"] "E", ⟨[], "G", false, [], none⟩] (some (dumpUnit sample)) =
      ([], [⟨["a"], "E", true, [⟨"type", "__Variant0", ⟨false, 3⟩⟩, ⟨"B", "B", ⟨false, 4⟩⟩], some "c_uchar"⟩]) ∧
    NoLocal sample ["a"] "E" ∧ Fit lexAll (declarations true sample ["a"] "E") := by
  refine ⟨by decide +kernel, rfl, ⟨[_], _, rfl, ?_, ?_, ?_, ?_⟩⟩
  · intro q hq; simp only [List.mem_cons, List.not_mem_nil, or_false] at hq; subst hq; rfl
  · exact List.cons_ne_nil _ _
  · intro q hq
    have hq : q = ⟨"E", some byte, []⟩ ∨
        q = ⟨"E", some byte, [.note, .constant "type" (some (1, 3)), .constant "B" none]⟩ := by
      simpa [declarations, sample, enumsOfAll, enumsOf] using hq
    rcases hq with rfl | rfl <;> exact ⟨byte, rfl, by decide +kernel⟩
  · intro q hq
    have hq : q = ("type", 3) ∨ q = ("B", 4) := by
      simpa [EnumDecl.values, values] using hq
    rcases hq with rfl | rfl <;> exact ⟨rfl, by decide⟩

/-- An enum in a class is taken for one of the namespace around it: here `::E` has no enumerators, and the bridge gives
it that of `::S::E`. -/
theorem local_enum_taken : ∃ (unit : List Item) (e : Enum),
    (∀ d ∈ declarations false unit [] "E", d.values = []) ∧
    load lexAll [want [] "E"] (some (dumpUnit unit)) = ([], [e]) ∧ e.variants = [⟨"A", "A", ⟨false, 7⟩⟩] := by
  refine ⟨[.enum ⟨"E", some int, []⟩, .body [.enum ⟨"E", some int, [.constant "A" (some (0, 7))]⟩]],
    ⟨[], "E", true, [⟨"A", "A", ⟨false, 7⟩⟩], some "c_int"⟩, ?_, by decide +kernel, rfl⟩
  intro d hd
  have hd : d = ⟨"E", some int, []⟩ := by simpa [declarations, enumsOfAll, enumsOf] using hd
  subst hd
  rfl

/-- A second declaration after the definition, which C++ allows, is reported as a second definition. -/
theorem redeclaration_refused :
    (load lexAll [want [] "E"] (some (dumpUnit [.enum ⟨"E", some int, [.constant "A" none]⟩, .enum ⟨"E", some int, []⟩]))).1
      = [.multiple] := by decide +kernel

/-- An enumerator with a documentation comment, which clang puts beside its value, is refused. -/
theorem documented_refused :
    (traverse lexAll (.mk (.enumDecl (some "E") (some int)) [.mk (.enumConstantDecl "A") [.mk .unknown []]]) none
      ⟨[], [], [want [] "E"]⟩).errors = [.noValue] := by decide +kernel

end Verif.Load
