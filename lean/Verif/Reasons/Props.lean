import Verif.Reasons.Spec
import Verif.Reasons.Model
import Verif.Ordered.Props
import Verif.Check.Exact
/-!
# C101: the explanation why a type has to be trivial is right and complete
-/
namespace Verif.Reasons
open Verif.Syntax Verif.Types Verif.Check Verif.Ordered

/-! ### Reasons -/

/-- What a recorded reason means. -/
def Means (apis : List Api) (n : Ident) : Reason → Prop
  | .structField s => FieldOf apis n s
  | .functionArgument f => ArgumentOf apis n f
  | .functionReturn f => ReturnOf apis n f
  | .boxTarget => Boxed apis n
  | .vecElement => InVec apis n
  | .sliceElement m => InSlice apis n m
  | .unpinnedMut f => MutIn apis n f

theorem mem_insist {g : Generator} {apis : List Api} {n t : Ident} {q r : Reason} :
    (n, r) ∈ insist (cxOf g apis).types t q ↔ n = t ∧ r = q ∧ Rules.Cxx apis n ∧ ¬ Rules.Shared apis n := by
  unfold insist
  by_cases hc : t ∈ (cxOf g apis).types.cxx ∧ mapHas (cxOf g apis).types.structs t = false ∧
      mapHas (cxOf g apis).types.enums t = false
  · rw [if_pos hc]
    rw [mem_cxx, no_shared] at hc
    constructor
    · intro h
      simp only [List.mem_singleton, Prod.mk.injEq] at h
      exact ⟨h.1, h.2, h.1 ▸ hc⟩
    · rintro ⟨rfl, rfl, _⟩; simp
  · rw [if_neg hc]
    rw [mem_cxx, no_shared] at hc
    constructor
    · intro h; cases h
    · rintro ⟨rfl, rfl, h⟩; exact absurd h hc

section
variable {g : Generator} {apis : List Api} {n : Ident}

theorem fn_means {f : ExternFn} (hf : HasFn apis f) {r : Reason} (h : (n, r) ∈ insistFn (cxOf g apis).types f) :
    Rules.Cxx apis n ∧ ¬ Rules.Shared apis n ∧ Means apis n r := by
  simp only [insistFn, List.mem_append] at h
  rcases h with (h | h) | h
  · cases hrc : f.sig.receiver with
    | none => rw [hrc] at h; simp [insistReceiver] at h
    | some rc =>
      rw [hrc] at h
      simp only [insistReceiver] at h
      split at h
      · next hm =>
        obtain ⟨rfl, rfl, h1, h2⟩ := mem_insist.1 h
        exact ⟨h1, h2, f, hf, rfl, .inr (.inr ⟨rc, hrc, rfl, hm.1, hm.2⟩)⟩
      · cases h
  · rw [List.mem_flatMap] at h
    obtain ⟨a, ha, h⟩ := h
    unfold insistArg at h
    split at h
    · next t he =>
      obtain ⟨rfl, rfl, h1, h2⟩ := mem_insist.1 h
      exact ⟨h1, h2, f, a, _, hf, rfl, ha, he⟩
    · next p l m t he =>
      split at h
      · next hm =>
        obtain ⟨rfl, rfl, h1, h2⟩ := mem_insist.1 h
        rw [hm.1, hm.2] at he
        exact ⟨h1, h2, f, hf, rfl, .inl ⟨a, _, _, ha, he⟩⟩
      · cases h
    · cases h
  · cases hrt : f.sig.ret with
    | none => rw [hrt] at h; cases h
    | some t =>
      rw [hrt] at h
      simp only at h
      unfold insistRet at h
      split at h
      · next t =>
        obtain ⟨rfl, rfl, h1, h2⟩ := mem_insist.1 h
        exact ⟨h1, h2, f, _, hf, rfl, hrt⟩
      · next p l m t =>
        split at h
        · next hm =>
          obtain ⟨rfl, rfl, h1, h2⟩ := mem_insist.1 h
          rw [hm.1, hm.2] at hrt
          exact ⟨h1, h2, f, hf, rfl, .inr (.inl ⟨_, _, hrt⟩)⟩
        · cases h
      · cases h

theorem recorded_means {r : Reason} (hr : (n, r) ∈ requiredTrivial apis (cxOf g apis).types) :
    Rules.Cxx apis n ∧ ¬ Rules.Shared apis n ∧ Means apis n r := by
  simp only [requiredTrivial, List.mem_append, List.mem_flatMap] at hr
  rcases hr with ⟨a, ha, hr⟩ | ⟨t, ht, hr⟩
  · cases a with
    | struct s =>
      simp only [insistApi, List.mem_flatMap] at hr
      obtain ⟨f, hf, hr⟩ := hr
      unfold insistField at hr
      split at hr
      · next t he => obtain ⟨rfl, rfl, h1, h2⟩ := mem_insist.1 hr; exact ⟨h1, h2, s, f, _, ha, rfl, hf, he⟩
      · cases hr
    | cxxFunction f => exact fn_means (.inl ha) hr
    | rustFunction f => exact fn_means (.inr ha) hr
    | _ => cases hr
  · have ho : Occurs apis t := ((gathers apis).all t).1 ht
    unfold insistType at hr
    split at hr
    · obtain ⟨rfl, rfl, h1, h2⟩ := mem_insist.1 hr; exact ⟨h1, h2, _, ho⟩
    · obtain ⟨rfl, rfl, h1, h2⟩ := mem_insist.1 hr; exact ⟨h1, h2, _, ho⟩
    · obtain ⟨rfl, rfl, h1, h2⟩ := mem_insist.1 hr; exact ⟨h1, h2, _, _, ho⟩
    · cases hr

theorem means_recorded (h1 : Rules.Cxx apis n) (h2 : ¬ Rules.Shared apis n) {r : Reason} (hm : Means apis n r) :
    (n, r) ∈ requiredTrivial apis (cxOf g apis).types := by
  have api : ∀ a ∈ apis, (n, r) ∈ insistApi (cxOf g apis).types a → (n, r) ∈ requiredTrivial apis (cxOf g apis).types :=
    fun a ha hr => List.mem_append.2 (.inl (List.mem_flatMap.2 ⟨a, ha, hr⟩))
  have typ : ∀ t, Occurs apis t → (n, r) ∈ insistType (cxOf g apis).types t →
      (n, r) ∈ requiredTrivial apis (cxOf g apis).types :=
    fun t ht hr => List.mem_append.2 (.inr (List.mem_flatMap.2 ⟨t, ((gathers apis).all t).2 ht, hr⟩))
  have fn : ∀ f, HasFn apis f → (n, r) ∈ insistFn (cxOf g apis).types f →
      (n, r) ∈ requiredTrivial apis (cxOf g apis).types := by
    rintro f (hf | hf) h
    · exact api _ hf h
    · exact api _ hf h
  have ins : (n, r) ∈ insist (cxOf g apis).types n r := mem_insist.2 ⟨rfl, rfl, h1, h2⟩
  cases r with
  | structField s =>
    obtain ⟨st, f, gs, hs, rfl, hf, he⟩ := hm
    exact api _ hs (List.mem_flatMap.2 ⟨f, hf, by rw [he]; exact ins⟩)
  | functionArgument x =>
    obtain ⟨f, a, gs, hf, rfl, ha, he⟩ := hm
    refine fn f hf ?_
    simp only [insistFn, List.mem_append, List.mem_flatMap]
    exact .inl (.inr ⟨a, ha, by rw [he]; exact ins⟩)
  | functionReturn x =>
    obtain ⟨f, gs, hf, rfl, he⟩ := hm
    refine fn f hf ?_
    simp only [insistFn, List.mem_append]
    exact .inr (by rw [he]; exact ins)
  | boxTarget => obtain ⟨gs, ho⟩ := hm; exact typ _ ho ins
  | vecElement => obtain ⟨gs, ho⟩ := hm; exact typ _ ho ins
  | sliceElement m => obtain ⟨l, gs, ho⟩ := hm; exact typ _ ho ins
  | unpinnedMut x =>
    obtain ⟨f, hf, rfl, ⟨a, l, gs, ha, he⟩ | ⟨l, gs, he⟩ | ⟨rc, he, hn, hmu, hp⟩⟩ := hm
    · refine fn f hf ?_
      simp only [insistFn, List.mem_append, List.mem_flatMap]
      exact .inl (.inr ⟨a, ha, by rw [he]; exact ins⟩)
    · refine fn f hf ?_
      simp only [insistFn, List.mem_append]
      exact .inr (by rw [he]; exact ins)
    · refine fn f hf ?_
      simp only [insistFn, List.mem_append]
      exact .inl (.inl (by rw [he]; simp only [insistReceiver]; rw [if_pos ⟨hmu, hp⟩, hn]; exact ins))

theorem mem_reasonsFor (h1 : Rules.Cxx apis n) (h2 : ¬ Rules.Shared apis n) (r : Reason) :
    r ∈ Assert.reasonsFor (cxOf g apis) n ↔ Means apis n r := by
  unfold Assert.reasonsFor
  simp only [List.mem_map, List.mem_filter, decide_eq_true_eq]
  constructor
  · rintro ⟨⟨m, q⟩, ⟨hm, rfl⟩, rfl⟩
    exact (recorded_means hm).2.2
  · intro h
    exact ⟨(n, r), ⟨means_recorded h1 h2 h, rfl⟩, rfl⟩

end

/-! ### The loop -/

/-- What is in the state after the loop. -/
theorem found_eq (rs : List Reason) :
    found rs =
      ⟨((OSet.new : OSet Ident).insertAll (rs.filterMap fun | .structField x => some x | _ => none)).1,
       ((OSet.new : OSet Ident).insertAll (rs.filterMap fun | .functionArgument x => some x | _ => none)).1,
       ((OSet.new : OSet Ident).insertAll (rs.filterMap fun | .functionReturn x => some x | _ => none)).1,
       rs.contains .boxTarget, rs.contains .vecElement, rs.contains (.sliceElement false),
       rs.contains (.sliceElement true),
       ((OSet.new : OSet Ident).insertAll (rs.filterMap fun | .unpinnedMut x => some x | _ => none)).1⟩ := by
  suffices h : ∀ s : Found, rs.foldl Found.add s =
      ⟨(s.fieldOf.insertAll (rs.filterMap fun | .structField x => some x | _ => none)).1,
       (s.argumentOf.insertAll (rs.filterMap fun | .functionArgument x => some x | _ => none)).1,
       (s.returnOf.insertAll (rs.filterMap fun | .functionReturn x => some x | _ => none)).1,
       s.boxTarget || rs.contains .boxTarget, s.vecElement || rs.contains .vecElement,
       s.sliceSharedElement || rs.contains (.sliceElement false),
       s.sliceMutElement || rs.contains (.sliceElement true),
       (s.unpinnedMut.insertAll (rs.filterMap fun | .unpinnedMut x => some x | _ => none)).1⟩ by
    exact h .new
  induction rs with
  | nil => intro s; simp [OSet.insertAll]
  | cons r rs ih =>
    intro s
    rw [List.foldl_cons, ih]
    cases r with
    | sliceElement m => cases m <;> simp [Found.add, OSet.insertAll]
    | _ => simp [Found.add, OSet.insertAll]

/-! ### The text -/

theorem names_succ (i : Nat) (xs : List Ident) (hx : xs ≠ []) : names (i + 1) xs = ", ".toList ++ quoted xs := by
  induction xs generalizing i with
  | nil => exact absurd rfl hx
  | cons x xs ih =>
    rw [names, if_pos (by omega)]
    cases xs with
    | nil => simp [names, quoted]
    | cons y ys =>
      rw [ih _ (by simp)]
      simp [quoted, List.append_assoc]

theorem names_zero (xs : List Ident) : names 0 xs = quoted xs := by
  cases xs with
  | nil => rfl
  | cons x xs =>
    rw [names, if_neg (by omega)]
    cases xs with
    | nil => simp [names, quoted]
    | cons y ys =>
      rw [names_succ _ _ (by simp)]
      simp [quoted, List.append_assoc]

/-! ### Texts -/

section Texts
variable (n : Ident) (xs : List Ident)
theorem text_field : (Phrase.field xs).text n = "field of ".toList ++ quoted xs := rfl
theorem text_argument : (Phrase.argument xs).text n = "argument of ".toList ++ quoted xs := rfl
theorem text_result : (Phrase.result xs).text n = "return value of ".toList ++ quoted xs := rfl
theorem text_mutRef : (Phrase.mutRef xs).text n = "non-pinned mutable reference in signature of ".toList ++ quoted xs := rfl
theorem text_box : Phrase.box.text n = "Box<".toList ++ n.toList ++ ">".toList := rfl
theorem text_vec : Phrase.vec.text n = "vector element in Vec<".toList ++ n.toList ++ ">".toList := rfl
theorem text_slice : Phrase.slice.text n = "slice element in &[".toList ++ n.toList ++ "]".toList := rfl
theorem text_sliceMut : Phrase.sliceMut.text n = "slice element in &mut [".toList ++ n.toList ++ "]".toList := rfl
theorem text_slices : Phrase.slices.text n =
    "slice element in &[".toList ++ n.toList ++ "] and &mut [".toList ++ n.toList ++ "]".toList := rfl

theorem set_field : (Phrase.field xs).text n = "field of".toList ++ " ".toList ++ quoted xs := by
  rw [text_field, show "field of ".toList = "field of".toList ++ " ".toList by decide +kernel]
theorem set_argument : (Phrase.argument xs).text n = "argument of".toList ++ " ".toList ++ quoted xs := by
  rw [text_argument, show "argument of ".toList = "argument of".toList ++ " ".toList by decide +kernel]
theorem set_result : (Phrase.result xs).text n = "return value of".toList ++ " ".toList ++ quoted xs := by
  rw [text_result, show "return value of ".toList = "return value of".toList ++ " ".toList by decide +kernel]
theorem set_mutRef : (Phrase.mutRef xs).text n =
    "non-pinned mutable reference in signature of".toList ++ " ".toList ++ quoted xs := by
  rw [text_mutRef, show "non-pinned mutable reference in signature of ".toList =
    "non-pinned mutable reference in signature of".toList ++ " ".toList by decide +kernel]

theorem fmt_box : (Clause.ty1 "type" "Box" n).fmt = Phrase.box.text n := by
  show "Box".toList ++ "<".toList ++ n.toList ++ ">".toList = _
  rw [text_box, show "Box".toList ++ "<".toList = "Box<".toList by decide +kernel]
theorem fmt_vec : (Clause.ty1 "a" "vector element in Vec" n).fmt = Phrase.vec.text n := by
  show "vector element in Vec".toList ++ "<".toList ++ n.toList ++ ">".toList = _
  rw [text_vec, show "vector element in Vec".toList ++ "<".toList = "vector element in Vec<".toList by decide +kernel]
theorem fmt_slice : (Clause.slice "a" "slice element in" true false n).fmt = Phrase.slice.text n := by
  show "slice element in".toList ++ " ".toList ++ ("&[".toList ++ n.toList ++ "]".toList) ++ [] ++ [] = _
  rw [text_slice, List.append_nil, List.append_nil, ← List.append_assoc, ← List.append_assoc,
    show "slice element in".toList ++ " ".toList ++ "&[".toList = "slice element in &[".toList by decide +kernel]
theorem fmt_sliceMut : (Clause.slice "a" "slice element in" false true n).fmt = Phrase.sliceMut.text n := by
  show "slice element in".toList ++ " ".toList ++ [] ++ [] ++ ("&mut [".toList ++ n.toList ++ "]".toList) = _
  rw [text_sliceMut, List.append_nil, List.append_nil, ← List.append_assoc, ← List.append_assoc,
    show "slice element in".toList ++ " ".toList ++ "&mut [".toList = "slice element in &mut [".toList by decide +kernel]
theorem fmt_slices : (Clause.slice "a" "slice element in" true true n).fmt = Phrase.slices.text n := by
  show "slice element in".toList ++ " ".toList ++ ("&[".toList ++ n.toList ++ "]".toList) ++ " and ".toList ++
    ("&mut [".toList ++ n.toList ++ "]".toList) = _
  rw [text_slices, show "] and &mut [".toList = "]".toList ++ " and ".toList ++ "&mut [".toList by decide +kernel,
    show "slice element in &[".toList = "slice element in".toList ++ " ".toList ++ "&[".toList by decide +kernel]
  simp only [List.append_assoc]
end Texts

theorem a_eq : "a".toList ++ " ".toList = "a ".toList := by decide +kernel
theorem an_eq : "an".toList ++ " ".toList = "an ".toList := by decide +kernel
theorem type_eq : "type".toList ++ " ".toList = "type ".toList := by decide +kernel

/-- A clause is written as a phrase. -/
def Written (n : Ident) (c : Clause) (p : Phrase) : Prop :=
  c.fmt = p.text n ∧ c.article.toList ++ " ".toList = p.article

/-- Lists of clauses and of phrases that correspond. -/
inductive AllWritten (n : Ident) : List Clause → List Phrase → Prop
  | nil : AllWritten n [] []
  | cons {c p cs ps} (h : Written n c p) (t : AllWritten n cs ps) : AllWritten n (c :: cs) (p :: ps)

theorem AllWritten.append {n : Ident} {cs ds : List Clause} {ps qs : List Phrase} (h : AllWritten n cs ps)
    (k : AllWritten n ds qs) : AllWritten n (cs ++ ds) (ps ++ qs) := by
  induction h with
  | nil => exact k
  | cons h _ ih => exact .cons h ih

theorem write_succ {n : Ident} {cs : List Clause} {ps : List Phrase} (h : AllWritten n cs ps) (hne : cs ≠ []) :
    ∀ i, write (i + 1 + cs.length) (i + 1) cs =
      (if cs.length = 1 then " or ".toList else ", ".toList) ++ listed (ps.map (Phrase.text n)) := by
  induction h with
  | nil => exact absurd rfl hne
  | @cons c p cs ps hw ht ih =>
    intro i
    rw [write, if_neg (by omega), hw.1]
    cases ht with
    | nil => simp [write, listed]
    | @cons d q ds qs hv hs =>
      have := ih (by simp) (i + 1)
      have hl : i + 1 + (c :: d :: ds).length = i + 1 + 1 + (d :: ds).length := by simp only [List.length_cons]; omega
      rw [hl, this, if_pos (by simp only [List.length_cons]; omega)]
      cases hs with
      | nil => simp [listed, List.append_assoc]
      | cons _ _ => simp [listed, List.append_assoc]

theorem write_zero {n : Ident} {cs : List Clause} {ps : List Phrase} (h : AllWritten n cs ps) :
    write cs.length 0 cs = sentence n ps := by
  cases h with
  | nil => rfl
  | @cons c p cs ps hw ht =>
    rw [write, if_pos rfl, hw.1, hw.2]
    cases ht with
    | nil => simp [write, sentence, listed]
    | @cons d q ds qs hv hs =>
      have := write_succ (.cons hv hs) (by simp) 0
      have hl : (c :: d :: ds).length = 0 + 1 + (d :: ds).length := by simp only [List.length_cons]; omega
      rw [hl, this]
      cases hs with
      | nil => simp [sentence, listed, List.append_assoc]
      | cons _ _ => simp [sentence, listed, List.append_assoc]

/-! ### All together -/

theorem some3 {xs : List Ident} {whom : Ident → Prop} (hw : ∀ x, x ∈ xs ↔ whom x) (hne : xs ≠ []) :
    Some3 whom (((OSet.new : OSet Ident).insertAll xs).1.iter.take 3) := by
  have hel := ordered_set_elements xs
  generalize ((OSet.new : OSet Ident).insertAll xs).1.iter = ys at hel
  refine ⟨?_, by rw [List.length_take]; omega, hel.1.sublist (List.take_sublist 3 ys), ?_, ?_⟩
  · intro h0
    obtain ⟨x, hx⟩ := List.exists_mem_of_ne_nil _ hne
    have := (hel.2 x).2 hx
    cases ys with
    | nil => cases this
    | cons y ys => simp at h0
  · intro x hx
    exact (hw x).1 ((hel.2 x).1 (List.mem_of_mem_take hx))
  · intro hl x hx
    rw [List.length_take] at hl
    rw [List.take_of_length_le (by omega)]
    exact (hel.2 x).2 ((hw x).2 hx)

/-- A part of the phrases. -/
structure Part (apis : List Api) (n : Ident) (k : Nat) (use : Prop) (ps : List Phrase) : Prop where
  right : ∀ p ∈ ps, p.Right apis n
  rank : ∀ p ∈ ps, p.rank = k
  len : ps.length ≤ 1
  all : use → ∃ p ∈ ps, p.rank = k

theorem part_set {apis : List Api} {n : Ident} {k : Nat} {xs : List Ident} {whom : Ident → Prop}
    (hw : ∀ x, x ∈ xs ↔ whom x) (mk : List Ident → Phrase) (article desc : String)
    (hk : ∀ ns, (mk ns).rank = k) (hr : ∀ ns, Some3 whom ns → (mk ns).Right apis n)
    (ht : ∀ ns, (mk ns).text n = desc.toList ++ " ".toList ++ quoted ns)
    (ha : ∀ ns, article.toList ++ " ".toList = (mk ns).article) :
    ∃ ps, Part apis n k (∃ x, whom x) ps ∧
      AllWritten n (if !((OSet.new : OSet Ident).insertAll xs).1.isEmpty then
        [.set article desc ((OSet.new : OSet Ident).insertAll xs).1] else []) ps := by
  by_cases hx : xs = []
  · have := (ordered_set_refines xs).2.2.2 hx
    refine ⟨[], ⟨by simp, by simp, by simp, ?_⟩, ?_⟩
    · rintro ⟨x, h⟩
      have := (hw x).2 h
      rw [hx] at this; cases this
    · rw [if_neg (by simp [this])]; exact .nil
  · have hne : ((OSet.new : OSet Ident).insertAll xs).1.isEmpty = false := by
      rw [← Bool.not_eq_true]; exact fun h => hx ((ordered_set_refines xs).2.2.1 h)
    refine ⟨[mk (((OSet.new : OSet Ident).insertAll xs).1.iter.take 3)], ⟨?_, ?_, by simp, ?_⟩, ?_⟩
    · intro p hp; rw [List.mem_singleton.1 hp]; exact hr _ (some3 hw hx)
    · intro p hp; rw [List.mem_singleton.1 hp]; exact hk _
    · intro _; exact ⟨_, List.mem_singleton_self _, hk _⟩
    · rw [if_pos (by simp [hne])]
      exact .cons ⟨by rw [Clause.fmt, names_zero, ht], ha _⟩ .nil

theorem part_flag {apis : List Api} {n : Ident} {k : Nat} {b : Bool} {use : Prop} (hb : b = true ↔ use) (p : Phrase) (c : Clause)
    (hk : p.rank = k) (hr : use → p.Right apis n) (hw : Written n c p) :
    ∃ ps, Part apis n k use ps ∧ AllWritten n (if b then [c] else []) ps := by
  cases b with
  | false => exact ⟨[], ⟨by simp, by simp, by simp, fun h => absurd (hb.2 h) (by simp)⟩, .nil⟩
  | true =>
    refine ⟨[p], ⟨?_, ?_, by simp, fun _ => ⟨p, by simp, hk⟩⟩, .cons hw .nil⟩
    · intro q hq; rw [List.mem_singleton.1 hq]; exact hr (hb.1 rfl)
    · intro q hq; rw [List.mem_singleton.1 hq]; exact hk

theorem part_slice {apis : List Api} {n : Ident} {s m : Bool} (hs : s = true ↔ InSlice apis n false)
    (hm : m = true ↔ InSlice apis n true) :
    ∃ ps, Part apis n 5 (∃ m, InSlice apis n m) ps ∧
      AllWritten n (if s || m then [.slice "a" "slice element in" s m n] else []) ps := by
  cases s <;> cases m
  · refine ⟨[], ⟨by simp, by simp, by simp, ?_⟩, .nil⟩
    rintro ⟨m, h⟩
    cases m with
    | false => exact absurd (hs.2 h) (by simp)
    | true => exact absurd (hm.2 h) (by simp)
  · refine ⟨[.sliceMut], ⟨?_, by simp [Phrase.rank], by simp, fun _ => ⟨_, List.mem_singleton_self _, rfl⟩⟩, ?_⟩
    · intro p hp; rw [List.mem_singleton.1 hp]
      exact ⟨hm.1 rfl, fun h => absurd (hs.2 h) (by simp)⟩
    · exact .cons ⟨fmt_sliceMut _, a_eq⟩ .nil
  · refine ⟨[.slice], ⟨?_, by simp [Phrase.rank], by simp, fun _ => ⟨_, List.mem_singleton_self _, rfl⟩⟩, ?_⟩
    · intro p hp; rw [List.mem_singleton.1 hp]
      exact ⟨hs.1 rfl, fun h => absurd (hm.2 h) (by simp)⟩
    · exact .cons ⟨fmt_slice _, a_eq⟩ .nil
  · refine ⟨[.slices], ⟨?_, by simp [Phrase.rank], by simp, fun _ => ⟨_, List.mem_singleton_self _, rfl⟩⟩, ?_⟩
    · intro p hp; rw [List.mem_singleton.1 hp]
      exact ⟨hs.1 rfl, hm.1 rfl⟩
    · exact .cons ⟨fmt_slices _, a_eq⟩ .nil

theorem Part.pairwise {apis : List Api} {n : Ident} {k : Nat} {use : Prop} {ps : List Phrase} (h : Part apis n k use ps) :
    ps.Pairwise (fun p q => p.rank < q.rank) := by
  have := h.len
  match ps, this with
  | [], _ => exact .nil
  | [p], _ => simp

/-- C101: the explanation is right and leaves no kind of use out. -/
theorem explanation_right {g : Generator} {apis : List Api} {n : Ident} (h1 : Rules.Cxx apis n) (h2 : ¬ Rules.Shared apis n) :
    ∃ ps, Says apis n ps ∧ asWhat n (Assert.reasonsFor (cxOf g apis) n) = sentence n ps := by
  have hm := mem_reasonsFor (g := g) h1 h2
  generalize Assert.reasonsFor (cxOf g apis) n = rs at hm
  have hf : ∀ x, x ∈ rs.filterMap (fun | Reason.structField x => some x | _ => none) ↔ FieldOf apis n x := by
    intro x
    rw [List.mem_filterMap]
    constructor
    · rintro ⟨r, hr, he⟩
      split at he <;> cases he
      exact (hm _).1 hr
    · intro h; exact ⟨.structField x, (hm _).2 h, rfl⟩
  have ha : ∀ x, x ∈ rs.filterMap (fun | Reason.functionArgument x => some x | _ => none) ↔ ArgumentOf apis n x := by
    intro x
    rw [List.mem_filterMap]
    constructor
    · rintro ⟨r, hr, he⟩
      split at he <;> cases he
      exact (hm _).1 hr
    · intro h; exact ⟨.functionArgument x, (hm _).2 h, rfl⟩
  have ht : ∀ x, x ∈ rs.filterMap (fun | Reason.functionReturn x => some x | _ => none) ↔ ReturnOf apis n x := by
    intro x
    rw [List.mem_filterMap]
    constructor
    · rintro ⟨r, hr, he⟩
      split at he <;> cases he
      exact (hm _).1 hr
    · intro h; exact ⟨.functionReturn x, (hm _).2 h, rfl⟩
  have hu : ∀ x, x ∈ rs.filterMap (fun | Reason.unpinnedMut x => some x | _ => none) ↔ MutIn apis n x := by
    intro x
    rw [List.mem_filterMap]
    constructor
    · rintro ⟨r, hr, he⟩
      split at he <;> cases he
      exact (hm _).1 hr
    · intro h; exact ⟨.unpinnedMut x, (hm _).2 h, rfl⟩
  have hc : ∀ r, rs.contains r = true ↔ Means apis n r := by
    intro r; rw [List.contains_iff_mem]; exact hm r
  obtain ⟨p0, q0, w0⟩ := part_set (apis := apis) (n := n) (k := 0) hf .field "a" "field of" (fun _ => rfl) (fun _ h => h)
    (fun _ => set_field ..) (fun _ => a_eq)
  obtain ⟨p1, q1, w1⟩ := part_set (apis := apis) (n := n) (k := 1) ha .argument "an" "argument of" (fun _ => rfl) (fun _ h => h)
    (fun _ => set_argument ..) (fun _ => an_eq)
  obtain ⟨p2, q2, w2⟩ := part_set (apis := apis) (n := n) (k := 2) ht .result "a" "return value of" (fun _ => rfl) (fun _ h => h)
    (fun _ => set_result ..) (fun _ => a_eq)
  obtain ⟨p3, q3, w3⟩ := part_flag (apis := apis) (n := n) (k := 3) (hc .boxTarget) .box (.ty1 "type" "Box" n) rfl id
    ⟨fmt_box _, type_eq⟩
  obtain ⟨p4, q4, w4⟩ := part_flag (apis := apis) (n := n) (k := 4) (hc .vecElement) .vec (.ty1 "a" "vector element in Vec" n) rfl id
    ⟨fmt_vec _, a_eq⟩
  obtain ⟨p5, q5, w5⟩ := part_slice (hc (.sliceElement false)) (hc (.sliceElement true))
  obtain ⟨p6, q6, w6⟩ := part_set (apis := apis) (n := n) (k := 6) hu .mutRef "a" "non-pinned mutable reference in signature of"
    (fun _ => rfl) (fun _ h => h) (fun _ => set_mutRef ..) (fun _ => a_eq)
  refine ⟨p0 ++ p1 ++ p2 ++ p3 ++ p4 ++ p5 ++ p6, ⟨?_, ?_, ?_, ?_, ?_, ?_, ?_, ?_, ?_⟩, ?_⟩
  · intro p hp
    simp only [List.mem_append] at hp
    rcases hp with (((((hp | hp) | hp) | hp) | hp) | hp) | hp
    · exact q0.right p hp
    · exact q1.right p hp
    · exact q2.right p hp
    · exact q3.right p hp
    · exact q4.right p hp
    · exact q5.right p hp
    · exact q6.right p hp
  · simp only [List.pairwise_append, List.mem_append]
    have r0 := q0.rank; have r1 := q1.rank; have r2 := q2.rank; have r3 := q3.rank
    have r4 := q4.rank; have r5 := q5.rank; have r6 := q6.rank
    refine ⟨⟨⟨⟨⟨⟨q0.pairwise, q1.pairwise, ?_⟩, q2.pairwise, ?_⟩, q3.pairwise, ?_⟩, q4.pairwise, ?_⟩, q5.pairwise, ?_⟩,
      q6.pairwise, ?_⟩
    all_goals
      intro a ha b hb
      grind
  · intro s h; obtain ⟨p, hp, hr⟩ := q0.all ⟨s, h⟩; exact ⟨p, by simp [hp], hr⟩
  · intro s h; obtain ⟨p, hp, hr⟩ := q1.all ⟨s, h⟩; exact ⟨p, by simp [hp], hr⟩
  · intro s h; obtain ⟨p, hp, hr⟩ := q2.all ⟨s, h⟩; exact ⟨p, by simp [hp], hr⟩
  · intro h; obtain ⟨p, hp, hr⟩ := q3.all h; exact ⟨p, by simp [hp], hr⟩
  · intro h; obtain ⟨p, hp, hr⟩ := q4.all h; exact ⟨p, by simp [hp], hr⟩
  · intro m h; obtain ⟨p, hp, hr⟩ := q5.all ⟨m, h⟩; exact ⟨p, by simp [hp], hr⟩
  · intro s h; obtain ⟨p, hp, hr⟩ := q6.all ⟨s, h⟩; exact ⟨p, by simp [hp], hr⟩
  · show write (clauses n (found rs)).length 0 (clauses n (found rs)) = _
    apply write_zero
    rw [found_eq]
    exact ((((((w0.append w1).append w2).append w3).append w4).append w5).append w6)

theorem used_iff {apis : List Api} {n : Ident} : Used apis n ↔ ∃ r, Means apis n r := by
  constructor
  · rintro (⟨x, h | h | h | h⟩ | h | h | ⟨m, h⟩)
    · exact ⟨.structField x, h⟩
    · exact ⟨.functionArgument x, h⟩
    · exact ⟨.functionReturn x, h⟩
    · exact ⟨.unpinnedMut x, h⟩
    · exact ⟨.boxTarget, h⟩
    · exact ⟨.vecElement, h⟩
    · exact ⟨.sliceElement m, h⟩
  · rintro ⟨r, h⟩
    cases r with
    | structField x => exact .inl ⟨x, .inl h⟩
    | functionArgument x => exact .inl ⟨x, .inr (.inl h)⟩
    | functionReturn x => exact .inl ⟨x, .inr (.inr (.inl h))⟩
    | unpinnedMut x => exact .inl ⟨x, .inr (.inr (.inr h))⟩
    | boxTarget => exact .inr (.inl h)
    | vecElement => exact .inr (.inr (.inl h))
    | sliceElement m => exact .inr (.inr (.inr ⟨m, h⟩))

theorem requires_used {g : Generator} {apis : List Api} {n : Ident} (h1 : Rules.Cxx apis n) (h2 : ¬ Rules.Shared apis n) :
    (cxOf g apis).requiresTrivial n = true ↔ Used apis n := by
  rw [used_iff]
  unfold Cx.requiresTrivial
  rw [List.any_eq_true]
  constructor
  · rintro ⟨⟨m, r⟩, hm, he⟩
    simp only [decide_eq_true_eq] at he
    subst he
    exact ⟨r, (recorded_means hm).2.2⟩
  · rintro ⟨r, h⟩
    exact ⟨(n, r), means_recorded h1 h2 h, by simp⟩

/-- C101: the error at `type T;` comes exactly for the types that are so used, and says how. -/
theorem error_explains {g : Generator} {apis : List Api} {t : ExternType} (ht : Api.cxxType t ∈ apis)
    (h2 : ¬ Rules.Shared apis t.name.rust) :
    (Used apis t.name.rust → ∃ ps, Says apis t.name.rust ps ∧ ps ≠ [] ∧ checkMessage (cxOf g apis) t =
        some ("needs a cxx::ExternType impl in order to be used as ".toList ++ sentence t.name.rust ps)) ∧
    (¬ Used apis t.name.rust → checkMessage (cxOf g apis) t = none) := by
  have h1 : Rules.Cxx apis t.name.rust := by
    refine ⟨.cxx, ?_, .inl rfl⟩
    unfold definitions
    refine List.mem_map.2 ⟨(t.name.rust, .cxx), List.mem_filter.2 ⟨List.mem_filterMap.2 ⟨_, ht, rfl⟩, by simp⟩, rfl⟩
  constructor
  · intro hu
    obtain ⟨ps, hs, he⟩ := explanation_right (g := g) h1 h2
    refine ⟨ps, hs, ?_, ?_⟩
    · rintro rfl
      rcases hu with ⟨x, h | h | h | h⟩ | h | h | ⟨m, h⟩
      · obtain ⟨p, hp, _⟩ := hs.field x h; cases hp
      · obtain ⟨p, hp, _⟩ := hs.argument x h; cases hp
      · obtain ⟨p, hp, _⟩ := hs.result x h; cases hp
      · obtain ⟨p, hp, _⟩ := hs.mutRef x h; cases hp
      · obtain ⟨p, hp, _⟩ := hs.box h; cases hp
      · obtain ⟨p, hp, _⟩ := hs.vec h; cases hp
      · obtain ⟨p, hp, _⟩ := hs.slice m h; cases hp
    · unfold checkMessage
      rw [if_pos ((requires_used h1 h2).2 hu), he]
  · intro hu
    unfold checkMessage
    rw [if_neg (fun h => hu ((requires_used h1 h2).1 h))]

/-! ### The literal -/

/-- A character that stands for itself in a literal. -/
def Plain (c : Char) : Prop := c ≠ '"' ∧ c ≠ '\\' ∧ c ≠ '\n'

instance (c : Char) : Decidable (Plain c) := by unfold Plain; infer_instance

/-- The name of a type, struct or function is made of characters that stand for themselves. -/
def PlainName (s : Ident) : Prop := ∀ c ∈ s.toList, Plain c

theorem plain_of {l : List Char} (h : l.all (fun c => decide (Plain c)) = true) : ∀ c ∈ l, Plain c := by
  simpa using h

theorem plain_quoted {xs : List Ident} (h : ∀ x ∈ xs, PlainName x) : ∀ c ∈ quoted xs, Plain c := by
  intro c hc
  unfold quoted at hc
  obtain ⟨l, hl, hc⟩ := List.mem_flatten.1 hc
  have hl : l = ", ".toList ∨ l ∈ xs.map fun n => "`".toList ++ n.toList ++ "`".toList := by
    clear hc
    generalize xs.map (fun n : Ident => "`".toList ++ n.toList ++ "`".toList) = ys at hl
    induction ys with
    | nil => cases hl
    | cons y ys ih =>
      cases ys with
      | nil => exact .inr hl
      | cons z zs =>
        simp only [List.intersperse, List.mem_cons] at hl
        rcases hl with hl | hl | hl
        · exact .inr (by simp [hl])
        · exact .inl hl
        · rcases ih (by simpa [List.intersperse] using hl) with h | h
          · exact .inl h
          · exact .inr (List.mem_cons_of_mem _ h)
  rcases hl with rfl | hl
  · exact plain_of (by decide +kernel) c hc
  · obtain ⟨n, hn, rfl⟩ := List.mem_map.1 hl
    simp only [List.mem_append] at hc
    rcases hc with (hc | hc) | hc
    · exact plain_of (by decide +kernel) c hc
    · exact h n hn c hc
    · exact plain_of (by decide +kernel) c hc

theorem plain_trim {cs : List Char} (h : ∀ c ∈ cs, Plain c) : ∀ c ∈ trimColons cs, Plain c := by
  fun_induction trimColons cs with
  | case1 cs ih => exact ih (fun c hc => h c (by simp [hc]))
  | case2 => exact h

/-- The names a phrase gives. -/
def Phrase.given : Phrase → List Ident
  | .field ns | .argument ns | .result ns | .mutRef ns => ns
  | _ => []

theorem plain_text {n : Ident} (hn : PlainName n) {p : Phrase} (hp : ∀ x ∈ p.given, PlainName x) : ∀ c ∈ p.text n, Plain c := by
  intro c hc
  have lit : ∀ l : List Char, l.all (fun c => decide (Plain c)) = true → c ∈ l → Plain c := fun l hl h => plain_of hl c h
  cases p with
  | field ns =>
    rw [text_field] at hc
    exact (List.mem_append.1 hc).elim (lit _ (by decide +kernel)) (plain_quoted hp c)
  | argument ns =>
    rw [text_argument] at hc
    exact (List.mem_append.1 hc).elim (lit _ (by decide +kernel)) (plain_quoted hp c)
  | result ns =>
    rw [text_result] at hc
    exact (List.mem_append.1 hc).elim (lit _ (by decide +kernel)) (plain_quoted hp c)
  | mutRef ns =>
    rw [text_mutRef] at hc
    exact (List.mem_append.1 hc).elim (lit _ (by decide +kernel)) (plain_quoted hp c)
  | box =>
    rw [text_box, List.mem_append, List.mem_append] at hc
    exact hc.elim (fun h => h.elim (lit _ (by decide +kernel)) (hn c)) (lit _ (by decide +kernel))
  | vec =>
    rw [text_vec, List.mem_append, List.mem_append] at hc
    exact hc.elim (fun h => h.elim (lit _ (by decide +kernel)) (hn c)) (lit _ (by decide +kernel))
  | slice =>
    rw [text_slice, List.mem_append, List.mem_append] at hc
    exact hc.elim (fun h => h.elim (lit _ (by decide +kernel)) (hn c)) (lit _ (by decide +kernel))
  | sliceMut =>
    rw [text_sliceMut, List.mem_append, List.mem_append] at hc
    exact hc.elim (fun h => h.elim (lit _ (by decide +kernel)) (hn c)) (lit _ (by decide +kernel))
  | slices =>
    rw [text_slices, List.mem_append, List.mem_append, List.mem_append, List.mem_append] at hc
    rcases hc with (((hc | hc) | hc) | hc) | hc
    · exact lit _ (by decide +kernel) hc
    · exact hn c hc
    · exact lit _ (by decide +kernel) hc
    · exact hn c hc
    · exact lit _ (by decide +kernel) hc

theorem plain_listed {xs : List (List Char)} (h : ∀ x ∈ xs, ∀ c ∈ x, Plain c) : ∀ c ∈ listed xs, Plain c := by
  fun_induction listed xs with
  | case1 => intro c hc; cases hc
  | case2 x => exact h x (by simp)
  | case3 x y =>
    intro c hc
    simp only [List.mem_append] at hc
    rcases hc with (hc | hc) | hc
    · exact h x (by simp) c hc
    · exact plain_of (by decide +kernel) c hc
    · exact h y (by simp) c hc
  | case4 x rest _ _ ih =>
    intro c hc
    simp only [List.mem_append] at hc
    rcases hc with (hc | hc) | hc
    · exact h x (by simp) c hc
    · exact plain_of (by decide +kernel) c hc
    · exact ih (fun y hy => h y (by simp [hy])) c hc

theorem plain_sentence {n : Ident} (hn : PlainName n) {ps : List Phrase} (hp : ∀ p ∈ ps, ∀ x ∈ p.given, PlainName x) :
    ∀ c ∈ sentence n ps, Plain c := by
  intro c hc
  unfold sentence at hc
  rw [List.mem_append] at hc
  rcases hc with hc | hc
  · cases ps with
    | nil => cases hc
    | cons p ps =>
      simp only [List.head?_cons, Option.elim_some] at hc
      cases p with
      | argument _ => exact plain_of (l := "an ".toList) (by decide +kernel) c hc
      | box => exact plain_of (l := "type ".toList) (by decide +kernel) c hc
      | _ => exact plain_of (l := "a ".toList) (by decide +kernel) c hc
  · refine plain_listed ?_ c hc
    intro x hx
    obtain ⟨p, hp', rfl⟩ := List.mem_map.1 hx
    exact plain_text hn (hp p hp')

theorem trim_qualified {p : Pair} (h : ∀ s ∈ p.ns ++ [p.cxx], ∃ c cs, s.toList = c :: cs ∧ c ≠ ':') :
    trimColons (CxxText.qualified p) = pathText p := by
  have name : ∀ (c : Char) (cs : List Char), c ≠ ':' → trimColons (c :: cs) = c :: cs := by
    intro c cs hc
    unfold trimColons
    split
    · next h => cases h; exact absurd rfl hc
    · rfl
  have rest : ∀ ns : List Ident, (ns.flatMap fun s => "::".toList ++ s.toList) ++ "::".toList ++ p.cxx.toList =
      "::".toList ++ (((ns ++ [p.cxx]).map String.toList).intersperse "::".toList).flatten := by
    intro ns
    induction ns with
    | nil => simp
    | cons s ns ih =>
      rw [List.flatMap_cons, List.append_assoc, List.append_assoc, ← List.append_assoc (ns.flatMap _), ih]
      cases ns <;> simp [List.append_assoc]
  unfold CxxText.qualified pathText
  rw [rest]
  show trimColons (':' :: ':' :: _) = _
  rw [trimColons]
  cases hns : p.ns with
  | nil =>
    obtain ⟨c, cs, he, hc⟩ := h p.cxx (by simp)
    simp [he, name c cs hc]
  | cons s ns =>
    obtain ⟨c, cs, he, hc⟩ := h s (by simp [hns])
    cases ns <;> simp [he, name c _ hc]

/-- The names of structs and functions are made of such characters. -/
def PlainNames (apis : List Api) : Prop :=
  (∀ s, Api.struct s ∈ apis → PlainName s.name.rust) ∧ (∀ f, HasFn apis f → PlainName f.name.rust)

/-- C101: the message of the static assertion for a type from elsewhere is one string literal, and says how the type is used. -/
theorem assertion_explains {g : Generator} {apis : List Api} {a : TypeAlias} (ha : Api.typeAlias a ∈ apis)
    (h2 : ¬ Rules.Shared apis a.name.rust) (hp : PlainNames apis) (hr : PlainName a.name.rust) (hc : PlainName a.name.cxx)
    (hns : ∀ s ∈ a.name.ns, PlainName s) (hid : ∀ s ∈ a.name.ns ++ [a.name.cxx], ∃ c cs, s.toList = c :: cs ∧ c ≠ ':') :
    ∃ ps, Says apis a.name.rust ps ∧
      Literal (assertMessage a (Assert.reasonsFor (cxOf g apis) a.name.rust)) ∧
      assertMessage a (Assert.reasonsFor (cxOf g apis) a.name.rust) =
        "\"type ".toList ++ pathText a.name ++
          " should be trivially move constructible and trivially destructible in C++ to be used as ".toList ++
          sentence a.name.rust ps ++ " in Rust\"".toList := by
  have h1 : Rules.Cxx apis a.name.rust := by
    refine ⟨.alias, ?_, .inr (.inl rfl)⟩
    unfold definitions
    refine List.mem_map.2 ⟨(a.name.rust, .alias), List.mem_filter.2 ⟨List.mem_filterMap.2 ⟨_, ha, rfl⟩, by simp⟩, rfl⟩
  obtain ⟨ps, hs, he⟩ := explanation_right (g := g) h1 h2
  refine ⟨ps, hs, ?_, ?_⟩
  · unfold assertMessage
    rw [he]
    refine ⟨"type ".toList ++ trimColons (CxxText.qualified a.name) ++
      " should be trivially move constructible and trivially destructible in C++ to be used as ".toList ++
      sentence a.name.rust ps ++ " in Rust".toList, ?_, ?_⟩
    · simp
    · intro c hcm
      simp only [List.mem_append] at hcm
      have hps : ∀ p ∈ ps, ∀ x ∈ p.given, PlainName x := by
        intro p hpm x hx
        have hR := hs.right p hpm
        cases p with
        | field ns => obtain ⟨st, _, _, hst, rfl, _⟩ := hR.right x hx; exact hp.1 st hst
        | argument ns => obtain ⟨f, _, _, hf, rfl, _⟩ := hR.right x hx; exact hp.2 f hf
        | result ns => obtain ⟨f, _, hf, rfl, _⟩ := hR.right x hx; exact hp.2 f hf
        | mutRef ns => obtain ⟨f, hf, rfl, _⟩ := hR.right x hx; exact hp.2 f hf
        | _ => cases hx
      have hq : ∀ c ∈ CxxText.qualified a.name, Plain c := by
        intro c hc'
        simp only [CxxText.qualified, List.mem_append, List.mem_flatMap] at hc'
        rcases hc' with (⟨s, hs', hc' | hc'⟩ | hc') | hc'
        · exact plain_of (by decide +kernel) c hc'
        · exact hns s hs' c hc'
        · exact plain_of (by decide +kernel) c hc'
        · exact hc c hc'
      rcases hcm with (((hcm | hcm) | hcm) | hcm) | hcm
      · exact plain_of (by decide +kernel) c hcm
      · exact plain_trim hq c hcm
      · exact plain_of (by decide +kernel) c hcm
      · exact plain_sentence hr hps c hcm
      · exact plain_of (by decide +kernel) c hcm
  · unfold assertMessage
    rw [he, trim_qualified hid]

/-! ### Examples -/

/-- tests/ui/by_value_not_supported.rs, the part about `C`. -/
def byValue : List Api :=
  [.struct ⟨[], ⟨[], "S", "S"⟩, [], [⟨⟨[], "c", "c"⟩, Ty.named "C"⟩]⟩,
   .cxxType ⟨.cxx, [], ⟨[], "C", "C"⟩, [], [], false⟩,
   .rustFunction ⟨.rust, ⟨[], "f", "f"⟩, ⟨false, [], none, [⟨⟨[], "c", "c"⟩, Ty.named "C"⟩], some (Ty.named "C"), false⟩, false⟩]

/-- tests/ui/by_value_not_supported.stderr. -/
example : checkMessage (cxOf .macro byValue) ⟨.cxx, [], ⟨[], "C", "C"⟩, [], [], false⟩ =
    some "needs a cxx::ExternType impl in order to be used as a field of `S`, argument of `f` or return value of `f`".toList := by
  decide +kernel

example : ¬ Rules.Shared byValue "C" ∧ Used byValue "C" := by
  refine ⟨by simp [Rules.Shared, definitions, defines, byValue], .inl ⟨"S", .inl ⟨_, _, [], List.mem_cons_self, rfl, List.mem_singleton_self _, rfl⟩⟩⟩

/-- tests/ui/pin_mut_opaque.rs, the part about `Opaque`. -/
def pinMut : List Api :=
  [.cxxType ⟨.cxx, [], ⟨[], "Opaque", "Opaque"⟩, [], [], true⟩,
   .cxxFunction ⟨.cxx, ⟨[], "f", "f"⟩,
    ⟨false, [], none, [⟨⟨[], "arg", "arg"⟩, .ref false none true (Ty.named "Opaque")⟩], none, false⟩, true⟩,
   .cxxFunction ⟨.cxx, ⟨[], "g", "g"⟩, ⟨false, [], some ⟨false, none, true, ⟨"Opaque", []⟩, true⟩, [], none, false⟩, true⟩,
   .cxxFunction ⟨.cxx, ⟨[], "h", "h"⟩, ⟨false, [], some ⟨false, none, true, ⟨"Opaque", []⟩, false⟩, [], none, false⟩, true⟩]

/-- tests/ui/pin_mut_opaque.stderr. -/
example : checkMessage (cxOf .macro pinMut) ⟨.cxx, [], ⟨[], "Opaque", "Opaque"⟩, [], [], true⟩ =
    some ("needs a cxx::ExternType impl in order to be used as a non-pinned mutable reference in signature of " ++
      "`f`, `g`, `h`").toList := by
  decide +kernel

/-- tests/ui/slice_unsupported.rs and .stderr. -/
example : checkMessage (cxOf .macro
      [.cxxType ⟨.cxx, [], ⟨[], "Opaque", "Opaque"⟩, [], [], true⟩,
       .cxxFunction ⟨.cxx, ⟨[], "f", "f"⟩,
        ⟨false, [], none, [⟨⟨[], "_", "_"⟩, .sliceRef none true (Ty.named "Opaque")⟩], none, false⟩, true⟩])
      ⟨.cxx, [], ⟨[], "Opaque", "Opaque"⟩, [], [], true⟩ =
    some "needs a cxx::ExternType impl in order to be used as a slice element in &mut [Opaque]".toList := by
  decide +kernel

/-- tests/ui/vec_opaque.rs and .stderr, `mod ffi1`. -/
example : checkMessage (cxOf .macro
      [.cxxType ⟨.cxx, [], ⟨[], "Job", "Job"⟩, [], [], false⟩,
       .rustFunction ⟨.rust, ⟨[], "f", "f"⟩, ⟨false, [], none, [], some (.rustVec (Ty.named "Job")), false⟩, false⟩])
      ⟨.cxx, [], ⟨[], "Job", "Job"⟩, [], [], false⟩ =
    some "needs a cxx::ExternType impl in order to be used as a vector element in Vec<Job>".toList := by
  decide +kernel

/-- A type from elsewhere. -/
def elsewhere : List Api :=
  [.typeAlias ⟨[], ⟨["lib", "sub"], "Job", "J"⟩, []⟩,
   .rustFunction ⟨.rust, ⟨[], "f", "f"⟩, ⟨false, [], none, [], some (.rustVec (Ty.named "J")), false⟩, false⟩,
   .rustFunction ⟨.rust, ⟨[], "g", "g"⟩, ⟨false, [], none, [], some (.rustBox (Ty.named "J")), false⟩, false⟩]

example : assertMessage ⟨[], ⟨["lib", "sub"], "Job", "J"⟩, []⟩ (Assert.reasonsFor (cxOf .build elsewhere) "J") =
    ("\"type lib::sub::Job should be trivially move constructible and trivially destructible in C++ " ++
      "to be used as type Box<J> or vector element in Vec<J> in Rust\"").toList := by
  decide +kernel

example : ¬ Rules.Shared elsewhere "J" ∧ PlainNames elsewhere ∧ (∀ s ∈ ["J", "Job", "lib", "sub"], PlainName s) ∧
    ∀ s ∈ (["lib", "sub"] ++ ["Job"] : List Ident), ∃ c cs, s.toList = c :: cs ∧ c ≠ ':' := by
  refine ⟨by simp [Rules.Shared, definitions, defines, elsewhere], ⟨?_, ?_⟩, ?_, ?_⟩
  · intro s hs; simp [elsewhere] at hs
  · intro f hf
    simp only [HasFn, elsewhere, List.mem_cons, List.not_mem_nil, or_false, reduceCtorEq, false_or, Api.rustFunction.injEq] at hf
    rcases hf with rfl | rfl <;> exact plain_of (by decide +kernel)
  · intro s hs
    simp only [List.mem_cons, List.not_mem_nil, or_false] at hs
    rcases hs with rfl | rfl | rfl | rfl <;> exact plain_of (by decide +kernel)
  · intro s hs
    simp only [List.cons_append, List.nil_append, List.mem_cons, List.not_mem_nil, or_false] at hs
    rcases hs with rfl | rfl | rfl
    · exact ⟨'l', ['i', 'b'], by decide +kernel, by decide⟩
    · exact ⟨'s', ['u', 'b'], by decide +kernel, by decide⟩
    · exact ⟨'J', ['o', 'b'], by decide +kernel, by decide⟩

end Verif.Reasons
