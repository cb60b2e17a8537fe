import Verif.Mangle.Model
import Verif.Mangle.Spec
import Verif.Check.Resolve
/-!
# Linker symbols determine what they belong to
-/
namespace Verif.Mangle
open Verif.Syntax Verif.Types Verif.Check

/-! ### Joining segments -/

/-- Segments with `$` between them. -/
def glue : List Symbol → Symbol
  | [] => []
  | a :: as => a ++ as.flatMap ('$' :: ·)

theorem pushAll_glue (sym : Symbol) (segs : List Symbol) (h : sym ≠ []) :
    pushAll sym segs = some (sym ++ segs.flatMap ('$' :: ·)) := by
  induction segs generalizing sym with
  | nil => simp [pushAll]
  | cons a as ih =>
    have h1 : push sym a = some (sym ++ '$' :: a) := by
      simp [push, h]
    simp [pushAll, h1, ih (sym ++ '$' :: a) (by simp)]

theorem join_glue (segs : List Symbol) (a : Symbol) (h : a ≠ []) :
    join (a :: segs) = some (glue (a :: segs)) := by
  have h1 : push [] a = some a := by
    have := List.length_pos_iff.2 h
    simp [push, this]
  simp [join, pushAll, h1, pushAll_glue a segs h, glue, h]

theorem glue_append (a b : List Symbol) (h : a ≠ []) :
    glue (a ++ b) = glue a ++ b.flatMap ('$' :: ·) := by
  cases a with
  | nil => exact absurd rfl h
  | cons x xs => simp [glue]

theorem join_all (segs : List Symbol) (h0 : segs ≠ []) (h : ∀ s ∈ segs, s ≠ []) :
    join segs = some (glue segs) := by
  cases segs with
  | nil => exact absurd rfl h0
  | cons a as => exact join_glue as a (h a List.mem_cons_self)

theorem split_first {a b x y : Symbol} (ha : '$' ∉ a) (hb : '$' ∉ b)
    (hx : x = [] ∨ ∃ t, x = '$' :: t) (hy : y = [] ∨ ∃ t, y = '$' :: t) (h : a ++ x = b ++ y) :
    a = b ∧ x = y := by
  induction a generalizing b with
  | nil =>
    cases b with
    | nil => exact ⟨rfl, h⟩
    | cons c cs =>
      rcases hx with rfl | ⟨t, rfl⟩
      · simp at h
      · simp only [List.nil_append, List.cons_append, List.cons.injEq] at h
        exact absurd (h.1 ▸ List.mem_cons_self) hb
  | cons d ds ih =>
    cases b with
    | nil =>
      rcases hy with rfl | ⟨t, rfl⟩
      · simp at h
      · simp only [List.nil_append, List.cons_append, List.cons.injEq] at h
        exact absurd (h.1 ▸ List.mem_cons_self) ha
    | cons c cs =>
      simp only [List.cons_append, List.cons.injEq] at h
      simp only [List.mem_cons, not_or] at ha hb
      obtain ⟨rfl, rfl⟩ := ih ha.2 hb.2 h.2
      exact ⟨by rw [h.1], rfl⟩

theorem tails_inj (as bs : List Symbol) (ha : ∀ s ∈ as, '$' ∉ s) (hb : ∀ s ∈ bs, '$' ∉ s)
    (h : as.flatMap ('$' :: ·) = bs.flatMap ('$' :: ·)) : as = bs := by
  induction as generalizing bs with
  | nil => cases bs with
    | nil => rfl
    | cons b bs => simp at h
  | cons a as ih => cases bs with
    | nil => simp at h
    | cons b bs =>
      simp only [List.flatMap_cons, List.cons_append, List.cons.injEq, true_and] at h
      have start : ∀ l : List Symbol, l.flatMap ('$' :: ·) = [] ∨ ∃ t, l.flatMap ('$' :: ·) = '$' :: t := by
        intro l; cases l <;> simp
      obtain ⟨rfl, h2⟩ := split_first (ha a List.mem_cons_self) (hb b List.mem_cons_self) (start as) (start bs) h
      rw [ih bs (fun s hs => ha s (List.mem_cons_of_mem _ hs)) (fun s hs => hb s (List.mem_cons_of_mem _ hs)) h2]

/-- Joining is injective on segments without `$`. -/
theorem glue_inj (as bs : List Symbol) (ha0 : as ≠ []) (hb0 : bs ≠ []) (ha : ∀ s ∈ as, '$' ∉ s)
    (hb : ∀ s ∈ bs, '$' ∉ s) (h : glue as = glue bs) : as = bs := by
  cases as with
  | nil => exact absurd rfl ha0
  | cons a as => cases bs with
    | nil => exact absurd rfl hb0
    | cons b bs =>
      have start : ∀ l : List Symbol, l.flatMap ('$' :: ·) = [] ∨ ∃ t, l.flatMap ('$' :: ·) = '$' :: t := by
        intro l; cases l <;> simp
      obtain ⟨rfl, h2⟩ := split_first (ha a List.mem_cons_self) (hb b List.mem_cons_self) (start as) (start bs) h
      rw [tails_inj as bs (fun s hs => ha s (List.mem_cons_of_mem _ hs))
        (fun s hs => hb s (List.mem_cons_of_mem _ hs)) h2]

/-! ### Symbols of entities -/

/-- The operator names: macro/src/expand.rs:211-289, 899-900, gen/src/write.rs:208, 543-720. -/
def Op.text : Op → String
  | .eq => "eq" | .ne => "ne" | .lt => "lt" | .le => "le" | .gt => "gt" | .ge => "ge" | .hash => "hash"
  | .sizeof => "sizeof" | .alignof => "alignof"

/-- The prefixes of macro/src/expand.rs:1303, 1352, 1454, 1551, 1630, 1706, 1712. -/
def Wrapper.pre : Wrapper → String
  | .box => "cxxbridge1$box$"
  | .vec => "cxxbridge1$rust_vec$"
  | .uniquePtr => "cxxbridge1$unique_ptr$"
  | .sharedPtr => "cxxbridge1$shared_ptr$"
  | .weakPtr => "cxxbridge1$weak_ptr$"
  | .vector => "cxxbridge1$std$vector$"
  | .uniquePtrVector => "cxxbridge1$unique_ptr$std$vector$"

/-- The linker symbol the code generators give to an entity. -/
def symbolOf (ts : Types) : Entity → Option Symbol
  | .fn f => externFn ts f
  | .trampoline f arg .c => cTrampoline ts f arg
  | .trampoline f arg .rust => rTrampoline ts f arg
  | .op p o => operator p o.text
  | .member w p m => formatted w.pre p m

/-- The segments after the first of `Wrapper.pre`. -/
def Wrapper.segs : Wrapper → List Symbol
  | .box => ["box".toList]
  | .vec => ["rust_vec".toList]
  | .uniquePtr => ["unique_ptr".toList]
  | .sharedPtr => ["shared_ptr".toList]
  | .weakPtr => ["weak_ptr".toList]
  | .vector => ["std".toList, "vector".toList]
  | .uniquePtrVector => ["unique_ptr".toList, "std".toList, "vector".toList]

theorem Wrapper.pre_eq (w : Wrapper) : w.pre.toList = glue (CXXBRIDGE :: w.segs) ++ ['$'] := by
  cases w <;> decide

/-- The segments of a function's symbol after the namespace and `cxxbridge1`. -/
def fnRest (ts : Types) (f : ExternFn) : Option (List Symbol) :=
  match f.sig.receiver with
  | some r => (resolve ts r.ty.rust).map (fun p => [p.cxx.toList, f.name.rust.toList])
  | none => some [f.name.rust.toList]

/-- Namespace segments and the segments after `cxxbridge1`. -/
def parts (ts : Types) : Entity → Option (Namespace × List Symbol)
  | .fn f => (fnRest ts f).map (fun r => (f.name.ns, r))
  | .trampoline f arg h => (fnRest ts f).map (fun r =>
      (f.name.ns, r ++ [arg.rust.toList, match h with | .c => "0".toList | .rust => "1".toList]))
  | .op p o => some (p.ns, [p.cxx.toList, "operator".toList, o.text.toList])
  | .member w p m => some ([], w.segs ++ nsSegs p.ns ++ [p.cxx.toList, m.toList])

theorem toList_ne_nil {s : String} (h : s ≠ "") : s.toList ≠ [] := by
  intro e; exact h (String.toList_injective (by simpa using e))

theorem cxxbridge_ne : CXXBRIDGE ≠ [] := by decide

theorem nsSegs_ne {ns : Namespace} (h : ∀ s ∈ ns, Lexical s) : ∀ s ∈ nsSegs ns, s ≠ [] := by
  intro s hs
  obtain ⟨x, hx, rfl⟩ := List.mem_map.1 hs
  exact toList_ne_nil (h x hx).1

theorem nsSegs_free {ns : Namespace} (h : ∀ s ∈ ns, Lexical s) : ∀ s ∈ nsSegs ns, '$' ∉ s := by
  intro s hs
  obtain ⟨x, hx, rfl⟩ := List.mem_map.1 hs
  exact (h x hx).2.1

theorem join_user {ns : Namespace} {rest : List Symbol} (h : ∀ s ∈ ns, Lexical s) :
    join (nsSegs ns ++ CXXBRIDGE :: rest) = some (glue (nsSegs ns ++ CXXBRIDGE :: rest)) := by
  cases ns with
  | nil => exact join_glue _ _ cxxbridge_ne
  | cons a as => exact join_glue _ _ (toList_ne_nil (h a List.mem_cons_self).1)

theorem externFn_eq (ts : Types) (f : ExternFn) (h : ∀ s ∈ f.name.ns, Lexical s) :
    externFn ts f = (fnRest ts f).map (fun r => glue (nsSegs f.name.ns ++ CXXBRIDGE :: r)) := by
  unfold externFn fnRest
  cases f.sig.receiver with
  | none => simp [join_user h]
  | some r =>
    cases hr : resolve ts r.ty.rust with
    | none => simp [hr]
    | some p => simp [hr, join_user h]

theorem toSymbol_eq (p : Pair) (hp : LexicalPair p) :
    toSymbol p = some (glue (nsSegs p.ns ++ [p.cxx.toList])) := by
  refine join_all _ (by simp) ?_
  intro s hs
  rcases List.mem_append.1 hs with hs | hs
  · exact nsSegs_ne hp.1 s hs
  · rw [List.mem_singleton.1 hs]; exact toList_ne_nil hp.2.1.1

theorem trampoline_eq (segs : List Symbol) (v d : Symbol) (h0 : segs ≠ []) (h : glue segs ≠ []) :
    join [glue segs, v, d] = some (glue (segs ++ [v, d])) := by
  rw [join_glue _ _ h, glue_append _ _ h0]; rfl

theorem glue_ne {segs : List Symbol} {a : Symbol} (h : a ∈ segs) (ha : a ≠ []) : glue segs ≠ [] := by
  intro e
  cases segs with
  | nil => cases h
  | cons b bs =>
    simp only [glue, List.append_eq_nil_iff, List.flatMap_eq_nil_iff] at e
    rcases List.mem_cons.1 h with rfl | h
    · exact ha e.1
    · exact absurd (e.2 a h) (by simp)

/-- The names an entity's symbol is made of are identifiers. -/
def Named (ts : Types) : Entity → Prop
  | .fn f => LexicalPair f.name ∧ ∀ r p, f.sig.receiver = some r → resolve ts r.ty.rust = some p → LexicalPair p
  | .trampoline f a _ => (LexicalPair f.name ∧
      ∀ r p, f.sig.receiver = some r → resolve ts r.ty.rust = some p → LexicalPair p) ∧ LexicalPair a
  | .op p _ => LexicalPair p
  | .member _ p _ => LexicalPair p

theorem symbolOf_eq (ts : Types) (e : Entity) (h : Named ts e) :
    symbolOf ts e = (parts ts e).map (fun x => glue (nsSegs x.1 ++ CXXBRIDGE :: x.2)) := by
  cases e with
  | fn f => simp [symbolOf, parts, externFn_eq ts f h.1.1, Function.comp_def]
  | trampoline f a k =>
    have hne : ∀ r : List Symbol, glue (nsSegs f.name.ns ++ CXXBRIDGE :: r) ≠ [] := fun r =>
      glue_ne (a := CXXBRIDGE) (by simp) cxxbridge_ne
    cases k <;>
    · simp only [symbolOf, parts, cTrampoline, rTrampoline, externFn_eq ts f h.1.1.1]
      cases fnRest ts f with
      | none => rfl
      | some r =>
        simp only [Option.map_some, Option.bind_eq_bind, Option.bind_some]
        rw [trampoline_eq _ _ _ (by simp) (hne r)]
        simp
  | op p o => simp [symbolOf, parts, operator, join_user h.1]
  | member w p m =>
    simp only [symbolOf, parts, formatted, toSymbol_eq p h, Option.bind_eq_bind, Option.bind_some,
      Option.map_some, w.pre_eq, nsSegs, List.map_nil, List.nil_append]
    congr 1
    have h2 : CXXBRIDGE :: (w.segs ++ List.map String.toList p.ns ++ [p.cxx.toList, m.toList]) =
        (CXXBRIDGE :: w.segs) ++ ((nsSegs p.ns ++ [p.cxx.toList]) ++ [m.toList]) := by simp [nsSegs]
    rw [h2, glue_append (CXXBRIDGE :: w.segs) _ (by simp)]
    generalize glue (CXXBRIDGE :: w.segs) = g
    change g ++ ['$'] ++ glue (nsSegs p.ns ++ _) ++ _ ++ _ = _
    cases nsSegs p.ns <;> simp [glue]

/-! ### Reading a symbol back -/

theorem sep_inj {a b : Namespace} {r s : List Symbol} (ha : CXXBRIDGE ∉ nsSegs a) (hb : CXXBRIDGE ∉ nsSegs b)
    (h : nsSegs a ++ CXXBRIDGE :: r = nsSegs b ++ CXXBRIDGE :: s) : a = b ∧ r = s := by
  induction a generalizing b with
  | nil =>
    cases b with
    | nil => simpa [nsSegs] using h
    | cons x xs =>
      simp only [nsSegs, List.map_nil, List.nil_append, List.map_cons, List.cons_append, List.cons.injEq] at h
      simp only [nsSegs, List.map_cons, List.mem_cons, not_or] at hb
      exact absurd h.1 hb.1
  | cons y ys ih =>
    cases b with
    | nil =>
      simp only [nsSegs, List.map_nil, List.nil_append, List.map_cons, List.cons_append, List.cons.injEq] at h
      simp only [nsSegs, List.map_cons, List.mem_cons, not_or] at ha
      exact absurd h.1.symm ha.1
    | cons x xs =>
      simp only [nsSegs, List.map_cons, List.cons_append, List.cons.injEq] at h
      simp only [nsSegs, List.map_cons, List.mem_cons, not_or] at ha hb
      obtain ⟨rfl, rfl⟩ := ih ha.2 hb.2 h.2
      exact ⟨by rw [String.toList_injective h.1], rfl⟩

theorem nsSegs_inj {a b : Namespace} (h : nsSegs a = nsSegs b) : a = b :=
  (List.map_inj_right (fun _ _ h => String.toList_injective h)).1 h

theorem no_cxxbridge {s : Ident} (h : startsCxxbridge s = false) : s.toList ≠ CXXBRIDGE := by
  intro e
  rw [startsCxxbridge, e] at h
  exact absurd h (by decide)

/-- No name uses the reserved prefix. -/
def Unreserved (p : Pair) : Prop := ∀ s ∈ p.ns, startsCxxbridge s = false

theorem unreserved_ns {p : Pair} (h : Unreserved p) : CXXBRIDGE ∉ nsSegs p.ns := by
  intro hm
  obtain ⟨x, hx, e⟩ := List.mem_map.1 hm
  exact no_cxxbridge (h x hx) e

theorem digits_not_ops (o : Op) : o.text.toList ≠ "0".toList ∧ o.text.toList ≠ "1".toList := by
  cases o <;> decide

theorem member_text {w : Wrapper} {m : String} (h : m ∈ members w) :
    m.toList ≠ "0".toList ∧ m.toList ≠ "1".toList ∧ ∀ o : Op, m.toList ≠ o.text.toList := by
  have : ∀ w, ∀ m ∈ members w, m.toList ≠ "0".toList ∧ m.toList ≠ "1".toList ∧
      ∀ o ∈ [Op.eq, .ne, .lt, .le, .gt, .ge, .hash, .sizeof, .alignof], m.toList ≠ o.text.toList := by
    intro w; cases w <;> decide
  obtain ⟨h1, h2, h3⟩ := this w m h
  exact ⟨h1, h2, fun o => h3 o (by cases o <;> simp)⟩

theorem op_text_inj {o o' : Op} (h : o.text.toList = o'.text.toList) : o = o' := by
  cases o <;> cases o' <;> first | rfl | exact absurd h (by decide)

theorem member_parts {w w' : Wrapper} {p q : Pair} {m m' : String} (hp : ¬ InsideStdVector p)
    (hq : ¬ InsideStdVector q)
    (h : w.segs ++ nsSegs p.ns ++ [p.cxx.toList, m.toList] =
      w'.segs ++ nsSegs q.ns ++ [q.cxx.toList, m'.toList]) :
    w = w' ∧ SameType p q ∧ m = m' := by
  have e : ∀ (a : List Symbol) x y, a ++ [x, y] = (a ++ [x]) ++ [y] := by simp
  rw [e, e] at h
  obtain ⟨h, hm⟩ := List.append_inj' h rfl
  obtain ⟨h, hc⟩ := List.append_inj' h rfl
  simp only [List.cons.injEq, and_true] at hm hc
  have hm := String.toList_injective hm
  have hc := String.toList_injective hc
  have std : ∀ {p q : Pair}, nsSegs p.ns = "std".toList :: "vector".toList :: nsSegs q.ns → InsideStdVector p := by
    intro p q hh
    exact ⟨q.ns, nsSegs_inj hh⟩
  by_cases hw : w = w'
  · subst hw
    exact ⟨rfl, ⟨nsSegs_inj (List.append_cancel_left h), hc⟩, hm⟩
  · exfalso
    have hd : ∀ w w' : Wrapper, w ≠ w' → (w.segs.head? ≠ w'.segs.head? ∨
        (w = .uniquePtr ∧ w' = .uniquePtrVector) ∨ (w = .uniquePtrVector ∧ w' = .uniquePtr)) := by
      intro w w'; cases w <;> cases w' <;> decide
    have hh : ∀ (w : Wrapper) (x : List Symbol), (w.segs ++ x).head? = w.segs.head? := by
      intro w x; cases w <;> rfl
    rcases hd w w' hw with hd | ⟨rfl, rfl⟩ | ⟨rfl, rfl⟩
    · apply hd
      rw [← hh w (nsSegs p.ns), ← hh w' (nsSegs q.ns), h]
    · exact hp (std (List.cons.inj h).2)
    · exact hq (std (List.cons.inj h).2.symm)

/-! ### Accepted bridges -/

theorem checkName_ns {p : Pair} (h : checkName p = []) : Unreserved p := by
  simp only [checkName, List.append_eq_nil_iff, List.flatMap_eq_nil_iff, checkCxxIdent] at h
  intro s hs
  have := (h.1.1 s hs).1
  by_cases hc : startsCxxbridge s = true
  · rw [if_pos hc] at this; cases this
  · simpa using hc

theorem api_names_unreserved {g : Generator} {apis : List Api} (h : Accepted g apis) {a : Api} (ha : a ∈ apis)
    {p : Pair} (hp : p ∈ namesOf a) : Unreserved p := by
  have hi := accepted_ident h ha
  apply checkName_ns
  cases a <;> simp only [namesOf, checkIdents, List.mem_cons, List.not_mem_nil, or_false,
    List.append_eq_nil_iff, List.flatMap_eq_nil_iff, List.mem_map] at hp hi
  case struct => rw [hp]; exact hi.1
  case enum => rw [hp]; exact hi.1
  case cxxType => rw [hp]; exact hi
  case rustType => rw [hp]; exact hi
  case cxxFunction =>
    rcases hp with rfl | ⟨v, hv, rfl⟩
    · exact hi.1
    · exact hi.2 v hv
  case rustFunction =>
    rcases hp with rfl | ⟨v, hv, rfl⟩
    · exact hi.1
    · exact hi.2 v hv
  case typeAlias => rw [hp]; exact hi

theorem names_of_type {a : Api} {p : Pair} {g : List Ident} (h : resolves a = some (p, g)) : p ∈ namesOf a := by
  cases a <;> simp_all [resolves, namesOf]

theorem names_of_fn {apis : List Api} {f : ExternFn} (h : DeclaresFn apis f) :
    ∃ a ∈ apis, f.name ∈ namesOf a ∧ ∀ v ∈ f.sig.args, v.name ∈ namesOf a := by
  rcases h with h | h <;> exact ⟨_, h, by simp [namesOf], fun v hv => by simp [namesOf]; exact .inr ⟨v, hv, rfl⟩⟩

theorem resolve_declared {apis : List Api} {r : Ident} {p : Pair} (h : resolve (collect apis) r = some p) :
    DeclaresType apis p ∧ p.rust = r := by
  unfold resolve at h
  rw [(gathers apis).resolutions] at h
  rw [Option.map_eq_some_iff] at h
  obtain ⟨⟨q, g⟩, h, rfl⟩ := h
  have hm := List.mem_of_find?_eq_some h
  have hk := List.find?_some h
  rw [List.mem_reverse, List.mem_filterMap] at hm
  obtain ⟨a, ha, hr⟩ := hm
  exact ⟨⟨a, ha, g, hr⟩, by simpa using hk⟩

theorem lexical_type {apis : List Api} (hl : LexicalBridge apis) {p : Pair} (h : DeclaresType apis p) :
    LexicalPair p := by
  obtain ⟨a, ha, g, hr⟩ := h
  exact hl a ha p (names_of_type hr)

theorem lexical_fn {apis : List Api} (hl : LexicalBridge apis) {f : ExternFn} (h : DeclaresFn apis f) :
    (LexicalPair f.name ∧ ∀ r p, f.sig.receiver = some r → resolve (collect apis) r.ty.rust = some p →
      LexicalPair p) ∧ ∀ v ∈ f.sig.args, LexicalPair v.name := by
  obtain ⟨a, ha, hn, hv⟩ := names_of_fn h
  exact ⟨⟨hl a ha _ hn, fun r p _ hp => lexical_type hl (resolve_declared hp).1⟩, fun v h => hl a ha _ (hv v h)⟩

theorem named_of_in {apis : List Api} (hl : LexicalBridge apis) {e : Entity} (h : e.In apis) :
    Named (collect apis) e := by
  cases e with
  | fn f => exact (lexical_fn hl h).1
  | trampoline f a k =>
    obtain ⟨hf, v, hv, rfl⟩ := h
    exact ⟨(lexical_fn hl hf).1, (lexical_fn hl hf).2 v hv⟩
  | op p o => exact lexical_type hl h
  | member w p m => exact lexical_type hl h.1

theorem unreserved_type {g : Generator} {apis : List Api} (ha : Accepted g apis) {p : Pair}
    (h : DeclaresType apis p) : Unreserved p := by
  obtain ⟨a, hm, g, hr⟩ := h
  exact api_names_unreserved ha hm (names_of_type hr)

theorem unreserved_fn {g : Generator} {apis : List Api} (ha : Accepted g apis) {f : ExternFn}
    (h : DeclaresFn apis f) : Unreserved f.name := by
  obtain ⟨a, hm, hn, _⟩ := names_of_fn h
  exact api_names_unreserved ha hm hn

theorem lexical_free {s : Ident} (h : Lexical s) : '$' ∉ s.toList := h.2.1

theorem rest_free {apis : List Api} (hl : LexicalBridge apis) {f : ExternFn} (h : DeclaresFn apis f)
    {r : List Symbol} (hr : fnRest (collect apis) f = some r) : ∀ s ∈ r, '$' ∉ s := by
  have hn := (lexical_fn hl h).1
  unfold fnRest at hr
  cases hrec : f.sig.receiver with
  | none =>
    rw [hrec] at hr; cases hr
    simpa using lexical_free hn.1.2.2
  | some rc =>
    rw [hrec] at hr
    obtain ⟨p, hp, rfl⟩ := Option.map_eq_some_iff.1 hr
    have := hn.2 rc p hrec hp
    simpa using ⟨lexical_free this.2.1, lexical_free hn.1.2.2⟩

/-- All segments of a symbol are free of `$`, and the namespace has no reserved name. -/
theorem parts_good {g : Generator} {apis : List Api} (ha : Accepted g apis) (hl : LexicalBridge apis)
    {e : Entity} (h : e.In apis) {x : Namespace × List Symbol} (hx : parts (collect apis) e = some x) :
    CXXBRIDGE ∉ nsSegs x.1 ∧ ∀ s ∈ nsSegs x.1 ++ CXXBRIDGE :: x.2, '$' ∉ s := by
  have hc : '$' ∉ CXXBRIDGE := by decide
  have hall : ∀ (ns : Namespace) (r : List Symbol), (∀ s ∈ ns, Lexical s) → (∀ s ∈ r, '$' ∉ s) →
      ∀ s ∈ nsSegs ns ++ CXXBRIDGE :: r, '$' ∉ s := by
    intro ns r h1 h2 s hs
    rcases List.mem_append.1 hs with hs | hs
    · exact nsSegs_free h1 s hs
    · rcases List.mem_cons.1 hs with rfl | hs
      · exact hc
      · exact h2 s hs
  cases e with
  | fn f =>
    obtain ⟨r, hr, rfl⟩ := Option.map_eq_some_iff.1 hx
    exact ⟨unreserved_ns (unreserved_fn ha h), hall _ _ (lexical_fn hl h).1.1.1 (rest_free hl h hr)⟩
  | trampoline f a k =>
    obtain ⟨r, hr, rfl⟩ := Option.map_eq_some_iff.1 hx
    obtain ⟨hf, v, hv, rfl⟩ := h
    refine ⟨unreserved_ns (unreserved_fn ha hf), hall _ _ (lexical_fn hl hf).1.1.1 ?_⟩
    intro s hs
    rcases List.mem_append.1 hs with hs | hs
    · exact rest_free hl hf hr s hs
    · rcases List.mem_cons.1 hs with rfl | hs
      · exact lexical_free ((lexical_fn hl hf).2 v hv).2.2
      · rw [List.mem_singleton.1 hs]; cases k <;> decide
  | op p o =>
    cases hx
    have := lexical_type hl h
    refine ⟨unreserved_ns (unreserved_type ha h), hall _ _ this.1 ?_⟩
    intro s hs
    simp only [List.mem_cons, List.not_mem_nil, or_false] at hs
    rcases hs with rfl | rfl | rfl
    · exact lexical_free this.2.1
    · decide
    · cases o <;> decide
  | member w p m =>
    cases hx
    have := lexical_type hl h.1
    refine ⟨by simp [nsSegs], hall _ _ (by simp) ?_⟩
    intro s hs
    simp only [List.mem_append, List.mem_cons, List.not_mem_nil, or_false] at hs
    rcases hs with (hs | hs) | rfl | rfl
    · revert s; cases w <;> decide
    · exact nsSegs_free this.1 s hs
    · exact lexical_free this.2.1
    · have hm := h.2
      revert hm
      have : ∀ w, ∀ m ∈ members w, '$' ∉ m.toList := by intro w; cases w <;> decide
      exact this w m

theorem rest_shape {ts : Types} {f : ExternFn} {r : List Symbol} (h : fnRest ts f = some r) :
    (f.sig.receiver = none ∧ r = [f.name.rust.toList]) ∨
    ∃ rc p, f.sig.receiver = some rc ∧ resolve ts rc.ty.rust = some p ∧ r = [p.cxx.toList, f.name.rust.toList] := by
  unfold fnRest at h
  cases hrec : f.sig.receiver with
  | none => rw [hrec] at h; cases h; exact .inl ⟨rfl, rfl⟩
  | some rc =>
    rw [hrec] at h
    obtain ⟨p, hp, rfl⟩ := Option.map_eq_some_iff.1 h
    exact .inr ⟨rc, p, rfl, hp, rfl⟩

theorem same_fn {apis : List Api} {f f' : ExternFn} {r r' : List Symbol}
    (h : fnRest (collect apis) f = some r) (h' : fnRest (collect apis) f' = some r')
    (hns : f.name.ns = f'.name.ns) (he : r = r') : SameFn apis f f' := by
  rcases rest_shape h with ⟨h1, rfl⟩ | ⟨rc, p, h1, hp, rfl⟩ <;>
  rcases rest_shape h' with ⟨h2, rfl⟩ | ⟨rc', p', h2, hp', rfl⟩ <;> simp only [List.cons.injEq, and_true, reduceCtorEq, and_false] at he
  · exact ⟨hns, String.toList_injective he, .inl ⟨h1, h2⟩⟩
  · exact ⟨hns, String.toList_injective he.2, .inr ⟨rc, rc', p, p', h1, h2, (resolve_declared hp).1, (resolve_declared hp).2,
      (resolve_declared hp').1, (resolve_declared hp').2, String.toList_injective he.1⟩⟩

theorem rest_len {ts : Types} {f : ExternFn} {r : List Symbol} (h : fnRest ts f = some r) :
    r.length = 1 ∨ r.length = 2 := by
  rcases rest_shape h with ⟨_, rfl⟩ | ⟨_, _, _, _, rfl⟩ <;> simp

/-- **C24**.  In an accepted bridge whose names are identifiers and whose types do not live inside a
namespace `std::vector`, equal symbols belong to the same entity: the same function (by namespace, name
and, for methods, C++ name of the type), the same argument and half of a trampoline, the same operator
of the same C++ type, or the same member of the same instantiation. -/
theorem symbol_determines_entity {g : Generator} {apis : List Api} (ha : Accepted g apis)
    (hl : LexicalBridge apis) (hv : ∀ p, DeclaresType apis p → ¬ InsideStdVector p)
    {e e' : Entity} (h : e.In apis) (h' : e'.In apis) {s : Symbol}
    (hs : symbolOf (collect apis) e = some s) (hs' : symbolOf (collect apis) e' = some s) :
    SameEntity apis e e' := by
  rw [symbolOf_eq _ _ (named_of_in hl h)] at hs
  rw [symbolOf_eq _ _ (named_of_in hl h')] at hs'
  obtain ⟨⟨ns, r⟩, hx, rfl⟩ := Option.map_eq_some_iff.1 hs
  obtain ⟨⟨ns', r'⟩, hx', he⟩ := Option.map_eq_some_iff.1 hs'
  have g1 := parts_good ha hl h hx
  have g2 := parts_good ha hl h' hx'
  obtain ⟨rfl, rfl⟩ := sep_inj g2.1 g1.1 (glue_inj _ _ (by simp) (by simp) g2.2 g1.2 he)
  clear g1 g2 he hs hs'
  have last : ∀ {a b : List Symbol} {x y}, a ++ [x] = b ++ [y] → x = y := by
    intro a b x y hh; simpa using (List.append_inj' hh rfl).2
  have e2 : ∀ (a : List Symbol) x y, a ++ [x, y] = (a ++ [x]) ++ [y] := by simp
  have e3 : ∀ (x y z : Symbol), [x, y, z] = [x, y] ++ [z] := by simp
  cases e with
  | fn f =>
    obtain ⟨r, hr, hq⟩ := Option.map_eq_some_iff.1 hx
    simp only [Prod.mk.injEq] at hq; obtain ⟨rfl, rfl⟩ := hq
    have hlen := rest_len hr
    cases e' with
    | fn f' =>
      obtain ⟨r', hr', hq⟩ := Option.map_eq_some_iff.1 hx'
      simp only [Prod.mk.injEq] at hq
      exact same_fn hr hr' hq.1.symm hq.2.symm
    | trampoline f' a' k' =>
      obtain ⟨r', hr', hq⟩ := Option.map_eq_some_iff.1 hx'
      simp only [Prod.mk.injEq] at hq
      have := congrArg List.length hq.2
      have h2 := rest_len hr'
      simp only [List.length_append, List.length_cons, List.length_nil] at this; omega
    | op p o =>
      have hq := Option.some.inj hx'
      simp only [Prod.mk.injEq] at hq
      have := congrArg List.length hq.2
      simp only [List.length_append, List.length_cons, List.length_nil] at this; omega
    | member w p m =>
      have hq := Option.some.inj hx'
      simp only [Prod.mk.injEq] at hq
      have := congrArg List.length hq.2
      have hw : 1 ≤ w.segs.length := by cases w <;> decide
      simp only [List.length_append, List.length_cons, List.length_nil] at this; omega
  | trampoline f a k =>
    obtain ⟨r, hr, hq⟩ := Option.map_eq_some_iff.1 hx
    simp only [Prod.mk.injEq] at hq; obtain ⟨rfl, rfl⟩ := hq
    have hlen := rest_len hr
    cases e' with
    | fn f' =>
      obtain ⟨r', hr', hq⟩ := Option.map_eq_some_iff.1 hx'
      simp only [Prod.mk.injEq] at hq
      have := congrArg List.length hq.2
      have h2 := rest_len hr'
      simp only [List.length_append, List.length_cons, List.length_nil] at this; omega
    | trampoline f' a' k' =>
      obtain ⟨r', hr', hq⟩ := Option.map_eq_some_iff.1 hx'
      simp only [Prod.mk.injEq] at hq
      have h1 := List.append_inj' hq.2 rfl
      simp only [List.cons.injEq, and_true] at h1
      refine ⟨same_fn hr hr' hq.1.symm h1.1.symm, (String.toList_injective h1.2.1).symm, ?_⟩
      cases k <;> cases k' <;> first | rfl | exact absurd h1.2.2 (by decide)
    | op p o =>
      have hq := Option.some.inj hx'
      simp only [Prod.mk.injEq] at hq
      have h1 := hq.2
      rw [e3, e2] at h1
      have := last h1
      cases k
      · exact absurd this (digits_not_ops o).1
      · exact absurd this (digits_not_ops o).2
    | member w p m =>
      have hq := Option.some.inj hx'
      simp only [Prod.mk.injEq] at hq
      have h1 := hq.2
      rw [e2, e2] at h1
      have := last h1
      cases k
      · exact absurd this (member_text h'.2).1
      · exact absurd this (member_text h'.2).2.1
  | op p o =>
    have hq0 := Option.some.inj hx
    simp only [Prod.mk.injEq] at hq0; obtain ⟨rfl, rfl⟩ := hq0
    cases e' with
    | fn f' =>
      obtain ⟨r', hr', hq⟩ := Option.map_eq_some_iff.1 hx'
      simp only [Prod.mk.injEq] at hq
      have := congrArg List.length hq.2
      have h2 := rest_len hr'
      simp only [List.length_append, List.length_cons, List.length_nil] at this; omega
    | trampoline f' a' k' =>
      obtain ⟨r', hr', hq⟩ := Option.map_eq_some_iff.1 hx'
      simp only [Prod.mk.injEq] at hq
      have h1 := hq.2
      rw [e3, e2] at h1
      have := last h1
      cases k'
      · exact absurd this.symm (digits_not_ops o).1
      · exact absurd this.symm (digits_not_ops o).2
    | op q o' =>
      have hq := Option.some.inj hx'
      simp only [Prod.mk.injEq, List.cons.injEq, true_and, and_true] at hq
      exact ⟨⟨hq.1.symm, (String.toList_injective hq.2.1).symm⟩, (op_text_inj hq.2.2).symm⟩
    | member w q m =>
      have hq := Option.some.inj hx'
      simp only [Prod.mk.injEq] at hq
      have h1 := hq.2
      rw [e3, e2] at h1
      exact absurd (last h1) ((member_text h'.2).2.2 o)
  | member w p m =>
    have hq0 := Option.some.inj hx
    simp only [Prod.mk.injEq] at hq0; obtain ⟨rfl, rfl⟩ := hq0
    cases e' with
    | fn f' =>
      obtain ⟨r', hr', hq⟩ := Option.map_eq_some_iff.1 hx'
      simp only [Prod.mk.injEq] at hq
      have := congrArg List.length hq.2
      have h2 := rest_len hr'
      have hw : 1 ≤ w.segs.length := by cases w <;> decide
      simp only [List.length_append, List.length_cons, List.length_nil] at this; omega
    | trampoline f' a' k' =>
      obtain ⟨r', hr', hq⟩ := Option.map_eq_some_iff.1 hx'
      simp only [Prod.mk.injEq] at hq
      have h1 := hq.2
      rw [e2, e2] at h1
      have := last h1
      cases k'
      · exact absurd this.symm (member_text h.2).1
      · exact absurd this.symm (member_text h.2).2.1
    | op q o =>
      have hq := Option.some.inj hx'
      simp only [Prod.mk.injEq] at hq
      have h1 := hq.2
      rw [e3, e2] at h1
      exact absurd (last h1).symm ((member_text h.2).2.2 o)
    | member w' q m' =>
      have hq := Option.some.inj hx'
      simp only [Prod.mk.injEq] at hq
      exact member_parts (hv p h.1) (hv q h'.1) hq.2.symm

theorem fnRest_some {g : Generator} {apis : List Api} (ha : Accepted g apis) {f : ExternFn}
    (h : DeclaresFn apis f) : fnRest (collect apis) f ≠ none := by
  unfold fnRest
  cases hr : f.sig.receiver with
  | none => simp
  | some r =>
    have := ((names_resolve ha).2.1 f h r hr).2
    simpa [resolve] using this

/-- **C24**, totality.  Every entity of an accepted bridge has a symbol: no assertion of
`syntax/symbol.rs` fails and every name it needs resolves. -/
theorem symbol_exists {g : Generator} {apis : List Api} (ha : Accepted g apis)
    (hl : LexicalBridge apis) {e : Entity} (h : e.In apis) : ∃ s, symbolOf (collect apis) e = some s := by
  rw [symbolOf_eq _ _ (named_of_in hl h)]
  cases e with
  | fn f =>
    cases hf : fnRest (collect apis) f with
    | none => exact absurd hf (fnRest_some ha h)
    | some r => simp [parts, hf]
  | trampoline f a k =>
    cases hf : fnRest (collect apis) f with
    | none => exact absurd hf (fnRest_some ha h.1)
    | some r => simp [parts, hf]
  | op p o => simp [parts]
  | member w p m => simp [parts]

/-- **C24** for functions, as far as it is true.  Two functions declared at different places of an accepted
bridge have different symbols, unless both are methods of the same Rust name in the same namespace
whose receivers have types of the same unqualified C++ name. -/
theorem functions_distinct_partial {g : Generator} {apis : List Api} (ha : Accepted g apis)
    (hl : LexicalBridge apis) {i j : Nat} {x y : Api} {f f' : ExternFn} (hij : i ≠ j)
    (hx : apis[i]? = some x) (hy : apis[j]? = some y)
    (hf : x = .cxxFunction f ∨ x = .rustFunction f) (hf' : y = .cxxFunction f' ∨ y = .rustFunction f')
    {s : Symbol} (hs : externFn (collect apis) f = some s) (hs' : externFn (collect apis) f' = some s) :
    ∃ r r' p p', f.sig.receiver = some r ∧ f'.sig.receiver = some r' ∧
      f.name.ns = f'.name.ns ∧ f.name.rust = f'.name.rust ∧
      DeclaresType apis p ∧ p.rust = r.ty.rust ∧ DeclaresType apis p' ∧ p'.rust = r'.ty.rust ∧ p.cxx = p'.cxx ∧
      (r.ty, r.pinned, r.lifetime, r.mutable) ≠ (r'.ty, r'.pinned, r'.lifetime, r'.mutable) := by
  have hm : DeclaresFn apis f := by
    have := List.mem_of_getElem? hx
    rcases hf with rfl | rfl
    · exact .inl this
    · exact .inr this
  have hm' : DeclaresFn apis f' := by
    have := List.mem_of_getElem? hy
    rcases hf' with rfl | rfl
    · exact .inl this
    · exact .inr this
  have hsame : SameFn apis f f' := by
    rw [externFn_eq _ _ (lexical_fn hl hm).1.1.1] at hs
    rw [externFn_eq _ _ (lexical_fn hl hm').1.1.1] at hs'
    obtain ⟨r, hr, rfl⟩ := Option.map_eq_some_iff.1 hs
    obtain ⟨r', hr', he⟩ := Option.map_eq_some_iff.1 hs'
    have g1 := parts_good ha hl (e := .fn f) hm (x := (f.name.ns, r)) (by simp [parts, hr])
    have g2 := parts_good ha hl (e := .fn f') hm' (x := (f'.name.ns, r')) (by simp [parts, hr'])
    obtain ⟨h1, h2⟩ := sep_inj g2.1 g1.1 (glue_inj _ _ (by simp) (by simp) g2.2 g1.2 he)
    exact same_fn hr hr' h1.symm h2.symm
  have hsig : ∀ {x : Api} {f : ExternFn}, (x = .cxxFunction f ∨ x = .rustFunction f) → signatureOf x =
      some (f.sig.receiver.map (fun r => (r.ty, r.pinned, r.lifetime, r.mutable)), f.name.rust) := by
    rintro x f (rfl | rfl) <;> rfl
  have hdiff : signatureOf x ≠ signatureOf y := by
    have hnd := ((duplicates_exact apis).1 ha.1).2
    rw [List.Nodup, List.pairwise_filterMap, List.pairwise_iff_getElem] at hnd
    obtain ⟨hi, rfl⟩ := List.getElem?_eq_some_iff.1 hx
    obtain ⟨hj, rfl⟩ := List.getElem?_eq_some_iff.1 hy
    intro he
    rcases Nat.lt_or_gt_of_ne hij with h | h
    · exact hnd i j hi hj h _ (hsig hf) _ (he ▸ hsig hf) rfl
    · exact hnd j i hj hi h _ (hsig hf') _ (he ▸ hsig hf') rfl
  rw [hsig hf, hsig hf'] at hdiff
  obtain ⟨hns, hrn, ⟨h1, h2⟩ | ⟨r, r', p, p', h1, h2, hp, hpr, hp', hpr', hc⟩⟩ := hsame
  · rw [h1, h2, hrn] at hdiff; exact absurd rfl hdiff
  · refine ⟨r, r', p, p', h1, h2, hns, hrn, hp, hpr, hp', hpr', hc, ?_⟩
    intro he
    rw [h1, h2, hrn, Option.map_some, Option.map_some, he] at hdiff
    exact hdiff rfl

/-! ### Both halves of an instantiation -/

theorem mapM_some {α β : Type} (f : α → Option β) (h : α → β) (l : List α) (hf : ∀ a, f a = some (h a)) :
    l.mapM f = some (l.map h) := by
  induction l with
  | nil => rfl
  | cons a as ih => simp [hf, ih]

theorem formatted_eq {p : Pair} {s : Symbol} (h : toSymbol p = some s) (pre m : String) :
    formatted pre p m = some (written pre s m) := by
  simp [formatted, h, written]

theorem toSymbol_ne {p : Pair} {s : Symbol} (h : toSymbol p = some s) : s ≠ [] := by
  unfold toSymbol join at h
  intro e; subst e
  cases hp : pushAll [] (nsSegs p.ns ++ [p.cxx.toList]) with
  | none => simp [hp] at h
  | some t =>
    simp only [hp, Option.bind_eq_bind, Option.bind_some] at h
    split at h
    · cases h
    · next hne => cases h; simp at hne

/-- **C52**.  For every instantiation, the symbols the Rust expansion imports or exports are exactly those
the generated C++ declares or defines, in the same order; for the instantiations of an accepted bridge
they exist. -/
theorem instantiation_symbols_agree (ts : Types) (k : ImplKey) : rustInst ts k = cxxInst ts k := by
  unfold rustInst cxxInst
  cases hr : resolve ts k.rust with
  | none => rfl
  | some p =>
    simp only [Option.bind_eq_bind, Option.bind_some]
    cases hs : toSymbol p with
    | none =>
      have hf : ∀ pre m, formatted pre p m = none := by intro pre m; simp [formatted, hs]
      cases k <;> simp [hf, rustBoxOps, rustVecOps, rustUniquePtrOps, rustSharedPtrOps, rustWeakPtrOps,
        rustCxxVectorOps]
    | some s =>
      have hf := formatted_eq hs
      have hv : vectorMangled s = some ("std$vector$".toList ++ s) := by
        have hn := toSymbol_ne hs
        rw [vectorMangled, join_glue _ _ (by decide)]
        simp [glue]
      simp only [Option.bind_some]
      cases k <;>
        simp only [mapM_some _ _ _ (hf _), hv, Option.bind_some, cxxBoxOps, rustBoxOps, cxxVecOps, rustVecOps,
          cxxUniquePtrOps, rustUniquePtrOps, cxxSharedPtrOps, rustSharedPtrOps, cxxWeakPtrOps, rustWeakPtrOps,
          cxxCxxVectorOps, rustCxxVectorOps, rustVectorPtrOps]
      congr 2

/-- The wrappers an instantiation key stands for. -/
def keyWrappers : ImplKey → List Wrapper
  | .rustBox _ => [.box]
  | .rustVec _ => [.vec]
  | .uniquePtr _ => [.uniquePtr]
  | .sharedPtr _ => [.sharedPtr]
  | .weakPtr _ => [.weakPtr]
  | .cxxVector _ => [.vector, .uniquePtrVector]

/-- The symbols of an instantiation of an accepted bridge exist and are members of the wrapper it
instantiates, so that `symbol_determines_entity` speaks about them. -/
theorem instantiation_members {g : Generator} {apis : List Api} (ha : Accepted g apis)
    (hl : LexicalBridge apis) {k : ImplKey} (hk : k ∈ (collect apis).impls.map (·.1)) :
    ∃ l, rustInst (collect apis) k = some l ∧ cxxInst (collect apis) k = some l ∧
      ∀ s ∈ l, ∃ w ∈ keyWrappers k, ∃ p m, p.rust = k.rust ∧ (Entity.member w p m).In apis ∧
        symbolOf (collect apis) (.member w p m) = some s := by
  rw [← instantiation_symbols_agree]
  have hr := ((names_resolve ha).2.2 k hk).2
  cases hp : resolve (collect apis) k.rust with
  | none => simp [resolve] at hp; exact absurd hp hr
  | some p =>
    obtain ⟨hd, hpr⟩ := resolve_declared hp
    have hs := toSymbol_eq p (lexical_type hl hd)
    have hf := formatted_eq hs
    have key : ∀ (w : Wrapper) (ops : List String), (∀ m ∈ ops, m ∈ members w) → w ∈ keyWrappers k →
        ∀ s ∈ ops.map (written w.pre (glue (nsSegs p.ns ++ [p.cxx.toList]))),
          ∃ w ∈ keyWrappers k, ∃ p m, p.rust = k.rust ∧ (Entity.member w p m).In apis ∧
            symbolOf (collect apis) (.member w p m) = some s := by
      intro w ops ho hw s hs
      obtain ⟨m, hm, rfl⟩ := List.mem_map.1 hs
      exact ⟨w, hw, p, m, hpr, ⟨hd, ho m hm⟩, by rw [symbolOf, hf]⟩
    unfold rustInst
    simp only [hp, Option.bind_eq_bind, Option.bind_some]
    have htriv : ∀ b : Bool, (∀ m ∈ rustUniquePtrOps b, m ∈ members .uniquePtr) ∧
        (∀ m ∈ rustSharedPtrOps b, m ∈ members .sharedPtr) ∧ (∀ m ∈ rustCxxVectorOps b, m ∈ members .vector) := by
      intro b; cases b <;> decide
    cases k <;> simp only [mapM_some _ _ _ (hf _), Option.bind_some, Option.some.injEq, exists_eq_left']
    case rustBox => exact ⟨trivial, key .box _ (by decide) (by simp [keyWrappers])⟩
    case rustVec => exact ⟨trivial, key .vec _ (by decide) (by simp [keyWrappers])⟩
    case uniquePtr => exact ⟨trivial, key .uniquePtr _ (htriv _).1 (by simp [keyWrappers])⟩
    case sharedPtr => exact ⟨trivial, key .sharedPtr _ (htriv _).2.1 (by simp [keyWrappers])⟩
    case weakPtr => exact ⟨trivial, key .weakPtr _ (by decide) (by simp [keyWrappers])⟩
    case cxxVector =>
      refine ⟨trivial, fun s hm => ?_⟩
      rcases List.mem_append.1 hm with hm | hm
      · exact key .vector _ (htriv _).2.2 (by simp [keyWrappers]) s hm
      · exact key .uniquePtrVector _ (by decide) (by simp [keyWrappers]) s hm

/-! ### Include guards -/

theorem toSymbol_inj {p q : Pair} (hp : LexicalPair p) (hq : LexicalPair q) {s : Symbol}
    (h : toSymbol p = some s) (h' : toSymbol q = some s) : SameType p q := by
  rw [toSymbol_eq p hp] at h
  rw [toSymbol_eq q hq] at h'
  have free : ∀ {p : Pair}, LexicalPair p → ∀ s ∈ nsSegs p.ns ++ [p.cxx.toList], '$' ∉ s := by
    intro p hp s hs
    rcases List.mem_append.1 hs with hs | hs
    · exact nsSegs_free hp.1 s hs
    · rw [List.mem_singleton.1 hs]; exact lexical_free hp.2.1
  have he := glue_inj _ _ (by simp) (by simp) (free hp) (free hq) ((Option.some.inj h).trans (Option.some.inj h').symm)
  obtain ⟨h1, h2⟩ := List.append_inj' he rfl
  simp only [List.cons.injEq, and_true] at h2
  exact ⟨nsSegs_inj h1, String.toList_injective h2⟩

/-- **C53**.  The include guard of a struct, opaque type or enum determines its fully qualified C++ name,
and whether it is an enum: definitions of different types never suppress each other. -/
theorem guards_distinct {p q : Pair} (hp : LexicalPair p) (hq : LexicalPair q) :
    (∃ s, structGuard p = some s) ∧ (∃ s, enumGuard p = some s) ∧
    (structGuard p = structGuard q ↔ SameType p q) ∧ (enumGuard p = enumGuard q ↔ SameType p q) ∧
    structGuard p ≠ enumGuard q := by
  have e1 := toSymbol_eq p hp
  have e2 := toSymbol_eq q hq
  refine ⟨⟨_, by rw [structGuard, e1]; rfl⟩, ⟨_, by rw [enumGuard, e1]; rfl⟩, ⟨?_, ?_⟩, ⟨?_, ?_⟩, ?_⟩
  · intro h
    simp only [structGuard, e1, e2, Option.bind_eq_bind, Option.bind_some, Option.some.injEq,
      List.append_cancel_left_eq] at h
    exact toSymbol_inj hp hq e1 (h ▸ e2)
  · rintro ⟨h1, h2⟩; simp [structGuard, toSymbol, h1, h2]
  · intro h
    simp only [enumGuard, e1, e2, Option.bind_eq_bind, Option.bind_some, Option.some.injEq,
      List.append_cancel_left_eq] at h
    exact toSymbol_inj hp hq e1 (h ▸ e2)
  · rintro ⟨h1, h2⟩; simp [enumGuard, toSymbol, h1, h2]
  · intro h
    simp only [structGuard, enumGuard, e1, e2, Option.bind_eq_bind, Option.bind_some, Option.some.injEq] at h
    have := congrArg (fun l => l[11]?) h
    simp at this

/-! ### Witnesses -/

section Witness
open Verif.Check

def pr (ns : Namespace) (s : Ident) : Pair := ⟨ns, s, s⟩
def method (name : Pair) (mutable pinned : Bool) (ty : Ident) : ExternFn :=
  ⟨.cxx, name, ⟨false, [], some ⟨pinned, none, mutable, ⟨ty, []⟩, false⟩, [], none, false⟩, true⟩
def free (name : Pair) (args : List Var) : ExternFn :=
  ⟨.cxx, name, ⟨false, [], none, args, none, false⟩, true⟩

instance (p : Ident) : Decidable (Lexical p) := inferInstanceAs (Decidable (_ ∧ _ ∧ _))
instance (p : Pair) : Decidable (LexicalPair p) := inferInstanceAs (Decidable (_ ∧ _ ∧ _))
instance (a : List Api) : Decidable (LexicalBridge a) := inferInstanceAs (Decidable (∀ x ∈ a, ∀ p ∈ namesOf x, LexicalPair p))

/-- A bridge with functions, a method, a callback, a struct with operators and instantiations. -/
def bridge : List Api :=
  [.cxxType ⟨.cxx, [], pr ["org", "rust"] "T", [], [], true⟩,
   .struct ⟨[.partialEq], pr ["org"] "S", [], [⟨pr [] "x", .named "u8"⟩]⟩,
   .cxxFunction (method (pr ["org"] "get") false false "T"),
   .cxxFunction (free (pr ["org"] "get") [⟨pr [] "cb", .fn false [.named "u8"] none false⟩]),
   .cxxFunction (free (pr [] "make") [⟨pr [] "a", .uniquePtr (.named "T")⟩, ⟨pr [] "b", .rustVec (.named "S")⟩,
     ⟨pr [] "c", .ref false none false (.cxxVector (.named "T"))⟩])]

theorem bridge_accepted : Accepted .build bridge ∧ LexicalBridge bridge := by decide +kernel

example : ∀ p, DeclaresType bridge p → ¬ InsideStdVector p := by
  rintro p ⟨a, ha, g, hr⟩ ⟨rest, h⟩
  simp only [bridge, List.mem_cons, List.not_mem_nil, or_false] at ha
  rcases ha with rfl | rfl | rfl | rfl | rfl <;> simp [resolves] at hr
  all_goals (rw [← hr.1] at h; simp [pr] at h)

example : (Entity.fn (method (pr ["org"] "get") false false "T")).In bridge ∧
    (Entity.member .uniquePtr (pr ["org", "rust"] "T") "drop").In bridge ∧
    (symbolOf (collect bridge) (.fn (method (pr ["org"] "get") false false "T"))).map String.ofList
      = some "org$cxxbridge1$T$get" ∧
    (symbolOf (collect bridge) (.trampoline (free (pr ["org"] "get") []) (pr [] "cb") .rust)).map String.ofList
      = some "org$cxxbridge1$get$cb$1" ∧
    (symbolOf (collect bridge) (.op (pr ["org"] "S") .eq)).map String.ofList = some "org$cxxbridge1$S$operator$eq" ∧
    (symbolOf (collect bridge) (.member .uniquePtr (pr ["org", "rust"] "T") "drop")).map String.ofList
      = some "cxxbridge1$unique_ptr$org$rust$T$drop" := by
  refine ⟨.inl (by simp [bridge]), ⟨⟨_, List.mem_cons_self, [], rfl⟩, by decide⟩, ?_⟩
  decide +kernel

/-- Finding: methods of the same name that differ in the receiver's mutability are accepted and get the
same symbol. -/
theorem overloaded_methods_collide :
    let f := method (pr [] "get") false false "T"
    let g := method (pr [] "get") true true "T"
    let apis := [.cxxType ⟨.cxx, [], pr [] "T", [], [], true⟩, .cxxFunction f, .cxxFunction g]
    Accepted .build apis ∧ Accepted .macro apis ∧ externFn (collect apis) f = externFn (collect apis) g ∧
      (externFn (collect apis) f).isSome = true := by decide +kernel

/-- Finding: types of the same C++ name in different namespaces, with a method of the same name, are
accepted and the two methods get the same symbol. -/
theorem namespaced_methods_collide :
    let f := method (pr ["n"] "get") false false "A"
    let g := method (pr ["n"] "get") false false "B"
    let apis := [.cxxType ⟨.cxx, [], ⟨["x"], "T", "A"⟩, [], [], true⟩,
      .cxxType ⟨.cxx, [], ⟨["y"], "T", "B"⟩, [], [], true⟩, .cxxFunction f, .cxxFunction g]
    Accepted .build apis ∧ Accepted .macro apis ∧ externFn (collect apis) f = externFn (collect apis) g ∧
      (externFn (collect apis) f).isSome = true := by decide +kernel

/-- The hypothesis on `std::vector` is needed: `UniquePtr` of a type in a namespace `std::vector` and
`UniquePtr` of a `CxxVector` share their symbols. -/
theorem std_vector_namespace_collides :
    formatted Wrapper.uniquePtr.pre (pr ["std", "vector"] "T") "drop" =
      formatted Wrapper.uniquePtrVector.pre (pr [] "T") "drop" := by decide +kernel

end Witness

end Verif.Mangle
