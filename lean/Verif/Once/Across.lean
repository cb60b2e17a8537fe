import Verif.Once.Props
/-!
# C119: symbols of different bridges
-/
namespace Verif.Once
open Verif.Syntax Verif.Types Verif.Mangle Verif.Check

/-! ### What should hold -/

/-- A function of one bridge and a function of another have the same namespace and the same name in Rust, and both are free
functions, or both are methods, of types with the same name in C++ (without its namespace). -/
def FnAcross (b b' : List Api) (f f' : ExternFn) : Prop :=
  f.name.ns = f'.name.ns ∧ f.name.rust = f'.name.rust ∧
  ((f.sig.receiver = none ∧ f'.sig.receiver = none) ∨
   ∃ r r' p p', f.sig.receiver = some r ∧ f'.sig.receiver = some r' ∧ DeclaresType b p ∧ p.rust = r.ty.rust ∧
     DeclaresType b' p' ∧ p'.rust = r'.ty.rust ∧ p.cxx = p'.cxx)

/-- The same function, the same half for the same argument of the same function, the same operator of the same type, or
the same function of the same wrapper of the same type. -/
def Across (b b' : List Api) : Entity → Entity → Prop
  | .fn f, .fn f' => FnAcross b b' f f'
  | .trampoline f a h, .trampoline f' a' h' => FnAcross b b' f f' ∧ a.rust = a'.rust ∧ h = h'
  | .op p o, .op p' o' => SameType p p' ∧ o = o'
  | .member w p m, .member w' p' m' => w = w' ∧ SameType p p' ∧ m = m'
  | _, _ => False

/-! ### Proof -/

theorem fn_across {b b' : List Api} {f f' : ExternFn} {r r' : List Symbol} (h : fnRest (collect b) f = some r)
    (h' : fnRest (collect b') f' = some r') (hns : f.name.ns = f'.name.ns) (he : r = r') : FnAcross b b' f f' := by
  rcases rest_shape h with ⟨h1, rfl⟩ | ⟨rc, p, h1, hp, rfl⟩ <;>
  rcases rest_shape h' with ⟨h2, rfl⟩ | ⟨rc', p', h2, hp', rfl⟩ <;>
    simp only [List.cons.injEq, and_true, reduceCtorEq, and_false] at he
  · exact ⟨hns, String.toList_injective he, .inl ⟨h1, h2⟩⟩
  · exact ⟨hns, String.toList_injective he.2, .inr ⟨rc, rc', p, p', h1, h2, (resolve_declared hp).1, (resolve_declared hp).2,
      (resolve_declared hp').1, (resolve_declared hp').2, String.toList_injective he.1⟩⟩

/-- **C119**.  If a function of one accepted bridge and a function of another accepted bridge, supporting functions included,
have the same symbol, then they are the same in all that distinguishes them in C++. -/
theorem symbols_across {g g' : Generator} {b b' : List Api} (ha : Accepted g b) (ha' : Accepted g' b')
    (hl : LexicalBridge b) (hl' : LexicalBridge b') (hv : ∀ p, DeclaresType b p → ¬ InsideStdVector p)
    (hv' : ∀ p, DeclaresType b' p → ¬ InsideStdVector p) {e e' : Entity} (h : e.In b) (h' : e'.In b') {s : Symbol}
    (hs : symbolOf (collect b) e = some s) (hs' : symbolOf (collect b') e' = some s) : Across b b' e e' := by
  rw [symbolOf_eq _ _ (named_of_in hl h)] at hs
  rw [symbolOf_eq _ _ (named_of_in hl' h')] at hs'
  obtain ⟨⟨ns, r⟩, hx, rfl⟩ := Option.map_eq_some_iff.1 hs
  obtain ⟨⟨ns', r'⟩, hx', he⟩ := Option.map_eq_some_iff.1 hs'
  have g1 := parts_good ha hl h hx
  have g2 := parts_good ha' hl' h' hx'
  obtain ⟨rfl, rfl⟩ := sep_inj g2.1 g1.1 (glue_inj _ _ (by simp) (by simp) g2.2 g1.2 he)
  clear g1 g2 he hs hs'
  have last : ∀ {a b : List Symbol} {x y}, a ++ [x] = b ++ [y] → x = y := by
    intro a b x y hh; simpa using (List.append_inj' hh rfl).2
  have e2 : ∀ (a : List Symbol) x y, a ++ [x, y] = (a ++ [x]) ++ [y] := by simp
  have e3 : ∀ (x y z : Symbol), [x, y, z] = [x, y] ++ [z] := by simp
  cases e with
  | fn f =>
    obtain ⟨r, hr, hq⟩ := Option.map_eq_some_iff.1 hx
    simp only [Prod.mk.injEq] at hq; obtain ⟨rfl, rfl⟩ := hq
    have hlen := rest_len hr
    cases e' with
    | fn f' =>
      obtain ⟨r', hr', hq⟩ := Option.map_eq_some_iff.1 hx'
      simp only [Prod.mk.injEq] at hq
      exact fn_across hr hr' hq.1.symm hq.2.symm
    | trampoline f' a' k' =>
      obtain ⟨r', hr', hq⟩ := Option.map_eq_some_iff.1 hx'
      simp only [Prod.mk.injEq] at hq
      have := congrArg List.length hq.2
      have h2 := rest_len hr'
      simp only [List.length_append, List.length_cons, List.length_nil] at this; omega
    | op p o =>
      have hq := Option.some.inj hx'
      simp only [Prod.mk.injEq] at hq
      have := congrArg List.length hq.2
      simp only [List.length_append, List.length_cons, List.length_nil] at this; omega
    | member w p m =>
      have hq := Option.some.inj hx'
      simp only [Prod.mk.injEq] at hq
      have := congrArg List.length hq.2
      have hw : 1 ≤ w.segs.length := by cases w <;> decide
      simp only [List.length_append, List.length_cons, List.length_nil] at this; omega
  | trampoline f a k =>
    obtain ⟨r, hr, hq⟩ := Option.map_eq_some_iff.1 hx
    simp only [Prod.mk.injEq] at hq; obtain ⟨rfl, rfl⟩ := hq
    have hlen := rest_len hr
    cases e' with
    | fn f' =>
      obtain ⟨r', hr', hq⟩ := Option.map_eq_some_iff.1 hx'
      simp only [Prod.mk.injEq] at hq
      have := congrArg List.length hq.2
      have h2 := rest_len hr'
      simp only [List.length_append, List.length_cons, List.length_nil] at this; omega
    | trampoline f' a' k' =>
      obtain ⟨r', hr', hq⟩ := Option.map_eq_some_iff.1 hx'
      simp only [Prod.mk.injEq] at hq
      have h1 := List.append_inj' hq.2 rfl
      simp only [List.cons.injEq, and_true] at h1
      refine ⟨fn_across hr hr' hq.1.symm h1.1.symm, (String.toList_injective h1.2.1).symm, ?_⟩
      cases k <;> cases k' <;> first | rfl | exact absurd h1.2.2 (by decide)
    | op p o =>
      have hq := Option.some.inj hx'
      simp only [Prod.mk.injEq] at hq
      have h1 := hq.2
      rw [e3, e2] at h1
      have := last h1
      cases k
      · exact absurd this (digits_not_ops o).1
      · exact absurd this (digits_not_ops o).2
    | member w p m =>
      have hq := Option.some.inj hx'
      simp only [Prod.mk.injEq] at hq
      have h1 := hq.2
      rw [e2, e2] at h1
      have := last h1
      cases k
      · exact absurd this (member_text h'.2).1
      · exact absurd this (member_text h'.2).2.1
  | op p o =>
    have hq0 := Option.some.inj hx
    simp only [Prod.mk.injEq] at hq0; obtain ⟨rfl, rfl⟩ := hq0
    cases e' with
    | fn f' =>
      obtain ⟨r', hr', hq⟩ := Option.map_eq_some_iff.1 hx'
      simp only [Prod.mk.injEq] at hq
      have := congrArg List.length hq.2
      have h2 := rest_len hr'
      simp only [List.length_append, List.length_cons, List.length_nil] at this; omega
    | trampoline f' a' k' =>
      obtain ⟨r', hr', hq⟩ := Option.map_eq_some_iff.1 hx'
      simp only [Prod.mk.injEq] at hq
      have h1 := hq.2
      rw [e3, e2] at h1
      have := last h1
      cases k'
      · exact absurd this.symm (digits_not_ops o).1
      · exact absurd this.symm (digits_not_ops o).2
    | op q o' =>
      have hq := Option.some.inj hx'
      simp only [Prod.mk.injEq, List.cons.injEq, true_and, and_true] at hq
      exact ⟨⟨hq.1.symm, (String.toList_injective hq.2.1).symm⟩, (op_text_inj hq.2.2).symm⟩
    | member w q m =>
      have hq := Option.some.inj hx'
      simp only [Prod.mk.injEq] at hq
      have h1 := hq.2
      rw [e3, e2] at h1
      exact absurd (last h1) ((member_text h'.2).2.2 o)
  | member w p m =>
    have hq0 := Option.some.inj hx
    simp only [Prod.mk.injEq] at hq0; obtain ⟨rfl, rfl⟩ := hq0
    cases e' with
    | fn f' =>
      obtain ⟨r', hr', hq⟩ := Option.map_eq_some_iff.1 hx'
      simp only [Prod.mk.injEq] at hq
      have := congrArg List.length hq.2
      have h2 := rest_len hr'
      have hw : 1 ≤ w.segs.length := by cases w <;> decide
      simp only [List.length_append, List.length_cons, List.length_nil] at this; omega
    | trampoline f' a' k' =>
      obtain ⟨r', hr', hq⟩ := Option.map_eq_some_iff.1 hx'
      simp only [Prod.mk.injEq] at hq
      have h1 := hq.2
      rw [e2, e2] at h1
      have := last h1
      cases k'
      · exact absurd this.symm (member_text h.2).1
      · exact absurd this.symm (member_text h.2).2.1
    | op q o =>
      have hq := Option.some.inj hx'
      simp only [Prod.mk.injEq] at hq
      have h1 := hq.2
      rw [e3, e2] at h1
      exact absurd (last h1).symm ((member_text h.2).2.2 o)
    | member w' q m' =>
      have hq := Option.some.inj hx'
      simp only [Prod.mk.injEq] at hq
      exact member_parts (hv p h.1) (hv' q h'.1) hq.2.symm

/-- So the functions of a bridge never have the symbol of a supporting function of any bridge. -/
theorem functions_support_apart {R : Type} {prog : List (Bridge R)} (ha : ∀ b ∈ prog, ∃ g, Accepted g b.apis)
    (hl : ∀ b ∈ prog, LexicalBridge b.apis) (hv : ∀ b ∈ prog, ∀ p, DeclaresType b.apis p → ¬ InsideStdVector p)
    {b : Bridge R} (hb : b ∈ prog) {f : ExternFn} (hf : DeclaresFn b.apis f) :
    externFn (collect b.apis) f ∉ supporting prog ∧
    (∀ v ∈ f.sig.args, ∀ h, symbolOf (collect b.apis) (.trampoline f v.name h) ∉ supporting prog) := by
  have key : ∀ e : Entity, e.In b.apis → (∀ p i, ¬ Supports p i e) → symbolOf (collect b.apis) e ∉ supporting prog := by
    intro e he hns hm
    obtain ⟨b', hb', hm⟩ := List.mem_flatMap.1 hm
    obtain ⟨x, hx, hm⟩ := List.mem_flatMap.1 hm
    obtain ⟨g, hg⟩ := ha b hb
    obtain ⟨g', hg'⟩ := ha b' hb'
    rcases piece_made hg' (hl b' hb') hx with h | ⟨p, es, h⟩
    · rw [h] at hm; cases hm
    · rw [h.functions] at hm
      obtain ⟨e', he', hs⟩ := List.mem_map.1 hm
      obtain ⟨hi, hp⟩ := h.right e' he'
      obtain ⟨s, hs'⟩ := symbol_exists hg (hl b hb) he
      have := symbols_across hg hg' (hl b hb) (hl b' hb') (hv b hb) (hv b' hb') he hi hs' (hs.trans hs')
      cases e with
      | op q o => exact hns q (opImpl o) ⟨rfl, rfl⟩
      | member w q m => exact hns q (wrapperImpl w) ⟨rfl, rfl⟩
      | fn | trampoline => cases e' <;> first | exact this.elim | exact hp.elim
  exact ⟨key (.fn f) hf fun _ _ => id, fun v hv' h => key (.trampoline f v.name h) ⟨hf, v, hv', rfl⟩ fun _ _ => id⟩

/-! ### A case -/

theorem demo_lexical : ∀ b ∈ demo, LexicalBridge b.apis := by
  intro b hb
  simp only [demo, List.mem_cons, List.not_mem_nil, or_false] at hb
  rcases hb with rfl | rfl <;> intro a ha p hp <;>
    simp only [owner, user, List.mem_cons, List.not_mem_nil, or_false] at ha <;> rcases ha with rfl | rfl | rfl <;>
    simp [namesOf] at hp <;> (try rcases hp with rfl | rfl | rfl | rfl) <;> (try rcases hp with rfl | rfl | rfl) <;>
    subst_vars <;> (try unfold LexicalPair Lexical) <;> decide +kernel

/-- The hypotheses of all theorems of C119 can be met, by bridges with functions in both. -/
example : (∀ b ∈ demo, ∃ g, Accepted g b.apis) ∧ (∀ b ∈ demo, LexicalBridge b.apis) ∧
    (∃ b ∈ demo, ∃ f, DeclaresFn b.apis f ∧ externFn (collect b.apis) f = some "cxxbridge1$h".toList) :=
  ⟨fun b hb => ⟨.macro, (by decide +kernel : ∀ b ∈ demo, Accepted .macro b.apis) b hb⟩, demo_lexical,
   ⟨user, id⟩, by simp [demo], _, .inl (by simp [user]; rfl), by decide +kernel⟩

end Verif.Once
