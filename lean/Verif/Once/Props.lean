import Verif.Once.Model
import Verif.Mangle.Props
import Verif.Check.Props
/-!
# C119: the bridges of a program generate each supporting function once
-/
namespace Verif.Once
open Verif.Syntax Verif.Types Verif.Mangle Verif.Check

/-! ### Programs -/

/-- A bridge of a program, with what each of its types is: `R` are the types of the whole program. -/
structure Bridge (R : Type) where
  apis : List Api
  means : Ident → R

/-- Rust accepts the impls of the program: no trait is implemented twice for a type. -/
def Coherent {R : Type} (prog : List (Bridge R)) : Prop :=
  (prog.flatMap fun b => (pieces (collect b.apis) b.apis).map fun x => (x.trait, b.means x.name)).Nodup

/-- No two types of the program have the same qualified name in C++. -/
def OneName {R : Type} (prog : List (Bridge R)) : Prop :=
  ∀ b ∈ prog, ∀ b' ∈ prog, ∀ p q, DeclaresType b.apis p → DeclaresType b'.apis q → SameType p q →
    b.means p.rust = b'.means q.rust

/-- All supporting functions that are generated for the program. -/
def supporting {R : Type} (prog : List (Bridge R)) : List (Option Symbol) :=
  prog.flatMap fun b => (pieces (collect b.apis) b.apis).flatMap (·.functions)

/-! ### Lists -/

theorem nodup_keys {α β γ : Type} {f : α → List β} {key : α → γ} {l : List α} (hk : (l.map key).Nodup)
    (hn : ∀ x ∈ l, (f x).Nodup) (hd : ∀ x ∈ l, ∀ y ∈ l, ∀ s, s ∈ f x → s ∈ f y → key x = key y) : (l.flatMap f).Nodup := by
  induction l with
  | nil => simp
  | cons a l ih =>
    simp only [List.map_cons, List.nodup_cons] at hk
    rw [List.flatMap_cons, List.nodup_append]
    refine ⟨hn a List.mem_cons_self, ih hk.2 (fun x hx => hn x (.tail _ hx))
      (fun x hx y hy => hd x (.tail _ hx) y (.tail _ hy)), ?_⟩
    intro s hs t ht he
    subst he
    obtain ⟨y, hy, hs'⟩ := List.mem_flatMap.1 ht
    exact hk.1 (List.mem_map.2 ⟨y, hy, (hd a List.mem_cons_self y (.tail _ hy) s hs hs').symm⟩)

theorem nodup_map_on {α β : Type} {f : α → β} {l : List α} (h : l.Nodup) (hf : ∀ a ∈ l, ∀ b ∈ l, f a = f b → a = b) :
    (l.map f).Nodup := by
  induction l with
  | nil => simp
  | cons a l ih =>
    simp only [List.map_cons, List.nodup_cons] at h ⊢
    refine ⟨fun hm => ?_, ih h.2 fun x hx y hy => hf x (.tail _ hx) y (.tail _ hy)⟩
    obtain ⟨b, hb, he⟩ := List.mem_map.1 hm
    exact h.1 (hf b (.tail _ hb) a List.mem_cons_self he ▸ hb)

/-! ### Where functions come from -/

/-- The impl beside which an operator stands. -/
def opImpl : Op → ImplOf
  | .eq | .ne => .derived .partialEq
  | .lt | .le | .gt | .ge => .derived .partialOrd
  | .hash => .derived .hash
  | .sizeof | .alignof => .rustType

/-- The impl beside which a member of an instantiation stands. -/
def wrapperImpl : Wrapper → ImplOf
  | .box => .implBox
  | .vec => .implVec
  | .uniquePtr => .uniquePtrTarget
  | .sharedPtr => .sharedPtrTarget
  | .weakPtr => .weakPtrTarget
  | .vector | .uniquePtrVector => .vectorElement

/-- The entity supports the type `p`, beside an impl of `i`. -/
def Supports (p : Pair) (i : ImplOf) : Entity → Prop
  | .op q o => q = p ∧ opImpl o = i
  | .member w q _ => q = p ∧ wrapperImpl w = i
  | _ => False

/-- Symbols of supporting functions, of different bridges too, tell what they support. -/
theorem symbol_supports {b b' : List Api} {g g' : Generator} (ha : Accepted g b) (ha' : Accepted g' b')
    (hl : LexicalBridge b) (hl' : LexicalBridge b') (hv : ∀ p, DeclaresType b p → ¬ InsideStdVector p)
    (hv' : ∀ p, DeclaresType b' p → ¬ InsideStdVector p) {e e' : Entity} (h : e.In b) (h' : e'.In b') {p p' : Pair}
    {i i' : ImplOf} (hp : Supports p i e) (hp' : Supports p' i' e')
    (hs : symbolOf (collect b) e = symbolOf (collect b') e') : SameType p p' ∧ i = i' ∧ (p = p' → e = e') := by
  obtain ⟨x, hx⟩ := symbol_exists ha hl h
  rw [hx] at hs
  have hx' := hs.symm
  rw [symbolOf_eq _ _ (named_of_in hl h)] at hx
  rw [symbolOf_eq _ _ (named_of_in hl' h')] at hx'
  obtain ⟨⟨ns, r⟩, hq, rfl⟩ := Option.map_eq_some_iff.1 hx
  obtain ⟨⟨ns', r'⟩, hq', he⟩ := Option.map_eq_some_iff.1 hx'
  have g1 := parts_good ha hl h hq
  have g2 := parts_good ha' hl' h' hq'
  obtain ⟨rfl, rfl⟩ := sep_inj g2.1 g1.1 (glue_inj _ _ (by simp) (by simp) g2.2 g1.2 he)
  have last : ∀ {a b : List Symbol} {x y}, a ++ [x] = b ++ [y] → x = y := by
    intro a b x y hh; simpa using (List.append_inj' hh rfl).2
  have e2 : ∀ (a : List Symbol) x y, a ++ [x, y] = (a ++ [x]) ++ [y] := by simp
  have e3 : ∀ (x y z : Symbol), [x, y, z] = [x, y] ++ [z] := by simp
  cases e with
  | fn | trampoline => exact hp.elim
  | op q o =>
    cases e' with
    | fn | trampoline => exact hp'.elim
    | op q' o' =>
      obtain ⟨rfl, rfl⟩ := hp
      obtain ⟨rfl, rfl⟩ := hp'
      have h1 := (Option.some.inj hq).trans (Option.some.inj hq').symm
      simp only [Prod.mk.injEq, List.cons.injEq, true_and, and_true] at h1
      have ho := op_text_inj h1.2.2
      subst ho
      exact ⟨⟨h1.1, String.toList_injective h1.2.1⟩, rfl, fun h => h ▸ rfl⟩
    | member w q' m =>
      have h1 := (Option.some.inj hq).trans (Option.some.inj hq').symm
      simp only [Prod.mk.injEq] at h1
      have h1 := h1.2
      rw [e3, e2] at h1
      exact absurd (last h1).symm ((member_text h'.2).2.2 o)
  | member w q m =>
    cases e' with
    | fn | trampoline => exact hp'.elim
    | op q' o =>
      have h1 := (Option.some.inj hq).trans (Option.some.inj hq').symm
      simp only [Prod.mk.injEq] at h1
      have h1 := h1.2
      rw [e3, e2] at h1
      exact absurd (last h1) ((member_text h.2).2.2 o)
    | member w' q' m' =>
      obtain ⟨rfl, rfl⟩ := hp
      obtain ⟨rfl, rfl⟩ := hp'
      have h1 := (Option.some.inj hq).trans (Option.some.inj hq').symm
      simp only [Prod.mk.injEq] at h1
      obtain ⟨rfl, hst, rfl⟩ := member_parts (hv q h.1) (hv' q' h'.1) h1.2
      exact ⟨hst, rfl, fun h => h ▸ rfl⟩

/-- The functions beside an impl are different entities, of the type and of the impl. -/
structure Made (apis : List Api) (x : Piece) (p : Pair) (es : List Entity) : Prop where
  named : p.rust = x.name
  declared : DeclaresType apis p
  functions : x.functions = es.map (symbolOf (collect apis))
  nodup : es.Nodup
  right : ∀ e ∈ es, e.In apis ∧ Supports p x.trait e

/-- The operators as entities. -/
def opsOf (derives : List Trait) : Trait → List Op
  | .partialEq => .eq :: if derives.contains .eq then [] else [.ne]
  | .partialOrd => .lt :: .le :: if derives.contains .ord then [] else [.gt, .ge]
  | .hash => [.hash]
  | _ => []

theorem struct_made {apis : List Api} {s : Struct} (hs : Api.struct s ∈ apis) (d : Trait) :
    Made apis ⟨.derived d, s.name.rust, (Names.operatorsOf s.derives d).map (operator s.name)⟩ s.name
      ((opsOf s.derives d).map (.op s.name)) := by
  have hd : DeclaresType apis s.name := ⟨_, hs, s.generics, rfl⟩
  refine ⟨rfl, hd, ?_, ?_, ?_⟩
  · cases d <;> simp only [Names.operatorsOf, opsOf] <;> (try split) <;> rfl
  · cases d <;> simp only [opsOf] <;> (try split) <;> simp
  · intro e he
    obtain ⟨o, ho, rfl⟩ := List.mem_map.1 he
    refine ⟨hd, rfl, ?_⟩
    revert ho
    cases d <;> simp only [opsOf] <;> (try split) <;> simp <;> (try rintro rfl) <;> (try rintro (rfl | rfl)) <;>
      (try rintro (rfl | rfl | rfl | rfl)) <;> rfl

theorem rust_made {apis : List Api} {t : ExternType} (ht : Api.rustType t ∈ apis) :
    Made apis ⟨.rustType, t.name.rust, [operator t.name "sizeof", operator t.name "alignof"]⟩ t.name
      [.op t.name .sizeof, .op t.name .alignof] := by
  have hd : DeclaresType apis t.name := ⟨_, ht, t.generics, rfl⟩
  refine ⟨rfl, hd, rfl, by simp, ?_⟩
  intro e he
  simp only [List.mem_cons, List.not_mem_nil, or_false] at he
  rcases he with rfl | rfl <;> exact ⟨hd, rfl, rfl⟩

/-- The members as entities. -/
def membersOf (trivial : Bool) (p : Pair) : ImplKey → List Entity
  | .rustBox _ => rustBoxOps.map (.member .box p)
  | .rustVec _ => rustVecOps.map (.member .vec p)
  | .uniquePtr _ => (rustUniquePtrOps trivial).map (.member .uniquePtr p)
  | .sharedPtr _ => (rustSharedPtrOps trivial).map (.member .sharedPtr p)
  | .weakPtr _ => rustWeakPtrOps.map (.member .weakPtr p)
  | .cxxVector _ => (rustCxxVectorOps trivial).map (.member .vector p) ++ rustVectorPtrOps.map (.member .uniquePtrVector p)

theorem key_made {g : Generator} {apis : List Api} (ha : Accepted g apis) (hl : LexicalBridge apis) {k : ImplKey}
    (hk : k ∈ (collect apis).impls.map (·.1)) :
    ∃ p, Made apis (keyPiece (collect apis) k) p (membersOf (isMaybeTrivial (collect apis) k.rust) p k) := by
  have hr := ((names_resolve ha).2.2 k hk).2
  cases hp : resolve (collect apis) k.rust with
  | none => simp [resolve] at hp; exact absurd hp hr
  | some p =>
    obtain ⟨hd, hpr⟩ := resolve_declared hp
    have hf := formatted_eq (toSymbol_eq p (lexical_type hl hd))
    refine ⟨p, hpr, hd, ?_, ?_, ?_⟩
    · unfold keyPiece rustInst
      cases k <;> simp only [ImplKey.rust] at hp ⊢ <;>
        cases isMaybeTrivial (collect apis) _ <;>
        simp [hp, hf, membersOf, symbolOf, Wrapper.pre, rustBoxOps, rustVecOps, rustUniquePtrOps, rustSharedPtrOps,
          rustWeakPtrOps, rustCxxVectorOps, rustVectorPtrOps]
    · cases k <;> cases isMaybeTrivial (collect apis) _ <;>
        simp [membersOf, rustBoxOps, rustVecOps, rustUniquePtrOps, rustSharedPtrOps,
          rustWeakPtrOps, rustCxxVectorOps, rustVectorPtrOps]
    · intro e he
      revert he
      have key : ∀ (w : Wrapper) (ops : List String), (∀ m ∈ ops, m ∈ members w) → wrapperImpl w = implOf k →
          e ∈ ops.map (.member w p) → e.In apis ∧ Supports p (implOf k) e := by
        intro w ops h1 h2 he
        obtain ⟨m, hm, rfl⟩ := List.mem_map.1 he
        exact ⟨⟨hd, h1 m hm⟩, rfl, h2⟩
      cases k <;> simp only [membersOf, keyPiece, List.mem_append]
      · exact key _ _ (by decide) rfl
      · exact key _ _ (by decide) rfl
      · exact key _ _ (by cases isMaybeTrivial (collect apis) _ <;> decide) rfl
      · exact key _ _ (by cases isMaybeTrivial (collect apis) _ <;> decide) rfl
      · exact key _ _ (by decide) rfl
      · rintro (h | h)
        · exact key .vector _ (by cases isMaybeTrivial (collect apis) _ <;> decide) rfl h
        · exact key .uniquePtrVector _ (by decide) rfl h

/-- Every impl with functions is one of these. -/
theorem piece_made {g : Generator} {apis : List Api} (ha : Accepted g apis) (hl : LexicalBridge apis) {x : Piece}
    (hx : x ∈ pieces (collect apis) apis) : x.functions = [] ∨ ∃ p es, Made apis x p es := by
  rcases List.mem_append.1 hx with h | h
  · obtain ⟨a, hm, h⟩ := List.mem_flatMap.1 h
    cases a <;> simp only [itemPieces, List.mem_cons, List.mem_map, List.not_mem_nil, or_false] at h
    case struct s =>
      rcases h with rfl | ⟨d, _, rfl⟩
      · exact .inl rfl
      · exact .inr ⟨_, _, struct_made hm d⟩
    case enum => subst h; exact .inl rfl
    case cxxType t =>
      split at h
      · cases h
      · rw [List.mem_singleton.1 h]; exact .inl rfl
    case rustType t =>
      rcases h with rfl | ⟨d, _, rfl⟩
      · exact .inr ⟨_, _, rust_made hm⟩
      · exact .inl rfl
  · obtain ⟨e, he, rfl⟩ := List.mem_map.1 h
    obtain ⟨p, hp⟩ := key_made ha hl (List.mem_map_of_mem (f := (·.1)) he)
    exact .inr ⟨p, _, hp⟩

/-! ### C119 -/

/-- **C119**.  If every bridge of a program is accepted, Rust accepts its impls, and different types have different names in
C++, then all supporting functions of all bridges have symbols, and no two of them the same. -/
theorem support_once {R : Type} {prog : List (Bridge R)} (ha : ∀ b ∈ prog, ∃ g, Accepted g b.apis)
    (hl : ∀ b ∈ prog, LexicalBridge b.apis) (hv : ∀ b ∈ prog, ∀ p, DeclaresType b.apis p → ¬ InsideStdVector p)
    (hc : Coherent prog) (hn : OneName prog) : (supporting prog).Nodup ∧ none ∉ supporting prog := by
  have flat : supporting prog = (prog.flatMap fun b => (pieces (collect b.apis) b.apis).map (b, ·)).flatMap
      (fun x => x.2.functions) := by
    simp [supporting, List.flatMap_assoc, List.flatMap_map]
  have mem : ∀ x ∈ prog.flatMap fun b => (pieces (collect b.apis) b.apis).map (b, ·),
      x.1 ∈ prog ∧ x.2 ∈ pieces (collect x.1.apis) x.1.apis := by
    intro x hx
    obtain ⟨b, hb, hx⟩ := List.mem_flatMap.1 hx
    obtain ⟨y, hy, rfl⟩ := List.mem_map.1 hx
    exact ⟨hb, hy⟩
  have made : ∀ x ∈ prog.flatMap fun b => (pieces (collect b.apis) b.apis).map (b, ·),
      x.2.functions = [] ∨ ∃ p es, Made x.1.apis x.2 p es := by
    intro x hx
    obtain ⟨hb, hy⟩ := mem x hx
    obtain ⟨g, hg⟩ := ha _ hb
    exact piece_made hg (hl _ hb) hy
  rw [flat]
  refine ⟨nodup_keys (key := fun x => (x.2.trait, x.1.means x.2.name)) ?_ ?_ ?_, ?_⟩
  · have : (prog.flatMap fun b => (pieces (collect b.apis) b.apis).map (b, ·)).map
        (fun x => (x.2.trait, x.1.means x.2.name)) =
        prog.flatMap fun b => (pieces (collect b.apis) b.apis).map fun x => (x.trait, b.means x.name) := by
      simp [List.map_flatMap, Function.comp_def]
    rw [this]; exact hc
  · intro x hx
    obtain ⟨g, hg⟩ := ha _ (mem x hx).1
    rcases made x hx with h | ⟨p, es, h⟩
    · rw [h]; exact List.nodup_nil
    · rw [h.functions]
      refine nodup_map_on h.nodup fun e he e' he' hs => ?_
      obtain ⟨hi, hp⟩ := h.right e he
      obtain ⟨hi', hp'⟩ := h.right e' he'
      exact (symbol_supports hg hg (hl _ (mem x hx).1) (hl _ (mem x hx).1) (hv _ (mem x hx).1) (hv _ (mem x hx).1)
        hi hi' hp hp' hs).2.2 rfl
  · intro x hx y hy s hsx hsy
    have hbx := (mem x hx).1
    have hby := (mem y hy).1
    obtain ⟨g, hg⟩ := ha _ hbx
    obtain ⟨g', hg'⟩ := ha _ hby
    rcases made x hx with h | ⟨p, es, h⟩
    · rw [h] at hsx; cases hsx
    rcases made y hy with h' | ⟨p', es', h'⟩
    · rw [h'] at hsy; cases hsy
    rw [h.functions] at hsx
    rw [h'.functions] at hsy
    obtain ⟨e, he, rfl⟩ := List.mem_map.1 hsx
    obtain ⟨e', he', hs⟩ := List.mem_map.1 hsy
    obtain ⟨hi, hp⟩ := h.right e he
    obtain ⟨hi', hp'⟩ := h'.right e' he'
    obtain ⟨h1, h2, _⟩ := symbol_supports hg hg' (hl _ hbx) (hl _ hby) (hv _ hbx) (hv _ hby) hi hi' hp hp' hs.symm
    have := hn _ hbx _ hby p p' h.declared h'.declared h1
    rw [h.named, h'.named] at this
    exact Prod.ext h2 this
  · intro hm
    obtain ⟨x, hx, hs⟩ := List.mem_flatMap.1 hm
    have hbx := (mem x hx).1
    obtain ⟨g, hg⟩ := ha _ hbx
    rcases made x hx with h | ⟨p, es, h⟩
    · rw [h] at hs; cases hs
    rw [h.functions] at hs
    obtain ⟨e, he, hs⟩ := List.mem_map.1 hs
    obtain ⟨s, hs'⟩ := symbol_exists hg (hl _ hbx) (h.right e he).1
    rw [hs] at hs'; cases hs'

/-! ### Cases -/

private def ns (s : String) : Pair := ⟨[], s, s⟩

/-- `struct S` with an operator, in vectors and pointers, and an opaque Rust type in boxes. -/
def owner : List Api :=
  [.struct ⟨[.partialEq], ns "S", [], [⟨ns "x", Ty.named "u8"⟩]⟩, .rustType ⟨.rust, [], ns "B", [], [], true⟩,
   .rustFunction ⟨.rust, ns "f", ⟨false, [], none,
     [⟨ns "v", .rustVec (Ty.named "S")⟩, ⟨ns "p", .uniquePtr (Ty.named "S")⟩, ⟨ns "b", .rustBox (Ty.named "B")⟩], none, false⟩, true⟩]

/-- Another bridge that uses the struct: `type S = super::owner::S;`, in a pointer, and for the first time in a vector of C++. -/
def user : List Api :=
  [.typeAlias ⟨[], ns "S", []⟩,
   .cxxFunction ⟨.cxx, ns "h", ⟨false, [], none,
     [⟨ns "p", .uniquePtr (Ty.named "S")⟩, ⟨ns "v", .ref false none false (.cxxVector (Ty.named "S"))⟩], none, false⟩, true⟩,
   .impl ⟨[], false, .cxxVector (Ty.named "S")⟩]

/-- Both, as one program: the names mean the same in both. -/
def demo : List (Bridge String) := [⟨owner, id⟩, ⟨user, id⟩]

theorem declares_demo {b : Bridge String} (hb : b ∈ demo) {p : Pair} (hp : DeclaresType b.apis p) :
    p = ns "S" ∨ p = ns "B" := by
  obtain ⟨a, ha, g, hr⟩ := hp
  simp only [demo, List.mem_cons, List.not_mem_nil, or_false] at hb
  rcases hb with rfl | rfl <;> simp only [owner, user, List.mem_cons, List.not_mem_nil, or_false] at ha <;>
    rcases ha with rfl | rfl | rfl <;> simp [resolves] at hr <;> simp [← hr.1]

example : (∀ b ∈ demo, Accepted .macro b.apis) ∧ (∀ b ∈ demo, ∀ p, DeclaresType b.apis p → ¬ InsideStdVector p) ∧
    Coherent demo ∧ OneName demo ∧ (supporting demo).length = 31 := by
  refine ⟨by decide +kernel, ?_, by unfold Coherent; decide +kernel, ?_, by decide +kernel⟩
  · intro b hb p hp
    rcases declares_demo hb hp with rfl | rfl <;> simp [InsideStdVector, ns]
  · intro b hb b' hb' p q hp hq hs
    have hm : ∀ b ∈ demo, b.means = id := by simp [demo]
    rw [hm b hb, hm b' hb']
    rcases declares_demo hb hp with rfl | rfl <;> rcases declares_demo hb' hq with rfl | rfl <;>
      simp_all [SameType, ns]

/-- The condition on names is needed: two structs `S` of different modules, both in vectors, have functions with the same
symbols.  Each bridge is accepted, and Rust has nothing against their impls. -/
theorem same_name_clashes :
    let b : List Api := [.struct ⟨[], ns "S", [], [⟨ns "x", Ty.named "u8"⟩]⟩,
      .rustFunction ⟨.rust, ns "f", ⟨false, [], none, [⟨ns "v", .rustVec (Ty.named "S")⟩], none, false⟩, true⟩]
    let prog : List (Bridge (Nat × String)) := [⟨b, (1, ·)⟩, ⟨b, (2, ·)⟩]
    (∀ b ∈ prog, Accepted .macro b.apis) ∧ Coherent prog ∧ ¬ (supporting prog).Nodup := by
  refine ⟨by decide +kernel, by unfold Coherent; decide +kernel, by decide +kernel⟩

/-- Functions have no such protection: two bridges that declare the same C++ function are accepted and have impls that Rust
accepts, and both generate the function `cxxbridge1$g`. -/
theorem shared_function_clashes :
    let f : ExternFn := ⟨.cxx, ns "g", ⟨false, [], none, [], none, false⟩, true⟩
    let prog : List (Bridge String) := [⟨[.cxxFunction f], id⟩, ⟨[.cxxFunction f], id⟩]
    (∀ b ∈ prog, Accepted .macro b.apis) ∧ Coherent prog ∧
      ∀ b ∈ prog, externFn (collect b.apis) f = some "cxxbridge1$g".toList := by
  refine ⟨by decide +kernel, by unfold Coherent; decide +kernel, by decide +kernel⟩

end Verif.Once
