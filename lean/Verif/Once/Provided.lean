import Verif.Once.Across
import Verif.Check.Exact
import Verif.Assert.Props
import Verif.Qualified.Props
/-!
# C120: the supporting functions of smart pointers and vectors are there
-/
namespace Verif.Once
open Verif.Syntax Verif.Types Verif.Mangle Verif.Check

/-! ### What should hold -/

/-- The functions without which a wrapper cannot be used.  The others make or take values of the type (C118). -/
def essential : Wrapper → List String
  | .box => ["alloc", "dealloc", "drop"]
  | .vec => ["new", "drop", "len", "capacity", "data", "reserve_total", "set_len", "truncate"]
  | .uniquePtr => ["null", "raw", "get", "release", "drop"]
  | .sharedPtr => ["null", "clone", "get", "drop"]
  | .weakPtr => ["null", "clone", "downgrade", "upgrade", "drop"]
  | .vector => ["new", "size", "get_unchecked"]
  | .uniquePtrVector => ["null", "raw", "get", "release", "drop"]

/-- The type is a wrapper of the named type. -/
inductive Wraps : Ty → Wrapper → NamedType → Prop
  | box {n} : Wraps (.rustBox (.ident n)) .box n
  | vec {n} : Wraps (.rustVec (.ident n)) .vec n
  | uniquePtr {n} : Wraps (.uniquePtr (.ident n)) .uniquePtr n
  | sharedPtr {n} : Wraps (.sharedPtr (.ident n)) .sharedPtr n
  | weakPtr {n} : Wraps (.weakPtr (.ident n)) .weakPtr n
  | vector {n} : Wraps (.cxxVector (.ident n)) .vector n
  | uniquePtrVector {n} : Wraps (.uniquePtr (.cxxVector (.ident n))) .uniquePtrVector n

/-- The bound that Rust puts on the type in a smart pointer: src/unique_ptr.rs:22-26 `T: UniquePtrTarget`, 447-449 for vectors
`T: VectorElement`, src/shared_ptr.rs:15-20 `T: SharedPtrTarget`, src/weak_ptr.rs:14-18 `T: WeakPtrTarget`.  Boxes and vectors of
Rust have none, nor has `CxxVector` (src/cxx_vector.rs:24-34). -/
inductive Bound : Wrapper → ImplOf → Prop
  | uniquePtr : Bound .uniquePtr .uniquePtrTarget
  | uniquePtrVector : Bound .uniquePtrVector .vectorElement
  | sharedPtr : Bound .sharedPtr .sharedPtrTarget
  | weakPtr : Bound .weakPtr .weakPtrTarget

/-- Rust accepts the smart pointers of the program: a bridge implements the trait.  Types of the library are left out (C18). -/
def Bounded {R : Type} (prog : List (Bridge R)) : Prop :=
  ∀ b ∈ prog, ∀ t, Occurs b.apis t → ∀ w n, Wraps t w n → n.rust ∉ Rules.builtins → ∀ i, Bound w i →
    ∃ b' ∈ prog, ∃ x ∈ pieces (collect b'.apis) b'.apis, x.trait = i ∧ b'.means x.name = b.means n.rust

/-- Rust accepts the impls of `ExternType` and the checks of aliases in the program (C74): `types` says what its types are. -/
def Checked {R : Type} (types : R → Assert.RustTy) (prog : List (Bridge R)) : Prop :=
  ∀ b ∈ prog, Assert.Compiles (fun n => types (b.means n)) (Assert.expand (cxOf .macro b.apis))

/-- Where a bridge has two declarations for one type, they agree on its name in C++. -/
def OneDecl (apis : List Api) : Prop :=
  ∀ p q, DeclaresType apis p → DeclaresType apis q → p.rust = q.rust → SameType p q

/-- No name of a type in C++ is a raw identifier. -/
def NoRaw (apis : List Api) : Prop :=
  ∀ p, DeclaresType apis p → ∀ s ∈ p.ns ++ [p.cxx], s.toList.take 2 ≠ ['r', '#']

/-! ### Proof -/

theorem member_same (ts ts' : Types) {p q : Pair} (h : SameType p q) (w : Wrapper) (m : String) :
    symbolOf ts (.member w p m) = symbolOf ts' (.member w q m) := by
  obtain ⟨a, b, c⟩ := p
  obtain ⟨a', b', c'⟩ := q
  obtain ⟨h1, h2⟩ := h
  simp only at h1 h2
  subst h1 h2
  rfl

/-- The wrapper that an instantiation is for. -/
def keyOf : Wrapper → Ident → ImplKey
  | .box, n => .rustBox n
  | .vec, n => .rustVec n
  | .uniquePtr, n => .uniquePtr n
  | .sharedPtr, n => .sharedPtr n
  | .weakPtr, n => .weakPtr n
  | .vector, n | .uniquePtrVector, n => .cxxVector n

theorem implOf_key (w : Wrapper) (n : Ident) : implOf (keyOf w n) = wrapperImpl w := by cases w <;> rfl

/-- An instantiation has the essential functions of its wrappers. -/
theorem key_essential {g : Generator} {apis : List Api} (ha : Accepted g apis) (hl : LexicalBridge apis) {w : Wrapper} {n : Ident}
    (hk : keyOf w n ∈ (collect apis).impls.map (·.1)) : ∃ p, DeclaresType apis p ∧ p.rust = n ∧
      ∀ m ∈ essential w, symbolOf (collect apis) (.member w p m) ∈ (keyPiece (collect apis) (keyOf w n)).functions := by
  obtain ⟨p, h⟩ := key_made ha hl hk
  refine ⟨p, h.declared, by rw [h.named]; cases w <;> rfl, fun m hm => ?_⟩
  rw [h.functions]
  refine List.mem_map_of_mem ?_
  revert hm m
  cases w <;> simp [essential, membersOf, keyOf, rustBoxOps, rustVecOps, rustUniquePtrOps, rustSharedPtrOps, rustWeakPtrOps,
    rustCxxVectorOps, rustVectorPtrOps]

theorem key_supporting {R : Type} {prog : List (Bridge R)} {b : Bridge R} (hb : b ∈ prog) {k : ImplKey}
    (hk : k ∈ (collect b.apis).impls.map (·.1)) {s : Option Symbol} (hs : s ∈ (keyPiece (collect b.apis) k).functions) :
    s ∈ supporting prog := by
  obtain ⟨e, he, rfl⟩ := List.mem_map.1 hk
  exact List.mem_flatMap.2 ⟨b, hb, List.mem_flatMap.2 ⟨_, List.mem_append_right _ (List.mem_map_of_mem he), hs⟩⟩

/-- The impls of the traits of smart pointers stand for instantiations. -/
theorem piece_key {apis : List Api} {x : Piece} (hx : x ∈ pieces (collect apis) apis) {w : Wrapper} {i : ImplOf}
    (hw : Bound w i) (ht : x.trait = i) : keyOf w x.name ∈ (collect apis).impls.map (·.1) := by
  rcases List.mem_append.1 hx with h | h
  · exfalso
    obtain ⟨a, _, h⟩ := List.mem_flatMap.1 h
    cases a <;> simp only [itemPieces, List.mem_cons, List.mem_map, List.not_mem_nil, or_false] at h
    case struct s => rcases h with rfl | ⟨d, _, rfl⟩ <;> subst ht <;> cases hw
    case enum => subst h; subst ht; cases hw
    case cxxType t =>
      split at h
      · cases h
      · rw [List.mem_singleton.1 h] at ht; subst ht; cases hw
    case rustType t => rcases h with rfl | ⟨d, _, rfl⟩ <;> subst ht <;> cases hw
  · obtain ⟨e, he, rfl⟩ := List.mem_map.1 h
    obtain ⟨k, v⟩ := e
    have := List.mem_map_of_mem (f := (·.1)) he
    subst ht
    cases k <;> cases w <;> first | exact this | cases hw

theorem wraps_key {t : Ty} {w : Wrapper} {n : NamedType} (h : Wraps t w n) {apis : List Api} (ho : Occurs apis t) :
    ∃ u, Occurs apis u ∧ implKey u = some (keyOf w n.rust) := by
  cases h
  case uniquePtrVector =>
    exact ⟨.cxxVector (.ident n), occurs_trans ho (.part (by constructor) (.self _)), rfl⟩
  all_goals exact ⟨_, ho, rfl⟩

/-- A type that is not from elsewhere has its instantiations in the bridge. -/
theorem own_instances {apis : List Api} {t : Ty} {w : Wrapper} {n : NamedType} (ho : Occurs apis t) (hw : Wraps t w n)
    (hb : n.rust ∉ Rules.builtins) (hn : Kind.alias ∉ definitions apis n.rust) :
    keyOf w n.rust ∈ (collect apis).impls.map (·.1) := by
  refine (impls_exact _ _).2 (.inr ?_)
  have hr : (keyOf w n.rust).rust = n.rust := by cases w <;> rfl
  rw [hr]
  exact ⟨(fromStr_none _).2 hb, hn, wraps_key hw ho⟩

/-- The type id of a type says what it is called in C++. -/
theorem same_of_id {p q : Pair} (hp : LexicalPair p) (hq : LexicalPair q) (rp : ∀ s ∈ p.ns ++ [p.cxx], s.toList.take 2 ≠ ['r', '#'])
    (rq : ∀ s ∈ q.ns ++ [q.cxx], s.toList.take 2 ≠ ['r', '#']) (h : Qualified.pairTypeId p = Qualified.pairTypeId q) :
    SameType p q := by
  have plain : ∀ s : Ident, s.toList.take 2 ≠ ['r', '#'] → Qualified.plainName s = s.toList := by
    intro s hs; simp [Qualified.plainName, hs]
  have proper : ∀ {p : Pair}, LexicalPair p → (∀ s ∈ p.ns ++ [p.cxx], s.toList.take 2 ≠ ['r', '#']) →
      ∀ s ∈ p.ns ++ [p.cxx], Qualified.Proper s := by
    intro p hp rp s hs
    have hne : s ≠ "" := by
      rcases List.mem_append.1 hs with h | h
      · exact (hp.1 s h).1
      · rw [List.mem_singleton.1 h]; exact hp.2.1.1
    unfold Qualified.Proper
    rw [plain s (rp s hs)]
    exact fun h => hne (String.toList_injective (by simpa using h))
  have h := (Qualified.type_id_injective _ _ (proper hp rp) (proper hq rq)).1 h
  have h : p.ns ++ [p.cxx] = q.ns ++ [q.cxx] := by
    have e : ∀ l : List Ident, (∀ s ∈ l, s.toList.take 2 ≠ ['r', '#']) → l.map Qualified.plainName = l.map String.toList := by
      intro l hl; exact List.map_congr_left fun s hs => plain s (hl s hs)
    rw [e _ rp, e _ rq] at h
    exact (List.map_inj_right fun _ _ => String.toList_injective).1 h
  have := List.append_inj' h rfl
  exact ⟨this.1, by simpa using this.2⟩

/-- What a bridge declares, other than by `extern "Rust"`, has the type id of its name in C++. -/
theorem declared_id {R : Type} {types : R → Assert.RustTy} {prog : List (Bridge R)} (hck : Checked types prog) {b : Bridge R}
    (hb : b ∈ prog) (h1 : OneDecl b.apis) {q : Pair} (hq : DeclaresType b.apis q) (hr : ¬ Rules.Rust b.apis q.rust) :
    ∃ p k, DeclaresType b.apis p ∧ SameType p q ∧ (types (b.means q.rust)).ext = some (Qualified.pairTypeId p, k) := by
  have hc := hck b hb
  obtain ⟨a, ha, g, hres⟩ := hq
  have hq : DeclaresType b.apis q := ⟨a, ha, g, hres⟩
  have ext : ∀ {p : Pair} {o : Bool}, Assert.Declares b.apis q.rust p o → DeclaresType b.apis p → p.rust = q.rust →
      ∃ p k, DeclaresType b.apis p ∧ SameType p q ∧ (types (b.means q.rust)).ext = some (Qualified.pairTypeId p, k) :=
    fun hd hp he => ⟨_, _, hp, h1 _ _ hp hq he, Assert.declares_ext hc hd⟩
  cases a <;> simp [resolves] at hres
  case struct s => obtain ⟨rfl, _⟩ := hres; exact ext (.struct s ha rfl rfl) hq rfl
  case enum s => obtain ⟨rfl, _⟩ := hres; exact ext (.enum s ha rfl rfl) hq rfl
  case rustType t =>
    obtain ⟨rfl, _⟩ := hres
    exact absurd (List.mem_map.2 ⟨(t.name.rust, Kind.rust), List.mem_filter.2 ⟨List.mem_filterMap.2 ⟨_, ha, rfl⟩, by simp⟩, rfl⟩) hr
  case cxxType t =>
    obtain ⟨rfl, _⟩ := hres
    by_cases hs : Kind.shared ∈ definitions b.apis t.name.rust ∨ Kind.headerEnum ∈ definitions b.apis t.name.rust
    · have : ∃ k, (k = Kind.shared ∨ k = .headerEnum) ∧ k ∈ definitions b.apis t.name.rust := by
        rcases hs with h | h
        · exact ⟨_, .inl rfl, h⟩
        · exact ⟨_, .inr rfl, h⟩
      obtain ⟨k, hk, hm⟩ := this
      obtain ⟨a, ha', hd⟩ := Assert.defined hm
      cases a <;> simp only [defines, Option.some.injEq, Prod.mk.injEq, reduceCtorEq] at hd
      case struct s => exact ext (.struct s ha' hd.1 rfl) ⟨_, ha', _, rfl⟩ hd.1
      case enum s => exact ext (.enum s ha' hd.1 rfl) ⟨_, ha', _, rfl⟩ hd.1
      all_goals (obtain ⟨_, rfl⟩ := hd; simp at hk)
    · have ho : OpaqueCxx b.apis t.name.rust :=
        ⟨List.mem_map.2 ⟨(t.name.rust, .cxx), List.mem_filter.2 ⟨List.mem_filterMap.2 ⟨_, ha, rfl⟩, by simp⟩, rfl⟩,
          fun h => hs (.inl h), fun h => hs (.inr h)⟩
      exact ext (.cxx t ha ho rfl rfl) hq rfl
  case typeAlias t =>
    obtain ⟨rfl, _⟩ := hres
    obtain ⟨k, hk⟩ := Assert.item hc ha (i := .id t.name.rust (Qualified.pairTypeId t.name))
      (by simp [Assert.expandApi, Assert.aliasVerify])
    exact ⟨t.name, k, hq, ⟨rfl, rfl⟩, hk⟩

/-- Smart pointers are not made for opaque Rust types. -/
theorem bound_not_rust {g : Generator} {apis : List Api} (ha : Accepted g apis) {w : Wrapper} {i : ImplOf} (hw : Bound w i)
    {n : Ident} (hk : keyOf w n ∈ (collect apis).impls.map (·.1)) : ¬ Rules.Rust apis n := by
  have : ∃ u, Occurs apis u ∧ implKey u = some (keyOf w n) := by
    rcases (impls_exact _ _).1 hk with ⟨i, hi, he⟩ | ⟨_, _, h⟩
    · exact ⟨i.ty, ⟨_, hi, i.ty, by simp [writtenTypes], .self _⟩, he⟩
    · exact h
  obtain ⟨u, ho, he⟩ := this
  have ok := (type_iff u).1 (accepted_type ha ho)
  cases hw <;> simp only [keyOf] at he <;> unfold implKey at he <;> split at he <;> cases he <;> cases ok <;> assumption

theorem count_nodup {l : List (Option Symbol)} (h : l.Nodup) {a : Option Symbol} (ha : a ∈ l) : l.count a = 1 := by
  induction l with
  | nil => cases ha
  | cons b l ih =>
    rw [List.nodup_cons] at h
    rw [List.count_cons]
    by_cases hb : b = a
    · subst hb
      simp [List.count_eq_zero.2 h.1]
    · simp [hb, ih h.2 ((List.mem_cons.1 ha).resolve_left fun h => hb h.symm)]

/-- **C120**.  If every bridge of a program is accepted and Rust accepts the program, then for every smart pointer to a type,
box or vector that occurs in a bridge, at any depth, each essential function has exactly one definition in the program, under the
symbol that the bridge calls it by.  Boxes and vectors have to be of types that the bridge itself declares, and not of aliases. -/
theorem supported {R : Type} {prog : List (Bridge R)} (ha : ∀ b ∈ prog, ∃ g, Accepted g b.apis)
    (hl : ∀ b ∈ prog, LexicalBridge b.apis) (hv : ∀ b ∈ prog, ∀ p, DeclaresType b.apis p → ¬ InsideStdVector p)
    (hc : Coherent prog) (hn : OneName prog) (hbd : Bounded prog) {types : R → Assert.RustTy} (hck : Checked types prog)
    (h1 : ∀ b ∈ prog, OneDecl b.apis) (hraw : ∀ b ∈ prog, NoRaw b.apis)
    {b : Bridge R} (hb : b ∈ prog) {t : Ty} (ho : Occurs b.apis t) {w : Wrapper} {n : NamedType} (hw : Wraps t w n)
    (hp : n.rust ∉ Rules.builtins) (hk : (∃ i, Bound w i) ∨ Kind.alias ∉ definitions b.apis n.rust)
    {p : Pair} (hd : DeclaresType b.apis p) (hr : p.rust = n.rust) {m : String} (hm : m ∈ essential w) :
    (supporting prog).count (symbolOf (collect b.apis) (.member w p m)) = 1 := by
  suffices h : symbolOf (collect b.apis) (.member w p m) ∈ supporting prog by
    exact count_nodup (support_once ha hl hv hc hn).1 h
  by_cases hal : Kind.alias ∈ definitions b.apis n.rust
  · obtain ⟨i, hi'⟩ := hk.resolve_right (fun h => h hal)
    obtain ⟨b', hb', x, hx, hxt, hxm⟩ := hbd b hb t ho w n hw hp i hi'
    have hkey := piece_key hx hi' hxt
    obtain ⟨g', hg'⟩ := ha b' hb'
    obtain ⟨q, hq, hqr, hs⟩ := key_essential hg' (hl b' hb') hkey
    have hnr : ¬ Rules.Rust b'.apis q.rust := hqr ▸ bound_not_rust hg' hi' hkey
    obtain ⟨g, hg⟩ := ha b hb
    obtain ⟨p', k, hdp, hsp, hep⟩ : ∃ p' k, DeclaresType b.apis p' ∧ SameType p p' ∧
        (types (b.means n.rust)).ext = some (Qualified.pairTypeId p', k) := by
      obtain ⟨a, haa, han⟩ := Assert.alias_defined hal
      obtain ⟨k, hk⟩ := Assert.item (hck b hb) haa (i := .id a.name.rust (Qualified.pairTypeId a.name))
        (by simp [Assert.expandApi, Assert.aliasVerify])
      have hda : DeclaresType b.apis a.name := ⟨_, haa, _, rfl⟩
      exact ⟨a.name, k, hda, h1 b hb _ _ hd hda (by rw [hr, han]), han ▸ hk⟩
    obtain ⟨q', k', hdq, hsq, heq⟩ := declared_id hck hb' (h1 b' hb') hq hnr
    rw [hqr, hxm, hep] at heq
    have hid := same_of_id (lexical_type (hl b hb) hdp) (lexical_type (hl b' hb') hdq) (hraw b hb _ hdp) (hraw b' hb' _ hdq)
      (Prod.mk.inj (Option.some.inj heq)).1
    have hst : SameType p q := ⟨hsp.1.trans (hid.1.trans hsq.1), hsp.2.trans (hid.2.trans hsq.2)⟩
    rw [member_same _ (collect b'.apis) hst]
    exact key_supporting hb' hkey (hs m hm)
  · have hkey := own_instances ho hw hp hal
    obtain ⟨g, hg⟩ := ha b hb
    obtain ⟨q, hq, hqr, hs⟩ := key_essential hg (hl b hb) hkey
    rw [member_same _ (collect b.apis) (h1 b hb p q hd hq (by rw [hr, hqr]))]
    exact key_supporting hb hkey (hs m hm)

/-! ### Cases -/

private def ns (s : String) : Pair := ⟨[], s, s⟩

/-- The two bridges of C119: a struct in pointers and vectors, and its alias in a pointer. -/
theorem demo_bounded : Bounded demo := by
  intro b hb t ho w n hw hp i hi
  have key : ∀ (j : ImplOf), (∃ x ∈ pieces (collect owner) owner, x.trait = j ∧ x.name = "S") → n.rust = "S" → j = i →
      ∃ b' ∈ demo, ∃ x ∈ pieces (collect b'.apis) b'.apis, x.trait = i ∧ b'.means x.name = b.means n.rust := by
    rintro _ ⟨x, hx, hxi, hxn⟩ h1 rfl
    have hm : b.means = id := (by simp [demo] : ∀ b ∈ demo, b.means = id) b hb
    exact ⟨⟨owner, id⟩, .head _, x, hx, hxi, by rw [hm, h1]; exact hxn⟩
  have uniq : ∃ x ∈ pieces (collect owner) owner, x.trait = .uniquePtrTarget ∧ x.name = "S" := by decide +kernel
  obtain ⟨a, ha, u, hu, hwi⟩ := ho
  simp only [demo, List.mem_cons, List.not_mem_nil, or_false] at hb
  rcases hb with rfl | rfl <;> simp only [owner, user, List.mem_cons, List.not_mem_nil, or_false] at ha <;>
    rcases ha with rfl | rfl | rfl <;> simp [writtenTypes] at hu <;>
    (try rcases hu with rfl | rfl | rfl) <;> (try rcases hu with rfl | rfl) <;> (try subst hu) <;>
    (cases hwi with
     | self => cases hw <;> cases hi <;> exact key _ uniq rfl rfl
     | part hp h =>
       cases hp <;>
       (cases h with
        | self => cases hw <;> cases hi
        | part hp h =>
          cases hp <;>
          (cases h with
           | self => cases hw
           | part hp _ => cases hp)))

/-- What the types of the two bridges are. -/
def demoTypes : String → Assert.RustTy := fun n =>
  if n = "S" then ⟨true, true, false, some (Qualified.pairTypeId (ns "S"), .trivial)⟩ else ⟨true, true, true, none⟩

theorem demo_checked : Checked demoTypes demo ∧ (∀ b ∈ demo, OneDecl b.apis) ∧ ∀ b ∈ demo, NoRaw b.apis := by
  refine ⟨?_, ?_, ?_⟩
  · have e1 : Assert.expand (cxOf .macro owner) = [.impl "S" (Qualified.pairTypeId (ns "S")) .trivial, .noDrop "S", .unpin "B",
      .sized "B"] := by decide +kernel
    have e2 : Assert.expand (cxOf .macro user) = [.id "S" (Qualified.pairTypeId (ns "S"))] := by decide +kernel
    intro b hb
    simp only [demo, List.mem_cons, List.not_mem_nil, or_false] at hb
    rcases hb with rfl | rfl <;> simp only [e1, e2] <;> intro i hi <;>
      simp only [List.mem_cons, List.not_mem_nil, or_false] at hi
    · rcases hi with rfl | rfl | rfl | rfl <;> simp [Assert.Item.Compiles, demoTypes]
    · subst hi; simp [Assert.Item.Compiles, demoTypes]
  · intro b hb p q hp hq hs
    rcases declares_demo hb hp with rfl | rfl <;> rcases declares_demo hb hq with rfl | rfl <;>
      first | exact ⟨rfl, rfl⟩ | exact absurd hs (by decide +kernel)
  · intro b hb p hp
    rcases declares_demo hb hp with rfl | rfl <;> decide +kernel

/-- The other conditions hold too (C119), and the alias is in a pointer. -/
example : Occurs user (.uniquePtr (Ty.named "S")) ∧ Wraps (.uniquePtr (Ty.named "S")) .uniquePtr ⟨"S", []⟩ ∧
    Kind.alias ∈ definitions user "S" ∧ "S" ∉ Rules.builtins ∧ DeclaresType user ⟨[], "S", "S"⟩ ∧
    (supporting demo).count (symbolOf (collect user) (.member .uniquePtr ⟨[], "S", "S"⟩ "drop")) = 1 :=
  ⟨⟨_, .tail _ (.head _), .uniquePtr (Ty.named "S"), by simp [writtenTypes], .self _⟩, .uniquePtr, by decide +kernel, by decide +kernel,
   ⟨_, .head _, [], rfl⟩, by decide +kernel⟩

/-- The example of the book (book/src/extern-c++.md, "Explicit shim trait impls"): `ffi1` declares `A` and `B` and has a function
that returns `UniquePtr<B>`. -/
def ffi1 : List Api :=
  [.cxxType ⟨.cxx, [], ns "A", [], [], true⟩, .cxxType ⟨.cxx, [], ns "B", [], [], true⟩,
   .cxxFunction ⟨.cxx, ns "get_b", ⟨false, [], none, [], some (.uniquePtr (Ty.named "B")), false⟩, true⟩]

/-- `ffi2` has `type A = crate::ffi1::A;` and a function that returns `UniquePtr<A>`. -/
def ffi2 : List Api :=
  [.typeAlias ⟨[], ns "A", []⟩,
   .cxxFunction ⟨.cxx, ns "get_a", ⟨false, [], none, [], some (.uniquePtr (Ty.named "A")), false⟩, true⟩]

/-- `impl UniquePtr<A> {}` -/
def request : Api := .impl ⟨[], false, .uniquePtr (Ty.named "A")⟩

/-- As the book says: the bridges are accepted, but Rust reports an error, since the bound of `UniquePtr<A>` is not met.
`impl UniquePtr<A> {}` in one of the bridges provides it, and in both gives the other error. -/
theorem book_example :
    let prog (r1 r2 : List Api) : List (Bridge String) := [⟨ffi1 ++ r1, id⟩, ⟨ffi2 ++ r2, id⟩]
    (∀ r1 ∈ [[], [request]], ∀ r2 ∈ [[], [request]], ∀ b ∈ prog r1 r2, Accepted .macro b.apis) ∧
    ¬ Bounded (prog [] []) ∧ Bounded (prog [request] []) ∧ Bounded (prog [] [request]) ∧
    Coherent (prog [request] []) ∧ Coherent (prog [] [request]) ∧ ¬ Coherent (prog [request] [request]) := by
  have occ : ∀ (r1 r2 : List Api), (r1 = [] ∨ r1 = [request]) → (r2 = [] ∨ r2 = [request]) →
      ∀ b ∈ ([⟨ffi1 ++ r1, id⟩, ⟨ffi2 ++ r2, id⟩] : List (Bridge String)), ∀ t, Occurs b.apis t → ∀ w n i, Wraps t w n → Bound w i →
        w = .uniquePtr ∧ b.means = id ∧ (n.rust = "B" ∨ n.rust = "A") := by
    intro r1 r2 h1 h2 b hb t ho w n i hw hi
    obtain ⟨a, ha, u, hu, hwi⟩ := ho
    simp only [List.mem_cons, List.not_mem_nil, or_false] at hb
    have hu : u = .uniquePtr (Ty.named "B") ∨ u = .uniquePtr (Ty.named "A") := by
      rcases hb with rfl | rfl <;> rcases h1 with rfl | rfl <;> rcases h2 with rfl | rfl <;>
        simp only [ffi1, ffi2, request, List.cons_append, List.nil_append, List.append_nil, List.mem_cons, List.not_mem_nil,
          or_false] at ha <;>
        (first | (rcases ha with rfl | rfl | rfl | rfl) | (rcases ha with rfl | rfl | rfl) | (rcases ha with rfl | rfl)) <;>
        simp [writtenTypes] at hu <;> simp [hu]
    have hm : b.means = id := by rcases hb with rfl | rfl <;> rfl
    rcases hu with rfl | rfl <;>
    (cases hwi with
     | self => cases hw; exact ⟨rfl, hm, by simp⟩
     | part hp h =>
       cases hp
       cases h with
       | self => cases hw
       | part hp _ => cases hp)
  have bounded : ∀ (r1 r2 : List Api), (r1 = [] ∨ r1 = [request]) → (r2 = [] ∨ r2 = [request]) →
      (∀ n, n = "B" ∨ n = "A" → ∃ b' ∈ ([⟨ffi1 ++ r1, id⟩, ⟨ffi2 ++ r2, id⟩] : List (Bridge String)),
        ∃ x ∈ pieces (collect b'.apis) b'.apis, x.trait = .uniquePtrTarget ∧ b'.means x.name = n) →
      Bounded ([⟨ffi1 ++ r1, id⟩, ⟨ffi2 ++ r2, id⟩] : List (Bridge String)) := by
    intro r1 r2 h1 h2 hx b hb t ho w n hw _ i hi
    obtain ⟨rfl, hm, hn⟩ := occ r1 r2 h1 h2 b hb t ho w n i hw hi
    cases hi
    rw [hm]
    exact hx n.rust hn
  refine ⟨by decide +kernel, ?_, ?_, ?_, by unfold Coherent; decide +kernel, by unfold Coherent; decide +kernel,
    by unfold Coherent; decide +kernel⟩
  · intro h
    have := h ⟨ffi2, id⟩ (by simp) (.uniquePtr (Ty.named "A")) ⟨_, .tail _ (.head _), .uniquePtr (Ty.named "A"), by simp [writtenTypes], .self _⟩
      _ _ .uniquePtr (by decide +kernel) _ .uniquePtr
    revert this
    decide +kernel
  · exact bounded _ _ (.inr rfl) (.inl rfl) (by rintro n (rfl | rfl) <;> decide +kernel)
  · exact bounded _ _ (.inl rfl) (.inr rfl) (by rintro n (rfl | rfl) <;> decide +kernel)

/-- Boxes and vectors of types from elsewhere have no such protection: one bridge defines `S`, the other has `type S = …` and a
function that takes `Vec<S>`.  Both are accepted, Rust is content, and no bridge generates the functions of the vector. -/
theorem alias_vec_missing :
    let a : List Api := [.struct ⟨[], ns "S", [], [⟨ns "x", Ty.named "u8"⟩]⟩]
    let b : List Api := [.typeAlias ⟨[], ns "S", []⟩,
      .rustFunction ⟨.rust, ns "f", ⟨false, [], none, [⟨ns "v", .rustVec (Ty.named "S")⟩], none, false⟩, true⟩]
    let prog : List (Bridge String) := [⟨a, id⟩, ⟨b, id⟩]
    (∀ b ∈ prog, Accepted .macro b.apis) ∧ Coherent prog ∧ Bounded prog ∧ Checked demoTypes prog ∧ Occurs b (.rustVec (Ty.named "S")) ∧
      supporting prog = [] := by
  refine ⟨by decide +kernel, by unfold Coherent; decide +kernel, ?_, ?_,
    ⟨_, .tail _ (.head _), .rustVec (Ty.named "S"), by simp [writtenTypes], .self _⟩, by decide +kernel⟩
  rotate_left
  · intro b hb
    simp only [List.mem_cons, List.not_mem_nil, or_false] at hb
    rcases hb with rfl | rfl <;> intro i hi
    · have : i ∈ [Assert.Item.impl "S" (Qualified.pairTypeId (ns "S")) .trivial, .noDrop "S"] := hi
      simp only [List.mem_cons, List.not_mem_nil, or_false] at this
      rcases this with rfl | rfl <;> simp [Assert.Item.Compiles, demoTypes]
    · have e : Assert.expand (cxOf .macro [.typeAlias ⟨[], ns "S", []⟩, .rustFunction ⟨.rust, ns "f", ⟨false, [], none,
          [⟨ns "v", .rustVec (Ty.named "S")⟩], none, false⟩, true⟩]) =
          [.id "S" (Qualified.pairTypeId (ns "S")), .kind "S" .trivial] := by decide +kernel
      rw [e] at hi
      simp only [List.mem_cons, List.not_mem_nil, or_false] at hi
      rcases hi with rfl | rfl <;> simp [Assert.Item.Compiles, demoTypes]
  intro b hb t ho w n hw hp i hi
  exfalso
  obtain ⟨a, ha, u, hu, hwi⟩ := ho
  simp only [List.mem_cons, List.not_mem_nil, or_false] at hb
  rcases hb with rfl | rfl <;> simp only [List.mem_cons, List.not_mem_nil, or_false] at ha
  · subst ha
    simp [writtenTypes] at hu
    subst hu
    cases hwi with
    | self => cases hw
    | part hp _ => cases hp
  · rcases ha with rfl | rfl <;> simp [writtenTypes] at hu
    subst hu
    cases hwi with
    | self => cases hw; cases hi
    | part hp h =>
      cases hp
      cases h with
      | self => cases hw
      | part hp _ => cases hp

end Verif.Once
