import Verif.Runtime.Model
import Verif.Runtime.Spec
import Verif.Thunk.Props
import Verif.Builtins.Props
/-!
# C99: operations on built-in instantiations do what they say
-/
namespace Verif.Runtime
open Verif.Syntax Verif.Mangle Verif.Thunk Verif.Builtins
variable {W : Type}

/-! ### Linking -/

/-- The symbols of the C++ runtime: the same for every library. -/
def cxxSyms : List Symbol := (cxxRuntime (W := Unit) (fun _ w => (0, w))).map (·.sym)
/-- The symbols of the Rust runtime. -/
def rustSyms : List Symbol := (rustRuntime (W := Unit) (fun _ w => (0, w))).map (·.sym)

set_option maxRecDepth 100000 in
theorem cxxSyms_eq (lib : Lib W) : (cxxRuntime lib).map (·.sym) = cxxSyms := rfl
/-- A number for every symbol. -/
def code (s : Symbol) : Nat := s.foldl (fun n c => n * 128 + c.toNat) 1

set_option maxRecDepth 100000 in
theorem cxxCodes_nodup : (cxxSyms.map code).Nodup := by decide +kernel
set_option maxRecDepth 100000 in
theorem rustSyms_eq (lib : Lib W) : (rustRuntime lib).map (·.sym) = rustSyms := rfl
set_option maxRecDepth 100000 in
theorem rustCodes_nodup : (rustSyms.map code).Nodup := by decide +kernel

theorem nodup_of_map {α β : Type} (f : α → β) : ∀ {l : List α}, (l.map f).Nodup → l.Nodup
  | [], _ => List.nodup_nil
  | a :: l, h => by
    rw [List.map_cons, List.nodup_cons] at h
    exact List.nodup_cons.2 ⟨fun ha => h.1 (List.mem_map_of_mem ha), nodup_of_map f h.2⟩

theorem cxxSyms_nodup : cxxSyms.Nodup := nodup_of_map code cxxCodes_nodup
theorem rustSyms_nodup : rustSyms.Nodup := nodup_of_map code rustCodes_nodup

theorem own_of_nodup {P : Type} : ∀ {fs : List (Thunk P W)}, (fs.map (·.sym)).Nodup →
    ∀ t ∈ fs, ∀ t' ∈ fs, t.sym = t'.sym → t = t'
  | [], _, t, ht, _, _, _ => by cases ht
  | f :: fs, h, t, ht, t', ht', he => by
    rw [List.map_cons, List.nodup_cons] at h
    rcases List.mem_cons.1 ht with rfl | ht1
    · rcases List.mem_cons.1 ht' with rfl | ht1'
      · rfl
      · exact absurd (List.mem_map.2 ⟨t', ht1', he.symm⟩) h.1
    · rcases List.mem_cons.1 ht' with rfl | ht1'
      · exact absurd (List.mem_map.2 ⟨t, ht1, he⟩) h.1
      · exact own_of_nodup h.2 t ht1 t' ht1' he

theorem cxx_own (lib : Lib W) {t : Thunk CPTy W} (h : t ∈ cxxRuntime lib) : linked (cxxRuntime lib) t.sym = some t :=
  linked_own (own_of_nodup (by rw [cxxSyms_eq]; exact cxxSyms_nodup)) h

theorem rust_own (lib : Lib W) {t : Thunk RPTy W} (h : t ∈ rustRuntime lib) : linked (rustRuntime lib) t.sym = some t :=
  linked_own (own_of_nodup (by rw [rustSyms_eq]; exact rustSyms_nodup)) h

/-! ### Rows of the tables -/

theorem stands_iff {e : Elem} {T : Ident} {t : CName} : Stands e T t ↔ T = rustName e ∧ t = cppName (cxxType e) := by
  constructor
  · intro h; cases h <;> exact ⟨rfl, rfl⟩
  · rintro ⟨rfl, rfl⟩
    rcases e with a | _
    · cases a <;> constructor
    · constructor

theorem shared_row : ∀ e, accepts (.sharedPtr e) = true →
    ∃ seg, rustSharedPtr.find? (fun r => r.2 == e) = some (seg, e) ∧ (seg, cxxType e) ∈ sharedPtr := by
  intro e h
  rcases e with a | _
  · cases a <;> first | exact absurd h (by decide) | exact ⟨_, rfl, by decide⟩
  · exact absurd h (by decide)

theorem weak_row : ∀ e, accepts (.weakPtr e) = true →
    ∃ seg, rustWeakPtr.find? (fun r => r.2 == e) = some (seg, e) ∧ (seg, cxxType e) ∈ sharedPtr := by
  intro e h
  rcases e with a | _
  · cases a <;> first | exact absurd h (by decide) | exact ⟨_, rfl, by decide⟩
  · exact absurd h (by decide)

theorem vector_row : ∀ e, accepts (.cxxVector e) = true →
    ∃ v seg, rustCxxVector.find? (fun r => r.2.2 == e) = some (v, seg, e) ∧ (seg, cxxType e) ∈ stdVector ∧
      (v = true ↔ e ≠ .atom .cxxString) ∧ (v = true → (seg, cxxType e) ∈ trivialStdVector) := by
  intro e h
  rcases e with a | _
  · cases a <;> first | exact absurd h (by decide) | exact ⟨_, _, rfl, by decide, by decide, by decide⟩
  · exact absurd h (by decide)

/-- The element type whose functions `Vec<e>` uses on the platform. -/
def here (p : Platform) : Elem → Elem
  | .atom .usize => match p.size with | some true => .atom .u64 | some false => .atom .u32 | none => .atom .usize
  | .atom .isize => match p.isize with | some true => .atom .i64 | some false => .atom .i32 | none => .atom .isize
  | .atom .char => match p.char with | some true => .atom .u8 | some false => .atom .i8 | none => .atom .char
  | e => e

theorem here_same (p : Platform) (e : Elem) : SameHere p e (here p e) := by
  unfold here
  split
  · split
    · exact .usize64 ‹_›
    · exact .usize32 ‹_›
    · exact .refl _
  · split
    · exact .isize64 ‹_›
    · exact .isize32 ‹_›
    · exact .refl _
  · split
    · exact .charUnsigned ‹_›
    · exact .charSigned ‹_›
    · exact .refl _
  · exact .refl _

theorem vec_rows : ∀ p ∈ platforms, ∀ e ∈ elems, accepts (.rustVec e) = true →
    ((segmentOf rustVecShims (here p e)).any fun seg =>
      decide ((rustVec p).find? (fun r => canon p r.2 == canon p (cxxType e)) = some (seg, cxxType (here p e)) ∧
        (seg, here p e) ∈ rustVecShims)) = true := by
  decide +kernel

theorem vec_row (p : Platform) (e : Elem) (h : accepts (.rustVec e) = true) :
    ∃ seg e', (rustVec p).find? (fun r => canon p r.2 == canon p (cxxType e)) = some (seg, cxxType e') ∧ SameHere p e e' ∧
      (seg, e') ∈ rustVecShims := by
  have := vec_rows p (mem_platforms p) e (mem_elems e) h
  rw [Option.any_eq_true] at this
  obtain ⟨seg, _, hd⟩ := this
  obtain ⟨h1, h2⟩ := of_decide_eq_true hd
  exact ⟨seg, here p e, h1, here_same p e, h2⟩

/-! ### Membership in the runtime -/

theorem shared_mem (lib : Lib W) {seg : String} {t : CxxTy} (h : (seg, t) ∈ sharedPtr) :
    ∀ x ∈ sharedPtrFns lib seg (cppName t), linked (cxxRuntime lib) x.sym = some x := fun _ hx =>
  cxx_own lib (List.mem_append_right _ (List.mem_flatMap.2 ⟨_, h, hx⟩))

theorem vector_mem (lib : Lib W) {seg : String} {t : CxxTy} (h : (seg, t) ∈ stdVector) :
    ∀ x ∈ stdVectorFns lib seg (cppName t), linked (cxxRuntime lib) x.sym = some x := fun _ hx =>
  cxx_own lib (List.mem_append_left _ (List.mem_append_left _ (List.mem_append_right _ (List.mem_flatMap.2 ⟨_, h, hx⟩))))

theorem trivial_mem (lib : Lib W) {seg : String} {t : CxxTy} (h : (seg, t) ∈ trivialStdVector) :
    ∀ x ∈ stdVectorTrivialFns lib seg (cppName t), linked (cxxRuntime lib) x.sym = some x := fun _ hx =>
  cxx_own lib (List.mem_append_left _ (List.mem_append_right _ (List.mem_flatMap.2 ⟨_, h, hx⟩)))

theorem string_mem (lib : Lib W) : ∀ x ∈ uniqueString lib, linked (cxxRuntime lib) x.sym = some x := fun _ hx =>
  cxx_own lib (List.mem_append_left _ (List.mem_append_left _ (List.mem_append_left _ hx)))

theorem vecShims_mem (lib : Lib W) {seg : String} {e : Elem} (h : (seg, e) ∈ rustVecShims) :
    ∀ x ∈ vecShims lib seg (rustName e), linked (rustRuntime lib) x.sym = some x := fun _ hx =>
  rust_own lib (List.mem_flatMap.2 ⟨_, h, hx⟩)

/-! ### The operations -/

/-- **C99**, `SharedPtr<e>` of every built-in type the bridge accepts there: each method does to a
`std::shared_ptr` of the C++ type that stands for `e` what its name says. -/
theorem builtin_shared_ptr (lib : Lib W) {e : Elem} (h : accepts (.sharedPtr e) = true) {T : Ident} {n : CName}
    (hs : Stands e T n) :
    let t : CTy := .named n
    let call := call lib (.sharedPtr e)
    (∀ new, call "__null" [new] = (do let _ ← lib.run (.sharedNull t new); unit)) ∧
    (∀ value new, call "__new" [value, new] = (do
      let memory ← lib.run (.newUninit t)
      let _ ← lib.run (.sharedFrom t new memory)
      let _ ← lib.run (.store T memory value)
      unit)) ∧
    (∀ this new, call "__clone" [this, new] = (do let _ ← lib.run (.sharedCopy t new this); unit)) ∧
    (∀ this, call "__get" [this] = lib.run (.sharedGet t this)) ∧
    (∀ this, call "__drop" [this] = (do let _ ← lib.run (.sharedDestroy t this); unit)) := by
  obtain ⟨rfl, rfl⟩ := stands_iff.1 hs
  obtain ⟨seg, hf, hm⟩ := shared_row e h
  have hlk := shared_mem lib hm
  have hcs : methods lib (.sharedPtr e) = some (sharedTarget lib seg (rustName e)) := by simp only [methods, hf]; rfl
  simp only [call]
  refine ⟨?_, ?_, ?_, ?_, ?_⟩
  · exact fun _ => (callBy_at hcs rfl hlk rfl 0 rfl (linkName_eq _ _ _)).trans (funext fun w => rfl)
  · exact fun _ _ => (callBy_at hcs rfl hlk rfl 1 rfl (linkName_eq _ _ _)).trans (funext fun w => rfl)
  · exact fun _ _ => (callBy_at hcs rfl hlk rfl 2 rfl (linkName_eq _ _ _)).trans (funext fun w => rfl)
  · exact fun _ => (callBy_at hcs rfl hlk rfl 3 rfl (linkName_eq _ _ _)).trans (funext fun w => rfl)
  · exact fun _ => (callBy_at hcs rfl hlk rfl 4 rfl (linkName_eq _ _ _)).trans (funext fun w => rfl)

/-- **C99**, `WeakPtr<e>`. -/
theorem builtin_weak_ptr (lib : Lib W) {e : Elem} (h : accepts (.weakPtr e) = true) {T : Ident} {n : CName}
    (hs : Stands e T n) :
    let t : CTy := .named n
    let call := call lib (.weakPtr e)
    (∀ new, call "__null" [new] = (do let _ ← lib.run (.weakNull t new); unit)) ∧
    (∀ this new, call "__clone" [this, new] = (do let _ ← lib.run (.weakCopy t new this); unit)) ∧
    (∀ shared weak, call "__downgrade" [shared, weak] = (do let _ ← lib.run (.weakOf t weak shared); unit)) ∧
    (∀ weak shared, call "__upgrade" [weak, shared] = (do let _ ← lib.run (.sharedLock t shared weak); unit)) ∧
    (∀ this, call "__drop" [this] = (do let _ ← lib.run (.weakDestroy t this); unit)) := by
  obtain ⟨rfl, rfl⟩ := stands_iff.1 hs
  obtain ⟨seg, hf, hm⟩ := weak_row e h
  have hlk := shared_mem lib hm
  have hcs : methods lib (.weakPtr e) = some (weakTarget seg) := by simp only [methods, hf]; rfl
  simp only [call]
  refine ⟨?_, ?_, ?_, ?_, ?_⟩
  · exact fun _ => (callBy_at hcs rfl hlk rfl 5 rfl (linkName_eq _ _ _)).trans (funext fun w => rfl)
  · exact fun _ _ => (callBy_at hcs rfl hlk rfl 6 rfl (linkName_eq _ _ _)).trans (funext fun w => rfl)
  · exact fun _ _ => (callBy_at hcs rfl hlk rfl 7 rfl (linkName_eq _ _ _)).trans (funext fun w => rfl)
  · exact fun _ _ => (callBy_at hcs rfl hlk rfl 8 rfl (linkName_eq _ _ _)).trans (funext fun w => rfl)
  · exact fun _ => (callBy_at hcs rfl hlk rfl 9 rfl (linkName_eq _ _ _)).trans (funext fun w => rfl)

/-- **C99**, `CxxVector<e>`.  Elements of every type but strings are pushed and popped by value. -/
theorem builtin_vector (lib : Lib W) {e : Elem} (h : accepts (.cxxVector e) = true) {T : Ident} {n : CName}
    (hs : Stands e T n) :
    let call := call lib (.cxxVector e)
    (call "__vector_new" [] = lib.run (.vectorNew n)) ∧
    (∀ v, call "__vector_size" [v] = lib.run (.vectorSize n v)) ∧
    (∀ v pos, call "__get_unchecked" [v, pos] = lib.run (.vectorAt n v pos)) ∧
    (e ≠ .atom .cxxString →
      (∀ v value, call "__push_back" [v, value] = (do
        let _ ← lib.run (.vectorPush n v value)
        let _ ← lib.run (.destroy n value)
        unit)) ∧
      (∀ v out, call "__pop_back" [v, out] = (do
        let _ ← lib.run (.moveBack n out v)
        let _ ← lib.run (.vectorPop n v)
        unit))) ∧
    (e = .atom .cxxString → ∀ args, call "__push_back" args = fault ∧ call "__pop_back" args = fault) := by
  obtain ⟨rfl, rfl⟩ := stands_iff.1 hs
  obtain ⟨v, seg, hf, hm, hv, ht⟩ := vector_row e h
  have hlk := vector_mem lib hm
  have hcs : methods lib (.cxxVector e) = some (vectorElement lib v seg (rustName e)) := by simp only [methods, hf]; rfl
  simp only [call]
  refine ⟨?_, ?_, ?_, ?_, ?_⟩
  · exact (callBy_at hcs rfl hlk rfl 0 rfl (linkName_eq _ _ _)).trans (funext fun w => rfl)
  · exact fun _ => (callBy_at hcs rfl hlk rfl 1 rfl (linkName_eq _ _ _)).trans (funext fun w => rfl)
  · exact fun _ _ => (callBy_at hcs rfl hlk rfl 2 rfl (linkName_eq _ _ _)).trans (funext fun w => rfl)
  · intro hne
    obtain rfl := hv.2 hne
    have hlk := trivial_mem lib (ht rfl)
    exact ⟨fun _ _ => (callBy_at hcs rfl hlk rfl 0 rfl (linkName_eq _ _ _)).trans (funext fun w => rfl),
      fun _ _ => (callBy_at hcs rfl hlk rfl 1 rfl (linkName_eq _ _ _)).trans (funext fun w => rfl)⟩
  · intro he args
    obtain rfl : v = false := by
      cases v
      · rfl
      · exact absurd he (hv.1 rfl)
    rw [hcs]
    exact ⟨rfl, rfl⟩

/-- **C99**, `UniquePtr<CxxVector<e>>`: `__raw` makes a `unique_ptr` that owns the vector, `__release` takes
the vector out again. -/
theorem builtin_unique_ptr_vector (lib : Lib W) {e : Elem} (h : accepts (.uniquePtrVector e) = true) {T : Ident} {n : CName}
    (hs : Stands e T n) :
    let t : CTy := .vector n
    let call := call lib (.uniquePtrVector e)
    (call "__null" [] = (do
      let place ← lib.run .freshLocal
      let _ ← lib.run (.uniqueNull t place)
      lib.run (.bitsOf place))) ∧
    (∀ raw, call "__raw" [raw] = (do
      let place ← lib.run .freshLocal
      let _ ← lib.run (.uniqueFrom t place raw)
      lib.run (.bitsOf place))) ∧
    (∀ bits, call "__get" [bits] = (do
      let place ← lib.run (.localOf bits)
      lib.run (.uniqueGet t place))) ∧
    (∀ bits, call "__release" [bits] = (do
      let place ← lib.run (.localOf bits)
      lib.run (.uniqueRelease t place))) ∧
    (∀ bits, call "__drop" [bits] = (do
      let place ← lib.run (.localOf bits)
      let _ ← lib.run (.uniqueDestroy t place)
      unit)) := by
  obtain ⟨rfl, rfl⟩ := stands_iff.1 hs
  obtain ⟨v, seg, hf, hm, hv, ht⟩ := vector_row e h
  have hlk := vector_mem lib hm
  have hcs : methods lib (.uniquePtrVector e) = some (vectorElement lib v seg (rustName e)) := by
    simp only [methods, hf]; rfl
  simp only [call, vectorTargetMethod]
  cases v
  all_goals
    refine ⟨?_, ?_, ?_, ?_, ?_⟩
    · exact (callBy_at hcs rfl hlk rfl 3 rfl (linkName_eq _ _ _)).trans (funext fun w => rfl)
    · exact fun _ => (callBy_at hcs rfl hlk rfl 4 rfl (linkName_eq _ _ _)).trans (funext fun w => rfl)
    · exact fun _ => (callBy_at hcs rfl hlk rfl 5 rfl (linkName_eq _ _ _)).trans (funext fun w => rfl)
    · exact fun _ => (callBy_at hcs rfl hlk rfl 6 rfl (linkName_eq _ _ _)).trans (funext fun w => rfl)
    · exact fun _ => (callBy_at hcs rfl hlk rfl 7 rfl (linkName_eq _ _ _)).trans (funext fun w => rfl)

/-- **C99**, `UniquePtr<CxxString>`, the only `UniquePtr` of a built-in type. -/
theorem builtin_unique_ptr (lib : Lib W) {e : Elem} (h : accepts (.uniquePtr e) = true) {T : Ident} {n : CName}
    (hs : Stands e T n) :
    let t : CTy := .named n
    let call := call lib (.uniquePtr e)
    (call "__null" [] = (do
      let place ← lib.run .freshLocal
      let _ ← lib.run (.uniqueNull t place)
      lib.run (.bitsOf place))) ∧
    (∀ raw, call "__raw" [raw] = (do
      let place ← lib.run .freshLocal
      let _ ← lib.run (.uniqueFrom t place raw)
      lib.run (.bitsOf place))) ∧
    (∀ bits, call "__get" [bits] = (do
      let place ← lib.run (.localOf bits)
      lib.run (.uniqueGet t place))) ∧
    (∀ bits, call "__release" [bits] = (do
      let place ← lib.run (.localOf bits)
      lib.run (.uniqueRelease t place))) ∧
    (∀ bits, call "__drop" [bits] = (do
      let place ← lib.run (.localOf bits)
      let _ ← lib.run (.uniqueDestroy t place)
      unit)) := by
  obtain ⟨rfl, rfl⟩ := stands_iff.1 hs
  have he : e = .atom .cxxString := by
    rcases e with a | _
    · cases a <;> first | rfl | exact absurd h (by decide)
    · exact absurd h (by decide)
  subst he
  have hlk := string_mem lib
  have hcs : methods lib (.uniquePtr (.atom .cxxString)) = some (stringTarget lib) := rfl
  simp only [call]
  refine ⟨?_, ?_, ?_, ?_, ?_⟩
  · exact (callBy_at hcs rfl hlk rfl 0 rfl rfl).trans (funext fun w => rfl)
  · exact fun _ => (callBy_at hcs rfl hlk rfl 1 rfl rfl).trans (funext fun w => rfl)
  · exact fun _ => (callBy_at hcs rfl hlk rfl 2 rfl rfl).trans (funext fun w => rfl)
  · exact fun _ => (callBy_at hcs rfl hlk rfl 3 rfl rfl).trans (funext fun w => rfl)
  · exact fun _ => (callBy_at hcs rfl hlk rfl 4 rfl rfl).trans (funext fun w => rfl)

/-- **C99**, `Vec<e>` in C++, on every platform: each member function is that of the Rust vector of `e`, or of the integer
type of fixed width that is the same type as `e` on the platform. -/
theorem builtin_vec (lib : Lib W) (p : Platform) {e : Elem} (h : accepts (.rustVec e) = true) :
    ∃ e' T n, SameHere p e e' ∧ Stands e' T n ∧
      let call := vecCall lib p (cxxType e)
      (∀ this, call "Vec" [this] = (do let _ ← lib.run (.vecNew T this); unit)) ∧
      (∀ this, call "drop" [this] = (do let _ ← lib.run (.vecDrop T this); unit)) ∧
      (∀ this, call "size" [this] = lib.run (.vecLen T this)) ∧
      (∀ this, call "capacity" [this] = lib.run (.vecCapacity T this)) ∧
      (∀ this, call "data" [this] = lib.run (.vecData T this)) ∧
      (∀ this k, call "reserve_total" [this, k] = (do let _ ← lib.run (.vecReserveTotal T this k); unit)) ∧
      (∀ this k, call "set_len" [this, k] = (do let _ ← lib.run (.vecSetLen T this k); unit)) ∧
      (∀ this k, call "truncate" [this, k] = (do let _ ← lib.run (.vecTruncate T this k); unit)) := by
  obtain ⟨seg, e', hf, hsame, hm⟩ := vec_row p e h
  refine ⟨e', rustName e', cppName (cxxType e'), hsame, stands_iff.2 ⟨rfl, rfl⟩, ?_⟩
  have hlk := vecShims_mem lib hm
  have hcs : vecMembersOf (W := W) p (cxxType e) = some (vecOps seg (cppName (cxxType e'))) := by
    simp only [vecMembersOf, hf]; rfl
  simp only [vecCall]
  refine ⟨?_, ?_, ?_, ?_, ?_, ?_, ?_, ?_⟩
  · exact fun _ => (callBy_at hcs rfl hlk rfl 0 rfl (linkName_eq _ _ _).symm).trans (funext fun w => rfl)
  · exact fun _ => (callBy_at hcs rfl hlk rfl 1 rfl (linkName_eq _ _ _).symm).trans (funext fun w => rfl)
  · exact fun _ => (callBy_at hcs rfl hlk rfl 2 rfl (linkName_eq _ _ _).symm).trans (funext fun w => rfl)
  · exact fun _ => (callBy_at hcs rfl hlk rfl 3 rfl (linkName_eq _ _ _).symm).trans (funext fun w => rfl)
  · exact fun _ => (callBy_at hcs rfl hlk rfl 4 rfl (linkName_eq _ _ _).symm).trans (funext fun w => rfl)
  · exact fun _ _ => (callBy_at hcs rfl hlk rfl 5 rfl (linkName_eq _ _ _).symm).trans (funext fun w => rfl)
  · exact fun _ _ => (callBy_at hcs rfl hlk rfl 6 rfl (linkName_eq _ _ _).symm).trans (funext fun w => rfl)
  · exact fun _ _ => (callBy_at hcs rfl hlk rfl 7 rfl (linkName_eq _ _ _).symm).trans (funext fun w => rfl)

/-! ### The declarations -/

/-- The two declarations of one function fit. -/
def Fits (lib : Lib W) (T : Ident) (n : CName) (c : Caller RPTy W) : Prop :=
  ∃ t, linked (cxxRuntime lib) c.sym = some t ∧ Each (Passed T n) c.params t.params ∧ Returned T n c.ret t.ret

theorem fits_at {lib : Lib W} {T : Ident} {n : CName} {c : Caller RPTy W} {l : List (Thunk CPTy W)}
    (hlk : ∀ t ∈ l, linked (cxxRuntime lib) t.sym = some t) {t : Thunk CPTy W} (i : Nat) (h : l[i]? = some t)
    (hs : c.sym = t.sym) (hp : Each (Passed T n) c.params t.params) (hr : Returned T n c.ret t.ret) : Fits lib T n c :=
  ⟨t, by rw [hs]; exact hlk t (List.mem_of_getElem? h), hp, hr⟩

theorem vectorElement_fits (lib : Lib W) {e : Elem} {v : Bool} {seg : String} (hm : (seg, cxxType e) ∈ stdVector)
    (ht : v = true → (seg, cxxType e) ∈ trivialStdVector) :
    ∀ c ∈ vectorElement lib v seg (rustName e), Fits lib (rustName e) (cppName (cxxType e)) c := by
  have hlk := vector_mem lib hm
  intro c hc
  simp only [vectorElement, List.mem_append, List.mem_cons, List.not_mem_nil, or_false] at hc
  rcases hc with ((rfl | rfl | rfl) | hc) | (rfl | rfl | rfl | rfl | rfl)
  · exact fits_at hlk 0 rfl (linkName_eq _ _ _) .nil (.vector (by simp))
  · exact fits_at hlk 1 rfl (linkName_eq _ _ _) (.cons (.vector (by simp [Writable])) .nil) .size
  · exact fits_at hlk 2 rfl (linkName_eq _ _ _) (.cons (.vector (by simp [Writable])) (.cons .size .nil)) (.obj (by simp))
  · cases v
    · cases hc
    · have hlk := trivial_mem lib (ht rfl)
      simp only [byValueMethods, if_true, List.mem_cons, List.not_mem_nil, or_false] at hc
      rcases hc with rfl | rfl
      · exact fits_at hlk 0 rfl (linkName_eq _ _ _)
          (.cons (.vector (by simp [Writable])) (.cons (.obj (by simp [Writable])) .nil)) .unit
      · exact fits_at hlk 1 rfl (linkName_eq _ _ _)
          (.cons (.vector (by simp [Writable])) (.cons (.obj (by simp [Writable])) .nil)) .unit
  · exact fits_at hlk 3 rfl (linkName_eq _ _ _) (.cons (.reprVector (by simp [Writable])) .nil) .unit
  · exact fits_at hlk 4 rfl (linkName_eq _ _ _)
      (.cons (.reprVector (by simp [Writable])) (.cons (.vector (by simp [Writable])) .nil)) .unit
  · exact fits_at hlk 5 rfl (linkName_eq _ _ _) (.cons (.reprVector (by simp [Writable])) .nil) (.vector (by simp))
  · exact fits_at hlk 6 rfl (linkName_eq _ _ _) (.cons (.reprVector (by simp [Writable])) .nil) (.vector (by simp))
  · exact fits_at hlk 7 rfl (linkName_eq _ _ _) (.cons (.reprVector (by simp [Writable])) .nil) .unit

/-- The element type of an instantiation. -/
def elemOf : Inst → Elem
  | .sharedPtr e | .weakPtr e | .uniquePtr e | .uniquePtrVector e | .cxxVector e | .rustVec e => e

/-- **C99**, declarations.  Every function that the Rust half of a built-in smart pointer or vector of C++ declares is defined
in `cxx.cc` with as many parameters, each of a type that fits, and gives back what Rust expects. -/
theorem builtin_declarations_fit (lib : Lib W) {i : Inst} (h : accepts i = true) (hi : ∀ e, i ≠ .rustVec e) {T : Ident}
    {n : CName} (hs : Stands (elemOf i) T n) :
    ∃ cs, methods lib i = some cs ∧ ∀ c ∈ cs, ∃ t, linked (cxxRuntime lib) c.sym = some t ∧
      Each (Passed T n) c.params t.params ∧ Returned T n c.ret t.ret := by
  obtain ⟨rfl, rfl⟩ := stands_iff.1 hs
  cases i with
  | rustVec e => exact absurd rfl (hi e)
  | sharedPtr e =>
    obtain ⟨seg, hf, hm⟩ := shared_row e h
    have hlk := shared_mem lib hm
    refine ⟨sharedTarget lib seg (rustName e), by simp only [methods, hf]; rfl, fun c hc => ?_⟩
    simp only [sharedTarget, List.mem_cons, List.not_mem_nil, or_false] at hc
    rcases hc with rfl | rfl | rfl | rfl | rfl
    · exact fits_at hlk 0 rfl (linkName_eq _ _ _) (.cons (.shared (by simp [Writable])) .nil) .unit
    · exact fits_at hlk 1 rfl (linkName_eq _ _ _) (.cons (.shared (by simp [Writable])) .nil) (.memory (by simp))
    · exact fits_at hlk 2 rfl (linkName_eq _ _ _)
        (.cons (.shared (by simp [Writable])) (.cons (.shared (by simp [Writable])) .nil)) .unit
    · exact fits_at hlk 3 rfl (linkName_eq _ _ _) (.cons (.shared (by simp [Writable])) .nil) (.memory (by simp))
    · exact fits_at hlk 4 rfl (linkName_eq _ _ _) (.cons (.shared (by simp [Writable])) .nil) .unit
  | weakPtr e =>
    obtain ⟨seg, hf, hm⟩ := weak_row e h
    have hlk := shared_mem lib hm
    refine ⟨weakTarget seg, by simp only [methods, hf]; rfl, fun c hc => ?_⟩
    simp only [weakTarget, List.mem_cons, List.not_mem_nil, or_false] at hc
    rcases hc with rfl | rfl | rfl | rfl | rfl
    · exact fits_at hlk 5 rfl (linkName_eq _ _ _) (.cons (.weak (by simp [Writable])) .nil) .unit
    · exact fits_at hlk 6 rfl (linkName_eq _ _ _)
        (.cons (.weak (by simp [Writable])) (.cons (.weak (by simp [Writable])) .nil)) .unit
    · exact fits_at hlk 7 rfl (linkName_eq _ _ _)
        (.cons (.shared (by simp [Writable])) (.cons (.weak (by simp [Writable])) .nil)) .unit
    · exact fits_at hlk 8 rfl (linkName_eq _ _ _)
        (.cons (.weak (by simp [Writable])) (.cons (.shared (by simp [Writable])) .nil)) .unit
    · exact fits_at hlk 9 rfl (linkName_eq _ _ _) (.cons (.weak (by simp [Writable])) .nil) .unit
  | cxxVector e =>
    obtain ⟨v, seg, hf, hm, hv, ht⟩ := vector_row e h
    exact ⟨vectorElement lib v seg (rustName e), by simp only [methods, hf]; rfl, vectorElement_fits lib hm ht⟩
  | uniquePtrVector e =>
    obtain ⟨v, seg, hf, hm, hv, ht⟩ := vector_row e h
    exact ⟨vectorElement lib v seg (rustName e), by simp only [methods, hf]; rfl, vectorElement_fits lib hm ht⟩
  | uniquePtr e =>
    have he : e = .atom .cxxString := by
      rcases e with a | _
      · cases a <;> first | rfl | exact absurd h (by decide)
      · exact absurd h (by decide)
    subst he
    have hlk := string_mem lib
    refine ⟨stringTarget lib, rfl, fun c hc => ?_⟩
    simp only [stringTarget, List.mem_cons, List.not_mem_nil, or_false] at hc
    rcases hc with rfl | rfl | rfl | rfl | rfl
    · exact fits_at hlk 0 rfl rfl (.cons (.repr (by simp [Writable])) .nil) .unit
    · exact fits_at hlk 1 rfl rfl (.cons (.repr (by simp [Writable])) (.cons (.obj (by simp [Writable])) .nil)) .unit
    · exact fits_at hlk 2 rfl rfl (.cons (.repr (by simp [Writable])) .nil) (.obj (by simp))
    · exact fits_at hlk 3 rfl rfl (.cons (.repr (by simp [Writable])) .nil) (.obj (by simp))
    · exact fits_at hlk 4 rfl rfl (.cons (.repr (by simp [Writable])) .nil) .unit

/-- **C99**, declarations of `Vec<e>`: every function that a member of `rust::Vec` calls is exported by the Rust crate with
parameters and a result that fit. -/
theorem builtin_vec_declarations_fit (lib : Lib W) (p : Platform) {e : Elem} (h : accepts (.rustVec e) = true) :
    ∃ e' T n cs, SameHere p e e' ∧ Stands e' T n ∧ vecMembersOf (W := W) p (cxxType e) = some cs ∧
      ∀ c ∈ cs, ∃ t, linked (rustRuntime lib) c.sym = some t ∧ Each (Given T n) c.params t.params ∧
        Received T n c.ret t.ret := by
  obtain ⟨seg, e', hf, hsame, hm⟩ := vec_row p e h
  have hlk := vecShims_mem lib hm
  refine ⟨e', rustName e', cppName (cxxType e'), _, hsame, stands_iff.2 ⟨rfl, rfl⟩,
    by simp only [vecMembersOf, hf]; rfl, fun c hc => ?_⟩
  have at_ : ∀ {t : Thunk RPTy W} (i : Nat), (vecShims lib seg (rustName e'))[i]? = some t → c.sym = t.sym →
      Each (Given (rustName e') (cppName (cxxType e'))) c.params t.params →
      Received (rustName e') (cppName (cxxType e')) c.ret t.ret →
      ∃ t, linked (rustRuntime lib) c.sym = some t ∧ Each (Given (rustName e') (cppName (cxxType e'))) c.params t.params ∧
        Received (rustName e') (cppName (cxxType e')) c.ret t.ret := fun {t} i hi hs hp hr =>
    ⟨t, by rw [hs]; exact hlk t (List.mem_of_getElem? hi), hp, hr⟩
  simp only [vecOps, List.mem_cons, List.not_mem_nil, or_false] at hc
  rcases hc with rfl | rfl | rfl | rfl | rfl | rfl | rfl | rfl
  · exact at_ 0 rfl (linkName_eq _ _ _).symm (.cons (.vec (by simp)) .nil) .void
  · exact at_ 1 rfl (linkName_eq _ _ _).symm (.cons (.vec (by simp)) .nil) .void
  · exact at_ 2 rfl (linkName_eq _ _ _).symm (.cons (.vec (by simp)) .nil) .size
  · exact at_ 3 rfl (linkName_eq _ _ _).symm (.cons (.vec (by simp)) .nil) .size
  · exact at_ 4 rfl (linkName_eq _ _ _).symm (.cons (.vec (by simp)) .nil) (.obj (by simp))
  · exact at_ 5 rfl (linkName_eq _ _ _).symm (.cons (.vec (by simp)) (.cons .size .nil)) .void
  · exact at_ 6 rfl (linkName_eq _ _ _).symm (.cons (.vec (by simp)) (.cons .size .nil)) .void
  · exact at_ 7 rfl (linkName_eq _ _ _).symm (.cons (.vec (by simp)) (.cons .size .nil)) .void

/-! ### Concrete cases -/

/-- A library that writes down what is done: the world is the list of operations. -/
def log : Lib (List LibOp) := fun o w => (7, w ++ [o])

/-- `SharedPtr::new(5u16)` at address 100. -/
example : accepts (.sharedPtr (.atom .u16)) = true ∧ Stands (.atom .u16) "u16" ⟨["std"], "uint16_t"⟩ ∧
    (call log (.sharedPtr (.atom .u16)) "__new" [5, 100] []).map (·.2) =
      some [.newUninit (.named ⟨["std"], "uint16_t"⟩), .sharedFrom (.named ⟨["std"], "uint16_t"⟩) 100 7, .store "u16" 7 5] :=
  ⟨by decide, .u16, by
    rw [(builtin_shared_ptr log (e := .atom .u16) (by decide) .u16).2.1]; rfl⟩

/-- `CxxVector<f64>::pop` and a `UniquePtr<CxxVector<CxxString>>`. -/
example : accepts (.cxxVector (.atom .f64)) = true ∧ accepts (.uniquePtrVector (.atom .cxxString)) = true ∧
    Stands (.atom .f64) "f64" ⟨[], "double"⟩ ∧ Stands (.atom .cxxString) "CxxString" ⟨["std"], "string"⟩ :=
  ⟨by decide, by decide, .f64, .cxxString⟩

/-- Where `size_t` is `uint64_t`, `Vec<usize>` in C++ is `Vec<u64>`; where it is another type, it has its own functions. -/
example : ∃ p q : Platform, SameHere p (.atom .usize) (.atom .u64) ∧ ¬ SameHere q (.atom .usize) (.atom .u64) ∧
    accepts (.rustVec (.atom .usize)) = true :=
  ⟨⟨some true, some true, none⟩, ⟨none, none, none⟩, .usize64 rfl, fun h => by cases h; contradiction, by decide⟩

end Verif.Runtime
