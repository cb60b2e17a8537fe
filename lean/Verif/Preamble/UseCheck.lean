import Verif.Preamble.UseSpec
/-!
# The format strings, one by one

What each run refers to, checked against its text by the kernel.
-/
namespace Verif.Preamble

/-- The helpers a run refers to. -/
def Frag.helpers : Frag → List Helper
  | .atom .isize => [.isize]
  | .atom .rustString => [.string]
  | .box => [.box]
  | .vec => [.vec]
  | .str => [.str]
  | .slice => [.slice]
  | .fn => [.fn]
  | .opaqueHead => [.«opaque»]
  | .opaqueLayout => [.layout]
  | .relocatable => [.isRelocatable]
  | .relocatableOrArray => [.isRelocatableOrArray]
  | .ptrLen => [.ptrLen]
  | .fat => [.fat]
  | .shimTry => [.ptrLen, .trycatch]
  | .implStrRepr => [.impl, .str, .reprOf]
  | .impl => [.impl]
  | .implRepr => [.reprOf]
  | .bitcopyString => [.unsafeBitcopy, .string]
  | .bitcopyVec => [.unsafeBitcopy]
  | .shimFail => [.fail]
  | .manuallyDrop => [.manuallyDrop]
  | .maybeUninit => [.maybeUninit]
  | .implStrNew => [.impl, .str, .newUnchecked]
  | .implSliceNew => [.sliceFrom]
  | .errorDecl => [.ptrLen]
  | .errorThrow => [.impl, .error, .errorFrom]
  | .boxExtern => [.box]
  | .vecExtern => [.vec]
  | .boxImpl => [.box]
  | .vecImpl => [.vec]
  | .completeAssert => [.isComplete]
  | .uniquePtrUninit => [.maybeUninit]
  | .uniquePtrDeleter => [.isComplete, .deleterIf]
  | .sharedPtrUninit => [.maybeUninit]
  | .vectorValue => [.destroy]
  | _ => []

/-- The names a run takes from the standard library. -/
def Frag.stds : Frag → List Tok
  | .atom .u8 => [w!"uint8_t"]
  | .atom .u16 => [w!"uint16_t"]
  | .atom .u32 => [w!"uint32_t"]
  | .atom .u64 => [w!"uint64_t"]
  | .atom .usize => [w!"size_t"]
  | .atom .i8 => [w!"int8_t"]
  | .atom .i16 => [w!"int16_t"]
  | .atom .i32 => [w!"int32_t"]
  | .atom .i64 => [w!"int64_t"]
  | .atom .cxxString => [w!"string"]
  | .uniquePtr => [w!"unique_ptr"]
  | .sharedPtr => [w!"shared_ptr"]
  | .weakPtr => [w!"weak_ptr"]
  | .vector => [w!"vector"]
  | .array => [w!"array"]
  | .structEnd => [w!"true_type"]
  | .opaqueLayout => [w!"size_t"]
  | .enumCheck => [w!"is_enum"]
  | .hashDecl => [w!"size_t"]
  | .hashSpec => [w!"size_t", w!"hash"]
  | .layoutDecls => [w!"size_t"]
  | .layoutDefs => [w!"size_t"]
  | .moveArg => [w!"move"]
  | .manuallyDropEnd => [w!"move"]
  | .moveReturn => [w!"move"]
  | .vecExtern => [w!"size_t"]
  | .vecImpl => [w!"size_t"]
  | .uniquePtrHead => [w!"unique_ptr"]
  | .uniquePtrUninit => [w!"unique_ptr"]
  | .uniquePtrRest => [w!"unique_ptr"]
  | .sharedPtrHead => [w!"shared_ptr"]
  | .sharedPtrUninit => [w!"shared_ptr"]
  | .sharedPtrRest => [w!"shared_ptr"]
  | .weakPtrAll => [w!"weak_ptr", w!"shared_ptr"]
  | .vectorHead => [w!"vector", w!"size_t"]
  | .vectorValue => [w!"vector", w!"move"]
  | _ => []

/-- The runs that construct in place. -/
def Frag.constructs : Frag → Bool
  | .placement | .uniquePtrHead | .uniquePtrUninit | .uniquePtrRest | .sharedPtrHead | .sharedPtrUninit | .sharedPtrRest
  | .weakPtrAll | .vectorValue => true
  | _ => false

def helperList : List Helper :=
  [.panic, .unsafeBitcopyT, .unsafeBitcopy, .impl, .string, .«opaque», .sizeOf, .alignOf, .str, .slice, .box, .vec, .fn, .error,
   .isize, .isComplete, .layout, .isRelocatable, .fat, .ptrLen, .operatorNew, .fail, .manuallyDrop, .maybeUninit, .destroy,
   .deleterIf, .isRelocatableOrArray, .trycatch, .newUnchecked, .sliceFrom, .reprOf, .errorFrom]

theorem helperList_all (h : Helper) : h ∈ helperList := by cases h <;> decide

/-- The tables against the text. -/
noncomputable def fragAgrees (f : Frag) : Bool :=
  let ts := tokensOf f.lines
  helperList.all (fun h =>
    decide (h ∈ f.helpers) ||
      bif h.member then !contains [w!">", w!"::", h.name.2] ts
      else !contains h.spelled ts && (!decide (f.scope = .rust) || !contains [h.name.2] ts)) &&
  (stdNames ts).all (fun t => f.stds.any (Nat.beq t)) &&
  (!decide (f.scope = .std) || ts.all (fun t => f.stds.any (Nat.beq t) || (providers t).isEmpty)) &&
  (f.constructs || !contains [w!"new", w!"("] ts)

theorem agrees_frag (f : Frag) : fragAgrees f = true := by
  cases f with
  | atom a => cases a <;> decide +kernel
  | _ => decide +kernel

theorem refers_spec {f : Frag} {h : Helper} (hr : Refers f h) : h ∈ f.helpers := by
  have ha := agrees_frag f
  simp only [fragAgrees, Bool.and_eq_true, List.all_eq_true] at ha
  have := ha.1.1.1 h (helperList_all h)
  unfold Refers at hr
  cases hm : h.member <;> simp_all <;> grind

theorem takes_spec {f : Frag} {t : Tok} (ht : Takes f t) : t ∈ f.stds := by
  have ha := agrees_frag f
  simp only [fragAgrees, Bool.and_eq_true, List.all_eq_true] at ha
  have mem : f.stds.any (Nat.beq t) = true → t ∈ f.stds := by
    intro h
    rw [List.any_eq_true] at h
    obtain ⟨x, hx, he⟩ := h
    rwa [Nat.eq_of_beq_eq_true he]
  rcases ht with ht | ⟨hs, ht, hp⟩
  · exact mem (ha.1.1.2 t ht)
  · have h := ha.1.2
    rw [hs] at h
    simp only [decide_true, Bool.not_true, Bool.false_or, List.all_eq_true, Bool.or_eq_true] at h
    rcases h t ht with h | h
    · exact mem h
    · exact absurd (List.isEmpty_iff.1 h) hp

theorem constructs_spec {f : Frag} (h : Constructs f) : f.constructs = true := by
  have ha := agrees_frag f
  simp only [fragAgrees, Bool.and_eq_true] at ha
  have := ha.2
  unfold Constructs at h
  simpa [h] using this

end Verif.Preamble
