import Verif.Several.Cases
import Verif.Shim.Props
/-!
# C111: what is written for a bridge, and what it does, does not depend on the other bridges of the file
-/
namespace Verif.Several
open Verif.Syntax Verif.Types Verif.Check Verif.Abi Verif.CxxText Verif.Mangle Verif.Prototype
open Verif.Pod (Owning)

variable {b all : List Api} {g : Generator}

/-! ### Types -/

theorem writeTypes_same {ts ts' : Types} : ∀ {as : List Ty}, (∀ a ∈ as, writeType ts a = writeType ts' a) →
    writeTypes ts as = writeTypes ts' as
  | [], _ => by simp only [writeTypes]
  | a :: as, h => by
    simp only [writeTypes, h a (.head _), writeTypes_same fun x hx => h x (.tail _ hx)]

theorem writeOpt_same {ts ts' : Types} {r : Option Ty} (h : ∀ t, r = some t → writeType ts t = writeType ts' t) :
    writeOpt ts r = writeOpt ts' r := by
  cases r with
  | none => simp only [writeOpt]
  | some t => simp only [writeOpt, h t rfl]

theorem writeType_same (h : Inside b all) (hb : Accepted g b) {t : Ty} (ho : Occurs b t) :
    writeType (collect b) t = writeType (collect all) t := by
  induction t using Ty.induct with
  | ident n =>
    simp only [writeType]
    cases hat : Atom.fromStr n.rust with
    | some a => rfl
    | none => simp only [resolve_same h (defined hb ho hat)]
  | rustBox t ih => simp only [writeType, ih (occurs_part ho (.rustBox t))]
  | rustVec t ih => simp only [writeType, ih (occurs_part ho (.rustVec t))]
  | uniquePtr t ih => simp only [writeType, ih (occurs_part ho (.uniquePtr t))]
  | sharedPtr t ih => simp only [writeType, ih (occurs_part ho (.sharedPtr t))]
  | weakPtr t ih => simp only [writeType, ih (occurs_part ho (.weakPtr t))]
  | cxxVector t ih => simp only [writeType, ih (occurs_part ho (.cxxVector t))]
  | ref p l m t ih => simp only [writeType, ih (occurs_part ho (.ref p l m t))]
  | ptr m t ih => simp only [writeType, ih (occurs_part ho (.ptr m t))]
  | sliceRef l m t ih => simp only [writeType, ih (occurs_part ho (.sliceRef l m t))]
  | array t n ih => simp only [writeType, ih (occurs_part ho (.array t n))]
  | fn u as r th iha ihr =>
    have h1 : writeTypes (collect b) as = writeTypes (collect all) as :=
      writeTypes_same fun a ha => iha a ha (occurs_part ho (.fnArg _ _ _ _ ha))
    have h2 : writeOpt (collect b) r = writeOpt (collect all) r :=
      writeOpt_same fun t ht => ihr t ht (by subst ht; exact occurs_part ho (.fnRet _ _ _ _))
    simp only [writeType, h1, h2]
  | str p l m t ih => simp only [writeType]
  | void => simp only [writeType]

/-- The two contexts answer every question about the types of the bridge `b` alike. -/
structure Alike (b : List Api) (cx cx' : Ctx) : Prop extends Answers b cx cx' where
  write : ∀ t, Occurs b t → writeType cx.types t = writeType cx'.types t

theorem alike (h : Inside b all) (hb : Accepted g b) (hall : (collect all).dups = []) {cx cx' : Ctx} (hcx : CtxFor b cx)
    (hcx' : CtxFor all cx') : Alike b cx cx' :=
  ⟨answers h hb hall hcx hcx', fun t ho => by rw [hcx.types, hcx'.types]; exact writeType_same h hb ho⟩

variable {cx cx' : Ctx}

theorem externArgBase_same (h : Alike b cx cx') {t : Ty} (ho : Occurs b t) : externArgBase cx t = externArgBase cx' t := by
  cases t with
  | rustBox t => simp only [externArgBase, h.write t (occurs_part ho (.rustBox t))]
  | uniquePtr t => simp only [externArgBase, h.write t (occurs_part ho (.uniquePtr t))]
  | cxxVector t => simp only [externArgBase, h.write t (occurs_part ho (.cxxVector t))]
  | _ => simp only [externArgBase, h.write _ ho]

theorem externArg_same (h : Alike b cx cx') {t : Ty} (ho : Occurs b t) : externArg cx t = externArg cx' t := by
  simp only [externArg, h.indirect t ho, externArgBase_same h ho]

theorem cxxParamC_same (h : Alike b cx cx') {t : Ty} (ho : Occurs b t) : cxxParamC cx t = cxxParamC cx' t := by
  simp only [cxxParamC, h.write t ho, externArg_same h ho]

theorem indirectReturnType_same (h : Alike b cx cx') {t : Ty} (ho : Occurs b t) :
    indirectReturnType cx t = indirectReturnType cx' t := by
  cases t with
  | rustBox t => simp only [indirectReturnType, h.write t (occurs_part ho (.rustBox t))]
  | uniquePtr t => simp only [indirectReturnType, h.write t (occurs_part ho (.uniquePtr t))]
  | ref p l m t => simp only [indirectReturnType, h.write t (occurs_part ho (.ref p l m t))]
  | _ => simp only [indirectReturnType, h.write _ ho]

theorem rustReturnPointee_same (h : Alike b cx cx') {t : Ty} (ho : Occurs b t) :
    rustReturnPointee cx t = rustReturnPointee cx' t := by
  cases t with
  | ref p l m t => simp only [rustReturnPointee, h.write t (occurs_part ho (.ref p l m t))]
  | _ => simp only [rustReturnPointee, h.write _ ho]

theorem returnC_same (h : Alike b cx cx') {ret : Option Ty} (ho : ∀ t, ret = some t → Occurs b t) (throws : Bool) :
    returnC cx ret throws = returnC cx' ret throws := by
  suffices externReturnC cx ret = externReturnC cx' ret by simp only [returnC, this]
  cases ret with
  | none => rfl
  | some t =>
    have ho := ho t rfl
    cases t with
    | rustBox t => simp only [externReturnC, h.write t (occurs_part ho (.rustBox t))]
    | uniquePtr t => simp only [externReturnC, h.write t (occurs_part ho (.uniquePtr t))]
    | ref p l m t => simp only [externReturnC, h.write t (occurs_part ho (.ref p l m t))]
    | _ => simp only [externReturnC, h.write _ ho, h.indirect _ ho]

theorem cxxSlot_same (h : Alike b cx cx') {ret : Option Ty} (ho : ∀ t, ret = some t → Occurs b t) (throws : Bool) :
    cxxSlot cx ret throws = cxxSlot cx' ret throws := by
  cases ret with
  | none => rfl
  | some t => simp only [cxxSlot, indirectReturnC, h.indirect t (ho t rfl), indirectReturnType_same h (ho t rfl)]; rfl

theorem rustSlot_same (h : Alike b cx cx') {ret : Option Ty} (ho : ∀ t, ret = some t → Occurs b t) (throws : Bool) :
    rustSlot cx ret throws = rustSlot cx' ret throws := by
  cases ret with
  | none => rfl
  | some t => simp only [rustSlot, indirectReturnC, h.indirect t (ho t rfl), rustReturnPointee_same h (ho t rfl)]; rfl

theorem mapM_same {α β : Type} {f f' : α → Option β} : ∀ {l : List α}, (∀ a ∈ l, f a = f' a) → l.mapM f = l.mapM f'
  | [], _ => by simp only [List.mapM_nil]
  | a :: l, h => by simp only [List.mapM_cons, h a (.head _), mapM_same fun x hx => h x (.tail _ hx)]

theorem receiver_same (h : Inside b all) (hb : Accepted g b) {f : ExternFn} (hf : HasFn b f) {r : Receiver}
    (hr : f.sig.receiver = some r) : resolve (collect all) r.ty.rust = resolve (collect b) r.ty.rust :=
  resolve_same h ((names_resolve hb).2.1 f hf r hr).1

theorem selfOf_same (h : Inside b all) (hb : Accepted g b) (hcx : CtxFor b cx) (hcx' : CtxFor all cx') {f : ExternFn}
    (hf : HasFn b f) : selfOf cx f.sig.receiver = selfOf cx' f.sig.receiver := by
  cases hr : f.sig.receiver with
  | none => rfl
  | some r => simp only [selfOf, hcx.types, hcx'.types, receiver_same h hb hf hr]

/-! ### C111 -/

variable {bs : List (List Api)} {cxB cxC cxR : Ctx}

/-- **C111**.  The types of a bridge are written as if the bridge were alone in its file. -/
theorem type_lines_partial (ha : Apart bs) (hb : b ∈ bs) (hacc : Accepted g b) {ty : Ty} (ho : Occurs b ty) :
    writeType (collect (file bs)) ty = writeType (collect b) ty := (writeType_same (inside ha hb) hacc ho).symm

/-- **C111**.  What the C++ generator writes for a C++ function, its shim and the pointer to the function in it, is what it
writes if the bridge is alone in its file. -/
theorem cxx_lines_partial (ha : Apart bs) (hfile : Accepted .build (file bs)) (hb : b ∈ bs) (hacc : Accepted g b)
    (hB : CtxFor b cxB) (hC : CtxFor (file bs) cxC) {f : ExternFn} (hf : Api.cxxFunction f ∈ b) :
    cxxLine cxC f = cxxLine cxB f ∧ pointerLineOf cxC f = pointerLineOf cxB f ∧
      ∀ var ∈ f.sig.args, ∀ u args ret th, var.ty = .fn u (args.map (·.2)) ret th →
        trampolineLine cxC f var.name args ret th = trampolineLine cxB f var.name args ret th := by
  have hin := inside ha hb
  have hs := alike hin hacc hfile.1 hB hC
  have hf : HasFn b f := .inl hf
  have hself := selfOf_same hin hacc hB hC hf
  have hlink : externFn cxB.types f = externFn cxC.types f := by rw [hB.types, hC.types]; exact externFn_same hin hacc hf
  have hret : ∀ t, f.sig.ret = some t → Occurs b t := fun t ht => ret_occurs hf ht
  refine ⟨?_, ?_, fun var hv u args ret th hty => ?_⟩
  · have h1 := mapM_same (l := f.sig.args) (f := fun a => (cxxParamC cxB a.ty).map (·, a.name.cxx))
      (f' := fun a => (cxxParamC cxC a.ty).map (·, a.name.cxx)) fun a ha => by simp only [cxxParamC_same hs (arg_occurs hf ha)]
    simp only [cxxLine, hself, hlink, h1, cxxSlot_same hs hret, returnC_same hs hret]
  · have h1 : writeTypes cxB.types (f.sig.args.map (·.ty)) = writeTypes cxC.types (f.sig.args.map (·.ty)) :=
      writeTypes_same fun t ht => by
        obtain ⟨a, ha, rfl⟩ := List.mem_map.1 ht; exact hs.write _ (arg_occurs hf ha)
    have h2 : writeOpt cxB.types f.sig.ret = writeOpt cxC.types f.sig.ret := writeOpt_same fun t ht => hs.write t (hret t ht)
    simp only [pointerLineOf, hself, h1, h2]
  · have ho : Occurs b (.fn u (args.map (·.2)) ret th) := hty ▸ arg_occurs hf hv
    have h1 := mapM_same (l := args) (f := fun a => (externArg cxB a.2).map (·, a.1))
      (f' := fun a => (externArg cxC a.2).map (·, a.1)) fun a ha => by
        simp only [externArg_same hs (occurs_part ho (.fnArg _ _ _ _ (List.mem_map.2 ⟨a, ha, rfl⟩)))]
    have hr : ∀ t, ret = some t → Occurs b t := by rintro t rfl; exact occurs_part ho (.fnRet _ _ _ _)
    simp only [trampolineLine, rTrampoline, hlink, h1, rustSlot_same hs hr, returnC_same hs hr]

/-- **C111**.  Likewise for a Rust function: its declaration and the head of the C++ function that calls it. -/
theorem rust_lines_partial (ha : Apart bs) (hfile : Accepted .build (file bs)) (hb : b ∈ bs) (hacc : Accepted g b)
    (hB : CtxFor b cxB) (hC : CtxFor (file bs) cxC) {f : ExternFn} (hf : Api.rustFunction f ∈ b) :
    rustLine cxC f = rustLine cxB f ∧ ∀ inClass, shimLine (collect (file bs)) inClass f = shimLine (collect b) inClass f := by
  have hin := inside ha hb
  have hs := alike hin hacc hfile.1 hB hC
  have hf : HasFn b f := .inr hf
  have hself := selfOf_same hin hacc hB hC hf
  have hlink : externFn cxB.types f = externFn cxC.types f := by rw [hB.types, hC.types]; exact externFn_same hin hacc hf
  have hret : ∀ t, f.sig.ret = some t → Occurs b t := fun t ht => ret_occurs hf ht
  refine ⟨?_, fun inClass => ?_⟩
  · have h1 := mapM_same (l := f.sig.args) (f := fun a => (externArg cxB a.ty).map (·, a.name.cxx))
      (f' := fun a => (externArg cxC a.ty).map (·, a.name.cxx)) fun a ha => by simp only [externArg_same hs (arg_occurs hf ha)]
    simp only [rustLine, hself, hlink, h1, rustSlot_same hs hret, returnC_same hs hret]
  · have h1 := mapM_same (l := f.sig.args) (f := fun a => (writeType (collect b) a.ty).map (·, a.name.cxx))
      (f' := fun a => (writeType (collect (file bs)) a.ty).map (·, a.name.cxx)) fun a ha => by
        simp only [writeType_same hin hacc (arg_occurs hf ha)]
    have h2 : writeOpt (collect b) f.sig.ret = writeOpt (collect (file bs)) f.sig.ret :=
      writeOpt_same fun t ht => writeType_same hin hacc (hret t ht)
    have h3 : declName (collect b) inClass f = declName (collect (file bs)) inClass f := by
      unfold declName
      cases hr : f.sig.receiver with
      | none => rfl
      | some r => simp only [receiver_same hin hacc hf hr]
    simp only [shimLine, h1, h2, h3]

/-! ### What happens in a call -/

open Verif.Shim in
theorem call_same {setup pass receive setup' pass' receive' : Ty → List Stmt} {as : List Arg}
    (h1 : ∀ a ∈ as, setup a.ty = setup' a.ty) (h2 : ∀ a ∈ as, pass a.ty = pass' a.ty)
    (h3 : ∀ a ∈ as, receive a.ty = receive' a.ty) : call setup pass receive as = call setup' pass' receive' as := by
  rw [call_eq, call_eq, mapM_same fun a ha => ?_]
  simp only [callOne, h1 a ha, h2 a ha, h3 a ha]

open Verif.Shim in
/-- **C111**.  A call of a C++ function from Rust, through the code that the macro made from its bridge and the code that the
C++ generator made from the file: the objects are handed over and destroyed once.  Missing as in **C39**, too. -/
theorem cxx_call_partial (ha : Apart bs) (hfile : Accepted .build (file bs)) (hb : b ∈ bs) (hacc : Accepted g b)
    (hR : CtxFor b cxR) (hC : CtxFor (file bs) cxC) {as : List Arg} (ho : ∀ a ∈ as, Occurs b a.ty)
    (hf : ∀ a ∈ as, Fits b a.ty a.val) (hl : ∀ a ∈ as, ∀ n, ¬ Leaves a.val n) (hd : Distinct as) :
    ∃ r, rustCallsCxx cxR cxC as = some r ∧ Balanced as r := by
  have hs := answers (inside ha hb) hacc hfile.1 hR hC
  have : rustCallsCxx cxR cxC as = rustCallsCxx cxR cxR as :=
    call_same (fun _ _ => rfl) (fun _ _ => rfl) fun a ha => by simp only [cxxReceive, hs.indirect _ (ho a ha)]
  rw [this]
  exact cxx_call_balanced_partial hacc hR hR ho hf hl hd

open Verif.Shim in
/-- **C111**.  A call of a Rust function from C++, directly or through a function pointer. -/
theorem rust_call_partial (ha : Apart bs) (hfile : Accepted .build (file bs)) (hb : b ∈ bs) (hacc : Accepted g b)
    (hR : CtxFor b cxR) (hC : CtxFor (file bs) cxC) {as : List Arg} (ho : ∀ a ∈ as, Occurs b a.ty)
    (hf : ∀ a ∈ as, Fits b a.ty a.val) (hd : Distinct as) : ∃ r, cxxCallsRust cxC cxR as = some r ∧ Balanced as r := by
  have hs := answers (inside ha hb) hacc hfile.1 hR hC
  have : cxxCallsRust cxC cxR as = cxxCallsRust cxR cxR as :=
    call_same (fun a ha => by simp only [cxxSetup, hs.indirect _ (ho a ha)])
      (fun a ha => by
        have hi := hs.indirect _ (ho a ha)
        revert hi; generalize a.ty = t; intro hi
        cases t <;> simp only [cxxPass, hi]) fun _ _ => rfl
  rw [this]
  exact rust_call_balanced hacc hR hR ho hf hd

open Verif.Shim in
/-- **C111**.  What a function returns is handed to the caller, in both directions.  Missing as in **C60**, too. -/
theorem returns_partial (ha : Apart bs) (hfile : Accepted .build (file bs)) (hb : b ∈ bs) (hacc : Accepted g b)
    (hR : CtxFor b cxR) (hC : CtxFor (file bs) cxC) (throws : Bool) {ty : Ty} (ho : Occurs b ty) {v : Option Obj}
    (hf : Fits b ty v) :
    giveBack (cxxReturn cxC throws ty) (rustTakeReturn cxR throws ty) v = some (v, []) ∧
      ((∀ n, ¬ Leaves v n) → giveBack (rustReturn cxR throws ty) (cxxTakeReturn cxC throws ty) v = some (v, [])) := by
  have hs := answers (inside ha hb) hacc hfile.1 hR hC
  have h1 : cxxReturn cxC throws ty = cxxReturn cxR throws ty := by simp only [cxxReturn, hs.indirect _ ho]
  have h2 : cxxTakeReturn cxC throws ty = cxxTakeReturn cxR throws ty := by simp only [cxxTakeReturn, hs.indirect _ ho]
  rw [h1, h2]
  exact ⟨cxx_return hacc hR hR throws ho hf, fun hl => rust_return_partial hacc hR hR throws ho hf hl⟩

/-! ### Files with two bridges -/

/-- The functions of `side`. -/
def sideH : ExternFn :=
  ⟨.cxx, ⟨[], "h", "h"⟩, ⟨false, [], none, [⟨nm "q", .ref false none false (.named "Q")⟩,
     ⟨nm "k", .fn false [.named "Q"] none false⟩], some (.rustBox (.named "Q")), false⟩, true⟩

def sideK : ExternFn :=
  ⟨.rust, ⟨[], "k", "k"⟩, ⟨false, [], some ⟨false, none, true, ⟨"Q", []⟩, false⟩, [⟨nm "q", .named "Q"⟩], none, true⟩, true⟩

open Verif.Shim in
/-- The hypotheses of the theorems are met by the bridge `side` in a file with the bridges `tour` and `side`.  Passed are a struct
that owns something and a box. -/
example : Apart [tour, side] ∧ Accepted .build (file [tour, side]) ∧ side ∈ [tour, side] ∧ Accepted .build side ∧
    Accepted .macro side ∧ CtxFor side (context side 3) ∧ CtxFor (file [tour, side]) (context (file [tour, side]) 3) ∧
    Api.cxxFunction sideH ∈ side ∧ Api.rustFunction sideK ∈ side ∧
    ∃ as : List Arg, as.length = 2 ∧ (∀ a ∈ as, Occurs side a.ty) ∧ (∀ a ∈ as, Fits side a.ty a.val) ∧
      (∀ a ∈ as, ∀ n, ¬ Leaves a.val n) ∧ Distinct as ∧
      rustCallsCxx (context side 3) (context (file [tour, side]) 3) as = some ⟨as.map (·.val), [7]⟩ := by
  have hk : Api.rustFunction sideK ∈ side := .tail _ (.tail _ (.head _))
  have hh : Api.cxxFunction sideH ∈ side := .tail _ (.head _)
  have owning : Owning side (.named "Q") :=
    .field _ (by decide +kernel) _ (.head _) rfl _ (.head _) (.string _ (.inl rfl))
  refine ⟨apart_of (by decide +kernel), two_accepted, .tail _ (.head _), by decide +kernel, by decide +kernel,
    context_for (by decide +kernel), context_for (by decide +kernel), hh, hk,
    [⟨.named "Q", some ⟨7, true, none⟩, false⟩, ⟨.rustBox (.named "Q"), some ⟨8, true, none⟩, true⟩], rfl, ?_, ?_, ?_, ?_, ?_⟩
  · intro a ha
    simp only [List.mem_cons, List.not_mem_nil, or_false] at ha
    rcases ha with rfl | rfl
    · exact arg_occurs (a := ⟨nm "q", .named "Q"⟩) (.inr hk) (.head _)
    · exact ret_occurs (.inl hh) rfl
  · intro a ha
    simp only [List.mem_cons, List.not_mem_nil, or_false] at ha
    rcases ha with rfl | rfl
    · exact ⟨fun _ _ => owning, fun _ ⟨_, h, h'⟩ => (by cases h; cases h'), fun _ _ => by simp⟩
    · exact ⟨fun _ _ => .box _, fun _ ⟨_, h, h'⟩ => (by cases h; cases h'), fun _ _ => by simp⟩
  · intro a ha n ⟨o, h, h'⟩
    simp only [List.mem_cons, List.not_mem_nil, or_false] at ha
    rcases ha with rfl | rfl <;> cases h <;> cases h'
  · refine ⟨?_, ?_⟩
    · intro i j a b n hi hj h1 h2
      match i, j with
      | 0, 0 => rfl
      | 1, 1 => rfl
      | 0, 1 =>
        cases hi; cases hj
        rcases h1 with ⟨_, h, _, h1⟩ | ⟨_, h, h1⟩ <;> cases h <;> cases h1
        rcases h2 with ⟨_, h, _, h2⟩ | ⟨_, h, h2⟩ <;> cases h <;> cases h2
      | 1, 0 =>
        cases hi; cases hj
        rcases h1 with ⟨_, h, _, h1⟩ | ⟨_, h, h1⟩ <;> cases h <;> cases h1
        rcases h2 with ⟨_, h, _, h2⟩ | ⟨_, h, h2⟩ <;> cases h <;> cases h2
      | i + 2, _ => simp at hi
      | _, j + 2 => simp at hj
    · intro a ha n ⟨_, o, h, h'⟩
      simp only [List.mem_cons, List.not_mem_nil, or_false] at ha
      rcases ha with rfl | rfl <;> cases h <;> cases h'
  · decide +kernel

/-- **C111** fails for names that two bridges share: what is written for a method of the first bridge is different with the second
bridge beside it. -/
theorem halved_changes :
    Accepted .build first ∧ Accepted .build (file [first, second]) ∧ Halved [first, second] "S" ∧ Api.rustFunction method ∈ first ∧
      CtxFor first (context first 3) ∧ CtxFor (file [first, second]) (context (file [first, second]) 3) ∧
      rustLine (context first 3) method = some "void cxxbridge1$S$f(::S const &self) noexcept".toList ∧
      rustLine (context (file [first, second]) 3) method = some "void cxxbridge1$T$f(::T const &self) noexcept".toList := by
  refine ⟨by decide +kernel, by decide +kernel, ?_, .tail _ (.head _), context_for (by decide +kernel),
    context_for (by decide +kernel), ?_, ?_⟩
  · show definitions (file [first, second]) "S" ∈ _; decide +kernel
  · decide +kernel
  · decide +kernel

end Verif.Several
