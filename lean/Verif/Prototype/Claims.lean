import Verif.Prototype.Props
/-!
# C87: both compilers see the same function
-/
namespace Verif.Prototype
open Verif.Syntax Verif.Types Verif.Check Verif.Parse Verif.Abi Verif.RustSig Verif.CxxText Verif.Mangle

variable {g : Generator} {apis : List Api} {cxR cxC : Ctx}

theorem mapM_named {α : Type} {F : α → Option CTok} {N : α → Ident} {l : List α} {cs : List CTok} (h : l.mapM F = some cs) :
    ∃ ps, l.mapM (fun a => (F a).map (·, N a)) = some ps ∧ ps.map (·.1) = cs ∧ ps.map (·.2) = l.map N := by
  induction l generalizing cs with
  | nil => simp only [List.mapM_nil] at h; cases h; exact ⟨[], rfl, rfl, rfl⟩
  | cons a l ih =>
    simp only [List.mapM_cons, Option.bind_eq_bind, Option.bind_eq_some_iff] at h
    obtain ⟨c, hc, cs', hcs, h⟩ := h
    cases h
    obtain ⟨ps, h1, h2, h3⟩ := ih hcs
    exact ⟨(c, N a) :: ps, by simp [List.mapM_cons, hc, h1], by simp [h2], by simp [h3]⟩

theorem selfOf_some {cx : Ctx} {r : Option Receiver} {cs : List CTok} (h : r.toList.mapM (receiverC cx) = some cs) :
    ∃ s, selfOf cx r = some s := by
  cases r with
  | none => exact ⟨none, rfl⟩
  | some r =>
    simp only [Option.toList, List.mapM_cons, receiverC, Option.bind_eq_bind, Option.bind_eq_some_iff] at h
    obtain ⟨c, hc, _⟩ := h
    obtain ⟨p, hp, rfl⟩ := Option.map_eq_some_iff.1 hc
    exact ⟨_, by simp only [selfOf, hp]; rfl⟩

theorem slot_some {cx : Ctx} {F : Ty → Option CTok} {ret : Option Ty} {throws : Bool} {os : List CTok}
    (h : (match ret with
        | some ty => if indirectReturnC cx ret throws then (F ty).map (fun c => [CTok.star true c]) else some []
        | none => some []) = some os) :
    ∃ s, (match ret with
        | some ty => if indirectReturnC cx ret throws then (F ty).map some else some none
        | none => some none) = some s := by
  cases ret with
  | none => exact ⟨none, rfl⟩
  | some t =>
    dsimp only at h ⊢
    split at h
    · next hi =>
      obtain ⟨c, hc, _⟩ := Option.map_eq_some_iff.1 h
      exact ⟨some c, by rw [if_pos hi, hc]; rfl⟩
    · next hi => exact ⟨none, by rw [if_neg hi]⟩

/-- **C87**.  A C++ function that Rust calls: the line that the C++ compiler reads and the declaration that the Rust compiler
reads are of the same function. -/
theorem cxx_texts_agree_partial (h : Accepted g apis) (hlex : LexicalBridge apis) (hl : LegalNames apis) (hw : StrWritten apis)
    (hu : NoUnit apis) (hR : CtxFor apis cxR) (hC : CtxFor apis cxC) {f : ExternFn} (hf : Api.cxxFunction f ∈ apis)
    (hn : LegalFn f) :
    ∃ line c r link, cxxLine cxC f = some line ∧ declOf line = some c ∧
      reads (meaningRet false) [] none (cxxDecl cxR f) = some r ∧ (cxxFunctionR cxR f).symbol = some link ∧
      SameFunction apis link r c := by
  have hf' : HasFn apis f := .inl hf
  obtain ⟨rs, hrs, hrag⟩ := receivers_same h hC hf'
  obtain ⟨as, has, haag⟩ := mapM_fits (apis := apis) (f := fun a : Var => cxxParamC cxC a.ty)
    (k := fun a => declArgTy cxR a.ty) (l := f.sig.args)
    (fun a ha => cxxParam_same h hw hu hR hC (arg_occurs hf' ha) (arg_checked h hf' ha).1)
  obtain ⟨rc, hrc, hrcag⟩ := return_same h hw hR hC (ret := f.sig.ret)
    (fun t ht => ⟨ret_occurs hf' ht, ret_checked h hf' ht⟩) f.sig.throws true
  obtain ⟨s, hs⟩ := externFn_some h hlex hf'
  obtain ⟨os, hos, hoag⟩ := outs_same (F := indirectReturnType cxC) h hR hC true (ret := f.sig.ret)
    (fun t ht => ret_occurs hf' ht) f.sig.throws
    (fun t ht => cxxOut_same h hw hC (ret_occurs hf' ht) (ret_checked h hf' ht))
  obtain ⟨self, hself⟩ := selfOf_some hrs
  obtain ⟨slot, hslot⟩ := slot_some hos
  obtain ⟨ps, hps, _⟩ := mapM_named (N := fun a : Var => a.name.cxx) has
  have hline : ∃ line, cxxLine cxC f = some line := by
    refine ⟨externDecl s self ps rc slot false, ?_⟩
    have hslot : cxxSlot cxC f.sig.ret f.sig.throws = some slot := hslot
    simp only [cxxLine, hself, hps, hslot, hrc, hC.types, hs]; rfl
  obtain ⟨line, hline⟩ := hline
  obtain ⟨d, c, hd, hc, hproto⟩ := cxx_prototype_reads h hl hC.types hf' hn hline
  have hos : cxxOutC cxC f.sig.ret f.sig.throws = some os := hos
  have hd' : cxxFunctionC cxC f = some ⟨externFn cxC.types f, rs ++ as ++ os, rc⟩ := by
    simp only [cxxFunctionC, hrs, has, hos, hrc]; rfl
  rw [hd'] at hd
  cases hd
  obtain ⟨r, hr, hsame⟩ := same_function (apis := apis) (f := cxxDecl cxR f) rfl (sym := s)
    (c := ⟨externFn cxC.types f, rs ++ as ++ os, rc⟩) (r := c)
    (by
      simp only [cxxDecl, List.map_append, List.map_map, Function.comp_def]
      exact allFit_append (allFit_append hrag haag) hoag)
    hrcag (by rw [hC.types]; exact hs) hproto.name hproto.ret hproto.params
  exact ⟨line, c, r, s, hline, hc, hr, by simp only [cxxFunctionR, hR.types, hs], hsame⟩

/-- **C87**.  A Rust function that C++ calls. -/
theorem rust_texts_agree (h : Accepted g apis) (hlex : LexicalBridge apis) (hl : LegalNames apis) (hw : StrWritten apis)
    (hR : CtxFor apis cxR) (hC : CtxFor apis cxC) {f : ExternFn} (hf : Api.rustFunction f ∈ apis) (hlang : f.lang = .rust)
    (hn : LegalFn f) :
    ∃ line c r link, rustLine cxC f = some line ∧ declOf line = some c ∧
      reads (meaningRet false) [] none (rustExport cxR f) = some r ∧ (rustFunctionR cxR f).symbol = some link ∧
      SameFunction apis link r c := by
  have hf' : HasFn apis f := .inr hf
  obtain ⟨rs, hrs, hrag⟩ := receivers_same h hC hf'
  obtain ⟨as, has, haag⟩ := mapM_fits (apis := apis) (f := fun a : Var => externArg cxC a.ty)
    (k := fun a => rustArgTy cxR a.ty) (l := f.sig.args)
    (fun a ha => externArg_same h hw hR hC (arg_occurs hf' ha) ((arg_checked h hf' ha).2 hlang) false)
  obtain ⟨rc, hrc, hrcag⟩ := return_same h hw hR hC (ret := f.sig.ret)
    (fun t ht => ⟨ret_occurs hf' ht, ret_checked h hf' ht⟩) f.sig.throws false
  obtain ⟨s, hs⟩ := externFn_some h hlex hf'
  obtain ⟨os, hos, hoag⟩ := outs_same (F := rustReturnPointee cxC) h hR hC false (ret := f.sig.ret)
    (fun t ht => ret_occurs hf' ht) f.sig.throws
    (fun t ht => rustOut_same h hw hC (ret_occurs hf' ht) (ret_checked h hf' ht))
  obtain ⟨self, hself⟩ := selfOf_some hrs
  obtain ⟨slot, hslot⟩ := slot_some hos
  obtain ⟨ps, hps, _⟩ := mapM_named (N := fun a : Var => a.name.cxx) has
  have hline : ∃ line, rustLine cxC f = some line := by
    refine ⟨externDecl s self ps rc slot false, ?_⟩
    have hslot : rustSlot cxC f.sig.ret f.sig.throws = some slot := hslot
    simp only [rustLine, hself, hps, hslot, hrc, hC.types, hs]; rfl
  obtain ⟨line, hline⟩ := hline
  obtain ⟨d, c, hd, hc, hproto⟩ := rust_prototype_reads h hl hC.types hf' hn hline
  have hos : rustOutC cxC f.sig.ret f.sig.throws = some os := hos
  have has' : (f.sig.args.map (·.ty)).mapM (externArg cxC) = some as := by rw [List.mapM_map]; exact has
  have hd' : rustFunctionC cxC f = some ⟨externFn cxC.types f, rs ++ as ++ os, rc⟩ := by
    simp only [rustFunctionC, rustDeclC, hrs, has', hos, hrc, Bool.false_eq_true, if_false, List.append_nil]; rfl
  rw [hd'] at hd
  cases hd
  obtain ⟨r, hr, hsame⟩ := same_function (apis := apis) (f := rustExport cxR f) rfl (sym := s)
    (c := ⟨externFn cxC.types f, rs ++ as ++ os, rc⟩) (r := c)
    (by
      simp only [rustExport, List.map_append, List.map_map, Function.comp_def]
      exact allFit_append (allFit_append hrag haag) hoag)
    hrcag (by rw [hC.types]; exact hs) hproto.name hproto.ret hproto.params
  exact ⟨line, c, r, s, hline, hc, hr, by simp only [rustFunctionR, rustShimR, hR.types, hs], hsame⟩

/-- **C87**.  The Rust half of the trampoline of a function pointer.  Missing: a function pointer whose own parameters or
result are functions, `()` or C++ vectors by value (`nested_fn_pointer_disagrees`). -/
theorem trampoline_texts_agree_partial (h : Accepted g apis) (hlex : LexicalBridge apis) (hl : LegalNames apis)
    (hw : StrWritten apis) (hR : CtxFor apis cxR) (hC : CtxFor apis cxC) {f : ExternFn} (hf : Api.cxxFunction f ∈ apis)
    (hn : LegalFn f) {var : Var} (hv : var ∈ f.sig.args) (hvar : isWord var.name.rust.toList = true)
    {u th : Bool} {args : List (Ident × Ty)} {ret : Option Ty} (hty : var.ty = .fn u (args.map (·.2)) ret th)
    (hargs : ∀ a ∈ args, ¬ Odd a.2 ∧ isName a.1.toList = true) (hret : ∀ t, ret = some t → ¬ Odd t) :
    ∃ line c r link, trampolineLine cxC f var.name args ret th = some line ∧ declOf line = some c ∧
      reads (meaningRet false) [] none (trampolineFn cxR f args ret th) = some r ∧
      (trampolineR cxR f var.name (args.map (·.2)) ret th).symbol = some link ∧ SameFunction apis link r c := by
  have hf' : HasFn apis f := .inl hf
  have ho : Occurs apis (.fn u (args.map (·.2)) ret th) := hty ▸ arg_occurs hf' hv
  have hoa : ∀ a ∈ args, Occurs apis a.2 := fun a ha => occurs_part ho (.fnArg _ _ _ _ (List.mem_map.2 ⟨a, ha, rfl⟩))
  have hor : ∀ t, ret = some t → Occurs apis t ∧ ¬ Bare t := by
    rintro t rfl
    refine ⟨occurs_part ho (.fnRet _ _ _ _), fun hb => hret t rfl ?_⟩
    cases t <;> simp [Bare, Odd] at hb ⊢
  obtain ⟨as, has, haag⟩ := mapM_fits (apis := apis) (f := fun a : Ident × Ty => externArg cxC a.2)
    (k := fun a => rustArgTy cxR a.2) (l := args)
    (fun a ha => externArg_same h hw hR hC (hoa a ha) (hargs a ha).1 false)
  obtain ⟨rc, hrc, hrcag⟩ := return_same h hw hR hC (ret := ret) hor th false
  obtain ⟨s, hs⟩ := symbol_exists h hlex (e := .trampoline f var.name .rust) ⟨hf', var, hv, rfl⟩
  have hs : rTrampoline (collect apis) f var.name = some s := hs
  obtain ⟨os, hos, hoag⟩ := outs_same (F := rustReturnPointee cxC) h hR hC false (ret := ret)
    (fun t ht => (hor t ht).1) th (fun t ht => rustOut_same h hw hC (hor t ht).1 (hor t ht).2)
  obtain ⟨slot, hslot⟩ := slot_some hos
  have hslot : rustSlot cxC ret th = some slot := hslot
  have hos : rustOutC cxC ret th = some os := hos
  obtain ⟨ps, hps, hp1, hp2⟩ := mapM_named (N := fun a : Ident × Ty => a.1) has
  obtain ⟨k1, k2⟩ := ok_rustSlot h hl hC.types (fun t ht => (hor t ht).1) hslot
  rw [hos] at k2
  cases k2
  have hr := ok_return h hl hC.types (fun t ht => (hor t ht).1) hrc
  have hlink : isName s = true := by
    simp only [rTrampoline, Option.bind_eq_bind, Option.bind_eq_some_iff] at hs
    obtain ⟨x, hx, hj⟩ := hs
    have hxn := symbol_name (cx := cxC) hC.types hl hn (by rw [hC.types]; exact hx)
    simp only [isName, Bool.and_eq_true] at hxn
    simp only [isWord, Bool.and_eq_true] at hvar
    refine join_name hj (by simp only [isWord, Bool.and_eq_true]; exact ⟨⟨hxn.1.1.1, hxn.1.1.2⟩, hxn.1.2⟩) hvar.1.2 ?_
    intro y hy
    rw [List.mem_singleton.1 hy]
    decide +kernel
  obtain ⟨rd, hread, e1, e2, e3⟩ : ∃ rd, declOf (externDecl s none ps rc slot true) = some rd ∧ rd.name = [s] ∧
      rd.ret = denoteRet rc ∧ rd.params.map (·.1) = (as ++ slot.toList.map (CTok.star true) ++ [CTok.voidPtr]).map denote := by
    refine ⟨_, extern_reads s none ps rc slot true hlink hr k1 (fun _ hx => by cases hx) ?_, rfl, rfl, ?_⟩
    · intro p hp
      obtain ⟨a, ha, he⟩ := mapM_mem hps hp
      obtain ⟨c, hc, rfl⟩ := Option.map_eq_some_iff.1 he
      exact ⟨ok_externArg h hl hC.types (hoa a ha) hc, (hargs a ha).2⟩
    · rw [← hp1]
      simp only [Option.toList, List.map_nil, List.nil_append, if_true, List.map_append, List.map_map, Function.comp_def,
        denote_star, List.map_cons]
      rfl
  obtain ⟨r, hr, hsame⟩ := same_function (apis := apis) (f := trampolineFn cxR f args ret th) rfl (sym := s)
    (c := ⟨some s, as ++ slot.toList.map (.star true) ++ [.voidPtr], rc⟩) (r := rd)
    (by
      simp only [trampolineFn, List.map_append, List.map_map, Function.comp_def, List.map_cons, List.map_nil]
      exact allFit_append (allFit_append haag hoag)
        (.cons ⟨.ptr false .unit, by simp [meaning], .handle, .ptr _⟩ .nil))
    hrcag rfl ⟨s, rfl, e1⟩ e2 e3
  refine ⟨_, _, r, s, ?_, hread, hr, by simp only [trampolineR, rustShimR, hR.types, hs], hsame⟩
  simp only [trampolineLine, hps, hslot, hrc, hC.types, hs]; rfl

end Verif.Prototype
