import Verif.Stripped.Props
import Verif.Prototype.Cases
/-!
# C88: the functions that are left are the same on both sides
-/
namespace Verif.Stripped
open Verif.Syntax Verif.Types Verif.Parse Verif.Cfg Verif.Check Verif.Abi Verif.RustSig Verif.CxxText Verif.Mangle
  Verif.Prototype

variable {r : Readers} {checks trusted : Bool} {ns : Namespace} {items : List ItemSrc} {outs : List Out}
variable {f : Config} {σ : Evaluator} {apis apis' : List Api} {cxR cxC : Ctx}

/-! ### What does not change -/

theorem onItem_defines (f : Config) (o : Out) : defines (onItem f o) = defines o.api := by
  unfold onItem; split <;> simp_all [defines]

theorem onItem_resolves (f : Config) (o : Out) : resolves (onItem f o) = resolves o.api := by
  unfold onItem; split <;> simp_all [resolves]

theorem resolves_none {a : Api} (h : defines a = none) : resolves a = none := by
  cases a <;> simp_all [defines, resolves]

theorem on_struct (ht : TypesOn f outs) {o : Out} (ho : o ∈ outs) (hp : Printed r o) {s : Struct} (hs : o.api = .struct s) :
    onItem f o = .struct s := by
  unfold onItem
  rw [hs]
  dsimp only
  have hon := (ht o ho ⟨_, by rw [hs]; rfl⟩).2 s hs
  rw [List.filter_eq_self.2 (fun m hm => hon m.1 (List.of_mem_zip hm).1)]
  rw [List.map_snd_zip (Nat.le_of_eq (hp.fields s hs).symm)]

/-- What both generators need to know about types is the same with and without what is switched off. -/
structure SameTypes (apis apis' : List Api) : Prop where
  structs : ∀ s, Api.struct s ∈ apis ↔ Api.struct s ∈ apis'
  enums : ∀ n, (∃ e, Api.enum e ∈ apis ∧ e.name.rust = n) ↔ ∃ e, Api.enum e ∈ apis' ∧ e.name.rust = n
  definitions : apis.filterMap defines = apis'.filterMap defines
  resolves : apis.filterMap resolves = apis'.filterMap resolves
  written : ∀ a' ∈ apis', ∃ a ∈ apis, writtenTypes a' = writtenTypes a ∧ namesOf a' = namesOf a

theorem filter_filterMap {α β : Type} {p : α → Bool} {g : α → Option β} {l : List α}
    (h : ∀ a ∈ l, p a = false → g a = none) : (l.filter p).filterMap g = l.filterMap g := by
  induction l with
  | nil => rfl
  | cons a l ih =>
    have ih := ih fun b hb => h b (List.mem_cons_of_mem _ hb)
    rw [List.filter_cons]
    split
    · rw [List.filterMap_cons, List.filterMap_cons, ih]
    · next hp =>
      rw [List.filterMap_cons, h a (List.mem_cons_self ..) (by simpa using hp), ih]

theorem same_types (hp : ∀ o ∈ outs, Printed r o) (ht : TypesOn f outs) :
    SameTypes (outs.map (·.api)) (switchedOn f outs) := by
  have off : ∀ o ∈ outs, holds f o.extra.cfg = false → defines o.api = none := by
    intro o ho hf
    cases hd : defines o.api with
    | none => rfl
    | some d => have := (ht o ho ⟨d, hd⟩).1; rw [On, hf] at this; cases this
  refine ⟨?_, ?_, ?_, ?_, ?_⟩
  · intro s
    rw [mem_switchedOn, List.mem_map]
    constructor
    · rintro ⟨o, ho, hs⟩
      exact ⟨o, ho, (ht o ho ⟨_, by rw [hs]; rfl⟩).1, on_struct ht ho (hp o ho) hs⟩
    · rintro ⟨o, ho, _, he⟩
      refine ⟨o, ho, ?_⟩
      cases ha : o.api with
      | struct s' => rw [on_struct ht ho (hp o ho) ha] at he; exact he
      | _ => simp [onItem, ha] at he
  · intro n
    constructor
    · rintro ⟨e, he, hn⟩
      obtain ⟨o, ho, he⟩ := List.mem_map.1 he
      refine ⟨{ e with variants := ((o.members.zip e.variants).filter (fun m => holds f m.1.1.cfg)).map (·.2) },
        mem_switchedOn.2 ⟨o, ho, (ht o ho ⟨_, by rw [he]; rfl⟩).1, ?_⟩, hn⟩
      unfold onItem; rw [he]
    · rintro ⟨e, he, hn⟩
      obtain ⟨o, ho, _, he⟩ := mem_switchedOn.1 he
      cases ha : o.api with
      | enum e' =>
        simp only [onItem, ha, Api.enum.injEq] at he
        subst he
        exact ⟨e', List.mem_map.2 ⟨o, ho, ha⟩, hn⟩
      | _ => simp [onItem, ha] at he
  · rw [switchedOn, List.filterMap_map, List.filterMap_map]
    rw [show ((defines ∘ onItem f : Out → _)) = defines ∘ (·.api) from funext fun o => onItem_defines f o]
    exact (filter_filterMap fun o ho h => off o ho h).symm
  · rw [switchedOn, List.filterMap_map, List.filterMap_map]
    rw [show ((resolves ∘ onItem f : Out → _)) = resolves ∘ (·.api) from funext fun o => onItem_resolves f o]
    exact (filter_filterMap fun o ho h => resolves_none (off o ho h)).symm
  · intro a' ha'
    obtain ⟨o, ho, hon, rfl⟩ := mem_switchedOn.1 ha'
    refine ⟨o.api, List.mem_map.2 ⟨o, ho, rfl⟩, ?_⟩
    cases ha : o.api with
    | struct s => rw [on_struct ht ho (hp o ho) ha]; exact ⟨rfl, rfl⟩
    | _ => simp [onItem, ha, writtenTypes, namesOf]

theorem SameTypes.definition (h : SameTypes apis apis') (n : Ident) : Types.definitions apis n = Types.definitions apis' n := by
  unfold Types.definitions; rw [h.definitions]

theorem SameTypes.occurs (h : SameTypes apis apis') {ty : Ty} (ho : Occurs apis' ty) : Occurs apis ty := by
  obtain ⟨a', ha', w, hw, hx⟩ := ho
  obtain ⟨a, ha, he, _⟩ := h.written a' ha'
  exact ⟨a, ha, w, he ▸ hw, hx⟩

theorem plain_mono (hs : ∀ s, Api.struct s ∈ apis ↔ Api.struct s ∈ apis')
    (he : ∀ n, (∃ e, Api.enum e ∈ apis ∧ e.name.rust = n) → ∃ e, Api.enum e ∈ apis' ∧ e.name.rust = n) {ty : Ty}
    (h : Pod.Plain apis ty) : Pod.Plain apis' ty := by
  induction h with
  | numeric t h => exact .numeric t h
  | enum t hb e h hn hno =>
    obtain ⟨e', h', hn'⟩ := he t.rust ⟨e, h, hn⟩
    exact .enum t hb e' h' hn' fun s h => hno s ((hs s).2 h)
  | struct t hb s h hn hp _ ih => exact .struct t hb s ((hs s).1 h) hn hp ih
  | ref => exact .ref ..
  | ptr => exact .ptr ..
  | str => exact .str ..
  | slice => exact .slice ..
  | fn => exact .fn ..
  | array _ _ _ ih => exact .array _ _ ih

theorem improper_mono (hs : ∀ s, Api.struct s ∈ apis ↔ Api.struct s ∈ apis')
    (hd : ∀ n, Types.definitions apis n = Types.definitions apis' n) {ty : Ty}
    (h : Improper.Improper apis ty) : Improper.Improper apis' ty := by
  induction h with
  | string g => exact .string g
  | rustType t hb hno h => exact .rustType t hb (fun s h => hno s ((hs s).2 h)) (hd _ ▸ h)
  | «alias» t hb hno h => exact .alias t hb (fun s h => hno s ((hs s).2 h)) (hd _ ▸ h)
  | field t hb s h hn f hf _ ih => exact .field t hb s ((hs s).1 h) hn f hf ih
  | box => exact .box ..
  | vec => exact .vec ..
  | str => exact .str ..
  | fn => exact .fn ..
  | void => exact .void
  | slice => exact .slice ..
  | ref _ _ _ _ _ ih => exact .ref _ _ _ _ ih
  | ptr _ _ _ ih => exact .ptr _ _ ih
  | array _ _ _ ih => exact .array _ _ ih

/-! ### The same answers -/

theorem improper_same (h : SameTypes apis apis') (hd : (collect apis).dups = []) (hd' : (collect apis').dups = [])
    (hR : CtxFor apis cxR) (hC : CtxFor apis' cxC) : cxR.isImproper = cxC.isImproper := by
  funext ty
  rw [Bool.eq_iff_iff, isImproper_iff hd hR, isImproper_iff hd' hC]
  exact ⟨improper_mono h.structs h.definition,
    improper_mono (fun s => (h.structs s).symm) (fun n => (h.definition n).symm)⟩

theorem needsIndirect_same (h : SameTypes apis apis') (hd : (collect apis).dups = []) (hd' : (collect apis').dups = [])
    (hR : CtxFor apis cxR) (hC : CtxFor apis' cxC) {ty : Ty} (ho : Occurs apis' ty) :
    cxR.needsIndirect ty = cxC.needsIndirect ty := by
  have h1 : cxR.isPod ty = cxC.isPod ty := by
    rw [Bool.eq_iff_iff, isPod_iff hd hR (h.occurs ho), isPod_iff hd' hC ho]
    exact ⟨plain_mono h.structs (fun n => (h.enums n).1), plain_mono (fun s => (h.structs s).symm) (fun n => (h.enums n).2)⟩
  have h2 := improper_same h hd hd' hR hC
  cases ty <;> simp only [Ctx.needsIndirect] <;> rw [h1, h2]

theorem externTy_same (h : cxR.isImproper = cxC.isImproper) (proper : Bool) (ty : Ty) :
    externTy cxR proper ty = externTy cxC proper ty := by
  induction ty using Ty.induct with
  | rustBox t ih => simp only [externTy, h, ih]
  | uniquePtr t ih => simp only [externTy, h, ih]
  | rustVec t ih => simp only [externTy, ih]
  | ref p l m t ih =>
    unfold externTy
    cases t with
    | rustVec v => simp only [externTy] at ih; dsimp only; rw [ih]
    | _ => simp only [h]
  | ptr m t _ => simp only [externTy, h]
  | ident t => simp only [externTy]
  | str => simp only [externTy]
  | sliceRef => simp only [externTy]
  | fn => simp only [externTy]
  | void => simp only [externTy]
  | array => simp only [externTy]
  | sharedPtr => simp only [externTy]
  | weakPtr => simp only [externTy]
  | cxxVector => simp only [externTy]

theorem resolve_same (h : SameTypes apis apis') (n : Ident) :
    Mangle.resolve (collect apis) n = Mangle.resolve (collect apis') n := by
  unfold Mangle.resolve
  rw [(gathers apis).resolutions, (gathers apis').resolutions, h.resolves]

theorem symbol_same (h : SameTypes apis apis') (hR : CtxFor apis cxR) (hC : CtxFor apis' cxC) (fn : ExternFn) :
    externFn cxR.types fn = externFn cxC.types fn := by
  rw [hR.types, hC.types]
  unfold externFn
  simp only [resolve_same h]

theorem outArg_same (hI : cxR.isImproper = cxC.isImproper) (proper : Bool) {ret : Option Ty}
    (hN : ∀ t, ret = some t → cxR.needsIndirect t = cxC.needsIndirect t) (throws : Bool) :
    outArg cxR proper ret throws = outArg cxC proper ret throws := by
  cases ret with
  | none => rfl
  | some t =>
    have hi : indirectReturnR cxR (some t) throws = indirectReturnR cxC (some t) throws := by
      unfold indirectReturnR; dsimp only; rw [hN t rfl]
    unfold outArg
    dsimp only
    rw [hi, externTy_same hI]

theorem externReturn_same (hI : cxR.isImproper = cxC.isImproper) (proper : Bool) {ret : Option Ty}
    (hN : ∀ t, ret = some t → cxR.needsIndirect t = cxC.needsIndirect t) (throws : Bool) :
    externReturn cxR proper ret throws = externReturn cxC proper ret throws := by
  cases ret with
  | none => rfl
  | some t => simp only [externReturn, hN t rfl, externTy_same hI]

theorem declArg_same (hI : cxR.isImproper = cxC.isImproper) {ty : Ty} (hN : cxR.needsIndirect ty = cxC.needsIndirect ty) :
    declArgTy cxR ty = declArgTy cxC ty := by
  unfold declArgTy
  rw [externTy_same hI, hN]

theorem cxxDecl_same (h : SameTypes apis apis') (hd : (collect apis).dups = []) (hd' : (collect apis').dups = [])
    (hR : CtxFor apis cxR) (hC : CtxFor apis' cxC) {fn : ExternFn} (hf : HasFn apis' fn) :
    cxxDecl cxR fn = cxxDecl cxC fn := by
  have hI := improper_same h hd hd' hR hC
  have hret : ∀ t, fn.sig.ret = some t → cxR.needsIndirect t = cxC.needsIndirect t := fun t ht =>
    needsIndirect_same h hd hd' hR hC (ret_occurs hf ht)
  have hargs : fn.sig.args.map (fun a => (some a.name.rust, declArgTy cxR a.ty)) =
      fn.sig.args.map (fun a => (some a.name.rust, declArgTy cxC a.ty)) := by
    apply List.map_congr_left
    intro a ha
    rw [declArg_same hI (needsIndirect_same h hd hd' hR hC (arg_occurs hf ha))]
  unfold cxxDecl
  rw [outArg_same hI true hret, externReturn_same hI true hret, hargs]

theorem rustExport_same (h : SameTypes apis apis') (hd : (collect apis).dups = []) (hd' : (collect apis').dups = [])
    (hR : CtxFor apis cxR) (hC : CtxFor apis' cxC) {fn : ExternFn} (hf : HasFn apis' fn) :
    rustExport cxR fn = rustExport cxC fn := by
  have hI := improper_same h hd hd' hR hC
  have hret : ∀ t, fn.sig.ret = some t → cxR.needsIndirect t = cxC.needsIndirect t := fun t ht =>
    needsIndirect_same h hd hd' hR hC (ret_occurs hf ht)
  have hargs : fn.sig.args.map (fun a => (some a.name.rust, rustArgTy cxR a.ty)) =
      fn.sig.args.map (fun a => (some a.name.rust, rustArgTy cxC a.ty)) := by
    apply List.map_congr_left
    intro a ha
    unfold rustArgTy
    rw [needsIndirect_same h hd hd' hR hC (arg_occurs hf ha), externTy_same hI]
  unfold rustExport
  rw [outArg_same hI false hret, externReturn_same hI false hret, hargs]

/-- **C88**, where all types and fields are switched on (functions, includes, impls and variants may be switched off): for a
function of C++ that is left, the declaration in the expanded Rust module, which is made with all of the bridge in view, and
the C++ prototype, which is made from what is switched on, are of the same C function.  Missing: conditional types and fields,
for which this is false (`field_changes_abi`). -/
theorem cxx_halves_agree_partial (hp : parseItems r checks trusted ns items = ([], outs)) (hx : Extends f σ)
    (hs : stripped σ outs = (apis', [])) (ht : TypesOn f outs) (hm : Accepted .macro (outs.map (·.api)))
    (hb : Accepted .build apis') (hlex : LexicalBridge (outs.map (·.api))) (hl : LegalNames (outs.map (·.api)))
    (hw : StrWritten (outs.map (·.api))) (hu : NoUnit (outs.map (·.api)))
    (hR : CtxFor (outs.map (·.api)) cxR) (hC : CtxFor apis' cxC)
    {p : Piece} (hleft : Left r f outs p) {fn : ExternFn} (hfn : p.what = .calls fn) (hn : LegalFn fn) :
    ∃ line c d link, cxxLine cxC fn = some line ∧ declOf line = some c ∧
      reads (meaningRet false) [] none (cxxDecl cxR fn) = some d ∧ (cxxFunctionR cxR fn).symbol = some link ∧
      SameFunction apis' link d c := by
  have hf := (calls_in_step hp hx hs fn).1 ⟨p, hleft, hfn⟩
  have same : SameTypes (outs.map (·.api)) apis' := by rw [strip_on hx hs]; exact same_types (printed hp) ht
  have hlex' : LexicalBridge apis' := by
    intro a' ha' q hq
    obtain ⟨a, ha, _, he⟩ := same.written a' ha'
    exact hlex a ha q (he ▸ hq)
  have hl' : LegalNames apis' := by
    rintro n q ⟨h1, a, ha, g, h2⟩
    have : (q, g) ∈ (outs.map (·.api)).filterMap resolves := same.resolves ▸ List.mem_filterMap.2 ⟨a, ha, h2⟩
    obtain ⟨a', ha', h2'⟩ := List.mem_filterMap.1 this
    exact hl n q ⟨h1, a', ha', g, h2'⟩
  obtain ⟨line, c, d, link, h1, h2, h3, h4, h5⟩ := cxx_texts_agree_partial hb hlex' hl'
    (fun q l m t ho => hw q l m t (same.occurs ho)) (fun u as q th ho => hu u as q th (same.occurs ho)) hC hC hf hn
  refine ⟨line, c, d, link, h1, h2, ?_, ?_, h5⟩
  · rw [cxxDecl_same same hm.1 hb.1 hR hC (.inl hf)]; exact h3
  · rw [← h4]; exact symbol_same same hR hC fn

/-- **C88**, likewise for the functions of Rust. -/
theorem rust_halves_agree_partial (hp : parseItems r checks trusted ns items = ([], outs)) (hx : Extends f σ)
    (hs : stripped σ outs = (apis', [])) (ht : TypesOn f outs) (hm : Accepted .macro (outs.map (·.api)))
    (hb : Accepted .build apis') (hlex : LexicalBridge (outs.map (·.api))) (hl : LegalNames (outs.map (·.api)))
    (hw : StrWritten (outs.map (·.api)))
    (hR : CtxFor (outs.map (·.api)) cxR) (hC : CtxFor apis' cxC)
    {p : Piece} (hleft : Left r f outs p) {fn : ExternFn} (hfn : p.what = .exports fn) (hlang : fn.lang = .rust)
    (hn : LegalFn fn) :
    ∃ line c d link, rustLine cxC fn = some line ∧ declOf line = some c ∧
      reads (meaningRet false) [] none (rustExport cxR fn) = some d ∧ (rustFunctionR cxR fn).symbol = some link ∧
      SameFunction apis' link d c := by
  have hf := (exports_in_step hp hx hs fn).1 ⟨p, hleft, hfn⟩
  have same : SameTypes (outs.map (·.api)) apis' := by rw [strip_on hx hs]; exact same_types (printed hp) ht
  have hlex' : LexicalBridge apis' := by
    intro a' ha' q hq
    obtain ⟨a, ha, _, he⟩ := same.written a' ha'
    exact hlex a ha q (he ▸ hq)
  have hl' : LegalNames apis' := by
    rintro n q ⟨h1, a, ha, g, h2⟩
    have : (q, g) ∈ (outs.map (·.api)).filterMap resolves := same.resolves ▸ List.mem_filterMap.2 ⟨a, ha, h2⟩
    obtain ⟨a', ha', h2'⟩ := List.mem_filterMap.1 this
    exact hl n q ⟨h1, a', ha', g, h2'⟩
  obtain ⟨line, c, d, link, h1, h2, h3, h4, h5⟩ := rust_texts_agree hb hlex' hl'
    (fun q l m t ho => hw q l m t (same.occurs ho)) hC hC hf hlang hn
  refine ⟨line, c, d, link, h1, h2, ?_, ?_, h5⟩
  · rw [rustExport_same same hm.1 hb.1 hR hC (.inr hf)]; exact h3
  · rw [← h4]; exact symbol_same same hR hC fn

end Verif.Stripped
