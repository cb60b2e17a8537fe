import Verif.Repro.Spec
import Verif.Stripped.Abi
import Verif.Abi.Props
/-!
# C107: the same bridge always generates the same code
-/
namespace Verif.Repro
open Verif.Syntax Verif.Types Verif.Abi

/-! ### Contexts that answer alike -/

/-- Two contexts that answer alike. -/
structure Alike (a b : Ctx) : Prop where
  types : a.types = b.types
  improper : a.isImproper = b.isImproper
  pod : a.isPod = b.isPod

variable {a b : Ctx}

/-! ### Types -/

theorem needs (h : Alike a b) : a.needsIndirect = b.needsIndirect := by
  funext ty
  cases ty <;> simp only [Ctx.needsIndirect, h.pod, h.improper]

theorem externTy (h : Alike a b) : RustSig.externTy a = RustSig.externTy b := by
  funext proper ty
  exact Stripped.externTy_same h.improper proper ty

theorem abiIndirectReturnR (h : Alike a b) : Abi.indirectReturnR a = Abi.indirectReturnR b := by
  funext
  unfold Abi.indirectReturnR
  simp only [needs h]

theorem abiIndirectReturnC (h : Alike a b) : Abi.indirectReturnC a = Abi.indirectReturnC b := by
  funext
  unfold Abi.indirectReturnC
  simp only [needs h]

theorem abiIndirectReturnType (h : Alike a b) : Abi.indirectReturnType a = Abi.indirectReturnType b := by
  funext
  unfold Abi.indirectReturnType
  simp only [h.types]

theorem abiExternReturnC (h : Alike a b) : Abi.externReturnC a = Abi.externReturnC b := by
  funext
  unfold Abi.externReturnC
  simp only [h.types, needs h]

theorem abiExternArgBase (h : Alike a b) : Abi.externArgBase a = Abi.externArgBase b := by
  funext
  unfold Abi.externArgBase
  simp only [h.types]

theorem abiExternArg (h : Alike a b) : Abi.externArg a = Abi.externArg b := by
  funext
  unfold Abi.externArg
  simp only [needs h, abiExternArgBase h]

theorem abiCxxParamC (h : Alike a b) : Abi.cxxParamC a = Abi.cxxParamC b := by
  funext
  unfold Abi.cxxParamC
  simp only [h.types, abiExternArg h]

theorem abiReceiverC (h : Alike a b) : Abi.receiverC a = Abi.receiverC b := by
  funext
  unfold Abi.receiverC
  simp only [h.types]

theorem abiReturnC (h : Alike a b) : Abi.returnC a = Abi.returnC b := by
  funext
  unfold Abi.returnC
  simp only [abiExternReturnC h]

theorem abiCxxOutC (h : Alike a b) : Abi.cxxOutC a = Abi.cxxOutC b := by
  funext
  unfold Abi.cxxOutC
  simp only [abiIndirectReturnC h, abiIndirectReturnType h]

theorem abiCxxFunctionC (h : Alike a b) : Abi.cxxFunctionC a = Abi.cxxFunctionC b := by
  funext
  unfold Abi.cxxFunctionC
  simp only [h.types, abiCxxParamC h, abiReceiverC h, abiReturnC h, abiCxxOutC h]

theorem abiRustReturnPointee (h : Alike a b) : Abi.rustReturnPointee a = Abi.rustReturnPointee b := by
  funext
  unfold Abi.rustReturnPointee
  simp only [h.types]

theorem abiRustOutC (h : Alike a b) : Abi.rustOutC a = Abi.rustOutC b := by
  funext
  unfold Abi.rustOutC
  simp only [abiIndirectReturnC h, abiRustReturnPointee h]

theorem abiRustDeclC (h : Alike a b) : Abi.rustDeclC a = Abi.rustDeclC b := by
  funext
  unfold Abi.rustDeclC
  simp only [abiExternArg h, abiReceiverC h, abiReturnC h, abiRustOutC h]

theorem abiRustFunctionC (h : Alike a b) : Abi.rustFunctionC a = Abi.rustFunctionC b := by
  funext
  unfold Abi.rustFunctionC
  simp only [h.types, abiRustDeclC h]

theorem abiTrampolineC (h : Alike a b) : Abi.trampolineC a = Abi.trampolineC b := by
  funext
  unfold Abi.trampolineC
  simp only [h.types, abiRustDeclC h]

/-! ### The text of C++ declarations -/

theorem cxxtextSelfOf (h : Alike a b) : CxxText.selfOf a = CxxText.selfOf b := by
  funext
  unfold CxxText.selfOf
  simp only [h.types]

theorem cxxtextCxxSlot (h : Alike a b) : CxxText.cxxSlot a = CxxText.cxxSlot b := by
  funext
  unfold CxxText.cxxSlot
  simp only [abiIndirectReturnC h, abiIndirectReturnType h]

theorem cxxtextRustSlot (h : Alike a b) : CxxText.rustSlot a = CxxText.rustSlot b := by
  funext
  unfold CxxText.rustSlot
  simp only [abiIndirectReturnC h, abiRustReturnPointee h]

theorem cxxtextCxxLine (h : Alike a b) : CxxText.cxxLine a = CxxText.cxxLine b := by
  funext
  unfold CxxText.cxxLine
  simp only [h.types, abiCxxParamC h, abiReturnC h, cxxtextSelfOf h, cxxtextCxxSlot h]

theorem cxxtextRustLine (h : Alike a b) : CxxText.rustLine a = CxxText.rustLine b := by
  funext
  unfold CxxText.rustLine
  simp only [h.types, abiExternArg h, abiReturnC h, cxxtextSelfOf h, cxxtextRustSlot h]

theorem cxxtextPointerLineOf (h : Alike a b) : CxxText.pointerLineOf a = CxxText.pointerLineOf b := by
  funext
  unfold CxxText.pointerLineOf
  simp only [h.types, cxxtextSelfOf h]

/-! ### Declarations -/

theorem unitCxxShim (h : Alike a b) : Unit.cxxShim a = Unit.cxxShim b := by
  funext
  unfold Unit.cxxShim
  simp only [h.types, abiCxxFunctionC h]

theorem unitTrampoline (h : Alike a b) : Unit.trampoline a = Unit.trampoline b := by
  funext
  unfold Unit.trampoline
  simp only [h.types, abiTrampolineC h]

theorem unitRustProto (h : Alike a b) : Unit.rustProto a = Unit.rustProto b := by
  funext
  unfold Unit.rustProto
  simp only [h.types, abiRustFunctionC h]

theorem unitFirstLoop (h : Alike a b) : Unit.firstLoop a = Unit.firstLoop b := by
  funext
  unfold Unit.firstLoop
  simp only [unitCxxShim h, unitTrampoline h, unitRustProto h]

theorem unitInstances (h : Alike a b) : Unit.instances a = Unit.instances b := by
  unfold Unit.instances
  simp only [h.types]

theorem unitRustShim (h : Alike a b) (header : Bool) : Unit.rustShim header a = Unit.rustShim header b := by
  funext f
  unfold Unit.rustShim
  simp only [h.types]

theorem unitSecondLoop (h : Alike a b) (header : Bool) : Unit.secondLoop header a = Unit.secondLoop header b := by
  funext x
  unfold Unit.secondLoop
  simp only [unitRustShim h]

theorem unitFile (h : Alike a b) (header : Bool) (sorted : List Struct) (apis : List Api) :
    Unit.file header a sorted apis = Unit.file header b sorted apis := by
  unfold Unit.file
  simp only [h.types, unitFirstLoop h, unitSecondLoop h, unitInstances h]

/-! ### The calls that write them -/

theorem firstCalls (h : Alike a b) (T : Placed.Texts) : Placed.firstCalls T a = Placed.firstCalls T b := by
  funext x
  unfold Placed.firstCalls
  simp only [unitCxxShim h, unitTrampoline h, unitRustProto h]

theorem secondCalls (h : Alike a b) (T : Placed.Texts) (header : Bool) :
    Placed.secondCalls T header a = Placed.secondCalls T header b := by
  funext x
  unfold Placed.secondCalls
  simp only [unitRustShim h]

theorem instanceCalls (h : Alike a b) (T : Placed.Texts) : Placed.instanceCalls T a = Placed.instanceCalls T b := by
  unfold Placed.instanceCalls
  simp only [h.types, unitInstances h]

theorem placedCalls (h : Alike a b) (T : Placed.Texts) (header defaults : Bool) (trivial : Ident → Bool) (sorted : List Struct)
    (apis : List Api) :
    Placed.calls T header defaults trivial a sorted apis = Placed.calls T header defaults trivial b sorted apis := by
  unfold Placed.calls
  simp only [h.types, firstCalls h, secondCalls h, instanceCalls h]

/-! ### Signatures and items of the expanded module -/

theorem rustsigDeclArgTy (h : Alike a b) : RustSig.declArgTy a = RustSig.declArgTy b := by
  funext
  unfold RustSig.declArgTy
  simp only [needs h, externTy h]

theorem rustsigOutArg (h : Alike a b) : RustSig.outArg a = RustSig.outArg b := by
  funext
  unfold RustSig.outArg
  simp only [externTy h, abiIndirectReturnR h]

theorem rustsigExternReturn (h : Alike a b) : RustSig.externReturn a = RustSig.externReturn b := by
  funext
  unfold RustSig.externReturn
  simp only [needs h, externTy h]

theorem rustsigCxxDecl (h : Alike a b) : RustSig.cxxDecl a = RustSig.cxxDecl b := by
  funext
  unfold RustSig.cxxDecl
  simp only [rustsigDeclArgTy h, rustsigOutArg h, rustsigExternReturn h]

theorem rustsigRustArgTy (h : Alike a b) : RustSig.rustArgTy a = RustSig.rustArgTy b := by
  funext
  unfold RustSig.rustArgTy
  simp only [needs h, externTy h]

theorem rustsigRustExport (h : Alike a b) : RustSig.rustExport a = RustSig.rustExport b := by
  funext
  unfold RustSig.rustExport
  simp only [rustsigOutArg h, rustsigExternReturn h, rustsigRustArgTy h]

theorem lifetimesReturnUses (h : Alike a b) : Lifetimes.returnUses a = Lifetimes.returnUses b := by
  funext
  unfold Lifetimes.returnUses
  simp only [externTy h, abiIndirectReturnR h]

theorem lifetimesTrampolineItem (h : Alike a b) : Lifetimes.trampolineItem a = Lifetimes.trampolineItem b := by
  funext
  unfold Lifetimes.trampolineItem
  simp only [rustsigOutArg h, rustsigExternReturn h, rustsigRustArgTy h]

theorem lifetimesTrampolineItems (h : Alike a b) : Lifetimes.trampolineItems a = Lifetimes.trampolineItems b := by
  funext
  unfold Lifetimes.trampolineItems
  simp only [lifetimesTrampolineItem h]

theorem lifetimesCxxFnItems (h : Alike a b) : Lifetimes.cxxFnItems a = Lifetimes.cxxFnItems b := by
  funext
  unfold Lifetimes.cxxFnItems
  simp only [h.types, rustsigCxxDecl h, lifetimesReturnUses h, lifetimesTrampolineItems h]

theorem lifetimesRustFnItems (h : Alike a b) : Lifetimes.rustFnItems a = Lifetimes.rustFnItems b := by
  funext
  unfold Lifetimes.rustFnItems
  simp only [rustsigRustExport h]

theorem lifetimesApiItems (h : Alike a b) : Lifetimes.apiItems a = Lifetimes.apiItems b := by
  funext
  unfold Lifetimes.apiItems
  simp only [h.types, lifetimesCxxFnItems h, lifetimesRustFnItems h]

theorem lifetimesExpand (h : Alike a b) : Lifetimes.expand a = Lifetimes.expand b := by
  funext
  unfold Lifetimes.expand
  simp only [h.types, lifetimesApiItems h]

/-! ### Conversions -/

theorem convCxxSetupR (h : Alike a b) : Conv.cxxSetupR a = Conv.cxxSetupR b := by
  funext
  unfold Conv.cxxSetupR
  simp only [needs h]

theorem convCxxRefR (h : Alike a b) : Conv.cxxRefR a = Conv.cxxRefR b := by
  funext
  unfold Conv.cxxRefR
  simp only [h.improper]

theorem convCxxPassR (h : Alike a b) : Conv.cxxPassR a = Conv.cxxPassR b := by
  funext
  unfold Conv.cxxPassR
  simp only [h.improper, needs h, convCxxRefR h]

theorem convCxxRetRefR (h : Alike a b) : Conv.cxxRetRefR a = Conv.cxxRetRefR b := by
  funext
  unfold Conv.cxxRetRefR
  simp only [h.improper]

theorem convCxxRetR (h : Alike a b) : Conv.cxxRetR a = Conv.cxxRetR b := by
  funext
  unfold Conv.cxxRetR
  simp only [h.improper, abiIndirectReturnR h, convCxxRetRefR h]

theorem convRustReceiveR (h : Alike a b) : Conv.rustReceiveR a = Conv.rustReceiveR b := by
  funext
  unfold Conv.rustReceiveR
  simp only [needs h]

theorem convCxxReceiveC (h : Alike a b) : Conv.cxxReceiveC a = Conv.cxxReceiveC b := by
  funext
  unfold Conv.cxxReceiveC
  simp only [h.types, needs h]

theorem convCxxRetC (h : Alike a b) : Conv.cxxRetC a = Conv.cxxRetC b := by
  funext
  unfold Conv.cxxRetC
  simp only [h.types, abiIndirectReturnC h]

theorem convRustPassC (h : Alike a b) : Conv.rustPassC a = Conv.rustPassC b := by
  funext
  unfold Conv.rustPassC
  simp only [h.types, needs h]

theorem convRustRetC (h : Alike a b) : Conv.rustRetC a = Conv.rustRetC b := by
  funext
  unfold Conv.rustRetC
  simp only [h.types]

/-! ### Calls -/

theorem fatLets (h : Alike a b) : Call.fatLets a = Call.fatLets b := by
  funext f as
  induction as with
  | nil => rfl
  | cons x xs ih => simp only [Call.fatLets, h.types, ih]

theorem callUninitLets (h : Alike a b) : Call.uninitLets a = Call.uninitLets b := by
  funext
  unfold Call.uninitLets
  simp only [needs h]

theorem callCxxFront (h : Alike a b) : Call.cxxFront a = Call.cxxFront b := by
  funext
  unfold Call.cxxFront
  simp only [h.types, abiIndirectReturnR h, fatLets h, callUninitLets h]

theorem callCxxTarget (h : Alike a b) : Call.cxxTarget a = Call.cxxTarget b := by
  funext
  unfold Call.cxxTarget
  simp only [h.types]

theorem callCxxBack (h : Alike a b) : Call.cxxBack a = Call.cxxBack b := by
  funext
  unfold Call.cxxBack
  simp only [abiIndirectReturnC h, callCxxTarget h]

theorem callDropLets (h : Alike a b) : Call.dropLets a = Call.dropLets b := by
  funext
  unfold Call.dropLets
  simp only [needs h]

theorem callPassArg (h : Alike a b) : Call.passArg a = Call.passArg b := by
  funext
  unfold Call.passArg
  simp only [needs h]

theorem callRustFrontImpl (h : Alike a b) : Call.rustFrontImpl a = Call.rustFrontImpl b := by
  funext
  unfold Call.rustFrontImpl
  simp only [abiIndirectReturnC h, callDropLets h, callPassArg h]

theorem callRustFront (h : Alike a b) : Call.rustFront a = Call.rustFront b := by
  funext
  unfold Call.rustFront
  simp only [h.types, callRustFrontImpl h]

theorem callRustBackImpl (h : Alike a b) : Call.rustBackImpl a = Call.rustBackImpl b := by
  funext
  unfold Call.rustBackImpl
  simp only [abiIndirectReturnR h]

theorem callRustBack (h : Alike a b) : Call.rustBack a = Call.rustBack b := by
  funext
  unfold Call.rustBack
  simp only [callRustBackImpl h]

theorem callTrampolines (h : Alike a b) : Call.trampolines a = Call.trampolines b := by
  funext
  unfold Call.trampolines
  simp only [h.types, callRustFrontImpl h, callRustBackImpl h]

theorem allTrampolines (h : Alike a b) : Call.allTrampolines a = Call.allTrampolines b := by
  funext names f as
  induction as with
  | nil => rfl
  | cons x xs ih => simp only [Call.allTrampolines, callTrampolines h, ih]

theorem callApiDefs (h : Alike a b) : Call.apiDefs a = Call.apiDefs b := by
  funext
  unfold Call.apiDefs
  simp only [h.types, callCxxBack h, callRustBack h, allTrampolines h]

theorem callDefs (h : Alike a b) : Call.defs a = Call.defs b := by
  funext names apis
  induction apis with
  | nil => rfl
  | cons x xs ih => simp only [Call.defs, callApiDefs h, ih]

theorem callApiFront (h : Alike a b) : Call.apiFront a = Call.apiFront b := by
  funext
  unfold Call.apiFront
  simp only [callCxxFront h, callRustFront h]

/-! ### Includes and built-in definitions -/

variable {apis : List Api} {sorted : List Struct} {header : Bool}

theorem preambleExternReturnText (h : Alike a b) :
    Preamble.externReturnText ⟨a, apis, sorted, header⟩ = Preamble.externReturnText ⟨b, apis, sorted, header⟩ := by
  funext
  unfold Preamble.externReturnText
  simp only [needs h]

theorem preambleWriteStruct : Preamble.writeStruct ⟨a, apis, sorted, header⟩ = Preamble.writeStruct ⟨b, apis, sorted, header⟩ := rfl

theorem preambleWriteOpaque : Preamble.writeOpaque ⟨a, apis, sorted, header⟩ = Preamble.writeOpaque ⟨b, apis, sorted, header⟩ := rfl

theorem preambleForwardDecl (h : Alike a b) :
    Preamble.forwardDecl ⟨a, apis, sorted, header⟩ = Preamble.forwardDecl ⟨b, apis, sorted, header⟩ := by
  funext
  unfold Preamble.forwardDecl
  simp only [h.types]

theorem preambleDataLoop (h : Alike a b) :
    Preamble.dataLoop ⟨a, apis, sorted, header⟩ = Preamble.dataLoop ⟨b, apis, sorted, header⟩ := by
  funext items written rest
  induction items generalizing written rest with
  | nil => rfl
  | cons x xs ih =>
    cases x <;>
      simp only [Preamble.dataLoop, h.types, ih, preambleWriteStruct (a := a) (b := b), preambleWriteOpaque (a := a) (b := b)]

theorem preambleCheckTrivial (h : Alike a b) :
    Preamble.checkTrivial ⟨a, apis, sorted, header⟩ = Preamble.checkTrivial ⟨b, apis, sorted, header⟩ := by
  funext
  unfold Preamble.checkTrivial
  simp only [h.types]

theorem preambleDataStructures (h : Alike a b) :
    Preamble.dataStructures ⟨a, apis, sorted, header⟩ = Preamble.dataStructures ⟨b, apis, sorted, header⟩ := by
  unfold Preamble.dataStructures
  simp only [preambleDataLoop h, preambleCheckTrivial h]

theorem preambleIndirectReturn (h : Alike a b) :
    Preamble.indirectReturn ⟨a, apis, sorted, header⟩ = Preamble.indirectReturn ⟨b, apis, sorted, header⟩ := by
  funext
  unfold Preamble.indirectReturn
  simp only [needs h]

theorem preambleRustDecl (h : Alike a b) :
    Preamble.rustDecl ⟨a, apis, sorted, header⟩ = Preamble.rustDecl ⟨b, apis, sorted, header⟩ := by
  funext
  unfold Preamble.rustDecl
  simp only [preambleExternReturnText h, preambleIndirectReturn h]

theorem preambleMoveIn (h : Alike a b) :
    Preamble.moveIn ⟨a, apis, sorted, header⟩ = Preamble.moveIn ⟨b, apis, sorted, header⟩ := by
  funext
  unfold Preamble.moveIn
  simp only [needs h]

theorem preambleRustShimImpl (h : Alike a b) :
    Preamble.rustShimImpl ⟨a, apis, sorted, header⟩ = Preamble.rustShimImpl ⟨b, apis, sorted, header⟩ := by
  funext
  unfold Preamble.rustShimImpl
  simp only [preambleIndirectReturn h, preambleMoveIn h]

theorem preambleTrampoline (h : Alike a b) :
    Preamble.trampoline ⟨a, apis, sorted, header⟩ = Preamble.trampoline ⟨b, apis, sorted, header⟩ := by
  funext
  unfold Preamble.trampoline
  simp only [preambleRustDecl h, preambleRustShimImpl h]

theorem preambleCallArg (h : Alike a b) :
    Preamble.callArg ⟨a, apis, sorted, header⟩ = Preamble.callArg ⟨b, apis, sorted, header⟩ := by
  funext
  unfold Preamble.callArg
  simp only [needs h]

theorem preambleCxxShim (h : Alike a b) :
    Preamble.cxxShim ⟨a, apis, sorted, header⟩ = Preamble.cxxShim ⟨b, apis, sorted, header⟩ := by
  funext
  unfold Preamble.cxxShim
  simp only [preambleExternReturnText h, preambleIndirectReturn h, preambleTrampoline h, preambleCallArg h]

theorem preambleFunctions (h : Alike a b) :
    Preamble.functions ⟨a, apis, sorted, header⟩ = Preamble.functions ⟨b, apis, sorted, header⟩ := by
  unfold Preamble.functions
  simp only [preambleRustDecl h, preambleRustShimImpl h, preambleCxxShim h]

theorem preambleUniquePtrCommon (h : Alike a b) :
    Preamble.uniquePtrCommon ⟨a, apis, sorted, header⟩ = Preamble.uniquePtrCommon ⟨b, apis, sorted, header⟩ := by
  funext
  unfold Preamble.uniquePtrCommon
  simp only [h.types]

theorem preambleExternPart (h : Alike a b) :
    Preamble.externPart ⟨a, apis, sorted, header⟩ = Preamble.externPart ⟨b, apis, sorted, header⟩ := by
  funext
  unfold Preamble.externPart
  simp only [h.types, preambleUniquePtrCommon h]

theorem preambleInstantiations (h : Alike a b) :
    Preamble.instantiations ⟨a, apis, sorted, header⟩ = Preamble.instantiations ⟨b, apis, sorted, header⟩ := by
  unfold Preamble.instantiations
  simp only [h.types, preambleExternPart h]

theorem preambleEmits (h : Alike a b) :
    Preamble.emits ⟨a, apis, sorted, header⟩ = Preamble.emits ⟨b, apis, sorted, header⟩ := by
  unfold Preamble.emits
  simp only [h.types, preambleForwardDecl h, preambleDataStructures h, preambleFunctions h, preambleInstantiations h]

theorem preambleGenerated (h : Alike a b) :
    Preamble.generated ⟨a, apis, sorted, header⟩ = Preamble.generated ⟨b, apis, sorted, header⟩ := by
  funext
  unfold Preamble.generated
  simp only [preambleEmits h]

/-! ### Two runs -/

theorem runs_alike {g : Check.Generator} {apis : List Api} (ha : Check.Accepted g apis) (r r' : Run) (depth : Nat) :
    Alike (r.knows depth apis) (r'.knows depth apis) := by
  refine ⟨rfl, ?_, rfl⟩
  funext ty
  rw [Bool.eq_iff_iff]
  unfold Ctx.isImproper
  exact (Improper.improper_exact ha.1 r.order r.visits ty).trans (Improper.improper_exact ha.1 r'.order r'.visits ty).symm

/-- **C107**, C++: whatever the order in which two runs walk through their hash tables, they write the same file for the same
bridge. -/
theorem same_cxx {apis : List Api} (ha : Check.Accepted .build apis) (r r' : Run) (depth : Nat) (T : Placed.Texts)
    (custom : List Preamble.Include) (header defaults : Bool) (trivial : Ident → Bool) (sorted : List Struct) :
    cxx T custom header defaults trivial sorted apis (r.knows depth apis) =
      cxx T custom header defaults trivial sorted apis (r'.knows depth apis) := by
  have h := runs_alike ha r r' depth
  unfold cxx
  simp only [unitFile h, placedCalls h, preambleGenerated h, cxxtextCxxLine h, cxxtextRustLine h, cxxtextPointerLineOf h, h.types,
    convCxxReceiveC h, convCxxRetC h, convRustPassC h, convRustRetC h]

/-- **C107**, Rust: the same for the expansion of the macro. -/
theorem same_rust {apis : List Api} (ha : Check.Accepted .macro apis) (r r' : Run) (depth : Nat) (names : Call.CallbackNames) :
    rust names apis (r.knows depth apis) = rust names apis (r'.knows depth apis) := by
  have h := runs_alike ha r r' depth
  unfold rust
  simp only [lifetimesExpand h, rustsigCxxDecl h, rustsigRustExport h, callDefs h, callApiFront h, convCxxSetupR h, convCxxPassR h,
    convCxxRetR h, convRustReceiveR h]

section Witness

/-- Two structs that the macro keeps from the linter, one that holds one of them, and a function with a reference to it. -/
def demo : List Api :=
  [.struct ⟨[], ⟨[], "A", "A"⟩, [], [⟨⟨[], "s", "s"⟩, .named "String"⟩]⟩,
   .struct ⟨[], ⟨[], "B", "B"⟩, [], [⟨⟨[], "s", "s"⟩, .named "String"⟩]⟩,
   .struct ⟨[], ⟨[], "C", "C"⟩, [], [⟨⟨[], "b", "b"⟩, .named "B"⟩]⟩,
   .cxxFunction ⟨.cxx, ⟨[], "f", "f"⟩, ⟨false, [], none, [⟨⟨[], "c", "c"⟩, .ref false none false (.named "C")⟩], none, false⟩, true⟩]

/-- A run that visits the names in order of declaration, and one that goes backwards. -/
def forwards : Run := ⟨fun _ l => l, fun _ l => .refl l⟩
def backwards : Run := ⟨fun _ l => l.reverse, fun _ l => l.reverse_perm⟩

example : Check.Accepted .build demo ∧ Check.Accepted .macro demo := by decide +kernel

/-- They do not collect the names in the same order. -/
example : (forwards.knows 4 demo).improper = ["C", "A", "B"] ∧ (backwards.knows 4 demo).improper = ["C", "B", "A"] := by
  constructor
  · show Improper.improperStructs (collect demo) (fun _ l => l) (fun _ _ => rfl) = _
    decide +kernel
  · show Improper.improperStructs (collect demo) (fun _ l => l.reverse) (fun _ _ => List.length_reverse) = _
    decide +kernel

/-- The argument is declared as a pointer to `c_void`, in every run. -/
example (r : Run) : RustSig.declArgTy (r.knows 4 demo) (.ref false none false (.named "C")) = .ptr false RustSig.cVoid := by
  have h := runs_alike (g := .macro) (apis := demo) (by decide +kernel) r forwards 4
  have hi : (forwards.knows 4 demo).isImproper (.named "C") = true := by
    show Improper.isImproper (collect demo) (Improper.improperStructs (collect demo) (fun _ l => l) (fun _ _ => rfl)) _ = true
    decide +kernel
  rw [rustsigDeclArgTy h]
  simp only [Ty.named] at hi ⊢
  simp [RustSig.declArgTy, RustSig.externTy, isRustString, Ctx.needsIndirect, hi]

end Witness

end Verif.Repro
