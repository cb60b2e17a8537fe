import Verif.RustSig.Spec
import Verif.Parse.ItemProps
import Verif.Check.Resolve
/-!
# Reading what the macro prints
-/
namespace Verif.RustSig
open Verif.Syntax Verif.Parse Verif.Abi Verif.Types

/-! ### Arguments -/

theorem params_read {inputs : List (PatSrc × RTy)} {args : List Var} (k : Nat) (hl : args.length = inputs.length)
    (ha : ∀ (i : Nat) a v, inputs[i]? = some a → args[i]? = some v → ArgumentIs (k + i) a v) :
    ∃ ds, all (inputs.map (fun i => meaning true i.2)) = some ds ∧
      all (args.map (fun a => meaning false (printType a.ty))) = some (ds.map Den.erase) ∧
      argNames k (inputs.map (·.1)) = args.map (fun a => some a.name.rust) ∧ ds.length = args.length := by
  induction inputs generalizing args k with
  | nil =>
    cases args with
    | nil => exact ⟨[], rfl, rfl, rfl, rfl⟩
    | cons => simp at hl
  | cons i inputs ih =>
    cases args with
    | nil => simp at hl
    | cons v args =>
      obtain ⟨ds, h1, h2, h3, h4⟩ := ih (k + 1) (by simpa using hl) (fun j a v hj hv => by
        have := ha (j + 1) a v (by simpa using hj) (by simpa using hv)
        rwa [show k + (j + 1) = k + 1 + j by omega] at this)
      have h0 := ha 0 i v rfl rfl
      have : ∃ d, meaning true i.2 = some d ∧ meaning false (printType v.ty) = some d.erase := by
        cases h0 with
        | named h => exact type_emitted h
        | unnamed h => exact type_emitted h
      obtain ⟨d, hd1, hd2⟩ := this
      refine ⟨d :: ds, ?_, ?_, ?_, by simp [h4]⟩
      · simp [all, hd1, h1]
      · simp [all, hd2, h2]
      · cases h0 with
        | named => simp [argNames, h3]
        | unnamed => simp [argNames, h3]

theorem lifetimeParams_eq (ls : List Ident) : lifetimeParams (ls.map (.lifetime · false)) = some ls := by
  induction ls with
  | nil => rfl
  | cons l ls ih => simp [lifetimeParams, ih]

/-! ### Results -/

theorem meaningRet_returnTy (ret : Option Ty) : meaningRet false (returnTy ret) =
    match ret with | none => some .unit | some t => meaning false (printType t) := by
  cases ret <;> rfl

theorem erase_result (d : Den) : (Den.apply ["Result"] d).erase = .apply ["Result"] d.erase := erase_apply (p := ["Result"]) (by simp) d

theorem ret_read {w : Option RTy} {ret : Option Ty} {throws : Bool} (h : parseReturn w = .ok (ret, throws)) :
    ∃ d, meaningRet true w = some d ∧
      (throws = false → meaningRet false (returnTy ret) = some d.erase) ∧
      (throws = true → ∃ d', d = .apply ["Result"] d' ∧ meaning false (okTy ret) = some d'.erase) := by
  have plain : ∀ w, (match parseType w with
      | .error e => Except.error e
      | .ok .void => .ok (none, false)
      | .ok ty => .ok (some ty, false)) = .ok (ret, throws) →
      ∃ d, meaning true w = some d ∧ (throws = false → meaningRet false (returnTy ret) = some d.erase) ∧
      (throws = true → ∃ d', d = .apply ["Result"] d' ∧ meaning false (okTy ret) = some d'.erase) := by
    intro w h
    cases hp : parseType w with
    | error e => rw [hp] at h; cases h
    | ok t =>
      obtain ⟨d, h1, h2⟩ := type_emitted hp
      rw [hp] at h
      refine ⟨d, h1, ?_⟩
      rw [meaningRet_returnTy]
      cases t <;> simp at h <;> obtain ⟨rfl, rfl⟩ := h <;>
        first | exact ⟨fun _ => h2, by simp⟩ | exact ⟨fun _ => by rw [← h2]; simp [printType, meaning], by simp⟩
  cases w with
  | none => simp [parseReturn] at h; obtain ⟨rfl, rfl⟩ := h; exact ⟨.unit, rfl, fun _ => rfl, by simp⟩
  | some w =>
    simp only [meaningRet]
    unfold parseReturn at h
    split at h
    · cases ‹some w = none›
    · next last arg hw' =>
      injection hw' with hw'
      split at h
      · next hl =>
        subst hl
        cases hp : parseType arg with
        | error e => rw [hp] at h; cases h
        | ok t =>
          obtain ⟨d, h1, h2⟩ := type_emitted hp
          refine ⟨.apply ["Result"] d, ?_, ?_⟩
          · rw [hw']; simp [meaning, h1, pathMeans, knownGeneric]
          · rw [hp] at h
            cases t <;> simp at h <;> obtain ⟨rfl, rfl⟩ := h <;>
              first | exact ⟨by simp, fun _ => ⟨d, rfl, h2⟩⟩ |
                exact ⟨by simp, fun _ => ⟨d, rfl, by rw [← h2]; simp [printType, okTy, meaning]⟩⟩
      · rw [← hw'] at h; exact plain w h
    · next r _ hw' => injection hw' with hw'; subst hw'; exact plain _ h

theorem printType_not_result (ok error : RTy) (ty : Ty) :
    printType ty ≠ .path false true ["cxx", "core", "result"] "Result" (.angle [.type ok, .type error]) := by
  intro h
  cases ty <;> simp only [printType, printNamed, cxxPath] at h <;> (repeat' split at h) <;> simp_all

theorem resultMeans_plain (ret : Option Ty) : resultMeans (returnTy ret) = meaningRet false (returnTy ret) := by
  cases ret with
  | none => rfl
  | some t =>
    unfold resultMeans
    split
    · next ok error h =>
      simp only [returnTy, Option.map_some, Option.some.injEq] at h
      exact absurd h (printType_not_result ok error t)
    · rfl

theorem resultMeans_throws (ret : Option Ty) :
    resultMeans (shimReturn ret true) = (meaning false (okTy ret)).map (.apply ["Result"]) := by
  simp [shimReturn, resultMeans, cxxPath, meaning, pathMeans]

/-! ### Receivers -/

/-- `::cxx::core::pin::Pin` -/
def pinPath : List Ident := ["cxx", "core", "pin", "Pin"]

/-- The type of a receiver. -/
def recvDen (r : Receiver) (self : Den) : Den :=
  if r.pinned then .apply pinPath (.reference r.lifetime r.mutable self) else .reference r.lifetime r.mutable self

theorem meaning_name (n : Ident) (ls : List Ident) :
    meaning false (.path false false [] n (lifetimeArgs ls)) = some (.named [n] ls) := by
  cases ls with
  | nil => simp [lifetimeArgs, meaning, pathMeans]
  | cons l ls =>
    have : ∀ ls : List Ident, lifetimesOf (τ := RTy) (ls.map .lifetime) = some ls := by
      intro ls
      induction ls with
      | nil => rfl
      | cons l ls ih => simp [lifetimesOf, ih]
    have h2 := this (l :: ls)
    simp only [List.map_cons] at h2
    simp [lifetimeArgs, meaning, pathMeans, h2]

theorem meaning_receiverOf (r : Receiver) (ty : RTy) (d : Den) (h : meaning false ty = some d) :
    meaning false (receiverOf r ty) = some (recvDen r d) := by
  unfold receiverOf recvDen
  split
  · simp [cxxPath, meaning, h, pathMeans, pinPath]
  · simp [meaning, h]

theorem meaning_receiverTy (r : Receiver) : meaning false (receiverTy r) = some (recvDen r (.named [r.ty.rust] r.ty.generics)) :=
  meaning_receiverOf r _ _ (meaning_name _ _)

theorem shimReceiver_reads (r : Receiver) (self : Den) : receiverReads self (shimReceiver r) = some (recvDen r self) := by
  unfold shimReceiver
  split
  · next hp =>
    have := meaning_receiverOf r (.path false false [] "Self" .none) (.named ["Self"] []) (by simp [meaning, pathMeans])
    simp only [receiverReads, receiverTySelf, this, Option.map_some]
    simp [recvDen, hp, Den.withSelf, pinPath]
  · next hp => simp [receiverReads, recvDen, hp]

theorem erase_pin (d : Den) : (Den.apply pinPath d).erase =
    match d.erase with | .apply ["cxx", "core", "pin", "Pin"] d => .apply pinPath d | d => .apply pinPath d := by
  simp only [Den.erase, pinPath]
  cases d.erase with
  | apply p d' =>
    by_cases hp : p = ["cxx", "core", "pin", "Pin"]
    · subst hp; rfl
    · split
      · next h => simp_all
      · split
        · next h => simp_all
        · rfl
  | _ => rfl

theorem ofType_other (own : Ident) {d : Den} (h : ∀ ls, d ≠ .named ["Self"] ls) (h2 : ∀ p d', d ≠ .apply p d')
    (h3 : ∀ l m d', d ≠ .reference l m d') : Den.ofType own d = d := by
  unfold Den.ofType
  split
  · next ls => exact absurd rfl (h ls)
  · next p d' => exact absurd rfl (h2 p d')
  · next l m d' => exact absurd rfl (h3 l m d')
  · rfl

theorem erase_ofType (own : Ident) (d : Den) : (Den.ofType own d).erase = Den.ofType own d.erase := by
  induction d using Den.ofType.induct with
  | case1 ls => simp [Den.ofType, Den.erase]
  | case2 p d ih =>
    simp only [Den.ofType]
    by_cases hp : p = pinPath
    · subst hp
      rw [erase_pin, erase_pin, ih]
      cases he : d.erase with
      | apply p d' =>
        by_cases hp : p = ["cxx", "core", "pin", "Pin"]
        · subst hp; simp [Den.ofType]
        · simp only [Den.ofType]
          split
          · next h => simp at h; exact absurd h.1 hp
          · split
            · next h => simp at h; exact absurd h.1 hp
            · simp [Den.ofType]
      | reference l m d' => simp [Den.ofType]
      | named p ls =>
        by_cases hp : p = ["Self"]
        · subst hp; simp [Den.ofType]
        · rw [ofType_other own (by simp [hp]) (by simp) (by simp)]
          simp only [Den.ofType]
          rw [ofType_other own (by simp [hp]) (by simp) (by simp)]
      | _ => simp [Den.ofType]
    · rw [erase_apply hp, erase_apply hp, ih]; simp [Den.ofType]
  | case3 l m d ih => simp only [Den.ofType, Den.erase, ih]
  | case4 d h1 h2 h3 =>
    rw [ofType_other own (fun ls h => h1 ls h) (fun p d h => h2 p d h) (fun l m d h => h3 l m d h)]
    cases d with
    | apply p d => exact absurd rfl (h2 p d)
    | reference l m d => exact absurd rfl (h3 l m d)
    | named p ls => rw [Den.erase, ofType_other own (fun ls h => h1 ls h) (by simp) (by simp)]
    | _ => simp [Den.ofType, Den.erase]

theorem ofType_recvDen (own : Ident) (r : Receiver) :
    Den.ofType own (recvDen r (.named [r.ty.rust] r.ty.generics)) =
      recvDen r (.named [if r.ty.rust = "Self" then own else r.ty.rust] r.ty.generics) := by
  have h : Den.ofType own (.named [r.ty.rust] r.ty.generics) =
      .named [if r.ty.rust = "Self" then own else r.ty.rust] r.ty.generics := by
    split
    · next h => rw [h]; rfl
    · next h => exact ofType_other own (by simp [h]) (by simp) (by simp)
  unfold recvDen
  split <;> simp [Den.ofType, h]

/-- The names that the macro replaces. -/
def replaced : List Ident := ["c_char", "CxxString", "String"]

theorem receiver_means {src : SelfSrc} {rc : Receiver} (own : Ident) (h : ReceiverIs (some src) (some rc))
    (hp : rc.ty.rust ∉ replaced) :
    ∃ d, receiverMeans own src = some d ∧
      d.erase = recvDen rc (.named [if rc.ty.rust = "Self" then own else rc.ty.rust] rc.ty.generics) := by
  cases h with
  | ref l m => exact ⟨_, rfl, by simp [Den.erase, recvDen]⟩
  | @typed ty pinned l m n h =>
    obtain ⟨d, h1, h2⟩ := type_emitted h
    refine ⟨Den.ofType own d, by simp [receiverMeans, h1], ?_⟩
    rw [erase_ofType]
    have h3 : meaning false (printType (.ref pinned l m (.ident n))) =
        some (recvDen ⟨pinned, l, m, n, false⟩ (.named [n.rust] n.generics)) := by
      simp only [replaced, List.mem_cons, not_or] at hp
      have : printType (.ident n) = .path false false [] n.rust (lifetimeArgs n.generics) := by
        simp [printType, printNamed, hp.1, hp.2.1, hp.2.2.1]
      simp only [printType.eq_def (.ref pinned l m (.ident n))]
      rw [this]
      exact meaning_receiverOf ⟨pinned, l, m, n, false⟩ _ _ (meaning_name _ _)
    rw [h2] at h3
    injection h3 with h3
    rw [h3]
    exact ofType_recvDen own ⟨pinned, l, m, n, false⟩

/-! ### Where a function comes from -/

/-- A receiver with the name of its type in the place of `Self`. -/
def ownReceiver (own : Ident) (r : Receiver) : Receiver :=
  if r.ty.rust = "Self" then { r with ty := { r.ty with rust := own } } else r

theorem function_of {r : Readers} {checks trusted : Bool} {ns : Namespace} {items : List ItemSrc} {outs : List Out}
    {g : Check.Generator} (h : parseItems r checks trusted ns items = ([], outs)) (hc : Check.Accepted g (outs.map (·.api)))
    {m : ForeignModSrc} (hm : .foreignMod m ∈ items) {fn : FnSrc} (hf : .fn fn ∈ m.items) :
    ∃ a o f1 f found, o ∈ outs ∧
      (m.abi = some "C++" ∧ o.api = .cxxFunction f ∨ m.abi = some "Rust" ∧ o.api = .rustFunction f) ∧
      HasName r a fn found f.name ∧ SigIs fn f1 ∧
      ∀ own, (∀ n, OnlyTypeOf r a m.items n → own = n) →
        f.sig = { f1 with receiver := f1.receiver.map (ownReceiver own) } := by
  obtain ⟨part, ⟨conds, found, others, lang, before, _, hl, _, h3, h4⟩, hsub⟩ := block_of h hm
  obtain ⟨o1, h5, h6⟩ := h3.left hf
  obtain ⟨o2, h7, h8⟩ := h4.left h5
  cases h6 with
  | fn h6 =>
    obtain ⟨cond, fd, oth, f, hread, _, _, hk, hlang, hname, hsig, _⟩ := h6
    have hin : o2.api ∈ outs.map (·.api) := List.mem_map.2 ⟨o2, hsub _ h7, rfl⟩
    have only : ∀ n, OnlyType before n →
        OnlyTypeOf r ⟨lang, trusted || m.unsafety, conds, found.namespace, others⟩ m.items n := by
      rintro n ⟨b1, ot, b2, rfl, hd, hn⟩
      obtain ⟨s1, type, s2, e, e1, e2, e3⟩ := h3.split
      refine ⟨s1, type, s2, ot, e, e2, hd, ?_⟩
      intro t ht hdt
      have : ∃ o, o ∈ b1 ++ b2 ∧
          ForeignIs r ⟨lang, trusted || m.unsafety, conds, found.namespace, others⟩ t o := by
        rcases List.mem_append.1 ht with ht | ht
        · obtain ⟨o, h1, h2⟩ := e1.left ht; exact ⟨o, by simp [h1], h2⟩
        · obtain ⟨o, h1, h2⟩ := e3.left ht; exact ⟨o, by simp [h1], h2⟩
      obtain ⟨o, ho, h2⟩ := this
      obtain ⟨n', hn'⟩ := (declares_of h2).2 hdt
      exact hn o ho n' hn'
    have hlang2 : (lang = .cxx → m.abi = some "C++") ∧ (lang = .rust → m.abi = some "Rust") := by
      rcases hl with ⟨e1, e2⟩ | ⟨e1, e2, _⟩ <;> subst e2 <;> simp [e1]
    refine ⟨⟨lang, trusted || m.unsafety, conds, found.namespace, others⟩, o2, f.sig, ?_⟩
    have h9 := h8.2.2
    generalize ha1 : o1.api = a1 at h9 hk
    generalize ha2 : o2.api = a2 at h9 hin
    cases h9 with
    | @cxx f' rc n e1 e2 e3 =>
      rcases hk with ⟨e, hk⟩ | ⟨_, hk⟩ <;> cases hk
      refine ⟨_, fd, hsub _ h7, .inl ⟨hlang2.1 e, rfl⟩, ⟨cond, oth, hread, hname⟩, hsig, ?_⟩
      intro own how
      rw [how n (only n e3), e1]
      simp [ownReceiver, e2]
    | @rust f' rc n e1 e2 e3 =>
      rcases hk with ⟨_, hk⟩ | ⟨e, hk⟩ <;> cases hk
      refine ⟨_, fd, hsub _ h7, .inr ⟨hlang2.2 e, rfl⟩, ⟨cond, oth, hread, hname⟩, hsig, ?_⟩
      intro own how
      rw [how n (only n e3), e1]
      simp [ownReceiver, e2]
    | same =>
      have key : ∀ own, f.sig = { f.sig with receiver := f.sig.receiver.map (ownReceiver own) } := by
        intro own
        cases hr : f.sig.receiver with
        | none => rw [Option.map_none, ← hr]
        | some rc =>
          have : rc.ty.rust ≠ "Self" := by
            rcases hk with ⟨_, hk⟩ | ⟨_, hk⟩
            · rw [hk] at hin; exact not_self hc (.inl hin) hr
            · rw [hk] at hin; exact not_self hc (.inr hin) hr
          simp only [Option.map_some, ownReceiver, this, if_false]
          rw [← hr]
      rcases hk with ⟨e, hk⟩ | ⟨e, hk⟩
      · exact ⟨f, fd, hsub _ h7, .inl ⟨hlang2.1 e, hk⟩, ⟨cond, oth, hread, hname⟩, hsig, fun own _ => key own⟩
      · exact ⟨f, fd, hsub _ h7, .inr ⟨hlang2.2 e, hk⟩, ⟨cond, oth, hread, hname⟩, hsig, fun own _ => key own⟩

end Verif.RustSig
