import Verif.RustSig.Lemmas
import Verif.Abi.Props
/-!
# Functions of the expanded module have the declared signatures (C84)
-/
namespace Verif.RustSig
open Verif.Syntax Verif.Parse Verif.Abi Verif.Types

/-- What the declaration says, in terms of the parsed signature. -/
theorem declared_eq {fn : FnSrc} {f1 : Sig} (name own : Ident) (hs : SigIs fn f1)
    (hp : ∀ r, f1.receiver = some r → r.ty.rust ∉ replaced) :
    ∃ d0 ds, declared name own fn = some d0 ∧ d0.name = name ∧ d0.unsafety = f1.unsafety ∧ d0.lifetimes = f1.generics ∧
      d0.receiver.map Den.erase = (f1.receiver.map (ownReceiver own)).map
        (fun r => recvDen r (.named [r.ty.rust] r.ty.generics)) ∧
      d0.params = (f1.args.map (fun a => some a.name.rust)).zip ds ∧
      all (f1.args.map (fun a => meaning false (printType a.ty))) = some (ds.map Den.erase) ∧ ds.length = f1.args.length ∧
      (f1.throws = false → meaningRet false (returnTy f1.ret) = some d0.ret.erase) ∧
      (f1.throws = true → ∃ d', d0.ret = .apply ["Result"] d' ∧ meaning false (okTy f1.ret) = some d'.erase) := by
  obtain ⟨ds, h1, h2, h3, h4⟩ := params_read 0 hs.arity (fun i a v ha hv => by
    have := hs.arguments i a v ha hv; rwa [Nat.zero_add])
  obtain ⟨dr, h5, h6⟩ := ret_read hs.result
  have hl : lifetimeParams fn.generics.params = some f1.generics := by rw [hs.generics]; exact lifetimeParams_eq _
  have hr := hs.receiver
  have hrec : ∃ q : Option Den, (match fn.receiver with
      | none => some none
      | some r => (receiverMeans own r).map some) = some q ∧
      q.map Den.erase = (f1.receiver.map (ownReceiver own)).map (fun r => recvDen r (.named [r.ty.rust] r.ty.generics)) := by
    cases hfr : fn.receiver with
    | none =>
      rw [hfr] at hr
      generalize hq : f1.receiver = q at hr
      cases hr
      exact ⟨none, rfl, rfl⟩
    | some src =>
      rw [hfr] at hr
      cases hq : f1.receiver with
      | none => rw [hq] at hr; cases hr
      | some rc =>
        rw [hq] at hr
        obtain ⟨d, h7, h8⟩ := receiver_means own hr (hp rc hq)
        refine ⟨some d, by simp [h7], ?_⟩
        simp only [Option.map_some, h8, ownReceiver]
        split <;> simp_all [recvDen]
  obtain ⟨q, h7, h8⟩ := hrec
  refine ⟨⟨name, fn.unsafety, f1.generics, q, (argNames 0 (fn.inputs.map (·.1))).zip ds, dr⟩, ds, ?_, rfl, hs.unsafety.symm,
    rfl, h8, by rw [h3], h2, h4, h6⟩
  unfold declared
  rw [hl, h1, h5]
  cases hfr : fn.receiver with
  | none => rw [hfr] at h7; cases h7; simp
  | some src =>
    rw [hfr] at h7
    simp only [Option.map_eq_some_iff] at h7
    obtain ⟨d, h9, rfl⟩ := h7
    simp [h9]

theorem all_map {α β : Type} (l : List α) (g : α → Option β) (h : α → Option β) (hg : ∀ a ∈ l, g a = h a) :
    all (l.map g) = all (l.map h) := by
  rw [List.map_congr_left hg]

theorem full_recvDen (arity : List Ident → Nat) (r : Receiver) (self : Den) :
    Den.full arity (recvDen r self) = recvDen { r with lifetime := some (r.lifetime.getD "_") } (Den.full arity self) := by
  unfold recvDen
  split <;> simp [Den.full]

theorem shim_means {ts : Types} {arity : List Ident → Nat} {fn : FnSrc} {f1 : Sig} {f : ExternFn} {own : Ident} (hs : SigIs fn f1)
    (hf : f.sig = { f1 with receiver := f1.receiver.map (ownReceiver own) })
    (hp : ∀ r, f1.receiver = some r → r.ty.rust ∉ replaced)
    (ht : ∀ r, f.sig.receiver = some r → lifetimesIn ts r.ty.rust = some (arity [r.ty.rust])) :
    ∃ item d d0, cxxShim ts f = some item ∧ offers item = some d ∧ declared f.name.rust own fn = some d0 ∧
      d.full arity = d0.erase.full arity := by
  obtain ⟨d0, ds, h0, h1, h2, h3, h4, h5, h6, h7, h8, h9⟩ := declared_eq f.name.rust own hs hp
  have hparams : ((f.sig.args.map shimArg).map (·.1)).zip (ds.map Den.erase) = d0.erase.params := by
    rw [hf]
    simp only [Decl.erase, h5, List.map_map]
    rw [List.zip_map_right]
    rfl
  have hall : all ((f.sig.args.map shimArg).map (fun i => meaning false i.2)) = some (ds.map Den.erase) := by
    rw [hf, ← h6, List.map_map]; rfl
  have hret : resultMeans (shimReturn f.sig.ret f.sig.throws) = some d0.ret.erase := by
    rw [hf]
    cases ht : f1.throws with
    | false =>
      simp only [shimReturn, Bool.false_eq_true, if_false]
      rw [resultMeans_plain]; exact h8 ht
    | true =>
      obtain ⟨d', e1, e2⟩ := h9 ht
      simp only
      rw [resultMeans_throws, e1, erase_result, e2]; rfl
  cases hr : f.sig.receiver with
  | none =>
    refine ⟨_, ⟨f.name.rust, f.sig.unsafety, f.sig.generics, none, d0.erase.params, d0.ret.erase⟩, d0, by unfold cxxShim; rw [hr], ?_, h0, ?_⟩
    · simp only [offers, reads]
      rw [hall, hret, ← hparams]
      rfl
    · have h10 : d0.receiver = none := by
        have : f1.receiver.map (ownReceiver own) = none := by rw [← hr, hf]
        rw [this] at h4; simpa using h4
      simp [Decl.full, Decl.erase, h10, h1, h2, h3, hf]
  | some rc =>
    have hrc : f1.receiver.map (ownReceiver own) = some rc := by rw [← hr, hf]
    rw [hrc] at h4
    have hls : ∃ ls, implLifetimes ts rc.ty = some ls ∧
        Den.full arity (.named [rc.ty.rust] ls) = Den.full arity (.named [rc.ty.rust] rc.ty.generics) := by
      unfold implLifetimes
      split
      · next hg =>
        refine ⟨_, by rw [ht rc hr]; rfl, ?_⟩
        rw [hg]
        simp only [Den.full]
        cases arity [rc.ty.rust] <;> simp [List.replicate_succ]
      · exact ⟨_, rfl, rfl⟩
    obtain ⟨ls, hl1, hl2⟩ := hls
    refine ⟨_, ⟨f.name.rust, f.sig.unsafety, f.sig.generics, some (recvDen rc (.named [rc.ty.rust] ls)), d0.erase.params,
      d0.ret.erase⟩, d0, by unfold cxxShim; rw [hr]; simp only [hl1, Option.map_some]; rfl, ?_, h0, ?_⟩
    · simp only [offers, meaning_name, Option.isSome_some, if_true, reads, shimReceiver_reads]
      rw [hall, hret, ← hparams]
      simp
    · simp only [Option.map_some, Option.map_eq_some_iff] at h4
      obtain ⟨q, hq1, hq2⟩ := h4
      simp only [Decl.full, Decl.erase, hq1, h1, h2, h3, hf, Option.map_some, hq2, full_recvDen, hl2]

theorem insideMeans_plain (ret : Option Ty) : insideMeans (returnTy ret) = meaningRet false (returnTy ret) := by
  cases ret with
  | none => rfl
  | some t =>
    unfold insideMeans
    split
    · next ok error h =>
      simp only [returnTy, Option.map_some, Option.some.injEq] at h
      exact absurd h (printType_not_result ok error t)
    · rfl

theorem inside_means {fn : FnSrc} {f1 : Sig} {f : ExternFn} {own : Ident} (hs : SigIs fn f1)
    (hf : f.sig = { f1 with receiver := f1.receiver.map (ownReceiver own) })
    (hp : ∀ r, f1.receiver = some r → r.ty.rust ∉ replaced) :
    ∃ d d0, reads insideMeans [] none (rustInside f).sig = some d ∧ declared f.name.rust own fn = some d0 ∧
      d = { d0.erase.asFunction with name := (rustInside f).sig.name } := by
  obtain ⟨d0, ds, h0, h1, h2, h3, h4, h5, h6, h7, h8, h9⟩ := declared_eq f.name.rust own hs hp
  have hparams : ((f.sig.args.map shimArg).map (·.1)).zip (ds.map Den.erase) = d0.erase.params := by
    rw [hf]
    simp only [Decl.erase, h5, List.map_map]
    rw [List.zip_map_right]
    rfl
  have hall : all ((f.sig.args.map shimArg).map (fun i => meaning false i.2)) = some (ds.map Den.erase) := by
    rw [hf, ← h6, List.map_map]; rfl
  have hret : insideMeans (insideReturn f.sig.ret f.sig.throws) = some d0.ret.erase := by
    rw [hf]
    cases ht : f1.throws with
    | false =>
      simp only [insideReturn, Bool.false_eq_true, if_false]
      rw [insideMeans_plain]; exact h8 ht
    | true =>
      obtain ⟨d', e1, e2⟩ := h9 ht
      simp only [insideReturn, if_true, insideMeans, cxxPath]
      rw [e1, erase_result, e2]; rfl
  refine ⟨_, d0, ?_, h0, rfl⟩
  have hrecv : f.sig.receiver = f1.receiver.map (ownReceiver own) := by rw [hf]
  cases hr : f.sig.receiver with
  | none =>
    rw [← hrecv, hr] at h4
    have h10 : d0.receiver = none := by simpa using h4
    simp only [reads, rustInside, hr, Option.toList_none, List.map_nil, List.nil_append]
    rw [hall, hret]
    simp only [Option.bind_eq_bind, Option.bind_some, Option.pure_def, Option.some.injEq]
    rw [hparams]
    simp [Decl.asFunction, Decl.erase, h10, h2, h3, hf]
  | some rc =>
    rw [← hrecv, hr] at h4
    simp only [Option.map_some, Option.map_eq_some_iff] at h4
    obtain ⟨q, hq1, hq2⟩ := h4
    simp only [reads, rustInside, hr, Option.toList_some, List.map_cons, List.map_nil, List.cons_append, List.nil_append,
      meaning_receiverTy, all]
    rw [hall, hret]
    simp only [Option.bind_eq_bind, Option.bind_some, Option.pure_def, Option.map_some, Option.some.injEq, List.zip_cons_cons]
    rw [hparams]
    simp [Decl.asFunction, Decl.erase, hq1, hq2, h2, h3, hf]

/-! ### Accepted bridges -/

theorem ownReceiver_rust (own : Ident) (r : Receiver) (h : r.ty.rust ∈ replaced) : ownReceiver own r = r := by
  unfold ownReceiver
  split
  · next h2 => rw [h2] at h; simp [replaced] at h
  · rfl

theorem receiver_known {g : Check.Generator} {apis : List Api} (hc : Check.Accepted g apis) {f : ExternFn}
    (hf : Check.HasFn apis f) {r : Receiver} (hr : f.sig.receiver = some r) :
    ∃ api ∈ apis, ∃ p ls, resolves api = some (p, ls) ∧ p.rust = r.ty.rust ∧
      mapGet (collect apis).resolutions r.ty.rust = some (p, ls) := by
  have h1 := ((Check.names_resolve hc).2.1 f hf r hr).2
  rw [(gathers apis).resolutions] at h1 ⊢
  cases hfind : (apis.filterMap resolves).reverse.find? (fun x => decide (x.1.rust = r.ty.rust)) with
  | none => exact absurd hfind h1
  | some x =>
    have h2 := List.mem_of_find?_eq_some hfind
    have h3 := List.find?_some hfind
    obtain ⟨api, ha, hx⟩ := List.mem_filterMap.1 (List.mem_reverse.1 h2)
    exact ⟨api, ha, x.1, x.2, hx, by simpa using h3, rfl⟩

/-- C84.  In a bridge that is accepted, the function that is generated for a function of C++ says what the declaration says:
the name, whether it is `unsafe`, the lifetimes, the receiver, the arguments and the result. -/
theorem shim_declared_partial {r : Readers} {checks trusted : Bool} {ns : Namespace} {items : List ItemSrc} {outs : List Out}
    {g : Check.Generator} (h : parseItems r checks trusted ns items = ([], outs)) (hc : Check.Accepted g (outs.map (·.api)))
    /- no type has the name of a type of the standard library that the macro replaces -/
    (hn : ∀ o ∈ outs, ∀ p ls, resolves o.api = some (p, ls) → p.rust ∉ ["c_char", "CxxString", "String"])
    {arity : List Ident → Nat} (ha : ∀ o ∈ outs, ∀ p ls, resolves o.api = some (p, ls) → arity [p.rust] = ls.length)
    {m : ForeignModSrc} (hm : .foreignMod m ∈ items) (hl : m.abi = some "C++") {fn : FnSrc} (hf : .fn fn ∈ m.items) :
    ∃ a found f, (∃ o ∈ outs, o.api = .cxxFunction f) ∧ HasName r a fn found f.name ∧
      ∀ own, (∀ n, OnlyTypeOf r a m.items n → own = n) →
        ∃ item d d0, cxxShim (collect (outs.map (·.api))) f = some item ∧ offers item = some d ∧
          declared f.name.rust own fn = some d0 ∧ d.full arity = d0.erase.full arity := by
  obtain ⟨a, o, f1, f, found, ho, hk, hname, hsig, hown⟩ := function_of h hc hm hf
  have hk : o.api = .cxxFunction f := by
    rcases hk with ⟨_, hk⟩ | ⟨e, _⟩
    · exact hk
    · rw [hl] at e; simp at e
  have hin : Check.HasFn (outs.map (·.api)) f := .inl (List.mem_map.2 ⟨o, ho, hk⟩)
  refine ⟨a, found, f, ⟨o, ho, hk⟩, hname, ?_⟩
  intro own how
  have hs := hown own how
  apply shim_means hsig hs
  · intro rc hrc hmem
    have h1 : f.sig.receiver = some rc := by rw [hs, hrc]; simp [ownReceiver_rust own rc hmem]
    obtain ⟨api, h2, p, ls, h3, h4, _⟩ := receiver_known hc hin h1
    obtain ⟨o', ho', rfl⟩ := List.mem_map.1 h2
    exact hn o' ho' p ls h3 (h4 ▸ hmem)
  · intro rc hrc
    obtain ⟨api, h2, p, ls, h3, h4, h5⟩ := receiver_known hc hin hrc
    obtain ⟨o', ho', rfl⟩ := List.mem_map.1 h2
    rw [lifetimesIn, h5, ← h4, ha o' ho' p ls h3]; rfl

/-- C84.  For a function of Rust, the generated code calls `super::f` or `T::f` in a function that has the declared
signature, with its arguments in order.  If the function that is called is unsafe, the call compiles only if the declaration
is unsafe. -/
theorem inside_declared_partial {r : Readers} {checks trusted : Bool} {ns : Namespace} {items : List ItemSrc} {outs : List Out}
    {g : Check.Generator} (h : parseItems r checks trusted ns items = ([], outs)) (hc : Check.Accepted g (outs.map (·.api)))
    (hn : ∀ o ∈ outs, ∀ p ls, resolves o.api = some (p, ls) → p.rust ∉ ["c_char", "CxxString", "String"])
    {m : ForeignModSrc} (hm : .foreignMod m ∈ items) (hl : m.abi = some "Rust") {fn : FnSrc} (hf : .fn fn ∈ m.items) :
    ∃ a found f, (∃ o ∈ outs, o.api = .rustFunction f) ∧ HasName r a fn found f.name ∧
      ∀ own, (∀ n, OnlyTypeOf r a m.items n → own = n) →
        ∃ d d0, reads insideMeans [] none (rustInside f).sig = some d ∧ declared f.name.rust own fn = some d0 ∧
          d = { d0.erase.asFunction with name := (rustInside f).sig.name } ∧
          Calls (rustInside f) d0.erase ∧
          ∀ unsafeCallee, (Compiles (rustInside f) unsafeCallee ↔ (unsafeCallee = true → fn.unsafety = true)) := by
  obtain ⟨a, o, f1, f, found, ho, hk, hname, hsig, hown⟩ := function_of h hc hm hf
  have hk : o.api = .rustFunction f := by
    rcases hk with ⟨e, _⟩ | ⟨_, hk⟩
    · rw [hl] at e; simp at e
    · exact hk
  have hin : Check.HasFn (outs.map (·.api)) f := .inr (List.mem_map.2 ⟨o, ho, hk⟩)
  refine ⟨a, found, f, ⟨o, ho, hk⟩, hname, ?_⟩
  intro own how
  have hs := hown own how
  have hp : ∀ r, f1.receiver = some r → r.ty.rust ∉ replaced := by
    intro rc hrc hmem
    have h1 : f.sig.receiver = some rc := by rw [hs, hrc]; simp [ownReceiver_rust own rc hmem]
    obtain ⟨api, h2, p, ls, h3, h4, _⟩ := receiver_known hc hin h1
    obtain ⟨o', ho', rfl⟩ := List.mem_map.1 h2
    exact hn o' ho' p ls h3 (h4 ▸ hmem)
  obtain ⟨d, d0, h1, h2, h3⟩ := inside_means hsig hs hp
  refine ⟨d, d0, h1, h2, h3, ⟨?_, ?_⟩, ?_⟩
  · obtain ⟨d0', _, e0, e1, _, _, e4, _⟩ := declared_eq f.name.rust own hsig hp
    rw [h2] at e0; cases e0
    have hrecv : f.sig.receiver = f1.receiver.map (ownReceiver own) := by rw [hs]
    rw [← hrecv] at e4
    simp only [Decl.erase, e4, e1]
    cases hr : f.sig.receiver with
    | none => simp [rustInside, hr]
    | some rc =>
      refine ⟨[rc.ty.rust], ?_, by simp [rustInside, hr]⟩
      show pointee (recvDen rc (.named [rc.ty.rust] rc.ty.generics)) = _
      unfold recvDen
      cases rc.pinned <;> rfl
  · cases hr : f.sig.receiver <;> simp [rustInside, shimArg, hr, Function.comp_def]
  · intro u
    simp [Compiles, rustInside, hs, hsig.unsafety]

/-! ### Borrowing -/

theorem lifetimes_full (arity : List Ident → Nat) (d : Den) : lifetimesIn' arity (Den.full arity d) = lifetimesIn' arity d := by
  induction d using lifetimesIn'.induct with
  | case1 p => cases h : arity p <;> simp [Den.full, lifetimesIn', List.replicate_succ, h]
  | case2 p ls h => simp [Den.full, lifetimesIn', h]
  | case3 p d ih | case4 p d ih | case5 d ih | case6 d ih => simp_all [Den.full, lifetimesIn']
  | case7 l m d ih => simp_all [Den.full, lifetimesIn']
  | case8 => simp [Den.full, lifetimesIn']
  | case9 => simp [Den.full, lifetimesIn']

theorem lifetimes_erase (arity : List Ident → Nat) (d : Den) : lifetimesIn' arity d.erase = lifetimesIn' arity d := by
  induction d using lifetimesIn'.induct with
  | case3 p d ih =>
    rw [lifetimesIn', ← ih]
    by_cases hp : p = pinPath
    · subst hp
      rw [erase_pin]
      split
      · next h => simp [h, lifetimesIn']
      · simp [lifetimesIn']
    · rw [erase_apply hp]; simp [lifetimesIn']
  | case1 p => rfl
  | case2 p ls h => rfl
  | case4 p d ih | case5 d ih | case6 d ih | case7 l m d ih => simp_all [Den.erase, lifetimesIn']
  | case8 => simp [Den.erase, lifetimesIn']
  | case9 => rfl

theorem receiverLifetime_full (arity : List Ident → Nat) (d : Den) : receiverLifetime (Den.full arity d) = receiverLifetime d := by
  induction d using receiverLifetime.induct with
  | case1 l m d => simp [Den.full, receiverLifetime]
  | case2 p d ih => simp [Den.full, receiverLifetime, ih]
  | case3 d h1 h2 => 
    cases d with
    | reference l m d => exact absurd rfl (h1 l m d)
    | apply p d => exact absurd rfl (h2 p d)
    | _ => simp [Den.full, receiverLifetime]

theorem receiverLifetime_erase (d : Den) : receiverLifetime d.erase = receiverLifetime d := by
  induction d using receiverLifetime.induct with
  | case1 l m d => simp [Den.erase, receiverLifetime]
  | case2 p d ih =>
    rw [receiverLifetime, ← ih]
    by_cases hp : p = pinPath
    · subst hp
      rw [erase_pin]
      split
      · next h => simp [h, receiverLifetime]
      · simp [receiverLifetime]
    · rw [erase_apply hp]; simp [receiverLifetime]
  | case3 d h1 h2 => 
    cases d with
    | reference l m d => exact absurd rfl (h1 l m d)
    | apply p d => exact absurd rfl (h2 p d)
    | _ => simp [Den.erase, receiverLifetime]

/-- What `Borrows` and `Elided` depend on. -/
theorem borrows_congr {arity : List Ident → Nat} {d e : Decl} (h1 : d.receiver.map receiverLifetime = e.receiver.map receiverLifetime)
    (h2 : d.arguments.map (lifetimesIn' arity) = e.arguments.map (lifetimesIn' arity)) (s : Source) (h : Borrows arity d s) :
    Borrows arity e s := by
  have key : ∀ (as bs : List Den) (i : Nat), as.map (lifetimesIn' arity) = bs.map (lifetimesIn' arity) →
      sources arity i as = sources arity i bs := by
    intro as
    induction as with
    | nil => intro bs i h; cases bs with | nil => rfl | cons => simp at h
    | cons a as ih =>
      intro bs i h
      cases bs with
      | nil => simp at h
      | cons b bs => simp only [List.map_cons, List.cons.injEq] at h; simp only [sources, h.1, ih bs (i + 1) h.2]
  cases h with
  | method hr hl =>
    rw [hr] at h1
    cases he : e.receiver with
    | none => simp [he] at h1
    | some r' => rw [he] at h1; simp at h1; exact .method he (h1 ▸ hl)
  | only hr hs e1 e2 =>
    rw [hr] at h1
    have he : e.receiver = none := by simpa using h1.symm
    exact .only he ((key _ _ 0 h2).symm.trans hs) e1 e2

theorem full_same (arity : List Ident → Nat) (d : Decl) :
    (d.full arity).receiver.map receiverLifetime = d.receiver.map receiverLifetime ∧
    (d.full arity).arguments.map (lifetimesIn' arity) = d.arguments.map (lifetimesIn' arity) ∧
    lifetimesIn' arity (d.full arity).ret = lifetimesIn' arity d.ret := by
  refine ⟨?_, ?_, lifetimes_full arity _⟩
  · cases h : d.receiver <;> simp [Decl.full, h, receiverLifetime_full]
  · cases h : d.receiver <;> simp [Decl.full, Decl.arguments, h, lifetimes_full]

theorem erase_same (arity : List Ident → Nat) (d : Decl) :
    d.erase.receiver.map receiverLifetime = d.receiver.map receiverLifetime ∧
    d.erase.arguments.map (lifetimesIn' arity) = d.arguments.map (lifetimesIn' arity) ∧
    lifetimesIn' arity d.erase.ret = lifetimesIn' arity d.ret := by
  refine ⟨?_, ?_, lifetimes_erase arity _⟩
  · cases h : d.receiver <;> simp [Decl.erase, h, receiverLifetime_erase]
  · cases h : d.receiver <;> simp [Decl.erase, Decl.arguments, h, lifetimes_erase]

/-- C84.  A signature that says the same borrows the same: what a returned reference without a lifetime borrows from is
the same in the function that is generated as in the declaration. -/
theorem borrows_same {arity : List Ident → Nat} {d d0 : Decl} (h : d.full arity = d0.erase.full arity) :
    (d.Elided arity ↔ d0.Elided arity) ∧ ∀ s, Borrows arity d s ↔ Borrows arity d0 s := by
  obtain ⟨a1, a2, a3⟩ := full_same arity d
  obtain ⟨b1, b2, b3⟩ := full_same arity d0.erase
  obtain ⟨c1, c2, c3⟩ := erase_same arity d0
  have e1 : d.receiver.map receiverLifetime = d0.receiver.map receiverLifetime := by rw [← a1, h, b1, c1]
  have e2 : d.arguments.map (lifetimesIn' arity) = d0.arguments.map (lifetimesIn' arity) := by rw [← a2, h, b2, c2]
  have e3 : lifetimesIn' arity d.ret = lifetimesIn' arity d0.ret := by rw [← a3, h, b3, c3]
  exact ⟨by simp [Decl.Elided, e3], fun s => ⟨borrows_congr e1 e2 s, borrows_congr e1.symm e2.symm s⟩⟩

theorem extern_meaning {arity : List Ident → Nat} (ha : NoLifetimes arity) (cx : Ctx) (proper : Bool) (t : Ty) (d : Den)
    (h : meaning false (printType t) = some d) :
    ∃ d', meaning false (externTy cx proper t) = some d' ∧ ∀ l ∈ lifetimesIn' arity d', l ∈ lifetimesIn' arity d := by
  have hpriv : ∀ n, meaning false (privateTy n .none) = some (.named ["cxx", "private", n] []) := by
    intro n; simp [privateTy, cxxPath, meaning, pathMeans]
  have hvoid : meaning false cVoid = some (.named ["cxx", "core", "ffi", "c_void"] []) := by
    simp [cVoid, cxxPath, meaning, pathMeans]
  have hgen : ∀ before n ty, meaning false (cxxPath before n (.angle [.type ty])) =
      (meaning false ty).map (.apply ("cxx" :: before ++ [n])) := by
    intro before n ty; simp [cxxPath, meaning, pathMeans]
  have nopriv : ∀ n, lifetimesIn' arity (.named ["cxx", "private", n] []) = [] := by
    intro n; simp [lifetimesIn', ha "private" [n]]
  have novoid : ∀ m, lifetimesIn' arity (.ptr m (.named ["cxx", "core", "ffi", "c_void"] [])) = [] := by
    intro m; simp [lifetimesIn', ha "core" ["ffi", "c_void"]]
  have hptr : ∀ m ty, meaning false (.ptr m ty) = (meaning false ty).map (.ptr m) := by intro m ty; simp [meaning]
  have hrefm : ∀ l m ty, meaning false (.reference l m ty) = (meaning false ty).map (.reference l m) := by
    intro l m ty; simp [meaning]
  have hvp : ∀ m, meaning false (.ptr m cVoid) = some (.ptr m (.named ["cxx", "core", "ffi", "c_void"] [])) := by
    intro m; rw [hptr, hvoid]; rfl
  induction hz : sizeOf t using Nat.strongRecOn generalizing t d
  rename_i z ih'
  subst hz
  have ih : ∀ u : Ty, sizeOf u < sizeOf t → ∀ d, meaning false (printType u) = some d → ∃ d',
      meaning false (externTy cx proper u) = some d' ∧ ∀ l ∈ lifetimesIn' arity d', l ∈ lifetimesIn' arity d :=
    fun u hu d hd => ih' _ hu u d hd rfl
  clear ih'
  cases t with
  | ident n =>
    simp only [externTy]
    split
    · exact ⟨_, hpriv _, by simp [nopriv]⟩
    · exact ⟨d, h, fun l hl => hl⟩
  | rustBox t =>
    simp only [printType, hgen, Option.map_eq_some_iff] at h
    obtain ⟨d1, h1, rfl⟩ := h
    obtain ⟨d2, h2, h3⟩ := ih t (by simp) d1 h1
    simp only [externTy]
    split
    · exact ⟨_, hvp _, by simp [novoid]⟩
    · exact ⟨.ptr true d2, by rw [hptr, h2]; rfl, by simpa [lifetimesIn'] using h3⟩
  | uniquePtr t =>
    simp only [printType, hgen, Option.map_eq_some_iff] at h
    obtain ⟨d1, h1, rfl⟩ := h
    obtain ⟨d2, h2, h3⟩ := ih t (by simp) d1 h1
    simp only [externTy]
    split
    · exact ⟨_, hvp _, by simp [novoid]⟩
    · exact ⟨.ptr true d2, by rw [hptr, h2]; rfl, by simpa [lifetimesIn'] using h3⟩
  | rustVec t =>
    simp only [printType, hgen, Option.map_eq_some_iff] at h
    obtain ⟨d1, h1, rfl⟩ := h
    obtain ⟨d2, h2, h3⟩ := ih t (by simp) d1 h1
    simp only [externTy]
    exact ⟨_, by rw [privateTy, hgen, h2]; rfl, by simpa [lifetimesIn'] using h3⟩
  | ref p l m t =>
    have h' := h
    have hinner : ∃ d1, meaning false (printType t) = some d1 ∧ lifetimesIn' arity d = l.getD "_" :: lifetimesIn' arity d1 := by
      simp only [printType] at h
      split at h
      · simp only [hgen, hrefm, Option.map_eq_some_iff] at h
        obtain ⟨_, ⟨d1, h1, rfl⟩, rfl⟩ := h
        exact ⟨d1, h1, rfl⟩
      · simp only [hrefm, Option.map_eq_some_iff] at h
        obtain ⟨d1, h1, rfl⟩ := h
        exact ⟨d1, h1, rfl⟩
    obtain ⟨d1, h1, h2⟩ := hinner
    unfold externTy
    split
    · next n =>
      split
      · refine ⟨.reference l m (.named ["cxx", "private", "RustString"] []), by rw [hrefm, hpriv]; rfl, ?_⟩
        rw [h2, lifetimesIn', nopriv]; simp
      · split
        · exact ⟨_, hvp _, by simp [novoid]⟩
        · exact ⟨d, h', fun l hl => hl⟩
    · next v =>
      simp only [printType, hgen, Option.map_eq_some_iff] at h1
      obtain ⟨d2, h3, rfl⟩ := h1
      obtain ⟨d3, h4, h5⟩ := ih (.rustVec v) (by simp) (.apply ["cxx", "alloc", "vec", "Vec"] d2) (by simp [printType, hgen, h3])
      simp only [externTy, privateTy, hgen, Option.map_eq_some_iff] at h4
      obtain ⟨d4, h6, rfl⟩ := h4
      refine ⟨.reference l m (.apply ["cxx", "private", "RustVec"] d4), by rw [hrefm, privateTy, hgen, h6]; rfl, ?_⟩
      rw [h2]
      simp only [lifetimesIn', List.mem_cons] at h5 ⊢
      intro x hx
      rcases hx with hx | hx
      · exact .inl hx
      · exact .inr (h5 x hx)
    · split
      · exact ⟨_, hvp _, by simp [novoid]⟩
      · exact ⟨d, h', fun l hl => hl⟩
  | ptr m t =>
    simp only [externTy]
    split
    · exact ⟨_, hvp _, by simp [novoid]⟩
    · exact ⟨d, h, fun l hl => hl⟩
  | str => simp only [externTy]; exact ⟨_, hpriv _, by simp [nopriv]⟩
  | sliceRef => simp only [externTy]; exact ⟨_, hpriv _, by simp [nopriv]⟩
  | _ => exact ⟨d, by simpa only [externTy] using h, fun l hl => hl⟩

theorem declArg_meaning {arity : List Ident → Nat} (ha : NoLifetimes arity) (cx : Ctx) (t : Ty) (d : Den)
    (h : meaning false (printType t) = some d) :
    ∃ d', meaning false (declArgTy cx t) = some d' ∧ ∀ l ∈ lifetimesIn' arity d', l ∈ lifetimesIn' arity d := by
  obtain ⟨d', h1, h2⟩ := extern_meaning ha cx true t d h
  have hptr : ∀ m, ∃ d'', meaning false (.ptr m (externTy cx true t)) = some d'' ∧
      ∀ l ∈ lifetimesIn' arity d'', l ∈ lifetimesIn' arity d :=
    fun m => ⟨.ptr m d', by simp [meaning, h1], h2⟩
  unfold declArgTy
  split
  · exact hptr false
  · split
    · exact hptr false
    · refine ⟨.named ["cxx", "private", "FatFunction"] [], by simp [privateTy, cxxPath, meaning, pathMeans], ?_⟩
      simp [lifetimesIn', ha "private" ["FatFunction"]]
    · split
      · exact hptr true
      · exact ⟨d', h1, h2⟩

theorem declArgs_meaning {arity : List Ident → Nat} (ha : NoLifetimes arity) (cx : Ctx) {args : List Var} {ds : List Den}
    (h : all (args.map (fun a => meaning false (printType a.ty))) = some ds) :
    ∃ ds', all (args.map (fun a => meaning false (declArgTy cx a.ty))) = some ds' ∧ ds'.length = args.length ∧
      ∀ i, ∀ s ∈ sources arity i ds', s ∈ sources arity i ds := by
  induction args generalizing ds with
  | nil => exact ⟨[], rfl, rfl, by simp [sources]⟩
  | cons a args ih =>
    simp only [List.map_cons] at h
    cases hd : meaning false (printType a.ty) with
    | none => rw [hd] at h; simp [all] at h
    | some d =>
      rw [hd] at h
      simp only [all, Option.map_eq_some_iff] at h
      obtain ⟨rest, h1, rfl⟩ := h
      obtain ⟨ds', h2, h3, h4⟩ := ih h1
      obtain ⟨d', h5, h6⟩ := declArg_meaning ha cx a.ty d hd
      refine ⟨d' :: ds', by simp [all, h5, h2], by simp [h3], ?_⟩
      intro i s hs
      simp only [sources, List.mem_append, List.mem_map] at hs ⊢
      rcases hs with ⟨l, hl, rfl⟩ | hs
      · exact .inl ⟨l, h6 l hl, rfl⟩
      · exact .inr (h4 _ s hs)

theorem only_all {before after all : List Source} {s : Source} (h : all = before ++ s :: after)
    (h1 : ∀ l, s = .lifetime l → ∀ s' ∈ before ++ after, s' = s) (h2 : ∀ i, s = .argument i → before = [] ∧ after = []) :
    ∀ x ∈ all, x = s := by
  intro x hx
  rw [h] at hx
  cases hs : s with
  | lifetime l =>
    have := h1 l hs
    simp only [List.mem_append, List.mem_cons] at hx this
    rcases hx with hx | hx | hx
    · rw [← hs]; exact this x (.inl hx)
    · rw [← hs]; exact hx
    · rw [← hs]; exact this x (.inr hx)
  | argument i =>
    obtain ⟨rfl, rfl⟩ := h2 i hs
    simpa [hs] using hx

theorem all_append {α : Type} {l1 l2 : List (Option α)} {a b : List α} (h1 : all l1 = some a) (h2 : all l2 = some b) :
    all (l1 ++ l2) = some (a ++ b) := by
  induction l1 generalizing a with
  | nil => simp [all] at h1; subst h1; simpa using h2
  | cons x l1 ih =>
    cases x with
    | none => simp [all] at h1
    | some x =>
      simp only [all, Option.map_eq_some_iff] at h1
      obtain ⟨r, h3, rfl⟩ := h1
      simp [all, ih h3]

theorem sources_append (arity : List Ident → Nat) (as bs : List Den) (i : Nat) :
    sources arity i (as ++ bs) = sources arity i as ++ sources arity (i + as.length) bs := by
  induction as generalizing i with
  | nil => simp [sources]
  | cons a as ih => simp [sources, ih, Nat.add_assoc, Nat.add_comm 1]

theorem sources_congr (arity : List Ident → Nat) {as bs : List Den} (i : Nat)
    (h : as.map (lifetimesIn' arity) = bs.map (lifetimesIn' arity)) : sources arity i as = sources arity i bs := by
  induction as generalizing bs i with
  | nil => cases bs with | nil => rfl | cons => simp at h
  | cons a as ih =>
    cases bs with
    | nil => simp at h
    | cons b bs => simp only [List.map_cons, List.cons.injEq] at h; simp only [sources, h.1, ih (i + 1) h.2]

theorem out_meaning {arity : List Ident → Nat} (ha : NoLifetimes arity) (cx : Ctx) {ret : Option Ty} {throws : Bool}
    (hr : ∀ t, ret = some t → ∃ d, meaning false (printType t) = some d) :
    ∃ ds, all ((outArg cx true ret throws).map (fun i => meaning false i.2)) = some ds ∧
      ds.length = (outArg cx true ret throws).length ∧
      ∃ e, meaningRet false (externReturn cx true ret throws) = some e ∧
        (lifetimesIn' arity e ≠ [] → ds = [] ∧ throws = false ∧ ∃ t d, ret = some t ∧ meaning false (printType t) = some d ∧
          ∀ l ∈ lifetimesIn' arity e, l ∈ lifetimesIn' arity d) := by
  have hres : meaning false (privateTy "Result" .none) = some (.named ["cxx", "private", "Result"] []) := by
    simp [privateTy, cxxPath, meaning, pathMeans]
  have hno : lifetimesIn' arity (.named ["cxx", "private", "Result"] []) = [] := by
    simp [lifetimesIn', ha "private" ["Result"]]
  cases ret with
  | none =>
    refine ⟨[], rfl, rfl, ?_⟩
    cases throws with
    | true => exact ⟨_, by simpa [externReturn, meaningRet] using hres, by simp [hno]⟩
    | false => exact ⟨.unit, rfl, by simp [lifetimesIn']⟩
  | some t =>
    obtain ⟨d, hd⟩ := hr t rfl
    obtain ⟨d', h1, h2⟩ := extern_meaning ha cx true t d hd
    cases throws with
    | true =>
      by_cases hi : indirectReturnR cx (some t) true = true
      · exact ⟨[.ptr true d'], by simp [outArg, hi, meaning, h1, all], by simp [outArg, hi],
          _, by simpa [externReturn, meaningRet] using hres, by simp [hno]⟩
      · exact ⟨[], by simp [outArg, hi, all], by simp [outArg, hi],
          _, by simpa [externReturn, meaningRet] using hres, by simp [hno]⟩
    | false =>
      by_cases hn : cx.needsIndirect t = true
      · have hi : indirectReturnR cx (some t) false = true := by simp [indirectReturnR, hn]
        exact ⟨[.ptr true d'], by simp [outArg, hi, meaning, h1, all], by simp [outArg, hi],
          .unit, by simp [externReturn, meaningRet, hn], by simp [lifetimesIn']⟩
      · have hi : indirectReturnR cx (some t) false = false := by simpa [indirectReturnR] using hn
        exact ⟨[], by simp [outArg, hi, all], by simp [outArg, hi],
          d', by simp [externReturn, meaningRet, hn, h1], fun _ => ⟨rfl, rfl, t, d, rfl, hd, h2⟩⟩

theorem decl_borrows {arity : List Ident → Nat} (ha : NoLifetimes arity) (cx : Ctx) {fn : FnSrc} {f1 : Sig} {f : ExternFn} {own : Ident} (hs : SigIs fn f1)
    (hf : f.sig = { f1 with receiver := f1.receiver.map (ownReceiver own) })
    (hp : ∀ r, f1.receiver = some r → r.ty.rust ∉ replaced) :
    ∃ e d0, reads (meaningRet false) [] none (cxxDecl cx f) = some e ∧ declared f.name.rust own fn = some d0 ∧
      (e.Elided arity → d0.Elided arity ∧ ∀ s s', Borrows arity d0 s → Borrows arity e s' → s' = s) := by
  obtain ⟨d0, ds, h0, h1, h2, h3, h4, h5, h6, h7, h8, h9⟩ := declared_eq f.name.rust own hs hp
  obtain ⟨ds', a1, a2, a3⟩ := declArgs_meaning ha cx h6
  have hret : ∀ t, f1.ret = some t → ∃ d, meaning false (printType t) = some d := by
    intro t ht
    cases hth : f1.throws with
    | false => have := h8 hth; rw [ht] at this; exact ⟨_, this⟩
    | true => obtain ⟨d', _, e2⟩ := h9 hth; rw [ht] at e2; exact ⟨_, e2⟩
  obtain ⟨os, b1, b2, er, b3, b4⟩ := out_meaning ha cx (throws := f1.throws) hret
  have hargs : f.sig.args = f1.args := by rw [hf]
  have hr1 : f.sig.ret = f1.ret := by rw [hf]
  have ht1 : f.sig.throws = f1.throws := by rw [hf]
  have hrecv : f.sig.receiver = f1.receiver.map (ownReceiver own) := by rw [hf]
  rw [← hrecv] at h4
  -- the receiver as an argument
  let rs : List Den := f.sig.receiver.toList.map (fun r => recvDen r (.named [r.ty.rust] r.ty.generics))
  have c1 : all ((f.sig.receiver.toList.map (fun r => ((none : Option Ident), receiverTy r))).map (fun i => meaning false i.2)) =
      some rs := by
    cases hr : f.sig.receiver <;> simp [rs, hr, all, meaning_receiverTy]
  have c2 : all ((f.sig.args.map (fun a => (some a.name.rust, declArgTy cx a.ty))).map (fun i => meaning false i.2)) =
      some ds' := by rw [hargs, List.map_map]; exact a1
  have c3 : all ((cxxDecl cx f).inputs.map (fun i => meaning false i.2)) = some (rs ++ ds' ++ os) := by
    simp only [cxxDecl, List.map_append, hr1, ht1]
    exact all_append (all_append c1 c2) b1
  have c4 : meaningRet false (cxxDecl cx f).output = some er := by simp only [cxxDecl, hr1, ht1]; exact b3
  refine ⟨⟨(cxxDecl cx f).name, false, f.sig.generics, none, ((cxxDecl cx f).inputs.map (·.1)).zip (rs ++ ds' ++ os), er⟩, d0, ?_, h0, ?_⟩
  · simp only [reads]
    rw [c3, c4]
    simp [cxxDecl]
  · intro hel
    have hel' : "_" ∈ lifetimesIn' arity er := hel
    obtain ⟨e1, e2, t, d, e3, e4, e5⟩ := b4 (by intro h; rw [h] at hel'; cases hel')
    subst e1
    have hd : d0.ret.erase = d := by
      have := h8 e2; rw [e3] at this
      simp only [meaningRet_returnTy, e4] at this
      injection this with this; exact this.symm
    refine ⟨?_, ?_⟩
    · have := e5 _ hel'
      rw [← hd, lifetimes_erase] at this
      exact this
    · intro s s' hb hb'
      have hsrc : (⟨(cxxDecl cx f).name, false, f.sig.generics, none, ((cxxDecl cx f).inputs.map (·.1)).zip (rs ++ ds' ++ []), er⟩ : Decl).arguments =
          rs ++ ds' := by
        simp only [Decl.arguments, Option.toList_none, List.nil_append, List.append_nil]
        rw [List.map_snd_zip]
        simp only [cxxDecl, List.length_map, List.length_append, hr1, ht1, hargs, a2, rs]
        omega
      have hall : sources arity 0 (rs ++ ds') ≠ [] ∧ ∀ x ∈ sources arity 0 (rs ++ ds'), x = s' := by
        cases hb' with
        | method hr => cases hr
        | only _ hsx k1 k2 =>
          rw [hsrc] at hsx
          exact ⟨by rw [hsx]; simp, only_all hsx k1 k2⟩
      cases hb with
      | @method r l hr hl =>
        rw [hr] at h4
        cases hrc : f.sig.receiver with
        | none => rw [hrc] at h4; simp at h4
        | some rc =>
          rw [hrc] at h4
          simp only [Option.map_some, Option.some.injEq] at h4
          have hl2 : l = rc.lifetime.getD "_" := by
            rw [← receiverLifetime_erase, h4] at hl
            unfold recvDen at hl
            split at hl <;> simpa [receiverLifetime] using hl.symm
          have hin : Source.of 0 (rc.lifetime.getD "_") ∈ sources arity 0 (rs ++ ds') := by
            simp only [rs, hrc, Option.toList_some, List.map_cons, List.map_nil, List.cons_append, List.nil_append, sources,
              List.mem_append, List.mem_map]
            left
            refine ⟨rc.lifetime.getD "_", ?_, rfl⟩
            unfold recvDen
            split <;> simp [lifetimesIn']
          rw [hl2]
          exact (hall.2 _ hin).symm
      | @only before s after hr hsx k1 k2 =>
        have hrn : rs = [] := by
          rw [hr] at h4
          cases hrc : f.sig.receiver with
          | none => simp [rs, hrc]
          | some rc => rw [hrc] at h4; simp at h4
        obtain ⟨hne, hall⟩ := hall
        rw [hrn, List.nil_append] at hne hall
        have hd0 : d0.arguments = ds := by
          simp only [Decl.arguments, hr, Option.toList_none, List.nil_append, h5]
          rw [List.map_snd_zip]; simp [h7]
        rw [hd0] at hsx
        cases hq : sources arity 0 ds' with
        | nil => exact absurd hq hne
        | cons x xs =>
          have hx : x ∈ sources arity 0 ds' := by rw [hq]; simp
          have h10 := a3 0 x hx
          rw [sources_congr arity (bs := ds) 0 (by simp [lifetimes_erase])] at h10
          rw [← hall x hx]
          exact only_all hsx k1 k2 x h10

/-- C84.  The declaration inside the function that the user calls: if its result has a lifetime that is not written, then so
has the declared function, and if the compiler accepts both, the result borrows from the same argument.

What is missing: that the compiler accepts it if it accepts the declared signature (`decl_unclear` shows that it may not). -/
theorem decl_borrows_partial {r : Readers} {checks trusted : Bool} {ns : Namespace} {items : List ItemSrc} {outs : List Out}
    {g : Check.Generator} (h : parseItems r checks trusted ns items = ([], outs)) (hc : Check.Accepted g (outs.map (·.api)))
    (hn : ∀ o ∈ outs, ∀ p ls, resolves o.api = some (p, ls) → p.rust ∉ ["c_char", "CxxString", "String"])
    {arity : List Ident → Nat} (ha : NoLifetimes arity) (cx : Ctx)
    {m : ForeignModSrc} (hm : .foreignMod m ∈ items) (hl : m.abi = some "C++") {fn : FnSrc} (hf : .fn fn ∈ m.items) :
    ∃ a found f, (∃ o ∈ outs, o.api = .cxxFunction f) ∧ HasName r a fn found f.name ∧
      ∀ own, (∀ n, OnlyTypeOf r a m.items n → own = n) →
        ∃ e d0, reads (meaningRet false) [] none (cxxDecl cx f) = some e ∧ declared f.name.rust own fn = some d0 ∧
          (e.Elided arity → d0.Elided arity ∧ ∀ s s', Borrows arity d0 s → Borrows arity e s' → s' = s) := by
  obtain ⟨a, o, f1, f, found, ho, hk, hname, hsig, hown⟩ := function_of h hc hm hf
  have hk : o.api = .cxxFunction f := by
    rcases hk with ⟨_, hk⟩ | ⟨e, _⟩
    · exact hk
    · rw [hl] at e; simp at e
  have hin : Check.HasFn (outs.map (·.api)) f := .inl (List.mem_map.2 ⟨o, ho, hk⟩)
  refine ⟨a, found, f, ⟨o, ho, hk⟩, hname, ?_⟩
  intro own how
  have hs := hown own how
  apply decl_borrows ha cx hsig hs
  intro rc hrc hmem
  have h1 : f.sig.receiver = some rc := by rw [hs, hrc]; simp [ownReceiver_rust own rc hmem]
  obtain ⟨api, h2, p, ls, h3, h4, _⟩ := receiver_known hc hin h1
  obtain ⟨o', ho', rfl⟩ := List.mem_map.1 h2
  exact hn o' ho' p ls h3 (h4 ▸ hmem)

/-! ### An example -/

/-- ```
unsafe extern "C++" {
    type C<'a>;
    fn name<'a>(self: &C<'a>, key: &str) -> Result<&'a str>;
    fn next(self: Pin<&mut Self>) -> &i32;
    unsafe fn find(list: &C, _: Box<R>) -> &i32;
}
extern "Rust" { type R; unsafe fn raw(&self, p: *const i32) -> Result<i32>; fn free(s: &str); }
``` -/
def sigItems : List ItemSrc := [
  .foreignMod ⟨[], true, some "C++", [
    .type ⟨[], "C", ⟨[.lifetime "a" false], false⟩⟩,
    .fn ⟨[], "name", ⟨[.lifetime "a" false], false⟩, false, false, false, false, false,
      some (.typed (.reference none false (.path false false [] "C" (.angle [.lifetime "a"])))),
      [(.ident "key", .reference none false (named "str"))],
      some (.path false false [] "Result" (.angle [.type (.reference (some "a") false (named "str"))]))⟩,
    .fn ⟨[], "next", noGenerics, false, false, false, false, false,
      some (.typed (.path false false [] "Pin" (.angle [.type (.reference none true (named "Self"))]))), [],
      some (.reference none false (named "i32"))⟩,
    .fn ⟨[], "find", noGenerics, false, false, false, false, true, none,
      [(.ident "list", .reference none false (named "C")), (.wild, .path false false [] "Box" (.angle [.type (named "R")]))],
      some (.reference none false (named "i32"))⟩]⟩,
  .foreignMod ⟨[], false, some "Rust", [
    .type ⟨[], "R", noGenerics⟩,
    .fn ⟨[], "raw", noGenerics, false, false, false, false, true, some (.ref none false), [(.ident "p", .ptr false (named "i32"))],
      some (.path false false [] "Result" (.angle [.type (named "i32")]))⟩,
    .fn ⟨[], "free", noGenerics, false, false, false, false, false, none, [(.ident "s", .reference none false (named "str"))], none⟩]⟩]

theorem sig_accepted : (parseItems sampleReaders true false [] sigItems).1 = [] ∧
    Check.Accepted .build ((parseItems sampleReaders true false [] sigItems).2.map (·.api)) ∧
    ((parseItems sampleReaders true false [] sigItems).2.filterMap (fun o => resolves o.api)).map (fun p => (p.1.rust, p.2.length)) =
      [("C", 1), ("R", 0)] := by decide +kernel

/-- The lifetimes of the types of the example. -/
def sigArity : List Ident → Nat
  | ["C"] => 1
  | _ => 0

/-- The hypotheses hold in the example. -/
example : ∃ outs, parseItems sampleReaders true false [] sigItems = ([], outs) ∧ Check.Accepted .build (outs.map (·.api)) ∧
    (∀ o ∈ outs, ∀ p ls, resolves o.api = some (p, ls) → p.rust ∉ ["c_char", "CxxString", "String"]) ∧
    (∀ o ∈ outs, ∀ p ls, resolves o.api = some (p, ls) → sigArity [p.rust] = ls.length) ∧ NoLifetimes sigArity ∧
    (∃ m fn, .foreignMod m ∈ sigItems ∧ m.abi = some "C++" ∧ .fn fn ∈ m.items) ∧
    ∃ m fn, .foreignMod m ∈ sigItems ∧ m.abi = some "Rust" ∧ .fn fn ∈ m.items := by
  have hd := sig_accepted.2.2
  have key : ∀ o ∈ (parseItems sampleReaders true false [] sigItems).2, ∀ p ls, resolves o.api = some (p, ls) →
      (p.rust, ls.length) ∈ [("C", 1), ("R", 0)] := by
    intro o ho p ls hr
    rw [← hd]
    exact List.mem_map.2 ⟨(p, ls), List.mem_filterMap.2 ⟨o, ho, hr⟩, rfl⟩
  refine ⟨_, Prod.ext sig_accepted.1 rfl, sig_accepted.2.1, ?_, ?_, ?_, ?_, ?_⟩
  · intro o ho p ls hr
    have := key o ho p ls hr
    simp only [List.mem_cons, Prod.mk.injEq, List.not_mem_nil, or_false] at this
    rcases this with ⟨h, _⟩ | ⟨h, _⟩ <;> rw [h] <;> decide
  · intro o ho p ls hr
    have := key o ho p ls hr
    simp only [List.mem_cons, Prod.mk.injEq, List.not_mem_nil, or_false] at this
    rcases this with ⟨h, h2⟩ | ⟨h, h2⟩ <;> rw [h, h2] <;> rfl
  · intro n p; rfl
  · exact ⟨_, _, List.mem_cons_self .., rfl, List.mem_cons_of_mem _ (List.mem_cons_self ..)⟩
  · exact ⟨_, _, List.mem_cons_of_mem _ (List.mem_cons_self ..), rfl, List.mem_cons_of_mem _ (List.mem_cons_self ..)⟩

/-- The name, whether it is unsafe, the lifetimes, those of the type that has the method, and the names of the arguments. -/
def summary : RItem → Ident × Bool × List Ident × List Ident × List (Option Ident)
  | .fn f => (f.name, f.unsafety, f.generics, [], f.inputs.map (·.1))
  | .method ls (.path _ _ _ _ (.angle args)) f =>
    (f.name, f.unsafety, ls, args.filterMap (fun a => match a with | .lifetime l => some l | _ => none), f.inputs.map (·.1))
  | .method ls _ f => (f.name, f.unsafety, ls, [], f.inputs.map (·.1))

/-- What the user finds in the example: `impl<'a> C<'a> { fn name(&self, key: &str) -> Result<&'a str, Exception> }`,
`impl C<'_> { fn next(self: Pin<&mut Self>) -> &i32 }` and `unsafe fn find(list: &C, arg1: Box<R>) -> &i32`. -/
example : ((parseItems sampleReaders true false [] sigItems).2.filterMap fun o => match o.api with
      | .cxxFunction f => cxxShim (collect ((parseItems sampleReaders true false [] sigItems).2.map (·.api))) f
      | _ => none).map summary =
      [("name", false, ["a"], ["a"], [some "key"]), ("next", false, [], ["_"], []), ("find", true, [], [], [some "list", some "arg1"])] := rfl

/-! ### What does not hold -/

/-- `fn get(&self, key: &C) -> &C` -/
def getSrc : FnSrc := ⟨[], "get", noGenerics, false, false, false, false, false, some (.ref none false),
  [(.ident "key", .reference none false (named "C"))], some (.reference none false (named "C"))⟩

/-- `fn find(key: &str) -> &C` -/
def findSrc : FnSrc := ⟨[], "find", noGenerics, false, false, false, false, false, none,
  [(.ident "key", .reference none false (named "str"))], some (.reference none false (named "C"))⟩

/-- `unsafe extern "C++" { type C; fn get(&self, key: &C) -> &C; fn find(key: &str) -> &C; }` -/
def unclearItems : List ItemSrc := [.foreignMod ⟨[], true, some "C++", [.type ⟨[], "C", noGenerics⟩, .fn getSrc, .fn findSrc]⟩]

/-- The functions of a bridge. -/
def fnsOf (items : List ItemSrc) : List ExternFn :=
  (parseItems sampleReaders true false [] items).2.filterMap fun o => match o.api with | .cxxFunction f => some f | _ => none

def getFn : ExternFn := ⟨.cxx, ⟨[], "get", "get"⟩, ⟨false, [], some ⟨false, none, false, ⟨"C", []⟩, true⟩,
  [⟨⟨[], "key", "key"⟩, .ref false none false (.named "C")⟩], some (.ref false none false (.named "C")), false⟩, true⟩

def findFn : ExternFn := ⟨.cxx, ⟨[], "find", "find"⟩, ⟨false, [], none,
  [⟨⟨[], "key", "key"⟩, .str false none false (.named "str")⟩], some (.ref false none false (.named "C")), false⟩, true⟩

theorem unclear_accepted : (parseItems sampleReaders true false [] unclearItems).1 = [] ∧
    Check.Accepted .build ((parseItems sampleReaders true false [] unclearItems).2.map (·.api)) := by decide +kernel

theorem unclear_fns : fnsOf unclearItems = [getFn, findFn] := rfl

/-- C84.  The compiler rejects the code that the macro generates for some functions of an accepted bridge, although the
declared signature has no lifetime that is in doubt: a method that takes another reference, and a function whose only
reference argument is a string. -/
theorem decl_unclear : ∃ outs, parseItems sampleReaders true false [] unclearItems = ([], outs) ∧
    Check.Accepted .build (outs.map (·.api)) ∧
    ∀ p ∈ [(getSrc, getFn), (findSrc, findFn)], (∃ o ∈ outs, o.api = .cxxFunction p.2) ∧
      ∃ d0 e, declared p.1.name "C" p.1 = some d0 ∧
        reads (meaningRet false) [] none (cxxDecl (context (outs.map (·.api)) 1) p.2) = some e ∧
        d0.Clear (fun _ => 0) ∧ ¬ e.Clear (fun _ => 0) := by
  refine ⟨_, Prod.ext unclear_accepted.1 rfl, unclear_accepted.2, ?_⟩
  have hmem : ∀ f ∈ fnsOf unclearItems, ∃ o ∈ (parseItems sampleReaders true false [] unclearItems).2, o.api = .cxxFunction f := by
    intro f hf
    obtain ⟨o, ho, h⟩ := List.mem_filterMap.1 hf
    refine ⟨o, ho, ?_⟩
    cases ha : o.api <;> rw [ha] at h <;> simp_all
  rw [unclear_fns] at hmem
  intro p hp
  simp only [List.mem_cons, List.not_mem_nil, or_false] at hp
  rcases hp with rfl | rfl
  · refine ⟨hmem _ (by simp), _, ⟨"__get", false, [], none, [(none, .reference none false (.named ["C"] [])),
      (some "key", .reference none false (.named ["C"] []))], .reference none false (.named ["C"] [])⟩, rfl, rfl, ?_, ?_⟩
    · intro _; exact ⟨_, .method rfl rfl⟩
    · intro h
      obtain ⟨s, hs⟩ := h (by simp [Decl.Elided, lifetimesIn'])
      cases hs with
      | method hr => cases hr
      | @only b _ a _ h1 h2 h3 =>
        have h4 := only_all h1 h2 h3
        have h5 := h4 (.argument 0) (List.mem_cons_self ..)
        have h6 := h4 (.argument 1) (List.mem_cons_of_mem _ (List.mem_cons_self ..))
        rw [← h6] at h5
        simp at h5
  · refine ⟨hmem _ (by simp), _, ⟨"__find", false, [], none, [(some "key", .named ["cxx", "private", "RustStr"] [])],
      .reference none false (.named ["C"] [])⟩, rfl, rfl, ?_, ?_⟩
    · intro _; exact ⟨.argument 0, .only (before := []) (after := []) rfl rfl (by simp) (by simp)⟩
    · intro h
      obtain ⟨s, hs⟩ := h (by simp [Decl.Elided, lifetimesIn'])
      cases hs with
      | method hr => cases hr
      | @only b _ a _ h1 h2 h3 => simp [Decl.arguments, sources, lifetimesIn'] at h1

/-- `fn size(self: &String) -> usize` -/
def sizeSrc : FnSrc := ⟨[], "size", noGenerics, false, false, false, false, false,
  some (.typed (.reference none false (named "String"))), [], some (named "usize")⟩

/-- `unsafe extern "C++" { type String = other::String; fn size(self: &String) -> usize; }` -/
def aliasItems : List ItemSrc := [.foreignMod ⟨[], true, some "C++", [.alias ⟨[], "String", noGenerics⟩, .fn sizeSrc]⟩]

def sizeFn : ExternFn := ⟨.cxx, ⟨[], "size", "size"⟩, ⟨false, [], some ⟨false, none, false, ⟨"String", []⟩, false⟩, [],
  some (.named "usize"), false⟩, true⟩

theorem alias_accepted : (parseItems sampleReaders true false [] aliasItems).1 = [] ∧
    Check.Accepted .build ((parseItems sampleReaders true false [] aliasItems).2.map (·.api)) := by decide +kernel

theorem alias_fns : fnsOf aliasItems = [sizeFn] := rfl

/-- C84.  Without the condition on names: if `String` is an alias, `self: &String` makes a method of that type, while
`String` is the one of the standard library everywhere else. -/
theorem alias_replaced : ∃ outs, parseItems sampleReaders true false [] aliasItems = ([], outs) ∧
    Check.Accepted .build (outs.map (·.api)) ∧ (∃ o ∈ outs, o.api = .cxxFunction sizeFn) ∧
    ∃ item d d0, cxxShim (collect (outs.map (·.api))) sizeFn = some item ∧ offers item = some d ∧
      declared "size" "String" sizeSrc = some d0 ∧ ¬ d.full (fun _ => 0) = d0.erase.full (fun _ => 0) := by
  refine ⟨_, Prod.ext alias_accepted.1 rfl, alias_accepted.2, ?_, _, _, _, rfl, rfl, rfl, ?_⟩
  · have : sizeFn ∈ fnsOf aliasItems := by rw [alias_fns]; simp
    obtain ⟨o, ho, h⟩ := List.mem_filterMap.1 this
    refine ⟨o, ho, ?_⟩
    cases ha : o.api <;> rw [ha] at h <;> simp_all
  · intro h
    have h1 : some (Den.reference (some "_") false (.named ["String"] [])) =
        some (.reference (some "_") false (.named ["cxx", "alloc", "string", "String"] [])) := congrArg Decl.receiver h
    simp at h1

end Verif.RustSig
