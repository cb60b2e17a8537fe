import Verif.Parse.TypeSpec
/-!
# Types in a bridge: theorems
-/
namespace Verif.Parse
open Verif.Syntax

theorem onlyLifetimes_eq {τ : Type} (args : List (GArg τ)) : onlyLifetimes args = lifetimesOf args := by
  induction args with
  | nil => rfl
  | cons a as ih => cases a <;> simp [onlyLifetimes, lifetimesOf, ih]

theorem lifetimesOf_some {τ : Type} {args : List (GArg τ)} {ls : List Ident} :
    lifetimesOf args = some ls ↔ args = ls.map .lifetime := by
  induction args generalizing ls with
  | nil => cases ls <;> simp [lifetimesOf]
  | cons a as ih =>
    cases a with
    | lifetime l =>
      cases ls with
      | nil => simp [lifetimesOf]
      | cons b bs =>
        simp only [lifetimesOf, Option.map_eq_some_iff, List.cons.injEq, List.map_cons, GArg.lifetime.injEq]
        constructor
        · rintro ⟨x, hx, rfl, rfl⟩; exact ⟨rfl, (ih).1 hx⟩
        · rintro ⟨rfl, h⟩; exact ⟨bs, ih.2 h, rfl, rfl⟩
    | type t => cases ls <;> simp [lifetimesOf]
    | other => cases ls <;> simp [lifetimesOf]

/-- Induction on a type as written, with the cases that the parser distinguishes. -/
theorem RTy.induct {P : RTy → Prop}
    (reference : ∀ l m t, P t → P (.reference l m t)) (ptr : ∀ m t, P t → P (.ptr m t))
    (path : ∀ q c b n as, (∀ t, as = .angle [.type t] → P t) → P (.path q c b n as))
    (array : ∀ t n, P t → P (.array t n))
    (bareFn : ∀ b u abi args v out, (∀ a ∈ args, P a.2) → (∀ t, out = some t → P t) → P (.bareFn b u abi args v out))
    (tuple : ∀ ts, P (.tuple ts)) (slice : ∀ t, P t → P (.slice t)) (other : P .other) : ∀ t, P t :=
  RTy.rec (motive_1 := P) (motive_2 := fun as => ∀ t, as = .angle [.type t] → P t)
    (motive_3 := fun as => ∀ a ∈ as, P a.2) (motive_4 := fun o => ∀ t, o = some t → P t) (motive_5 := fun _ => True)
    (motive_6 := fun as => ∀ t, as = [.type t] → P t) (motive_7 := fun p => P p.2)
    (motive_8 := fun a => ∀ t, a = .type t → P t)
    reference ptr path array bareFn (fun ts _ => tuple ts) slice other
    (by simp) (by intro as h t ht; exact h t (by simpa using ht)) (by simp)
    (by simp) (fun a as ha has => by simpa using ⟨ha, fun a b h => has (a, b) h⟩)
    (by simp) (fun t h => by simpa using h)
    trivial (fun _ _ _ _ => trivial)
    (by simp) (fun a as ha _ t h => by simp at h; exact ha t h.1)
    (fun _ _ h => h) (by simp) (fun t h => by simpa using h) (by simp)

theorem ofNamed (n : Ident) (ls : List Ident) :
    meaning false (printNamed ⟨n, ls⟩) = some (.named (knownType n) ls) := by
  have hl : ∀ (c : Bool) (b : List Ident), meaning false (.path false c b n (lifetimeArgs ls)) = some (.named (b ++ [n]) ls) := by
    intro c b
    cases ls with
    | nil => simp [lifetimeArgs, meaning, pathMeans]
    | cons l ls =>
      have : lifetimesOf (τ := RTy) ((l :: ls).map .lifetime) = some (l :: ls) := lifetimesOf_some.2 rfl
      simp only [List.map_cons] at this
      simp [lifetimeArgs, meaning, pathMeans, this]
  by_cases h1 : n = "c_char"
  · subst h1; simpa [printNamed, cxxPath, knownType] using hl true ["cxx", "core", "ffi"]
  by_cases h2 : n = "CxxString"
  · subst h2; simpa [printNamed, cxxPath, knownType] using hl true ["cxx"]
  by_cases h3 : n = "String"
  · subst h3; simpa [printNamed, cxxPath, knownType] using hl true ["cxx", "alloc", "string"]
  have hk : knownType n = [n] := by unfold knownType; split <;> simp_all
  simpa [printNamed, h1, h2, h3, hk] using hl false []

theorem refTo_cases {l m inner t} (h : refTo l m inner = .ok t) :
    t = .ref false l m inner ∨ t = .str false l m inner := by
  unfold refTo at h
  grind

theorem generic_cases {n make} (h : generic n = some make) (inner : Ty) :
    meaning false (printType (make inner)) = (meaning false (printType inner)).map (.apply (knownGeneric n)) ∧
      knownGeneric n ≠ ["cxx", "core", "pin", "Pin"] := by
  unfold generic at h
  split at h
  · next hn => subst hn; injection h with h; subst h; simp [printType, cxxPath, meaning, pathMeans, knownGeneric]
  split at h
  · next hn => subst hn; injection h with h; subst h; simp [printType, cxxPath, meaning, pathMeans, knownGeneric]
  split at h
  · next hn => subst hn; injection h with h; subst h; simp [printType, cxxPath, meaning, pathMeans, knownGeneric]
  split at h
  · next hn => subst hn; injection h with h; subst h; simp [printType, cxxPath, meaning, pathMeans, knownGeneric]
  split at h
  · next hn => subst hn; injection h with h; subst h; simp [printType, cxxPath, meaning, pathMeans, knownGeneric]
  split at h
  · next hn => subst hn; injection h with h; subst h; simp [printType, cxxPath, meaning, pathMeans, knownGeneric]
  · cases h

theorem printRef (p l m t) (h : p = false) : meaning false (printType (.ref p l m t)) =
    (meaning false (printType t)).map (.reference l m) := by
  subst h; simp [printType, meaning]

theorem erase_apply {p : List Ident} (hp : p ≠ ["cxx", "core", "pin", "Pin"]) (d : Den) :
    (Den.apply p d).erase = .apply p d.erase := by
  simp only [Den.erase]
  split
  · next h => simp at hp
  · rfl

/-- `Pin` around something: printing sees one of them. -/
theorem erase_pin (d : Den) : (Den.apply ["cxx", "core", "pin", "Pin"] d).erase =
    match d.erase with
    | .apply ["cxx", "core", "pin", "Pin"] d => .apply ["cxx", "core", "pin", "Pin"] d
    | d => .apply ["cxx", "core", "pin", "Pin"] d := by
  simp only [Den.erase]
  split <;> simp_all

theorem parseLen_ok {l k} : parseLen l = .ok k ↔ l = .int k ∧ 0 < k ∧ k < 2 ^ 64 := by
  cases l with
  | int n =>
    have hu : usizeSize = 2 ^ 64 := rfl
    simp only [parseLen, Len.int.injEq, hu]
    constructor
    · intro h
      split at h
      · cases h
      · split at h
        · cases h
        · injection h with h; subst h; omega
    · rintro ⟨rfl, h1, h2⟩
      rw [if_neg (by omega), if_neg (by omega)]
  | lit => simp [parseLen]
  | expr => simp [parseLen]

theorem parse_reference {l m w t} : parseType (.reference l m w) = .ok t ↔
    (∃ e, w = .slice e ∧ ∃ inner, parseType e = .ok inner ∧ t = .sliceRef l m inner) ∨
    (∃ inner, parseType w = .ok inner ∧ refTo l m inner = .ok t) := by
  have hplain : (∀ e, w ≠ .slice e) → (parseType (.reference l m w) = match parseType w with
      | .error e => .error e
      | .ok inner => refTo l m inner) := by
    intro h
    cases w <;> first | exact absurd rfl (h _) | (rw [parseType] <;> first | rfl | simp)
  by_cases hs : ∃ e, w = .slice e
  · obtain ⟨e, rfl⟩ := hs
    rw [parseType]
    have : parseType (.slice e) = .error .unsupported := by rw [parseType]
    rw [this]
    cases hp : parseType e with
    | error e => simp [hp]
    | ok inner => simp [hp, eq_comm]
  · rw [hplain (fun e he => hs ⟨e, he⟩)]
    cases hp : parseType w with
    | error e =>
      simp
      rintro e rfl
      exact absurd ⟨e, rfl⟩ hs
    | ok inner =>
      simp only [Except.ok.injEq]
      constructor
      · intro h; exact .inr ⟨inner, rfl, h⟩
      · rintro (⟨e, rfl, -⟩ | ⟨inner, rfl, h⟩)
        · exact absurd ⟨e, rfl⟩ hs
        · exact h

theorem pathError_ne {α : Type} {q b} {x : α} : pathError q b ≠ Except.ok x := by
  unfold pathError; split <;> simp

theorem parse_path {q c b n as t} : parseType (.path q c b n as) = .ok t ↔
    q = false ∧ c = false ∧ b = [] ∧
    ((as = .none ∧ t = .ident ⟨n, []⟩) ∨
     (∃ arg make inner, as = .angle [.type arg] ∧ generic n = some make ∧ parseType arg = .ok inner ∧ t = make inner) ∨
     (∃ arg p l m inner, as = .angle [.type arg] ∧ n = "Pin" ∧ parseType arg = .ok (.ref p l m inner) ∧
       t = .ref true l m inner) ∨
     (∃ ls : List Ident, as = .angle (ls.map .lifetime) ∧ (ls.length = 1 → generic n = none ∧ n ≠ "Pin") ∧
       t = .ident ⟨n, ls⟩)) := by
  by_cases hq : q = false ∧ c = false ∧ b = []
  · obtain ⟨rfl, rfl, rfl⟩ := hq
    simp only [true_and]
    have hother : ∀ args : List (GArg RTy), (∀ arg, args ≠ [.type arg]) →
        (parseType (.path false false [] n (.angle args)) =
          if args.length = 1 ∧ ((generic n).isSome ∨ n = "Pin") then pathError false []
          else
            match onlyLifetimes args with
            | some lifetimes => .ok (.ident ⟨n, lifetimes⟩)
            | none => pathError false []) := by
      intro args h
      match args, h with
      | [], _ => rw [parseType] <;> first | rfl | simp
      | [.lifetime l], _ => rw [parseType] <;> first | rfl | simp
      | [.type arg], h => exact absurd rfl (h arg)
      | [.other], _ => rw [parseType] <;> first | rfl | simp
      | a :: b :: rest, _ => rw [parseType] <;> first | rfl | simp
    cases as with
    | none => rw [parseType]; simp [eq_comm]
    | paren => rw [parseType]; simp [pathError_ne]
    | angle args =>
      by_cases ht : ∃ arg, args = [.type arg]
      · obtain ⟨arg, rfl⟩ := ht
        have hl : ∀ ls : List Ident, ¬ ([.type arg] : List (GArg RTy)) = ls.map .lifetime := by
          intro ls; cases ls <;> simp
        simp only [reduceCtorEq, false_and, false_or, PathArgs.angle.injEq, List.cons.injEq, GArg.type.injEq, and_true,
          hl, exists_const, or_false]
        rw [parseType]
        simp only [Bool.not_false, true_and, if_true]
        cases hg : generic n with
        | some make =>
          have hn : n ≠ "Pin" := by rintro rfl; simp [generic] at hg
          constructor
          · intro h
            cases hp : parseType arg with
            | error e => simp only [hp] at h; cases h
            | ok inner => simp only [hp] at h; injection h with h; exact .inl ⟨arg, make, inner, rfl, rfl, hp, h.symm⟩
          · rintro (⟨_, _, inner, rfl, h0, h1, h2⟩ | ⟨_, _, _, _, _, _, h, _⟩)
            · injection h0 with h0; subst h0; simp only [h1, h2]
            · exact absurd h hn
        | none =>
          by_cases hn : n = "Pin"
          · subst hn
            simp only [if_true]
            constructor
            · intro h
              cases hp : parseType arg with
              | error e => rw [hp] at h; cases h
              | ok ty =>
                rw [hp] at h
                cases ty <;> simp only [pathError_ne, Except.ok.injEq, reduceCtorEq] at h
                next p l m inner => exact .inr ⟨arg, p, l, m, inner, rfl, trivial, hp, h.symm⟩
            · rintro (⟨_, _, _, _, h, _⟩ | ⟨_, p, l, m, inner, rfl, _, h1, h2⟩)
              · cases h
              · rw [h1, h2]
          · simp [hn, pathError_ne]
      · rw [hother args (fun arg h => ht ⟨arg, h⟩), onlyLifetimes_eq]
        constructor
        · intro h
          split at h
          · exact absurd h pathError_ne
          · next hc =>
            cases hlt : lifetimesOf args with
            | none => rw [hlt] at h; exact absurd h pathError_ne
            | some ls =>
              rw [hlt] at h; injection h with h
              have := lifetimesOf_some.1 hlt
              subst this
              refine .inr (.inr (.inr ⟨ls, rfl, fun h1 => ?_, h.symm⟩))
              simp only [List.length_map, h1, true_and, not_or] at hc
              exact ⟨by simpa using hc.1, hc.2⟩
        · rintro (⟨h, _⟩ | ⟨arg, _, _, h, _⟩ | ⟨arg, _, _, _, _, h, _⟩ | ⟨ls, h, h1, rfl⟩)
          · cases h
          · injection h with h; exact absurd ⟨arg, h⟩ ht
          · injection h with h; exact absurd ⟨arg, h⟩ ht
          · injection h with h; subst h
            rw [if_neg (by
              rintro ⟨h2, h3⟩
              obtain ⟨h4, h5⟩ := h1 (by simpa using h2)
              rcases h3 with h3 | h3
              · simp [h4] at h3
              · exact h5 h3), lifetimesOf_some.2 rfl]
  · constructor
    · intro h
      rw [parseType.eq_def] at h
      dsimp only at h
      rw [if_neg (by simpa using hq)] at h
      exact absurd h pathError_ne
    · rintro ⟨h1, h2, h3, _⟩; exact absurd ⟨h1, h2, h3⟩ hq

/-- The expansion of `w` means what `w` means, apart from what is erased. -/
def Kept (w : RTy) : Prop :=
  ∀ t, parseType w = .ok t → ∃ d, meaning true w = some d ∧ meaning false (printType t) = some d.erase

theorem kept_return {w : RTy} (hw : Kept w)
    (hr : ∀ arg, w = .path false false [] "Result" (.angle [.type arg]) → Kept arg) :
    ∀ r th, parseReturn (some w) = .ok (r, th) →
      ∃ d, meaning true w = some d ∧ meaningRet false (printReturn r th) = some d.erase := by
  have plain : ∀ r th, (match parseType w with
      | .error e => Except.error e
      | .ok .void => .ok (none, false)
      | .ok ty => .ok (some ty, false)) = .ok (r, th) →
      ∃ d, meaning true w = some d ∧ meaningRet false (printReturn r th) = some d.erase := by
    intro r th h
    cases hp : parseType w with
    | error e => rw [hp] at h; cases h
    | ok t =>
      obtain ⟨d, h1, h2⟩ := hw t hp
      refine ⟨d, h1, ?_⟩
      rw [hp] at h
      cases t <;> simp at h <;> obtain ⟨rfl, rfl⟩ := h <;>
        simp only [printReturn, meaningRet] at h2 ⊢ <;> first | exact h2 | (rw [← h2]; simp [printType, meaning])
  intro r th h
  unfold parseReturn at h
  split at h
  · cases ‹some w = none›
  · next last arg hw' =>
    injection hw' with hw'
    split at h
    · next hl =>
      subst hl
      cases hp : parseType arg with
      | error e => rw [hp] at h; cases h
      | ok t =>
        obtain ⟨d, h1, h2⟩ := hr arg hw' t hp
        refine ⟨.apply ["Result"] d, ?_, ?_⟩
        · rw [hw']; simp [meaning, h1, pathMeans, knownGeneric]
        · rw [erase_apply (by simp)]
          rw [hp] at h
          cases t <;> simp at h <;> obtain ⟨rfl, rfl⟩ := h <;>
            simp only [printReturn, meaningRet, meaning] at h2 ⊢ <;> first
              | (rw [h2]; simp [pathMeans])
              | (simp [printType, meaning] at h2; simp [pathMeans, ← h2])
    · rw [← hw'] at h; exact plain r th h
  · next ret _ hw' => injection hw' with hw'; subst hw'; exact plain r th h

theorem kept (w : RTy) : (Kept w ∧ ∀ r th, parseReturn (some w) = .ok (r, th) →
    ∃ d, meaning true w = some d ∧ meaningRet false (printReturn r th) = some d.erase) ∧
    ∀ e, w = .slice e → Kept e := by
  induction w using RTy.induct with
  | reference l m t ih =>
    suffices h : Kept (.reference l m t) from ⟨⟨h, kept_return h (by simp)⟩, by simp⟩
    intro ty h
    rcases parse_reference.1 h with ⟨e, rfl, inner, hp, rfl⟩ | ⟨inner, hp, hr⟩
    · obtain ⟨d, h1, h2⟩ := ih.2 e rfl inner hp
      exact ⟨.reference l m (.slice d), by simp [meaning, h1], by simp [printType, meaning, h2, Den.erase]⟩
    · obtain ⟨d, h1, h2⟩ := ih.1.1 inner hp
      rcases refTo_cases hr with rfl | rfl <;>
        exact ⟨.reference l m d, by simp [meaning, h1], by simp [printType, meaning, h2, Den.erase]⟩
  | ptr m t ih =>
    suffices h : Kept (.ptr m t) from ⟨⟨h, kept_return h (by simp)⟩, by simp⟩
    intro ty h
    rw [parseType] at h
    cases hp : parseType t with
    | error e => rw [hp] at h; cases h
    | ok inner =>
      rw [hp] at h; injection h with h; subst h
      obtain ⟨d, h1, h2⟩ := ih.1.1 inner hp
      exact ⟨.ptr m d, by simp [meaning, h1], by simp [printType, meaning, h2, Den.erase]⟩
  | path q c b n as ih =>
    suffices h : Kept (.path q c b n as) from
      ⟨⟨h, kept_return h (by rintro arg h'; cases h'; exact (ih arg rfl).1.1)⟩, by simp⟩
    intro ty h
    obtain ⟨rfl, rfl, rfl, h'⟩ := parse_path.1 h
    clear h
    rcases h' with ⟨rfl, rfl⟩ | ⟨arg, make, inner, rfl, hg, hp, rfl⟩ | ⟨arg, p, l, m, inner, rfl, rfl, hp, rfl⟩ |
      ⟨ls, rfl, -, rfl⟩
    · exact ⟨.named (knownType n) [], by simp [meaning, pathMeans], by simp [printType, ofNamed, Den.erase]⟩
    · obtain ⟨d, h1, h2⟩ := (ih arg rfl).1.1 inner hp
      obtain ⟨h3, h4⟩ := generic_cases hg inner
      exact ⟨.apply (knownGeneric n) d, by simp [meaning, h1, pathMeans], by rw [h3, h2, erase_apply h4]; rfl⟩
    · obtain ⟨d, h1, h2⟩ := (ih arg rfl).1.1 _ hp
      refine ⟨.apply (knownGeneric "Pin") d, by simp [meaning, h1, pathMeans], ?_⟩
      simp only [knownGeneric]
      rw [erase_pin]
      simp only [printType] at h2 ⊢
      cases p with
      | false =>
        simp only [if_true, Bool.false_eq_true, if_false, cxxPath, meaning, pathMeans, Bool.false_eq_true, false_and] at h2 ⊢
        cases hm : meaning false (printType inner) with
        | none => rw [hm] at h2; simp at h2
        | some d' => rw [hm] at h2; simp at h2; rw [← h2]; simp
      | true =>
        simp only [if_true, cxxPath, meaning, pathMeans, Bool.false_eq_true, false_and, if_false] at h2 ⊢
        cases hm : meaning false (printType inner) with
        | none => rw [hm] at h2; simp at h2
        | some d' => rw [hm] at h2; simp at h2; rw [← h2]; simp
    · refine ⟨.named (knownType n) ls, ?_, by simp [printType, ofNamed, Den.erase]⟩
      have : lifetimesOf (τ := RTy) (ls.map .lifetime) = some ls := lifetimesOf_some.2 rfl
      match ls, this with
      | [], h => simp [meaning, pathMeans, lifetimesOf]
      | l :: ls, h => simp only [List.map_cons] at h ⊢; simp [meaning, pathMeans, h]
  | array t n ih =>
    suffices h : Kept (.array t n) from ⟨⟨h, kept_return h (by simp)⟩, by simp⟩
    intro ty h
    rw [parseType] at h
    cases hp : parseType t with
    | error e => rw [hp] at h; cases h
    | ok inner =>
      rw [hp] at h
      obtain ⟨d, h1, h2⟩ := ih.1.1 inner hp
      dsimp only at h
      cases hl : parseLen n with
      | error e => rw [hl] at h; cases h
      | ok k =>
        rw [hl] at h; injection h with h; subst h
        obtain ⟨rfl, -, -⟩ := parseLen_ok.1 hl
        exact ⟨.array d k, by simp [meaning, h1], by simp [printType, meaning, h2, Den.erase]⟩
  | bareFn bi u abi args v out ihA ihO =>
    suffices h : Kept (.bareFn bi u abi args v out) from ⟨⟨h, kept_return h (by simp)⟩, by simp⟩
    intro ty h
    rw [parseType] at h
    have hargs : ∀ args tys, (∀ a ∈ args, Kept a.2) → parseArgs args = .ok tys →
        ∃ ds, meanings true args = some ds ∧ meanings false (printArgs tys) = some (Den.erases ds) := by
      intro args
      induction args with
      | nil => intro tys _ h; rw [parseArgs] at h; injection h with h; subst h; exact ⟨[], by simp [meanings], by simp [printArgs, meanings, Den.erases]⟩
      | cons a as ih =>
        intro tys hk h
        obtain ⟨n, a⟩ := a
        rw [parseArgs] at h
        cases hp : parseType a with
        | error e => rw [hp] at h; cases h
        | ok t =>
          rw [hp] at h
          cases hps : parseArgs as with
          | error e => rw [hps] at h; cases h
          | ok ts =>
            rw [hps] at h; injection h with h; subst h
            obtain ⟨d, h1, h2⟩ := hk _ (List.mem_cons_self) t hp
            obtain ⟨ds, h3, h4⟩ := ih ts (fun a ha => hk a (List.mem_cons_of_mem _ ha)) hps
            exact ⟨d :: ds, by simp [meanings, h1, h3], by simp [printArgs, meanings, Den.erases, h2, h4]⟩
    have hret : ∀ r th, parseReturn out = .ok (r, th) →
        ∃ d, meaningRet true out = some d ∧ meaningRet false (printReturn r th) = some d.erase := by
      intro r th h
      cases out with
      | none => rw [parseReturn] at h; simp at h; obtain ⟨rfl, rfl⟩ := h; exact ⟨.unit, by simp [meaningRet], by simp [printReturn, meaningRet, Den.erase]⟩
      | some w => simpa [meaningRet] using (ihO w rfl).1.2 r th h
    split at h
    · cases h
    · split at h
      · cases h
      · next hb hv =>
        cases hp : parseArgs args with
        | error e => rw [hp] at h; cases h
        | ok tys =>
          rw [hp] at h
          cases hr : parseReturn out with
          | error e => rw [hr] at h; cases h
          | ok rt =>
            obtain ⟨r, th⟩ := rt
            rw [hr] at h; injection h with h; subst h
            obtain ⟨ds, h1, h2⟩ := hargs args tys (fun a ha => (ihA a ha).1.1) hp
            obtain ⟨d, h3, h4⟩ := hret r th hr
            simp only [Bool.not_eq_true] at hb hv
            subst hb hv
            exact ⟨.fn u abi ds d, by simp [meaning, h1, h3], by simp [printType, meaning, h2, h4, Den.erase]⟩
  | tuple ts =>
    suffices h : Kept (.tuple ts) from ⟨⟨h, kept_return h (by simp)⟩, by simp⟩
    intro ty h
    cases ts with
    | nil => rw [parseType] at h; injection h with h; subst h; exact ⟨.unit, by simp [meaning], by simp [printType, meaning, Den.erase]⟩
    | cons t ts => rw [parseType] at h; cases h
  | slice t ih =>
    suffices h : Kept (.slice t) from ⟨⟨h, kept_return h (by simp)⟩, by rintro e h; cases h; exact ih.1.1⟩
    intro ty h; rw [parseType] at h; cases h
  | other =>
    suffices h : Kept .other from ⟨⟨h, kept_return h (by simp)⟩, by simp⟩
    intro ty h; rw [parseType] at h; cases h

theorem generic_some (n : Ident) : (∃ make, generic n = some make) ↔ Generic1 n := by
  unfold generic Generic1
  constructor
  · rintro ⟨make, h⟩
    grind
  · intro h
    simp only [List.mem_cons, List.not_mem_nil, or_false] at h
    rcases h with rfl | rfl | rfl | rfl | rfl | rfl <;> simp

theorem generic_ne {n make} (h : generic n = some make) (inner : Ty) :
    (∀ t, make inner ≠ .ident t) ∧ ∀ p l m i, make inner ≠ .ref p l m i := by
  unfold generic at h
  repeat' split at h
  all_goals first | (cases h; done) | (injection h with h; subst h; simp)

theorem parse_ident {w n ls} (h : parseType w = .ok (.ident ⟨n, ls⟩)) : Named w n := by
  cases w with
  | path q c b m as =>
    obtain ⟨rfl, rfl, rfl, h'⟩ := parse_path.1 h
    clear h
    rcases h' with ⟨rfl, h⟩ | ⟨arg, make, inner, rfl, hg, hp, h⟩ | ⟨arg, p, l, mm, inner, rfl, rfl, hp, h⟩ |
      ⟨ls, rfl, -, h⟩
    · simp at h; obtain ⟨rfl, rfl⟩ := h; exact .plain n
    · exact absurd h.symm ((generic_ne hg inner).1 _)
    · cases h
    · simp at h; obtain ⟨rfl, rfl⟩ := h; exact .lifetimes n _
  | reference l m w =>
    rcases parse_reference.1 h with ⟨e, rfl, inner, hp, h⟩ | ⟨inner, hp, h⟩
    · cases h
    · rcases refTo_cases h with h | h <;> cases h
  | ptr m w => rw [parseType] at h; split at h <;> cases h
  | array w n =>
    rw [parseType] at h; split at h
    · cases h
    · split at h <;> cases h
  | bareFn b u abi args v o =>
    rw [parseType] at h
    split at h
    · cases h
    · split at h
      · cases h
      · split at h
        · cases h
        · split at h <;> cases h
  | tuple ts => cases ts <;> rw [parseType] at h <;> cases h
  | slice w => rw [parseType] at h; cases h
  | other => rw [parseType] at h; cases h

theorem named_parse {w n t} (h : Named w n) (hp : parseType w = .ok t) : ∃ ls, t = .ident ⟨n, ls⟩ := by
  cases h with
  | plain => simp [parseType] at hp; exact ⟨[], hp.symm⟩
  | lifetimes n ls =>
    obtain ⟨-, -, -, h⟩ := parse_path.1 hp
    rcases h with ⟨h, _⟩ | ⟨arg, make, inner, h, _⟩ | ⟨arg, p, l, mm, inner, h, _⟩ | ⟨ls', h, -, h'⟩
    · cases h
    · injection h with h; cases ls <;> simp at h
    · injection h with h; cases ls <;> simp at h
    · exact ⟨ls', h'⟩

theorem refTo_ok (l m inner) : (∃ t, refTo l m inner = .ok t) ↔ ((∃ ls, inner = .ident ⟨"str", ls⟩) → m = false) := by
  unfold refTo
  cases inner with
  | ident n =>
    obtain ⟨n, ls⟩ := n
    by_cases hn : n = "str"
    · subst hn; cases m <;> simp
    · simp [hn]
  | _ => simp

theorem refTo_ref (l m inner) (h : ¬ ∃ ls, inner = .ident ⟨"str", ls⟩) : refTo l m inner = .ok (.ref false l m inner) := by
  unfold refTo
  cases inner with
  | ident n =>
    obtain ⟨n, ls⟩ := n
    by_cases hn : n = "str"
    · subst hn; exact absurd ⟨ls, rfl⟩ h
    · simp [hn]
  | _ => rfl

theorem accepted_supported (w : RTy) :
    ((∀ t, parseType w = .ok t → Supported w) ∧
      (∀ p l m inner, parseType w = .ok (.ref p l m inner) → Reference w) ∧
      (∀ rt, parseReturn (some w) = .ok rt → Return w)) ∧
    ∀ e, w = .slice e → ∀ t, parseType e = .ok t → Supported e := by
  have hret : ∀ w, (∀ t, parseType w = .ok t → Supported w) →
      (∀ arg, w = .path false false [] "Result" (.angle [.type arg]) → ∀ t, parseType arg = .ok t → Supported arg) →
      ∀ rt, parseReturn (some w) = .ok rt → Return w := by
    intro w hw hr rt h
    unfold parseReturn at h
    split at h
    · cases ‹some w = none›
    · next last arg hw' =>
      injection hw' with hw'
      split at h
      · next hl =>
        subst hl
        cases hp : parseType arg with
        | error e => rw [hp] at h; cases h
        | ok t => rw [hw']; exact .result arg (hr arg hw' t hp)
      · rw [← hw'] at h
        cases hp : parseType w with
        | error e => rw [hp] at h; cases h
        | ok t => exact .plain w (hw t hp)
    · next ret _ hw' =>
      injection hw' with hw'; subst hw'
      cases hp : parseType w with
      | error e => rw [hp] at h; cases h
      | ok t => exact .plain w (hw t hp)
  induction w using RTy.induct with
  | reference l m w ih =>
    have h1 : ∀ t, parseType (.reference l m w) = .ok t → Supported (.reference l m w) := by
      intro t h
      rcases parse_reference.1 h with ⟨e, rfl, inner, hp, rfl⟩ | ⟨inner, hp, hr⟩
      · exact .slice l m e (ih.2 e rfl inner hp)
      · by_cases hn : Named w "str"
        · obtain ⟨ls, rfl⟩ := named_parse hn hp
          obtain rfl := (refTo_ok l m _).1 ⟨t, hr⟩ ⟨ls, rfl⟩
          exact .str l w hn (ih.1.1 _ hp)
        · exact .reference l m w hn (ih.1.1 _ hp)
    refine ⟨⟨h1, ?_, hret _ h1 (by simp)⟩, by simp⟩
    intro p l' m' inner' h
    rcases parse_reference.1 h with ⟨e, rfl, inner, hp, h⟩ | ⟨inner, hp, hr⟩
    · cases h
    · refine .reference l m w ?_ (ih.1.1 _ hp)
      intro hn
      obtain ⟨ls, rfl⟩ := named_parse hn hp
      obtain rfl := (refTo_ok l m _).1 ⟨_, hr⟩ ⟨ls, rfl⟩
      simp [refTo] at hr
  | ptr m w ih =>
    have h1 : ∀ t, parseType (.ptr m w) = .ok t → Supported (.ptr m w) := by
      intro t h
      rw [parseType] at h
      cases hp : parseType w with
      | error e => rw [hp] at h; cases h
      | ok inner => exact .ptr m w (ih.1.1 _ hp)
    refine ⟨⟨h1, ?_, hret _ h1 (by simp)⟩, by simp⟩
    intro p l' m' inner' h
    rw [parseType] at h; split at h <;> cases h
  | path q c b n as ih =>
    have h1 : ∀ t, parseType (.path q c b n as) = .ok t → Supported (.path q c b n as) := by
      intro t h
      obtain ⟨rfl, rfl, rfl, h'⟩ := parse_path.1 h
      clear h
      rcases h' with ⟨rfl, rfl⟩ | ⟨arg, make, inner, rfl, hg, hp, rfl⟩ | ⟨arg, p, l, m, inner, rfl, rfl, hp, rfl⟩ |
        ⟨ls, rfl, hl, rfl⟩
      · exact .name n
      · exact .generic n arg ((generic_some n).1 ⟨make, hg⟩) ((ih arg rfl).1.1 _ hp)
      · exact .pin arg ((ih arg rfl).1.2.1 _ _ _ _ hp)
      · refine .lifetimes n ls fun h => ⟨fun hg => ?_, (hl h).2⟩
        obtain ⟨make, hg⟩ := (generic_some n).2 hg
        rw [(hl h).1] at hg; cases hg
    refine ⟨⟨h1, ?_, hret _ h1 (by rintro arg h; cases h; exact (ih arg rfl).1.1)⟩, by simp⟩
    intro p l m inner h
    obtain ⟨rfl, rfl, rfl, h'⟩ := parse_path.1 h
    clear h
    rcases h' with ⟨rfl, h⟩ | ⟨arg, make, inner, rfl, hg, hp, h⟩ | ⟨arg, p, l, m, inner, rfl, rfl, hp, h⟩ |
      ⟨ls, rfl, hl, h⟩
    · cases h
    · exact absurd h.symm ((generic_ne hg inner).2 _ _ _ _)
    · exact .pin arg ((ih arg rfl).1.2.1 _ _ _ _ hp)
    · cases h
  | array w n ih =>
    have h1 : ∀ t, parseType (.array w n) = .ok t → Supported (.array w n) := by
      intro t h
      rw [parseType] at h
      cases hp : parseType w with
      | error e => rw [hp] at h; cases h
      | ok inner =>
        rw [hp] at h
        cases hl : parseLen n with
        | error e => simp only [hl] at h; cases h
        | ok k =>
          obtain ⟨rfl, h1, h2⟩ := parseLen_ok.1 hl
          exact .array w k (ih.1.1 _ hp) h1 h2
    refine ⟨⟨h1, ?_, hret _ h1 (by simp)⟩, by simp⟩
    intro p l' m' inner' h
    rw [parseType] at h; split at h
    · cases h
    · split at h <;> cases h
  | bareFn bi u abi args v out ihA ihO =>
    have hargs : ∀ args tys, (∀ a ∈ args, ∀ t, parseType a.2 = .ok t → Supported a.2) → parseArgs args = .ok tys →
        ∀ a ∈ args, Supported a.2 := by
      intro args
      induction args with
      | nil => intro tys _ _ a h; cases h
      | cons a as ih =>
        intro tys hk h
        obtain ⟨n, a⟩ := a
        rw [parseArgs] at h
        cases hp : parseType a with
        | error e => rw [hp] at h; cases h
        | ok t =>
          rw [hp] at h
          cases hps : parseArgs as with
          | error e => rw [hps] at h; cases h
          | ok ts =>
            intro b hb
            rcases List.mem_cons.1 hb with rfl | hb
            · exact hk _ List.mem_cons_self t hp
            · exact ih ts (fun a ha => hk a (List.mem_cons_of_mem _ ha)) hps b hb
    have h1 : ∀ t, parseType (.bareFn bi u abi args v out) = .ok t → Supported (.bareFn bi u abi args v out) := by
      intro t h
      rw [parseType] at h
      split at h
      · cases h
      · split at h
        · cases h
        · next hb hv =>
          cases hp : parseArgs args with
          | error e => rw [hp] at h; cases h
          | ok tys =>
            rw [hp] at h
            cases hr : parseReturn out with
            | error e => rw [hr] at h; cases h
            | ok rt =>
              simp only [Bool.not_eq_true] at hb hv
              subst hb hv
              refine .fn u abi args out (hargs args tys (fun a ha => (ihA a ha).1.1) hp) ?_
              rintro w rfl
              exact (ihO w rfl).1.2.2 rt hr
    refine ⟨⟨h1, ?_, hret _ h1 (by simp)⟩, by simp⟩
    intro p l' m' inner' h
    rw [parseType] at h
    split at h
    · cases h
    · split at h
      · cases h
      · split at h
        · cases h
        · split at h <;> cases h
  | tuple ts =>
    have h1 : ∀ t, parseType (.tuple ts) = .ok t → Supported (.tuple ts) := by
      intro t h
      cases ts with
      | nil => exact .unit
      | cons t ts => rw [parseType] at h; cases h
    refine ⟨⟨h1, ?_, hret _ h1 (by simp)⟩, by simp⟩
    intro p l' m' inner' h
    cases ts <;> rw [parseType] at h <;> cases h
  | slice w ih =>
    have h1 : ∀ t, parseType (.slice w) = .ok t → Supported (.slice w) := by
      intro t h; rw [parseType] at h; cases h
    refine ⟨⟨h1, ?_, hret _ h1 (by simp)⟩, by rintro e h; cases h; exact ih.1.1⟩
    intro p l' m' inner' h
    rw [parseType] at h; cases h
  | other =>
    have h1 : ∀ t, parseType .other = .ok t → Supported .other := by
      intro t h; rw [parseType] at h; cases h
    refine ⟨⟨h1, ?_, hret _ h1 (by simp)⟩, by simp⟩
    intro p l' m' inner' h
    rw [parseType] at h; cases h

theorem return_parsed {w t} (h : parseType w = .ok t)
    (hr : ∀ arg, w ≠ .path false false [] "Result" (.angle [.type arg])) : ∃ rt, parseReturn (some w) = .ok rt := by
  unfold parseReturn
  split
  · cases ‹some w = none›
  · next last arg hw' =>
    injection hw' with hw'
    split
    · next hl => subst hl; exact absurd hw' (hr arg)
    · rw [← hw', h]; cases t <;> simp
  · next ret _ hw' => injection hw' with hw'; subst hw'; rw [h]; cases t <;> simp

theorem result_not_type (arg t) : parseType (.path false false [] "Result" (.angle [.type arg])) ≠ .ok t := by
  intro h
  obtain ⟨-, -, -, h⟩ := parse_path.1 h
  rcases h with ⟨h, _⟩ | ⟨_, _, _, _, h, _⟩ | ⟨_, _, _, _, _, _, h, _⟩ | ⟨ls, h, _⟩
  · cases h
  · simp [generic] at h
  · simp at h
  · injection h with h; cases ls <;> simp at h

theorem supported_accepted {w : RTy} (h : Supported w) : ∃ t, parseType w = .ok t := by
  refine Supported.rec (motive_1 := fun w _ => ∃ t, parseType w = .ok t)
    (motive_2 := fun w _ => ∃ p l m inner, parseType w = .ok (.ref p l m inner))
    (motive_3 := fun w _ => ∃ rt, parseReturn (some w) = .ok rt)
    ?_ ?_ ?_ ?_ ?_ ?_ ?_ ?_ ?_ ?_ ?_ ?_ ?_ ?_ ?_ h
  · intro n; exact ⟨.ident ⟨n, []⟩, parse_path.2 ⟨rfl, rfl, rfl, .inl ⟨rfl, rfl⟩⟩⟩
  · intro n ls hl
    refine ⟨.ident ⟨n, ls⟩, parse_path.2 ⟨rfl, rfl, rfl, .inr (.inr (.inr ⟨ls, rfl, fun h => ⟨?_, (hl h).2⟩, rfl⟩))⟩⟩
    cases hg : generic n with
    | none => rfl
    | some make => exact absurd ((generic_some n).1 ⟨make, hg⟩) (hl h).1
  · rintro n w hg _ ⟨t, ht⟩
    obtain ⟨make, hm⟩ := (generic_some n).2 hg
    exact ⟨make t, parse_path.2 ⟨rfl, rfl, rfl, .inr (.inl ⟨w, make, t, rfl, hm, ht, rfl⟩)⟩⟩
  · rintro w _ ⟨p, l, m, inner, hp⟩
    exact ⟨.ref true l m inner, parse_path.2 ⟨rfl, rfl, rfl, .inr (.inr (.inl ⟨w, p, l, m, inner, rfl, rfl, hp, rfl⟩))⟩⟩
  · rintro l w hn _ ⟨t, ht⟩
    obtain ⟨ls, rfl⟩ := named_parse hn ht
    obtain ⟨t, h⟩ := (refTo_ok l false _).2 (fun _ => rfl)
    exact ⟨t, parse_reference.2 (.inr ⟨_, ht, h⟩)⟩
  · rintro l m w hn _ ⟨t, ht⟩
    obtain ⟨t', h⟩ := (refTo_ok l m t).2 (by rintro ⟨ls, rfl⟩; exact absurd (parse_ident ht) hn)
    exact ⟨t', parse_reference.2 (.inr ⟨_, ht, h⟩)⟩
  · rintro l m w _ ⟨t, ht⟩
    exact ⟨_, parse_reference.2 (.inl ⟨w, rfl, t, ht, rfl⟩)⟩
  · rintro m w _ ⟨t, ht⟩
    exact ⟨.ptr m t, by rw [parseType, ht]⟩
  · rintro w n _ h1 h2 ⟨t, ht⟩
    exact ⟨.array t n, by rw [parseType, ht]; simp only [parseLen_ok.2 ⟨rfl, h1, h2⟩]⟩
  · exact ⟨.void, by rw [parseType]⟩
  · intro u abi args out _ _ ihA ihO
    have hargs : ∃ ts, parseArgs args = .ok ts := by
      clear ihO
      induction args with
      | nil => exact ⟨[], by rw [parseArgs]⟩
      | cons a as ih =>
        obtain ⟨n, a⟩ := a
        obtain ⟨t, ht⟩ := ihA _ List.mem_cons_self
        obtain ⟨ts, hts⟩ := ih (fun a ha => ‹∀ a ∈ _ :: as, Supported a.2› a (List.mem_cons_of_mem _ ha))
          (fun a ha => ihA a (List.mem_cons_of_mem _ ha))
        exact ⟨t :: ts, by rw [parseArgs, ht]; simp only [hts]⟩
    obtain ⟨ts, hts⟩ := hargs
    have hret : ∃ rt, parseReturn out = .ok rt := by
      cases out with
      | none => exact ⟨(none, false), by rw [parseReturn]⟩
      | some w => exact ihO w rfl
    obtain ⟨⟨r, th⟩, hr⟩ := hret
    exact ⟨.fn u ts r th, by rw [parseType, hts, hr]; simp⟩
  · rintro l m w hn _ ⟨t, ht⟩
    exact ⟨false, l, m, t, parse_reference.2 (.inr ⟨t, ht, refTo_ref l m t
      (by rintro ⟨ls, rfl⟩; exact absurd (parse_ident ht) hn)⟩)⟩
  · rintro w _ ⟨p, l, m, inner, hp⟩
    exact ⟨true, l, m, inner, parse_path.2 ⟨rfl, rfl, rfl, .inr (.inr (.inl ⟨w, p, l, m, inner, rfl, rfl, hp, rfl⟩))⟩⟩
  · rintro w _ ⟨t, ht⟩
    exact return_parsed ht (by rintro arg rfl; exact result_not_type arg t ht)
  · rintro w _ ⟨t, ht⟩
    rw [parseReturn]
    simp only [if_true, ht]
    cases t <;> simp

/-! ### The theorems -/

/-- C64.  The types that can be written in a bridge. -/
theorem type_accepted (w : RTy) : (∃ t, parseType w = .ok t) ↔ Supported w :=
  ⟨fun ⟨t, h⟩ => (accepted_supported w).1.1 t h, supported_accepted⟩

/-- C64.  What the expansion says of an accepted type. -/
theorem type_emitted {w : RTy} {t : Ty} (h : parseType w = .ok t) :
    ∃ d, meaning true w = some d ∧ meaning false (printType t) = some d.erase :=
  (kept w).1.1 t h

/-- C64.  A type without unsafe or foreign function pointers and without nested `Pin`s is emitted as it was written. -/
theorem type_emitted_same_partial {w : RTy} {t : Ty} {d : Den} (h : parseType w = .ok t)
    (hd : meaning true w = some d) (he : d.erase = d) : meaning false (printType t) = some d := by
  obtain ⟨d', h1, h2⟩ := type_emitted h
  rw [hd] at h1; injection h1 with h1; subst h1
  rw [h2, he]

/-- `Pin<&'a mut Vec<String>>` -/
example : ∃ t d, parseType (.path false false [] "Pin" (.angle [.type (.reference (some "a") true
      (.path false false [] "Vec" (.angle [.type (.path false false [] "String" .none)])))])) = .ok t ∧
    meaning false (printType t) = some d ∧
    d = .apply ["cxx", "core", "pin", "Pin"] (.reference (some "a") true
      (.apply ["cxx", "alloc", "vec", "Vec"] (.named ["cxx", "alloc", "string", "String"] []))) := by
  refine ⟨_, _, rfl, rfl, rfl⟩

/-- `fn(&'a [u8; 4]) -> Result<Box<T>>` -/
example : ∃ t d, parseType (.bareFn false false none
      [(none, .reference (some "a") false (.array (.path false false [] "u8" .none) (.int 4)))] false
      (some (.path false false [] "Result" (.angle [.type (.path false false [] "Box"
        (.angle [.type (.path false false [] "T" .none)]))])))) = .ok t ∧
    meaning false (printType t) = some d ∧ d.erase = d := by
  refine ⟨_, _, rfl, rfl, rfl⟩

/-- C64.  `unsafe extern "C" fn(i32)` is accepted and emitted as `fn(i32)`: two different types. -/
theorem unsafe_pointer_changed : ∃ w t d d', parseType w = .ok t ∧ meaning true w = some d ∧
    meaning false (printType t) = some d' ∧
    d = .fn true (some (some "C")) [.named ["i32"] []] .unit ∧ d' = .fn false none [.named ["i32"] []] .unit :=
  ⟨.bareFn false true (some (some "C")) [(none, .path false false [] "i32" .none)] false none, _, _, _,
    rfl, rfl, rfl, rfl, rfl⟩

/-- C64.  `Pin<Pin<&mut T>>` is accepted and emitted as `Pin<&mut T>`. -/
theorem nested_pin_changed : ∃ w t d d', parseType w = .ok t ∧ meaning true w = some d ∧
    meaning false (printType t) = some d' ∧
    d = .apply (knownGeneric "Pin") d' ∧ d' = .apply (knownGeneric "Pin") (.reference none true (.named ["T"] [])) :=
  ⟨.path false false [] "Pin" (.angle [.type (.path false false [] "Pin" (.angle [.type
    (.reference none true (.path false false [] "T" .none))]))]), _, _, _, rfl, rfl, rfl, rfl, rfl⟩

end Verif.Parse
