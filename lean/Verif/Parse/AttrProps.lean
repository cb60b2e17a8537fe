import Verif.Parse.AttrSpec
import Verif.Cfg.Props
/-!
# Attributes: what is accepted, what it means, what is passed on
-/
namespace Verif.Parse
open Verif.Syntax Verif.Cfg

theorem isIdent_iff {a : Attr} {n : Ident} : a.isIdent n = true ↔ Is a n := by
  simp [Attr.isIdent, Is]

theorem isIdent_false {a : Attr} {n : Ident} : a.isIdent n = false ↔ ¬ Is a n := by
  rw [← isIdent_iff]; simp

theorem is_other {a : Attr} {m n : Ident} (h : Is a m) (hn : m ≠ n) : a.isIdent n = false := by
  rw [isIdent_false]; rintro ⟨_, h'⟩; rw [h.2] at h'; simp_all

theorem traitOf_iff {n : Ident} {t : Trait} : traitOf n = some t ↔ (n, t) ∈ Derivable := by
  simp only [Derivable, List.mem_cons, Prod.mk.injEq, List.not_mem_nil, or_false, traitOf]
  grind (splits := 30)

theorem parseRepr_iff {m : Meta} {t : Atom} : parseRepr m = some t ↔ ∃ n, m = .list [.ident n] ∧ (n, t) ∈ Reprs := by
  constructor
  · intro h
    unfold parseRepr at h
    split at h
    · next s =>
      refine ⟨s, rfl, ?_⟩
      have hs : ∀ x, Atom.fromStr s = some x → x ∈ Reprs.map (·.2) → (s, x) ∈ Reprs := by
        intro x hx hm
        rw [Atom.fromStr_eq_some_iff] at hx
        subst hx
        revert hm
        cases x <;> decide
      split at h <;> first | (cases h; done) | (injection h with h; subst h; exact hs _ (by assumption) (by decide))
    · cases h
  · rintro ⟨n, rfl, h⟩
    simp only [Reprs, List.mem_cons, Prod.mk.injEq, List.not_mem_nil, or_false] at h
    rcases h with ⟨rfl, rfl⟩ | ⟨rfl, rfl⟩ | ⟨rfl, rfl⟩ | ⟨rfl, rfl⟩ | ⟨rfl, rfl⟩ | ⟨rfl, rfl⟩ | ⟨rfl, rfl⟩ |
      ⟨rfl, rfl⟩ | ⟨rfl, rfl⟩ | ⟨rfl, rfl⟩ <;> decide +kernel

theorem derivesOf_cons (p ps ts) :
    derivesOf (p :: ps) = (ts, []) ↔
      ∃ n t rest, p = (false, [n]) ∧ (n, t) ∈ Derivable ∧ derivesOf ps = (rest, []) ∧ ts = t :: rest := by
  obtain ⟨leading, path⟩ := p
  rw [derivesOf]
  cases hd : derivesOf ps with
  | mk ts' es' =>
    dsimp only
    constructor
    · intro h
      split at h
      · next n =>
        cases ht : traitOf n with
        | none => rw [ht] at h; simp at h
        | some t =>
          rw [ht] at h; simp at h
          exact ⟨n, t, ts', rfl, traitOf_iff.1 ht, by simp [h.2], h.1.symm⟩
      · simp at h
    · rintro ⟨n, t, rest, hp, ht, h, rfl⟩
      simp at h hp
      obtain ⟨rfl, rfl⟩ := hp
      obtain ⟨rfl, rfl⟩ := h
      simp [traitOf_iff.2 ht]

/-- Once a path is longer than a name, the result has something that is not a name. -/
theorem long_path : ∀ (args : List ArgTok) {leading : Bool} {path : List Ident} {e : Bool} {ps},
    parsePaths leading path e args = some ps → leading = true ∨ (path ≠ [] ∧ e = true) ∨ 2 ≤ path.length →
    ∃ p rest, ps = p :: rest ∧ ¬ ∃ n, p = (false, [n]) := by
  intro args
  induction args with
  | nil =>
    intro leading path e ps h hb
    cases e with
    | true =>
      rw [parsePaths, if_pos rfl] at h
      split at h
      · next hc => rcases hb with hb | hb | hb <;> simp_all
      · cases h
    | false =>
      rw [parsePaths, if_neg (by simp)] at h
      injection h with h
      refine ⟨_, _, h.symm, ?_⟩
      rintro ⟨n, hn⟩
      simp at hn
      rcases hb with hb | hb | hb <;> simp_all
  | cons a args ih =>
    intro leading path e ps h hb
    cases a with
    | ident s =>
      cases e with
      | true =>
        rw [parsePaths, if_pos rfl] at h
        refine ih h ?_
        rcases hb with hb | ⟨hb, _⟩ | hb
        · exact .inl hb
        · right; right; cases path <;> simp_all
        · right; right; simp; omega
      | false => rw [parsePaths, if_neg (by simp)] at h; cases h
    | colon2 =>
      cases e with
      | true =>
        rw [parsePaths, if_pos rfl] at h
        split at h
        · exact ih h (.inl rfl)
        · cases h
      | false =>
        rw [parsePaths, if_neg (by simp)] at h
        refine ih h ?_
        rcases hb with hb | ⟨hb, _⟩ | hb
        · exact .inl hb
        · exact .inr (.inl ⟨hb, rfl⟩)
        · exact .inr (.inr hb)
    | comma =>
      cases e with
      | true => rw [parsePaths, if_pos rfl] at h; cases h
      | false =>
        rw [parsePaths, if_neg (by simp)] at h
        obtain ⟨ps', _, rfl⟩ := Option.map_eq_some_iff.1 h
        refine ⟨_, _, rfl, ?_⟩
        rintro ⟨n, hn⟩
        simp at hn
        rcases hb with hb | hb | hb <;> simp_all
    | other s => rw [parsePaths] at h; cases h

theorem long_path_error {args leading path e ps ts} (h : parsePaths leading path e args = some ps)
    (hb : leading = true ∨ (path ≠ [] ∧ e = true) ∨ 2 ≤ path.length) : derivesOf ps ≠ (ts, []) := by
  obtain ⟨p, rest, rfl, hp⟩ := long_path args h hb
  intro hd
  obtain ⟨n, t, _, h, _⟩ := (derivesOf_cons _ _ _).1 hd
  exact hp ⟨n, h⟩

theorem parseDerive_args : ∀ (k : Nat) (args : List ArgTok), args.length ≤ k → ∀ ts,
    (∃ ps, parsePaths false [] true args = some ps ∧ derivesOf ps = (ts, [])) ↔ TraitList args ts := by
  intro k
  induction k with
  | zero =>
    intro args hk ts
    have : args = [] := List.length_eq_zero_iff.1 (by omega)
    subst this
    simp [parsePaths, derivesOf]
    constructor
    · rintro rfl; exact .nil
    · intro h; cases h; rfl
  | succ k ih =>
    intro args hk ts
    match args, hk with
    | [], _ => exact ih [] (by simp) ts
    | .ident n :: [], _ =>
      simp only [parsePaths, if_pos]
      constructor
      · rintro ⟨ps, h, hd⟩
        simp at h; subst h
        obtain ⟨n', t, rest, hp, ht, hr, rfl⟩ := (derivesOf_cons _ _ _).1 hd
        simp at hp; subst hp
        simp [derivesOf] at hr; subst hr
        exact .last ht
      · intro h
        cases h with
        | last ht => exact ⟨[(false, [n])], by simp, (derivesOf_cons _ _ _).2 ⟨_, _, [], rfl, ht, rfl, rfl⟩⟩
    | .ident n :: .comma :: rest, hk =>
      have hr := ih rest (by simp at hk; omega)
      simp only [parsePaths, if_pos]
      constructor
      · rintro ⟨ps, h, hd⟩
        simp at h
        obtain ⟨ps', h, rfl⟩ := h
        obtain ⟨n', t, ts', hp, ht, hd', rfl⟩ := (derivesOf_cons _ _ _).1 hd
        simp at hp; subst hp
        exact .cons ht ((hr _).1 ⟨_, h, hd'⟩)
      · intro h
        cases h with
        | cons ht h =>
          obtain ⟨ps, h, hd⟩ := (hr _).2 h
          exact ⟨(false, [n]) :: ps, by simp [h], (derivesOf_cons _ _ _).2 ⟨_, _, _, rfl, ht, hd, rfl⟩⟩
    | .ident n :: .ident m :: rest, _ =>
      simp only [parsePaths]; constructor
      · rintro ⟨ps, h, _⟩; simp at h
      · intro h; cases h
    | .ident n :: .other m :: rest, _ =>
      simp only [parsePaths]; constructor
      · rintro ⟨ps, h, _⟩; simp at h
      · intro h; cases h
    | .ident n :: .colon2 :: rest, _ =>
      simp only [parsePaths]; constructor
      · rintro ⟨ps, h, hd⟩; simp at h
        exact absurd hd (long_path_error h (.inr (.inl ⟨by simp, rfl⟩)))
      · intro h; cases h
    | .colon2 :: rest, _ =>
      simp only [parsePaths]; constructor
      · rintro ⟨ps, h, hd⟩; simp at h
        exact absurd hd (long_path_error h (.inl rfl))
      · intro h; cases h
    | .comma :: rest, _ =>
      simp only [parsePaths]; constructor
      · rintro ⟨ps, h, _⟩; simp at h
      · intro h; cases h
    | .other m :: rest, _ =>
      simp only [parsePaths]; constructor
      · rintro ⟨ps, h, _⟩; simp at h
      · intro h; cases h

theorem parseDerive_iff {m : Meta} {ts : List Trait} :
    parseDerive m = some (ts, []) ↔ ∃ args, m = .list args ∧ TraitList args ts := by
  cases m with
  | list args =>
    rw [parseDerive, Option.map_eq_some_iff, parseDerive_args args.length args (Nat.le_refl _)]
    simp
  | path => simp [parseDerive]
  | nameValue v => simp [parseDerive]

/-! ### One attribute -/

theorem is_path {a : Attr} {n : Ident} {x y xs} (h : Is a n) : a.path ≠ x :: y :: xs := by
  intro h'; rw [h.2] at h'; cases h'

/-- Every attribute has one of the known names or none of them. -/
theorem names (a : Attr) : (∃ n, Is a n ∧ n ∈ ["doc", "derive", "repr", "namespace", "cxx_name", "rust_name", "cfg",
      "allow", "warn", "deny", "forbid", "deprecated", "must_use", "serde"]) ∨
    ∀ n ∈ ["doc", "derive", "repr", "namespace", "cxx_name", "rust_name", "cfg",
      "allow", "warn", "deny", "forbid", "deprecated", "must_use", "serde"], a.isIdent n = false := by
  by_cases h : ∃ n ∈ ["doc", "derive", "repr", "namespace", "cxx_name", "rust_name", "cfg",
      "allow", "warn", "deny", "forbid", "deprecated", "must_use", "serde"], Is a n
  · obtain ⟨n, h1, h2⟩ := h; exact .inl ⟨n, h2, h1⟩
  · right; intro n hn; rw [isIdent_false]; intro h'; exact h ⟨n, hn, h'⟩

section
variable {r : Readers} {w : Wants} {f : Found} {a : Attr}

theorem step_doc (h : Is a "doc") : step r w f a =
    match parseDoc a.content with
    | some d =>
      if w.doc then
        match d with
        | .doc s => .next { f with doc := f.doc ++ [s] } false []
        | .hidden => .next { f with hidden := true } false []
      else .fallThrough []
    | none => .stop (.malformed a) := by
  rw [step, if_pos (isIdent_iff.2 h)]
  rfl

theorem step_derive (h : Is a "derive") : step r w f a =
    match parseDerive a.content with
    | some (ts, es) => if w.derives then .next { f with derives := f.derives ++ ts } false es else .fallThrough es
    | none => .stop (.malformed a) := by
  rw [step, is_other h (by decide), isIdent_iff.2 h]; rfl

theorem step_repr (h : Is a "repr") : step r w f a =
    match parseRepr a.content with
    | some atom => if w.repr then .next { f with repr := some atom } false [] else .fallThrough []
    | none => .stop (.malformed a) := by
  rw [step, is_other h (by decide), is_other h (by decide), isIdent_iff.2 h]; rfl

theorem step_namespace (h : Is a "namespace") : step r w f a =
    match r.readNamespace a.content with
    | some ns => if w.namespace then .next { f with «namespace» := ns } false [] else .fallThrough []
    | none => .stop (.malformed a) := by
  rw [step, is_other h (by decide), is_other h (by decide), is_other h (by decide), isIdent_iff.2 h]; rfl

theorem step_cxxName (h : Is a "cxx_name") : step r w f a =
    match parseCxxName r a.content with
    | some n => if w.cxxName then .next { f with cxxName := some n } false [] else .fallThrough []
    | none => .stop (.malformed a) := by
  rw [step, is_other h (by decide), is_other h (by decide), is_other h (by decide), is_other h (by decide),
    isIdent_iff.2 h]; rfl

theorem step_rustName (h : Is a "rust_name") : step r w f a =
    match parseRustName r a.content with
    | some n => if w.rustName then .next { f with rustName := some n } false [] else .fallThrough []
    | none => .stop (.malformed a) := by
  rw [step, is_other h (by decide), is_other h (by decide), is_other h (by decide), is_other h (by decide),
    is_other h (by decide), isIdent_iff.2 h]; rfl

theorem step_cfg (h : Is a "cfg") : step r w f a =
    match r.readCfg a.content with
    | some e => if w.cfg then .next { f with cfg := f.cfg.merge e } true [] else .fallThrough []
    | none => .stop (.malformed a) := by
  rw [step, is_other h (by decide), is_other h (by decide), is_other h (by decide), is_other h (by decide),
    is_other h (by decide), is_other h (by decide), isIdent_iff.2 h]; rfl

theorem step_rest (h : ∀ n ∈ ["doc", "derive", "repr", "namespace", "cxx_name", "rust_name", "cfg"], a.isIdent n = false) :
    step r w f a =
      if a.isIdent "allow" || a.isIdent "warn" || a.isIdent "deny" || a.isIdent "forbid" || a.isIdent "deprecated" ||
          a.isIdent "must_use" then .next f true []
      else if a.isIdent "serde" then .next f true []
      else
        match a.path with
        | tool :: _ :: _ =>
          if tool = "rustfmt" then .next f false []
          else if tool = "clippy" then .next f true []
          else .fallThrough []
        | _ => .fallThrough [] := by
  rw [step, h "doc" (by simp), h "derive" (by simp), h "repr" (by simp), h "namespace" (by simp), h "cxx_name" (by simp),
    h "rust_name" (by simp), h "cfg" (by simp)]
  simp only [Bool.false_eq_true, if_false]
  rfl

theorem says_step {wanted change} (h : Says r a wanted change) :
    step r w f a = if wanted w then .next (change f) false [] else .fallThrough [] := by
  cases h with
  | doc h hc => rw [step_doc h, hc]; rfl
  | hidden h hc => rw [step_doc h, hc]; rfl
  | derive h hc ht => rw [step_derive h, parseDerive_iff.2 ⟨_, hc, ht⟩]
  | repr h hc ht => rw [step_repr h, parseRepr_iff.2 ⟨_, hc, ht⟩]
  | ns h hc => rw [step_namespace h, hc]
  | cxxStr h hc hn => rw [step_cxxName h, hc, parseCxxName, hn]
  | cxxIdent h hc hn => rw [step_cxxName h, hc, parseCxxName, hn]
  | rustStr h hc hn => rw [step_rustName h, hc, parseRustName, hn]
  | rustIdent h hc => rw [step_rustName h, hc, parseRustName]

theorem not_reserved (h : ¬ Reserved a) :
    ∀ n ∈ ["doc", "derive", "repr", "namespace", "cxx_name", "rust_name", "cfg"], a.isIdent n = false := by
  intro n hn; rw [isIdent_false]; intro h'; exact h ⟨n, hn, h'⟩

theorem rust_not_reserved (h : ForRust a) : ¬ Reserved a := by
  rintro ⟨n, hn, h1⟩
  rcases h with ⟨m, hm, h2⟩ | ⟨x, xs, h2⟩
  · have : n = m := by have := h1.2; rw [h2.2] at this; simpa using this.symm
    subst this
    simp only [List.mem_cons, List.not_mem_nil, or_false] at hn
    rcases hn with rfl | rfl | rfl | rfl | rfl | rfl | rfl <;> revert hm <;> decide
  · exact is_path h1 h2

theorem rustfmt_not_reserved (h : ForRustfmt a) : ¬ Reserved a := by
  rintro ⟨n, hn, h1⟩
  obtain ⟨x, xs, h2⟩ := h
  exact is_path h1 h2

theorem rust_step (h : ForRust a) : step r w f a = .next f true [] := by
  rw [step_rest (not_reserved (rust_not_reserved h))]
  rcases h with ⟨m, hm, h2⟩ | ⟨x, xs, h2⟩
  · have := isIdent_iff.2 h2
    simp only [List.mem_cons, List.not_mem_nil, or_false] at hm
    rcases hm with rfl | rfl | rfl | rfl | rfl | rfl | rfl <;> simp [this]
  · have : ∀ n, a.isIdent n = false := by
      intro n; rw [isIdent_false]; intro h; exact is_path h h2
    simp [this, h2]

theorem rustfmt_step (h : ForRustfmt a) : step r w f a = .next f false [] := by
  rw [step_rest (not_reserved (rustfmt_not_reserved h))]
  obtain ⟨x, xs, h2⟩ := h
  have : ∀ n, a.isIdent n = false := by
    intro n; rw [isIdent_false]; intro h; exact is_path h h2
  simp [this, h2]

theorem other_step (h : ¬ Reserved a) (h1 : ¬ ForRust a) (h2 : ¬ ForRustfmt a) : step r w f a = .fallThrough [] := by
  rw [step_rest (not_reserved h)]
  have hn : ∀ n ∈ ["allow", "warn", "deny", "forbid", "deprecated", "must_use", "serde"], a.isIdent n = false := by
    intro n hn; rw [isIdent_false]; intro h'; exact h1 (.inl ⟨n, hn, h'⟩)
  rw [hn "allow" (by simp), hn "warn" (by simp), hn "deny" (by simp), hn "forbid" (by simp), hn "deprecated" (by simp),
    hn "must_use" (by simp), hn "serde" (by simp)]
  simp only [Bool.or_false, Bool.false_eq_true, if_false]
  split
  · next tool x xs hp =>
    rw [if_neg, if_neg]
    · rintro rfl; exact h1 (.inr ⟨_, _, hp⟩)
    · rintro rfl; exact h2 ⟨_, _, hp⟩
  · rfl

/-- What one attribute can be. -/
theorem classified (r : Readers) (w : Wants) (f : Found) (a : Attr) :
    (∃ wanted change, Says r a wanted change) ∨ (∃ e, IsCfg r a e) ∨ ForRust a ∨ ForRustfmt a ∨
    (¬ Reserved a ∧ ¬ ForRust a ∧ ¬ ForRustfmt a) ∨
    (∃ e, step r w f a = .stop e) ∨ (∃ f' p es, es ≠ [] ∧ step r w f a = .next f' p es) ∨
    ∃ es, es ≠ [] ∧ step r w f a = .fallThrough es := by
  by_cases hr : Reserved a
  · obtain ⟨n, hn, h⟩ := hr
    simp only [List.mem_cons, List.not_mem_nil, or_false] at hn
    rcases hn with rfl | rfl | rfl | rfl | rfl | rfl | rfl
    · rw [step_doc h]
      cases hc : parseDoc a.content with
      | none => simp
      | some d =>
        left
        unfold parseDoc at hc
        split at hc
        · next hm => exact ⟨_, _, .doc h hm⟩
        · next s hm =>
          split at hc
          · next hs => subst hs; exact ⟨_, _, .hidden h hm⟩
          · cases hc
        · cases hc
    · rw [step_derive h]
      cases hc : parseDerive a.content with
      | none => simp
      | some p =>
        obtain ⟨ts, es⟩ := p
        cases es with
        | nil =>
          left
          obtain ⟨args, hm, ht⟩ := parseDerive_iff.1 hc
          exact ⟨_, _, .derive h hm ht⟩
        | cons e es =>
          right; right; right; right; right; right
          cases w.derives <;> simp
    · rw [step_repr h]
      cases hc : parseRepr a.content with
      | none => simp
      | some t =>
        left
        obtain ⟨n, hm, ht⟩ := parseRepr_iff.1 hc
        exact ⟨_, _, .repr h hm ht⟩
    · rw [step_namespace h]
      cases hc : r.readNamespace a.content with
      | none => simp
      | some t => exact .inl ⟨_, _, .ns h hc⟩
    · rw [step_cxxName h]
      cases hc : parseCxxName r a.content with
      | none => simp
      | some t =>
        left
        unfold parseCxxName at hc
        split at hc
        · next hm => exact ⟨_, _, .cxxStr h hm hc⟩
        · next hm => exact ⟨_, _, .cxxIdent h hm hc⟩
        · cases hc
    · rw [step_rustName h]
      cases hc : parseRustName r a.content with
      | none => simp
      | some t =>
        left
        unfold parseRustName at hc
        split at hc
        · next hm => exact ⟨_, _, .rustStr h hm hc⟩
        · next hm => exact ⟨_, _, .rustIdent h hm⟩
        · cases hc
    · rw [step_cfg h]
      cases hc : r.readCfg a.content with
      | none => simp
      | some e => exact .inr (.inl ⟨e, h, hc⟩)
  · by_cases h1 : ForRust a
    · exact .inr (.inr (.inl h1))
    · by_cases h2 : ForRustfmt a
      · exact .inr (.inr (.inr (.inl h2)))
      · exact .inr (.inr (.inr (.inr (.inl ⟨hr, h1, h2⟩))))

end

/-! ### All attributes -/

def mergeAll (c : CfgExpr) : List CfgExpr → CfgExpr
  | [] => c
  | e :: es => mergeAll (c.merge e) es

theorem says_cfg {r a wanted change} (h : Says r a wanted change) (f : Found) (c : CfgExpr) :
    change { f with cfg := c } = { change f with cfg := c } := by
  cases h <;> rfl

theorem says_keeps_cfg {r a wanted change} (h : Says r a wanted change) (f : Found) : (change f).cfg = f.cfg := by
  cases h <;> rfl

theorem reads_cfg {r w f attrs es f' others} (h : Reads r w f attrs es f' others) : f'.cfg = f.cfg := by
  induction h with
  | says h _ _ ih => rw [ih, says_keeps_cfg h]
  | _ => first | rfl | assumption

theorem stray_step {r w f a} (h : Stray r w a) : step r w f a = .fallThrough [] := by
  rcases h with ⟨wanted, change, h, hn⟩ | ⟨e, h, hn⟩ | ⟨h, h1, h2⟩
  · rw [says_step h, hn]; rfl
  · rw [step_cfg h.1, h.2]; simp [hn]
  · exact other_step h h1 h2

theorem read_of {r w f attrs es f' others} (h : Reads r w f attrs es f' others) : ∀ c,
    parseAttrs r w { f with cfg := c } attrs = ([], { f' with cfg := mergeAll c es }, others) := by
  induction h with
  | nil => intro c; rfl
  | says h hw _ ih => intro c; rw [parseAttrs, says_step h, if_pos hw, says_cfg h]; simp [ih]
  | cfg h hw _ ih =>
    intro c
    rw [parseAttrs, step_cfg h.1, h.2]
    simp [hw, ih, mergeAll]
  | forRust h _ ih => intro c; rw [parseAttrs, rust_step h]; simp [ih]
  | forRustfmt h _ ih => intro c; rw [parseAttrs, rustfmt_step h]; simp [ih]
  | stray hw h _ ih =>
    intro c
    rw [parseAttrs, stray_step h]; simp [hw, ih]

theorem reads_of {r w} : ∀ (attrs : List Attr) {f f' others}, parseAttrs r w f attrs = ([], f', others) →
    ∀ c, ∃ es g, Reads r w { f with cfg := c } attrs es g others := by
  intro attrs
  induction attrs with
  | nil => intro f f' others h c; simp [parseAttrs] at h; rw [h.2]; exact ⟨_, _, .nil⟩
  | cons a rest ih =>
    intro f f' others h c
    have hnext : ∀ f1 p es, step r w f a = .next f1 p es → es = [] ∧ ∃ os, parseAttrs r w f1 rest = ([], f', os) ∧
        others = if p then a :: os else os := by
      intro f1 p es hs
      rw [parseAttrs, hs] at h
      dsimp only at h
      cases hp : parseAttrs r w f1 rest with
      | mk es' q =>
        rw [hp] at h; simp at h
        refine ⟨h.1.1, q.2, ?_, h.2.2.symm⟩
        rw [h.1.2]; simp [← h.2.1]
    have hfall : ∀ es, step r w f a = .fallThrough es → es = [] ∧ w.ignoreUnrecognized = true ∧
        parseAttrs r w f rest = ([], f', others) := by
      intro es hs
      rw [parseAttrs, hs] at h
      cases hw : w.ignoreUnrecognized with
      | false => simp [hw] at h
      | true =>
        cases hp : parseAttrs r w f rest with
        | mk es' q =>
          rw [hp] at h; simp [hw] at h
          refine ⟨h.1.1, rfl, ?_⟩
          rw [h.1.2]; simp [← h.2.1, ← h.2.2]
    rcases classified r w f a with ⟨wanted, change, hs⟩ | ⟨e, hs⟩ | hs | hs | hs | ⟨e, hs⟩ | ⟨f1, p, es, hn, hs⟩ | ⟨es, hn, hs⟩
    · cases hw : wanted w with
      | true =>
        obtain ⟨-, os, h1, rfl⟩ := hnext _ _ _ (by rw [says_step hs, if_pos hw])
        obtain ⟨es, g, h2⟩ := ih h1 c
        rw [← says_cfg hs] at h2
        exact ⟨_, _, .says hs hw h2⟩
      | false =>
        obtain ⟨-, hi, h1⟩ := hfall _ (by rw [says_step hs, if_neg (by simp [hw])])
        obtain ⟨es, g, h2⟩ := ih h1 c
        exact ⟨_, _, .stray hi (.inl ⟨_, _, hs, hw⟩) h2⟩
    · cases hw : w.cfg with
      | true =>
        obtain ⟨-, os, h1, rfl⟩ := hnext { f with cfg := f.cfg.merge e } true [] (by rw [step_cfg hs.1, hs.2]; simp [hw])
        obtain ⟨es, g, h2⟩ := ih h1 c
        exact ⟨_, _, .cfg hs hw h2⟩
      | false =>
        obtain ⟨-, hi, h1⟩ := hfall [] (by rw [step_cfg hs.1, hs.2]; simp [hw])
        obtain ⟨es, g, h2⟩ := ih h1 c
        exact ⟨_, _, .stray hi (.inr (.inl ⟨_, hs, hw⟩)) h2⟩
    · obtain ⟨-, os, h1, rfl⟩ := hnext _ _ _ (rust_step hs)
      obtain ⟨es, g, h2⟩ := ih h1 c
      exact ⟨_, _, .forRust hs h2⟩
    · obtain ⟨-, os, h1, rfl⟩ := hnext _ _ _ (rustfmt_step hs)
      obtain ⟨es, g, h2⟩ := ih h1 c
      exact ⟨_, _, .forRustfmt hs h2⟩
    · obtain ⟨-, hi, h1⟩ := hfall _ (other_step hs.1 hs.2.1 hs.2.2)
      obtain ⟨es, g, h2⟩ := ih h1 c
      exact ⟨_, _, .stray hi (.inr (.inr hs)) h2⟩
    · rw [parseAttrs, hs] at h; simp at h
    · exact absurd (hnext _ _ _ hs).1 hn
    · exact absurd (hfall _ hs).1 hn

theorem possible_exists (σ : Evaluator) (e : CfgExpr) : ∃ b, Possible σ e b := means_possible (tryEval_means σ e)

theorem mergeAll_true (σ : Evaluator) : ∀ (es : List CfgExpr) (c : CfgExpr),
    Possible σ (mergeAll c es) true ↔ Possible σ c true ∧ ∀ e ∈ es, Possible σ e true
  | [], c => by simp [mergeAll]
  | e :: es, c => by
    rw [mergeAll, mergeAll_true σ es, merge_exact]
    constructor
    · rintro ⟨⟨x, y, hx, hy, h⟩, h'⟩
      cases x <;> cases y <;> simp at h
      exact ⟨hx, by simpa using ⟨hy, h'⟩⟩
    · rintro ⟨h, h'⟩
      simp at h'
      exact ⟨⟨true, true, h, h'.1, rfl⟩, h'.2⟩

theorem mergeAll_false (σ : Evaluator) : ∀ (es : List CfgExpr) (c : CfgExpr),
    Possible σ (mergeAll c es) false ↔ Possible σ c false ∨ ∃ e ∈ es, Possible σ e false
  | [], c => by simp [mergeAll]
  | e :: es, c => by
    rw [mergeAll, mergeAll_false σ es, merge_exact]
    obtain ⟨b, hb⟩ := possible_exists σ c
    obtain ⟨b', hb'⟩ := possible_exists σ e
    constructor
    · rintro (⟨x, y, hx, hy, h⟩ | ⟨e', he, h⟩)
      · cases x
        · exact .inl hx
        · cases y
          · exact .inr ⟨e, by simp, hy⟩
          · simp at h
      · exact .inr ⟨e', by simp [he], h⟩
    · rintro (h | ⟨e', he, h⟩)
      · exact .inl ⟨false, b', h, hb', by simp⟩
      · simp at he
        rcases he with rfl | he
        · exact .inl ⟨b, false, hb, h, by simp⟩
        · exact .inr ⟨e', he, h⟩

/-! ### The theorems -/

/-- C65.  Attributes are accepted exactly if each of them is well-formed and in its place. -/
theorem attributes_accepted (r : Readers) (w : Wants) (f : Found) (attrs : List Attr) :
    (parseAttrs r w f attrs).1 = [] ↔ ∃ conditions f' others, Reads r w f attrs conditions f' others := by
  constructor
  · intro h
    have := reads_of (r := r) (w := w) attrs (f := f) (f' := (parseAttrs r w f attrs).2.1)
      (others := (parseAttrs r w f attrs).2.2) (by rw [← h]) f.cfg
    obtain ⟨es, g, h⟩ := this
    exact ⟨es, g, _, h⟩
  · rintro ⟨es, g, others, h⟩
    have := read_of h f.cfg
    rw [show parseAttrs r w f attrs = _ from this]

/-- C65.  If they are, then they mean what they say, the conditions all have to hold, and rustc sees exactly the
conditions and what is for Rust, in order. -/
theorem attributes_read {r : Readers} {w : Wants} {f f' : Found} {attrs others : List Attr} {conditions : List CfgExpr}
    (h : Reads r w f attrs conditions f' others) :
    ∃ c, parseAttrs r w f attrs = ([], { f' with cfg := c }, others) ∧
      (∀ σ, Possible σ c true ↔ Possible σ f.cfg true ∧ ∀ e ∈ conditions, Possible σ e true) ∧
      ∀ σ, Possible σ c false ↔ Possible σ f.cfg false ∨ ∃ e ∈ conditions, Possible σ e false :=
  ⟨mergeAll f.cfg conditions, read_of h f.cfg, fun σ => mergeAll_true σ _ _, fun σ => mergeAll_false σ _ _⟩

/-- `#[doc = "text"] #[derive(Clone, Hash)] #[cfg(unix)] #[cxx_name = "T"] #[allow(dead_code)] #[rustfmt::skip]` on a
struct -/
example : ∃ (r : Readers) (w : Wants) (f f' : Found) (conditions : List CfgExpr) (others : List Attr),
    Reads r w f [⟨false, ["doc"], .nameValue (.str "text")⟩,
      ⟨false, ["derive"], .list [.ident "Clone", .comma, .ident "Hash"]⟩,
      ⟨false, ["cfg"], .list [.ident "unix"]⟩, ⟨false, ["cxx_name"], .nameValue (.str "T")⟩,
      ⟨false, ["allow"], .list [.ident "dead_code"]⟩, ⟨false, ["rustfmt", "skip"], .path⟩] conditions f' others ∧
    f.cxxName = none ∧ f'.cxxName = some "T" ∧ f'.derives = [.clone, .hash] ∧ f'.doc = ["text"] ∧
    conditions = [.eq "unix" none] ∧
    others = [⟨false, ["cfg"], .list [.ident "unix"]⟩, ⟨false, ["allow"], .list [.ident "dead_code"]⟩] :=
  ⟨⟨fun _ => none, fun m => if m = .list [.ident "unix"] then some (.eq "unix" none) else none, some, some⟩,
    { cfg := true, doc := true, derives := true, cxxName := true },
    ⟨.unconditional, [], false, [], none, [], none, none⟩,
    _, _, _,
    .says (.doc ⟨rfl, rfl⟩ rfl) rfl <|
    .says (.derive ⟨rfl, rfl⟩ rfl (.cons (by decide : ("Clone", Trait.clone) ∈ Derivable)
      (.last (by decide : ("Hash", Trait.hash) ∈ Derivable)))) rfl <|
    .cfg ⟨⟨rfl, rfl⟩, by simp⟩ rfl <|
    .says (.cxxStr ⟨rfl, rfl⟩ rfl rfl) rfl <|
    .forRust (.inl ⟨"allow", by decide, rfl, rfl⟩) <|
    .forRustfmt ⟨_, _, rfl⟩ .nil, rfl, rfl, rfl, rfl, rfl, rfl⟩

/-- `#[repr(transparent)]` is not accepted anywhere. -/
example (r : Readers) (w : Wants) (f : Found) (rest : List Attr) :
    (parseAttrs r w f (⟨false, ["repr"], .list [.ident "transparent"]⟩ :: rest)).1 ≠ [] := by
  rw [parseAttrs, step_repr ⟨rfl, rfl⟩]
  have : parseRepr (.list [.ident "transparent"]) = none := by decide +kernel
  simp [this]

/-- C65.  A name given twice is not an error: the last one counts. -/
theorem last_name_counts (r : Readers) (w : Wants) (f : Found) (s t m n : String) (hw : w.cxxName = true)
    (hs : r.foreignName s = some m) (ht : r.foreignName t = some n) :
    parseAttrs r w f [⟨false, ["cxx_name"], .nameValue (.str s)⟩, ⟨false, ["cxx_name"], .nameValue (.str t)⟩] =
      ([], { f with cxxName := some n }, []) := by
  simp [parseAttrs, says_step (Says.cxxStr (r := r) (a := ⟨false, ["cxx_name"], .nameValue (.str s)⟩) ⟨rfl, rfl⟩ rfl hs),
    says_step (Says.cxxStr (r := r) (a := ⟨false, ["cxx_name"], .nameValue (.str t)⟩) ⟨rfl, rfl⟩ rfl ht), hw]

end Verif.Parse
