import Verif.Qualified.Spec
/-!
# Qualified names and type ids
-/
namespace Verif.Qualified
open Verif.Syntax

/-! ### C47: parsing -/

/-- The input does not go on with `::`. -/
def Stops : List Tok → Prop
  | .colons :: _ => False
  | _ => True

theorem segments_exact (rawOk : Bool) : ∀ (ts : List Tok) (ns : List Ident) (rest : List Tok),
    segments rawOk ts = .ok (ns, false, rest) ↔ ∃ p, ts = p ++ rest ∧ Path rawOk p ns ∧ Stops rest
  | [], ns, rest => by
    simp only [segments]
    constructor
    · intro h; cases h
    · rintro ⟨p, hp, hpath, _⟩
      cases hpath <;> simp at hp
  | .ident raw name :: ts, ns, rest => by
    unfold segments
    by_cases hr : (raw && !rawOk) = true
    · rw [if_pos hr]
      constructor
      · intro h; cases h
      · rintro ⟨p, hp, hpath, _⟩
        simp only [Bool.and_eq_true, Bool.not_eq_true'] at hr
        cases hpath with
        | last r n h => injection hp with h1 _; injection h1 with h1 _; subst h1; simp [hr.1, hr.2] at h
        | cons r n h _ => injection hp with h1 _; injection h1 with h1 _; subst h1; simp [hr.1, hr.2] at h
    · rw [if_neg hr]
      have hraw : raw = true → rawOk = true := by
        intro h; cases rawOk <;> simp [h] at hr ⊢
      match ts with
      | .colons :: ts =>
        simp only
        constructor
        · intro h
          cases hs : segments rawOk ts with
          | error e => rw [hs] at h; cases h
          | ok x =>
            obtain ⟨segs, trailing, rest'⟩ := x
            rw [hs] at h
            simp only [Except.ok.injEq, Prod.mk.injEq] at h
            obtain ⟨rfl, rfl, rfl⟩ := h
            obtain ⟨p, rfl, hp, hst⟩ := (segments_exact rawOk ts segs rest').1 hs
            exact ⟨.ident raw name :: .colons :: p, rfl, .cons raw name hraw hp, hst⟩
        · rintro ⟨p, hp, hpath, hst⟩
          cases hpath with
          | last r n h =>
            simp only [List.cons_append, List.nil_append, List.cons.injEq] at hp
            rw [← hp.2] at hst; exact hst.elim
          | cons r n h hpath =>
            simp only [List.cons_append, List.cons.injEq, Tok.ident.injEq, true_and] at hp
            obtain ⟨⟨rfl, rfl⟩, rfl⟩ := hp
            rw [(segments_exact rawOk _ _ _).2 ⟨_, rfl, hpath, hst⟩]
      | [] =>
        constructor
        · intro h; cases h; exact ⟨[.ident raw name], rfl, .last raw name hraw, trivial⟩
        · rintro ⟨p, hp, hpath, hst⟩
          cases hpath with
          | last r n h => simp at hp; obtain ⟨⟨rfl, rfl⟩, rfl⟩ := hp; rfl
          | cons r n h hpath => simp at hp
      | .ident r n :: ts =>
        constructor
        · intro h; cases h; exact ⟨[.ident raw name], rfl, .last raw name hraw, trivial⟩
        · rintro ⟨p, hp, hpath, hst⟩
          cases hpath with
          | last r n h => simp at hp; obtain ⟨⟨rfl, rfl⟩, rfl⟩ := hp; rfl
          | cons r n h hpath => simp at hp
      | .eq :: ts =>
        constructor
        · intro h; cases h; exact ⟨[.ident raw name], rfl, .last raw name hraw, trivial⟩
        · rintro ⟨p, hp, hpath, hst⟩
          cases hpath with
          | last r n h => simp at hp; obtain ⟨⟨rfl, rfl⟩, rfl⟩ := hp; rfl
          | cons r n h hpath => simp at hp
      | .comma :: ts =>
        constructor
        · intro h; cases h; exact ⟨[.ident raw name], rfl, .last raw name hraw, trivial⟩
        · rintro ⟨p, hp, hpath, hst⟩
          cases hpath with
          | last r n h => simp at hp; obtain ⟨⟨rfl, rfl⟩, rfl⟩ := hp; rfl
          | cons r n h hpath => simp at hp
      | .lit e i :: ts =>
        constructor
        · intro h; cases h; exact ⟨[.ident raw name], rfl, .last raw name hraw, trivial⟩
        · rintro ⟨p, hp, hpath, hst⟩
          cases hpath with
          | last r n h => simp at hp; obtain ⟨⟨rfl, rfl⟩, rfl⟩ := hp; rfl
          | cons r n h hpath => simp at hp
      | .other :: ts =>
        constructor
        · intro h; cases h; exact ⟨[.ident raw name], rfl, .last raw name hraw, trivial⟩
        · rintro ⟨p, hp, hpath, hst⟩
          cases hpath with
          | last r n h => simp at hp; obtain ⟨⟨rfl, rfl⟩, rfl⟩ := hp; rfl
          | cons r n h hpath => simp at hp
  | .colons :: ts, ns, rest | .eq :: ts, ns, rest | .comma :: ts, ns, rest | .lit _ _ :: ts, ns, rest
  | .other :: ts, ns, rest => by
    unfold segments
    constructor
    · intro h; cases h
    · rintro ⟨p, hp, hpath, _⟩
      cases hpath <;> simp at hp

theorem path_ne_nil {rawOk : Bool} {ts : List Tok} {ns : List Ident} (h : Path rawOk ts ns) : ns ≠ [] := by
  cases h <;> simp

theorem path_head {rawOk : Bool} {ts : List Tok} {ns : List Ident} (h : Path rawOk ts ns) :
    ∃ raw n t, ts = .ident raw n :: t := by
  cases h with
  | last r n _ => exact ⟨r, n, _, rfl⟩
  | cons r n _ _ => exact ⟨r, n, _, rfl⟩

/-- **C47**: an unquoted qualified name is accepted exactly when the input starts with a written path that does
not go on with `::`, and denotes the names in it. -/
theorem unquoted_exact (rawOk : Bool) (ts : List Tok) (ns : List Ident) (rest : List Tok) :
    parseUnquoted rawOk ts = .ok (ns, rest) ↔ ∃ p, ts = p ++ rest ∧ Written rawOk p ns ∧ Stops rest := by
  have core : ∀ (b : Bool) (ts : List Tok), (match segments rawOk ts with
      | .error e => .error e
      | .ok (segs, trailing, rest) =>
        if segs.isEmpty && !b then .error .expectedPath
        else if trailing then .error .expectedSegment
        else .ok (segs, rest) : Except Err (List Ident × List Tok)) = .ok (ns, rest) ↔
      ∃ p, ts = p ++ rest ∧ Path rawOk p ns ∧ Stops rest := by
    intro b ts
    rw [← segments_exact]
    cases hs : segments rawOk ts with
    | error e => simp
    | ok x =>
      obtain ⟨segs, trailing, rest'⟩ := x
      have hne : trailing = false → segs ≠ [] := by
        rintro rfl
        obtain ⟨p, _, hp, _⟩ := (segments_exact rawOk ts segs rest').1 hs
        exact path_ne_nil hp
      cases trailing
      · have := hne rfl
        simp [List.isEmpty_iff, this]
      · simp only [Except.ok.injEq, Prod.mk.injEq, Bool.true_eq_false, false_and, and_false, iff_false]
        intro h
        split at h
        · cases h
        · simp at h
  have plain : ∀ ts, leading ts = (false, ts) → (∀ p, ts ≠ .colons :: p) →
      (parseUnquoted rawOk ts = .ok (ns, rest) ↔ ∃ p, ts = p ++ rest ∧ Written rawOk p ns ∧ Stops rest) := by
    intro ts hl hne
    unfold parseUnquoted
    rw [hl]
    refine (core false ts).trans ⟨?_, ?_⟩
    · rintro ⟨p, h1, h2, h3⟩; exact ⟨p, h1, .inl h2, h3⟩
    · rintro ⟨p, h1, h2 | ⟨p', rfl, h2⟩, h3⟩
      · exact ⟨p, h1, h2, h3⟩
      · exact absurd h1 (hne _)
  cases ts with
  | nil => exact plain [] rfl (by simp)
  | cons t ts =>
    cases t with
    | colons =>
      unfold parseUnquoted
      refine (core true ts).trans ⟨?_, ?_⟩
      · rintro ⟨p, rfl, h2, h3⟩; exact ⟨.colons :: p, rfl, .inr ⟨p, rfl, h2⟩, h3⟩
      · rintro ⟨p, h1, h2 | ⟨p', rfl, h2⟩, h3⟩
        · obtain ⟨raw, n, t, rfl⟩ := path_head h2; simp at h1
        · simp at h1; exact ⟨p', h1, h2, h3⟩
    | _ => exact plain _ rfl (by simp)

/-- **C47**: a quoted qualified name denotes the path written in the literal. -/
theorem quoted_exact (e : Bool) (i : Option (List Tok)) (ns : List Ident) :
    parseQuoted e i = .ok ns ↔ Quoted e i ns := by
  unfold parseQuoted
  cases e with
  | true =>
    simp only [if_true, Except.ok.injEq]
    constructor
    · rintro rfl; exact .empty i
    · intro h; cases h; rfl
  | false =>
    simp only [Bool.false_eq_true, if_false]
    cases i with
    | none => exact ⟨nofun, nofun⟩
    | some ts =>
      simp only
      have hw : Quoted false (some ts) ns ↔ parseUnquoted false ts = .ok (ns, []) := by
        rw [unquoted_exact]
        constructor
        · intro h; cases h with
          | path h => exact ⟨ts, by simp, h, trivial⟩
        · rintro ⟨p, hp, h, _⟩
          simp at hp; subst hp; exact .path h
      rw [hw]
      cases hp : parseUnquoted false ts with
      | error e => simp
      | ok x =>
        obtain ⟨segs, rest⟩ := x
        cases rest <;> simp

theorem stops_of_comma {c : List Tok} (h : c = [] ∨ c = [.comma]) : Stops c := by
  rcases h with rfl | rfl <;> trivial

/-- **C47**, the namespace of the bridge. -/
theorem bridge_args_exact (ts : List Tok) (ns : Namespace) : parseBridgeAttr ts = .ok ns ↔ BridgeArgs ts ns := by
  have finish : ∀ (x : Except Err (List Ident × List Tok)),
      (match x with
        | .ok (segs, []) => .ok segs
        | .ok (segs, [.comma]) => .ok segs
        | .ok _ => .error .expected
        | .error e => .error e : Except Err Namespace) = .ok ns ↔ ∃ c, x = .ok (ns, c) ∧ (c = [] ∨ c = [.comma]) := by
    intro x
    split
    · simp only [Except.ok.injEq, Prod.mk.injEq]
      exact ⟨fun h => ⟨[], ⟨h, rfl⟩, .inl rfl⟩, fun ⟨_, h, _⟩ => h.1⟩
    · simp only [Except.ok.injEq, Prod.mk.injEq]
      exact ⟨fun h => ⟨_, ⟨h, rfl⟩, .inr rfl⟩, fun ⟨_, h, _⟩ => h.1⟩
    · next h1 h2 =>
      refine ⟨nofun, ?_⟩
      rintro ⟨c, hx, rfl | rfl⟩
      · injection hx with hx; exact (h1 _ hx).elim
      · injection hx with hx; exact (h2 _ hx).elim
    · exact ⟨nofun, fun ⟨_, h, _⟩ => nomatch h⟩
  constructor
  · intro h
    unfold parseBridgeAttr at h
    split at h
    · cases h; exact .none
    · next rest =>
      obtain ⟨c, hx, hc⟩ := (finish _).1 h
      unfold parseQuotedOrUnquoted at hx
      split at hx
      · next e i rest =>
        split at hx
        · next segs hq =>
          cases hx
          exact .quoted ((quoted_exact e i _).1 hq) _ hc
        · cases hx
      · obtain ⟨p, rfl, hw, _⟩ := (unquoted_exact true _ _ _).1 hx
        exact .unquoted hw c hc
    · cases h
  · intro h
    cases h with
    | none => rfl
    | quoted h c hc =>
      unfold parseBridgeAttr
      exact (finish _).2 ⟨c, by simp [parseQuotedOrUnquoted, (quoted_exact _ _ _).2 h], hc⟩
    | @unquoted p ns h c hc =>
      have hu := (unquoted_exact true (p ++ c) ns c).2 ⟨p, rfl, h, stops_of_comma hc⟩
      unfold parseBridgeAttr
      refine (finish _).2 ⟨c, ?_, hc⟩
      rw [← hu]
      rcases h with h | ⟨p', rfl, h⟩
      · obtain ⟨raw, n, t, rfl⟩ := path_head h; rfl
      · rfl

/-- **C47**, a `#[namespace = ..]` attribute, when it has no raw identifier outside quotes. -/
theorem attr_value_partial (a : Option Expr) (ns : Namespace) (hr : ∀ e, a = some e → NoRaw e) :
    parseMeta a = .ok ns ↔ ∃ e, a = some e ∧ AttrValue e ns := by
  unfold parseMeta
  cases a with
  | none => simp
  | some e =>
    simp only [Option.some.injEq, exists_eq_left']
    have hr := hr e rfl
    cases e with
    | litStr e i =>
      simp only [quoted_exact]
      exact ⟨.quoted, fun h => by cases h; assumption⟩
    | other => exact ⟨nofun, nofun⟩
    | path q l segs =>
      simp only
      have hmap : segs.map (fun s => identText s.raw s.name) = segs.map (·.name) :=
        List.map_congr_left (fun s hs => by simp [identText, hr s hs])
      rw [hmap]
      constructor
      · intro h
        split at h
        · next hc =>
          cases h
          simp only [Bool.and_eq_true, Bool.not_eq_true', List.all_eq_true] at hc
          obtain ⟨rfl, hs⟩ := hc
          exact .path l segs (fun s h => by simpa using hs s h)
        · cases h
      · intro h
        cases h with
        | path l segs h =>
          rw [if_pos]
          simpa using h

/-- The full statement is false of the code: an unquoted raw identifier keeps its `r#`, which then appears in
the generated C++ (gen/src/block.rs:38-40, gen/src/names.rs:6-9), although in `#[cxx::bridge(namespace = ..)]`
and in `type_id!` it does not. -/
theorem raw_namespace_kept :
    parseMeta (some (.path false false [⟨true, "box", false⟩])) = .ok ["r#box"] ∧
    AttrValue (.path false false [⟨true, "box", false⟩]) ["box"] ∧
    parseBridgeAttr [.ident false "namespace", .eq, .ident true "box"] = .ok ["box"] := by
  exact ⟨rfl, .path false [⟨true, "box", false⟩] (by simp), rfl⟩

theorem attrs_exact (attrs : List (Option Expr)) (hr : ∀ e, some e ∈ attrs → NoRaw e) (inherited ns : Namespace) :
    attrNamespace inherited attrs = .ok ns ↔ (∀ a ∈ attrs, ∃ e v, a = some e ∧ AttrValue e v) ∧ Governs attrs inherited ns := by
  induction attrs generalizing inherited with
  | nil =>
    simp only [attrNamespace, Governs, Except.ok.injEq, List.not_mem_nil, false_imp_iff, implies_true, true_and]
    constructor
    · rintro rfl; exact .inl rfl
    · rintro (h | ⟨front, e, h, _⟩)
      · exact h.symm
      · simp at h
  | cons a attrs ih =>
    have value := fun v => attr_value_partial a v (fun e he => hr e (by simp [he]))
    have ih := ih (fun e he => hr e (by simp [he]))
    unfold attrNamespace
    cases hm : parseMeta a with
    | error e =>
      simp only [reduceCtorEq, false_iff]
      rintro ⟨h, _⟩
      obtain ⟨e, v, rfl, hv⟩ := h a (.head _)
      rw [(value v).2 ⟨e, rfl, hv⟩] at hm; cases hm
    | ok ns' =>
      obtain ⟨e, rfl, hv⟩ := (value ns').1 hm
      dsimp only
      rw [ih ns']
      constructor
      · rintro ⟨h1, h2⟩
        refine ⟨?_, ?_⟩
        · intro b hb
          rcases List.mem_cons.1 hb with rfl | hb
          · exact ⟨e, ns', rfl, hv⟩
          · exact h1 b hb
        · rcases h2 with ⟨rfl, rfl⟩ | ⟨front, e', rfl, hv'⟩
          · exact .inr ⟨[], e, rfl, hv⟩
          · exact .inr ⟨some e :: front, e', rfl, hv'⟩
      · rintro ⟨h1, h2⟩
        refine ⟨fun b hb => h1 b (.tail _ hb), ?_⟩
        rcases h2 with ⟨h, _⟩ | ⟨front, e', hf, hv'⟩
        · cases h
        · cases front with
          | nil =>
            cases hf
            have := (value ns).2 ⟨e, rfl, hv'⟩
            rw [hm] at this; cases this
            exact .inl ⟨rfl, rfl⟩
          | cons b front =>
            simp only [List.cons_append, List.cons.injEq] at hf
            exact .inr ⟨front, e', hf.2, hv'⟩

/-- **C47**: if each attribute denotes something, the namespace of an item is that of its own last attribute; without one,
that of the last attribute of its extern block; without one, the bridge's.  If some attribute denotes nothing the item is
refused. -/
theorem item_namespace_partial (bridge ns : Namespace) (block item : List (Option Expr))
    (hb : ∀ e, some e ∈ block → NoRaw e) (hi : ∀ e, some e ∈ item → NoRaw e) :
    itemNamespace bridge block item = .ok ns ↔
      (∀ a ∈ block ++ item, ∃ e v, a = some e ∧ AttrValue e v) ∧ ∃ outer, Governs block bridge outer ∧ Governs item outer ns := by
  unfold itemNamespace
  cases hbk : attrNamespace bridge block with
  | error e =>
    simp only [reduceCtorEq, false_iff]
    rintro ⟨h, outer, ho, _⟩
    rw [(attrs_exact block hb bridge outer).2 ⟨fun a ha => h a (by simp [ha]), ho⟩] at hbk
    cases hbk
  | ok outer =>
    obtain ⟨h1, h2⟩ := (attrs_exact block hb bridge outer).1 hbk
    dsimp only
    rw [attrs_exact item hi outer ns]
    constructor
    · rintro ⟨h3, h4⟩
      refine ⟨fun a ha => ?_, outer, h2, h4⟩
      rcases List.mem_append.1 ha with ha | ha
      · exact h1 a ha
      · exact h3 a ha
    · rintro ⟨h3, outer', h4, h5⟩
      have := (attrs_exact block hb bridge outer').2 ⟨h1, h4⟩
      rw [hbk] at this; cases this
      exact ⟨fun a ha => h3 a (by simp [ha]), h5⟩

theorem print_path (ns : List Ident) (h : ns ≠ []) (rawOk : Bool) : Path rawOk (print ns) ns := by
  induction ns with
  | nil => exact absurd rfl h
  | cons n ns ih =>
    cases ns with
    | nil => exact .last false n nofun
    | cons m ns => exact .cons false n nofun (ih (by simp))

/-- **C47**: printing and parsing again gives the same names, quoted or not. -/
theorem print_roundtrip (ns : List Ident) (h : ns ≠ []) :
    parseUnquoted true (print ns) = .ok (ns, []) ∧ parseQuoted false (some (print ns)) = .ok ns :=
  ⟨(unquoted_exact _ _ _ _).2 ⟨print ns, by simp, .inl (print_path ns h true), trivial⟩,
    (quoted_exact _ _ _).2 (.path (.inl (print_path ns h false)))⟩

/-! ### C25: type ids -/

theorem unraw_eq (s : Ident) : unraw s.toList = plainName s := by
  unfold plainName
  generalize s.toList = l
  match l with
  | [] => rfl
  | [c] => simp [unraw]
  | a :: b :: rest =>
    by_cases h : a = 'r' ∧ b = '#'
    · obtain ⟨rfl, rfl⟩ := h; simp [unraw]
    · rw [if_neg (by simpa using h)]
      unfold unraw
      split
      · next heq => injection heq with h1 h2; injection h2 with h2 _; exact absurd ⟨h1, h2⟩ h
      · rfl

theorem charElem_inj {a b : Char} (h : charElem a = charElem b) : a = b := by
  unfold charElem at h
  split at h <;> split at h <;> (try split at h) <;> (try split at h) <;>
    simp only [IdElem.cxx.injEq, List.cons.injEq, and_true, reduceCtorEq, IdElem.units.injEq, true_and,
      List.cons_ne_nil, and_false] at h
  · exact h
  · exact h
  · exact Char.ext (UInt32.toNat_inj.1 h)

theorem charElem_ne_unit (c : Char) : charElem c ≠ .unit := by
  unfold charElem; split <;> (try split) <;> simp

/-- The elements of a list of words, separated by `()`. -/
def sepElems : List (List Char) → List IdElem
  | [] => []
  | [w] => w.map charElem
  | w :: rest => w.map charElem ++ .unit :: sepElems rest

theorem idElems_eq (segs : List Ident) (h : ∀ s ∈ segs, Proper s) (acc : List IdElem) (hacc : acc ≠ []) :
    idElems acc segs = acc ++ (if segs = [] then [] else .unit :: sepElems (segs.map plainName)) := by
  induction segs generalizing acc with
  | nil => simp [idElems]
  | cons s segs ih =>
    unfold idElems
    have he : acc.isEmpty = false := by simpa [List.isEmpty_iff] using hacc
    rw [he, unraw_eq, ih (fun s hs => h s (by simp [hs])) _ (by simp)]
    cases segs with
    | nil => simp [sepElems]
    | cons t segs => simp [sepElems]

theorem typeId_eq (segs : List Ident) (h : ∀ s ∈ segs, Proper s) : typeId segs = sepElems (segs.map plainName) := by
  cases segs with
  | nil => rfl
  | cons s segs =>
    unfold typeId idElems
    have hs : (plainName s).map charElem ≠ [] := by simpa [Proper] using h s (by simp)
    rw [unraw_eq, List.isEmpty_nil, if_pos rfl, List.nil_append,
      idElems_eq segs (fun s hs => h s (by simp [hs])) _ hs]
    cases segs with
    | nil => simp [sepElems]
    | cons t segs => simp [sepElems]

theorem map_unit_free (w : List Char) : IdElem.unit ∉ w.map charElem := by
  simp only [List.mem_map, not_exists, not_and]
  intro c _; exact charElem_ne_unit c

theorem split_unit {a b x y : List IdElem} (ha : IdElem.unit ∉ a) (hb : IdElem.unit ∉ b)
    (h : a ++ .unit :: x = b ++ .unit :: y) : a = b ∧ x = y := by
  induction a generalizing b with
  | nil =>
    cases b with
    | nil => simpa using h
    | cons c b => simp at h; exact absurd h.1 (by rintro rfl; simp at hb)
  | cons c a ih =>
    cases b with
    | nil => simp at h; exact absurd h.1 (by rintro rfl; simp at ha)
    | cons d b =>
      simp only [List.cons_append, List.cons.injEq] at h
      obtain ⟨rfl, h⟩ := h
      obtain ⟨rfl, rfl⟩ := ih (fun h => ha (by simp [h])) (fun h => hb (by simp [h])) h
      exact ⟨rfl, rfl⟩

theorem map_charElem_inj {a b : List Char} (h : a.map charElem = b.map charElem) : a = b :=
  (List.map_inj_right (fun _ _ => charElem_inj)).1 h

theorem sepElems_inj : ∀ (a b : List (List Char)), (∀ w ∈ a, w ≠ []) → (∀ w ∈ b, w ≠ []) →
    sepElems a = sepElems b → a = b
  | [], [], _, _, _ => rfl
  | [], [w], _, hb, h => by simp [sepElems] at h; exact absurd h (hb w (by simp))
  | [], w :: v :: b, _, _, h => by simp [sepElems] at h
  | [w], [], ha, _, h => by simp [sepElems] at h; exact absurd h (ha w (by simp))
  | w :: v :: a, [], _, _, h => by simp [sepElems] at h
  | [w], [v], _, _, h => by rw [map_charElem_inj h]
  | [w], v :: u :: b, _, _, h => by
    have : IdElem.unit ∈ w.map charElem := by
      have h : w.map charElem = v.map charElem ++ .unit :: sepElems (u :: b) := h
      rw [h]; simp
    exact absurd this (map_unit_free w)
  | w :: u :: a, [v], _, _, h => by
    have : IdElem.unit ∈ v.map charElem := by
      have h : w.map charElem ++ .unit :: sepElems (u :: a) = v.map charElem := h
      rw [← h]; simp
    exact absurd this (map_unit_free v)
  | w :: u :: a, v :: t :: b, ha, hb, h => by
    have h : w.map charElem ++ .unit :: sepElems (u :: a) = v.map charElem ++ .unit :: sepElems (t :: b) := h
    obtain ⟨h1, h2⟩ := split_unit (map_unit_free w) (map_unit_free v) h
    rw [map_charElem_inj h1, sepElems_inj (u :: a) (t :: b) (fun w hw => ha w (by simp [hw]))
      (fun w hw => hb w (by simp [hw])) h2]

/-- **C25**: the type ids of two qualified names are equal exactly when the names are, segment by segment. -/
theorem type_id_injective (a b : List Ident) (ha : ∀ s ∈ a, Proper s) (hb : ∀ s ∈ b, Proper s) :
    typeId a = typeId b ↔ a.map plainName = b.map plainName := by
  rw [typeId_eq a ha, typeId_eq b hb]
  constructor
  · refine sepElems_inj _ _ ?_ ?_
    · intro w hw; obtain ⟨s, hs, rfl⟩ := List.mem_map.1 hw; exact ha s hs
    · intro w hw; obtain ⟨s, hs, rfl⟩ := List.mem_map.1 hw; exact hb s hs
  · intro h; rw [h]

/-- **C25**: an alias is accepted exactly when the `type_id!` of the Rust type spells the C++ name of the
alias: its namespace and its name.  Missing: names that are raw identifiers, `raw_alias_panics`. -/
theorem alias_verified_partial (alias : Pair) (toks : List Tok) (declared : List IdElem)
    (ha : ∀ s ∈ alias.ns ++ [alias.cxx], Proper s) (hr : alias.cxx.toList.take 2 ≠ ['r', '#']) (hm : typeIdMacro toks = .ok declared) :
    ∃ segs, (Written true toks segs ∨ ∃ e i, toks = [.lit e i] ∧ Quoted e i segs) ∧
      ((∀ s ∈ segs, Proper s) → (∃ b, aliasVerified alias declared = some b ∧ (b = true ↔
        segs.map plainName = alias.ns.map plainName ++ [alias.cxx.toList]))) := by
  unfold typeIdMacro at hm
  cases hp : parseQuotedOrUnquoted toks with
  | error e => rw [hp] at hm; cases hm
  | ok x =>
    obtain ⟨segs, rest⟩ := x
    rw [hp] at hm
    cases rest with
    | cons t rest => cases hm
    | nil =>
      cases hm
      refine ⟨segs, ?_, fun hs => ?_⟩
      · unfold parseQuotedOrUnquoted at hp
        split at hp
        · next e i rest =>
          split at hp
          · next hq => cases hp; exact .inr ⟨e, i, rfl, (quoted_exact _ _ _).1 hq⟩
          · cases hp
        · obtain ⟨p, hpe, hw, _⟩ := (unquoted_exact true _ _ _).1 hp
          simp at hpe; subst hpe; exact .inl hw
      · unfold aliasVerified pairTypeId
        refine ⟨_, if_neg hr, ?_⟩
        rw [decide_eq_true_iff, type_id_injective segs _ hs ha, List.map_append, List.map_singleton, plainName, if_neg hr]

/-- The full **C25** is false of the code: an alias with a raw name makes the macro panic, although `type_id!` accepts the
same name, and the alias of that name without `r#` is verified. -/
theorem raw_alias_panics : ∃ declared,
    typeIdMacro [.ident false "ns", .colons, .ident true "box"] = .ok declared ∧
    aliasVerified ⟨["ns"], "r#box", "r#box"⟩ declared = none ∧ aliasVerified ⟨["ns"], "box", "r#box"⟩ declared = some true := by
  refine ⟨_, rfl, by decide +kernel, by decide +kernel⟩

/-- Names that differ are told apart. -/
example : ∃ declared, typeIdMacro [.ident false "ns", .colons, .ident false "File"] = .ok declared ∧
    aliasVerified ⟨["ns"], "File", "F"⟩ declared = some true ∧ aliasVerified ⟨["n"], "sFile", "F"⟩ declared = some false :=
  ⟨_, rfl, by decide +kernel, by decide +kernel⟩

/-- Every element names an item that exists in the `cxx` crate. -/
theorem type_id_items_exist (segs : List Ident) (n : List Char) (h : .cxx n ∈ typeId segs) : n ∈ chars := by
  have hchar : ∀ c : Char, ∀ n, charElem c = .cxx n → n ∈ chars := by
    intro c n hc
    have hrange : ∀ k : Fin 128, ∀ n, charElem (Char.ofNat k.val) = .cxx n → n ∈ chars := by
      intro k n
      have : ∀ k : Fin 128, (match charElem (Char.ofNat k.val) with | .cxx n => decide (n ∈ chars) | _ => true) = true := by
        decide +kernel
      have := this k
      intro h; rw [h] at this; simpa using this
    by_cases hlt : c.toNat < 128
    · have := hrange ⟨c.toNat, hlt⟩ n
      rw [show Char.ofNat (⟨c.toNat, hlt⟩ : Fin 128).val = c from Char.ofNat_toNat c] at this
      exact this hc
    · exfalso
      have big : ∀ d : Char, d.toNat < 128 → ¬ c ≤ d := by
        intro d hd hcd
        have : c.toNat ≤ d.toNat := hcd
        omega
      unfold charElem at hc
      rw [if_neg, if_neg] at hc
      · cases hc
      · rintro (h | h)
        · exact big '9' (by decide) h.2
        · subst h; exact hlt (by decide)
      · rintro (h | h)
        · exact big 'Z' (by decide) h.2
        · exact big 'z' (by decide) h.2
  have hacc : ∀ (segs : List Ident) (acc : List IdElem), (∀ n, .cxx n ∈ acc → n ∈ chars) →
      ∀ n, .cxx n ∈ idElems acc segs → n ∈ chars := by
    intro segs
    induction segs with
    | nil => intro acc h n hn; exact h n hn
    | cons s segs ih =>
      intro acc h n hn
      unfold idElems at hn
      refine ih _ (fun n hn => ?_) n hn
      rw [List.mem_append] at hn
      rcases hn with hn | hn
      · split at hn
        · exact h n hn
        · simp at hn; exact h n hn
      · obtain ⟨c, _, hc⟩ := List.mem_map.1 hn
        exact hchar c n hc
  exact hacc segs [] (by simp) n h

section Witness

/-- `folly::File` as in the comment of the function, and a name outside ASCII. -/
example : typeId ["fo", "F1"] = [.cxx ['f'], .cxx ['o'], .unit, .cxx ['F'], .cxx ['_', '1']] ∧
    typeId ["é"] = [.units 233] := by decide +kernel

example : Proper "r#box" ∧ Proper "folly" ∧ typeId ["r#box"] = typeId ["box"] ∧
    typeId ["a", "b"] ≠ typeId ["ab"] := by
  unfold Proper
  refine ⟨by decide +kernel, by decide +kernel, by decide +kernel, by decide +kernel⟩

/-- `::a::b` is accepted, `a::`, `::` and a raw identifier in quotes are not. -/
example : parseUnquoted true [.colons, .ident false "a", .colons, .ident false "b"] = .ok (["a", "b"], []) ∧
    parseUnquoted true [.ident false "a", .colons] = .error .expectedSegment ∧
    parseUnquoted true [.colons] = .error .expectedSegment ∧
    parseQuoted false (some [.ident true "box"]) = .error .rawNotAllowed ∧
    parseQuoted false (some []) = .error .expectedPath := ⟨rfl, rfl, rfl, rfl, rfl⟩

/-- An item without an attribute takes the block's, one with an empty literal goes back to the root. -/
example : itemNamespace ["br"] [some (.path false false [⟨false, "x", false⟩, ⟨false, "y", false⟩])] [] = .ok ["x", "y"] ∧
    itemNamespace ["br"] [some (.path false false [⟨false, "x", false⟩])] [some (.litStr true none)] = .ok [] ∧
    itemNamespace ["br"] [] [] = .ok ["br"] := ⟨rfl, rfl, rfl⟩

end Witness

end Verif.Qualified
