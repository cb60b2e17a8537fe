import Verif.CxxText.Read
import Verif.Abi.Props
/-!
# The C++ text says what was meant
-/
namespace Verif.CxxText
open Verif.Syntax Verif.Types Verif.Abi Verif.Check

/-! ### The depth that the reader needs -/

mutual
theorem cost_le (t : CTok) : cost t ≤ (text t).length := by
  cases t with
  | atom a => cases a <;> decide
  | named p => simp only [cost, text_named, qualified, List.length_append]; change 1 ≤ _ + 2 + _; omega
  | str | fat | ptrLen | voidPtr => decide
  | box t | vec t | uniquePtr t | sharedPtr t | weakPtr t | vector t =>
    have := cost_le t
    simp only [cost, text_box, text_vec, text_uniquePtr, text_sharedPtr, text_weakPtr, text_vector, List.length_append]
    first
      | (change _ ≤ 12 + _ + 1; omega)
      | (change _ ≤ 18 + _ + 1; omega)
      | (change _ ≤ 16 + _ + 1; omega)
      | (change _ ≤ 14 + _ + 1; omega)
  | lref m t => have := cost_le t; simp only [cost, text_lref, List.length_append]; omega
  | star m t => have := cost_le t; simp only [cost, text_star, List.length_append]; omega
  | slice m t =>
    have := cost_le t
    simp only [cost, text_slice, List.length_append]
    change _ ≤ 14 + _ + _ + _ + 1; omega
  | array t n =>
    have := cost_le t
    simp only [cost, text_array, List.length_append]
    change _ ≤ 13 + _ + 2 + _ + 1; omega
  | fn as r =>
    have h1 := costRet_le r
    have h2 := costArgs_le as
    simp only [cost, text_fn, List.length_append]
    change _ ≤ 11 + _ + 1 + _ + 2; omega
theorem costRet_le (t : Option CTok) : costRet t ≤ (textRet t).length := by
  cases t with
  | none => decide
  | some t => exact cost_le t
theorem costArgs_le (as : List CTok) : costArgs as ≤ (commaSep (textArgs as)).length + 2 := by
  match as with
  | [] => decide
  | [t] => have := cost_le t; simp only [costArgs, textArgs, commaSep]; omega
  | t :: u :: rest =>
    have h1 := cost_le t
    have h2 := costArgs_le (u :: rest)
    simp only [costArgs, textArgs, commaSep, List.length_append] at h2 ⊢
    change _ ≤ _ + 2 + _ + 2
    omega
end

/-- The text of a type is read as the type. -/
theorem typeOf_text (t : CTok) (h : Ok t) : typeOf (text t) = some (denote t) := by
  have h1 := lex_text t h [] (by cases t <;> first | trivial | (intro c hc; cases hc) | simp [Stop])
  have h2 := read_toks t h ((text t).length + 1) (by have := cost_le t; omega) [] ⟨by simp, by simp⟩
  rw [List.append_nil] at h1
  simp only [lex, flush, ↓reduceIte] at h1
  rw [ends_nil, ← h1] at h2
  simp [typeOf, h2]

/-! ### Lists of parameters -/

/-- The text is that of the parameter. -/
structure Says (x : List Char × Param) : Prop where
  lexed : ∀ r, (∃ s, r = ',' :: s ∨ r = ')' :: s) → lex [] (x.1 ++ r) = x.2.ts ++ lex [] r
  good : x.2.Good
  cost : x.2.cost ≤ x.1.length

theorem lex_list (xs : List (List Char × Param)) (h : ∀ x ∈ xs, Says x) (r : List Char) :
    lex [] (commaSep (xs.map (·.1)) ++ ')' :: r) = commaToks ((xs.map (·.2)).map (·.ts)) ++ .rparen :: lex [] r := by
  match xs with
  | [] => rfl
  | [x] =>
    simp only [List.map_cons, List.map_nil, commaSep, commaToks]
    rw [(h x (by simp)).lexed _ ⟨_, .inr rfl⟩]
    rfl
  | x :: y :: xs =>
    have ih := lex_list (y :: xs) (fun z hz => h z (List.mem_cons_of_mem _ hz)) r
    simp only [List.map_cons, commaSep, commaToks, List.append_assoc, punct.2.2.2.1, List.cons_append,
      List.nil_append] at ih ⊢
    rw [(h x (by simp)).lexed _ ⟨_, .inl rfl⟩]
    change _ ++ .comma :: lex [] (commaSep _ ++ _) = _
    rw [ih]

theorem total_le (xs : List (List Char × Param)) (h : ∀ x ∈ xs, Says x) :
    total (xs.map (·.2)) ≤ (commaSep (xs.map (·.1))).length + 2 := by
  match xs with
  | [] => decide
  | [x] => have := (h x (by simp)).cost; simp only [List.map_cons, List.map_nil, commaSep, total]; omega
  | x :: y :: xs =>
    have ih := total_le (y :: xs) (fun z hz => h z (List.mem_cons_of_mem _ hz))
    have := (h x (by simp)).cost
    simp only [List.map_cons, commaSep, total, List.length_append] at ih ⊢
    change _ ≤ _ + 2 + _ + 2
    omega

/-- A list of parameters is read as they are. -/
theorem read_list (xs : List (List Char × Param)) (h : ∀ x ∈ xs, Says x) (r : List Char) (n : Nat)
    (hn : (commaSep (xs.map (·.1))).length + 2 ≤ n) :
    readParams n (lex [] (commaSep (xs.map (·.1)) ++ ')' :: r)) =
      some (xs.map fun x => (x.2.t, x.2.name), lex [] r) := by
  rw [lex_list xs h]
  have := readParams_list (xs.map (·.2)) (by
    intro q hq
    obtain ⟨x, hx, rfl⟩ := List.mem_map.1 hq
    exact (h x hx).good) n (Nat.le_trans (total_le xs h) hn) (lex [] r)
  rw [this]
  simp [Function.comp_def]

theorem name_head {w : List Char} (h : isName w = true) : ∃ c s, w = c :: s ∧ isWordChar c = true := by
  obtain ⟨h1, h2⟩ := isName_word h
  cases w with
  | nil => exact absurd rfl h2
  | cons c s => exact ⟨c, s, rfl, by simpa using (List.all_eq_true.1 h1 c (by simp))⟩

theorem not_amp {w : List Char} (h : isName w = true) (r : List Char) : (w ++ r).head? ≠ some '&' := by
  obtain ⟨c, s, rfl, hc⟩ := name_head h
  intro h
  cases h
  exact absurd hc (by decide)

/-- A parameter with a name. -/
def named (t : CTok) (name : Ident) : List Char × Param :=
  (paramText t name, ⟨toks t ++ [.word name.toList], denote t, some name.toList, cost t⟩)

theorem says_named {t : CTok} (h : Ok t) {name : Ident} (hn : isName name.toList = true) : Says (named t name) := by
  obtain ⟨w1, w2⟩ := isName_word hn
  refine ⟨fun r hr => ?_, ⟨begins_append (begins t) _, fun n hn' r hr => ?_, fun w hw => ?_⟩, ?_⟩
  · change lex [] (text t ++ spaceAfter t ++ name.toList ++ r) = toks t ++ [.word name.toList] ++ lex [] r
    simp only [List.append_assoc]
    rw [lex_text t h _ (stop_after t _ (.inl (not_amp hn r))), lex_after,
      lex_whole w1 w2 (by obtain ⟨s, rfl | rfl⟩ := hr <;> (intro c hc; cases hc; decide))]
    rfl
  · change readType n (toks t ++ [.word name.toList] ++ r) = _
    rw [List.append_assoc, List.cons_append, read_toks t h n hn' _ (after_word _ _), ends_word hn]
    rfl
  · cases hw; exact hn
  · have := cost_le t
    simp only [named, paramText, typeSpace, List.length_append]
    omega

/-- A parameter without a name. -/
def anonymous (t : CTok) : List Char × Param := (text t, ⟨toks t, denote t, none, cost t⟩)

theorem says_anonymous {t : CTok} (h : Ok t) : Says (anonymous t) := by
  refine ⟨fun r hr => ?_, ⟨begins t, fun n hn r hr => ?_, fun w hw => by cases hw⟩, cost_le t⟩
  · obtain ⟨s, rfl | rfl⟩ := hr
    · exact lex_text t h _ (stop_punct t (by decide) (by decide) s)
    · exact lex_text t h _ (stop_punct t (by decide) (by decide) s)
  · have := read_toks t h n hn r (by rcases hr with ⟨r, rfl | rfl⟩; exact after_comma r; exact after_rparen r)
    rcases hr with ⟨r, rfl | rfl⟩
    · rw [ends_comma] at this; exact this
    · rw [ends_rparen] at this; exact this

/-! ### The line of a declaration -/

theorem lex_returnType (ret : Option CTok) (h : OkRet ret) {s : List Char} (hs : s.head? ≠ some '&') :
    lex [] (returnType ret ++ s) = toksRet ret ++ lex [] s := by
  cases ret with
  | none => exact lex_whole (s := "void".toList) (r := ' ' :: s) (by decide) (by decide) (by intro c hc; cases hc; decide)
  | some t =>
    simp only [returnType, typeSpace, List.append_assoc]
    simp only [OkRet] at h
    rw [lex_text t h _ (stop_after t _ (.inl hs)), lex_after]
    rfl

theorem lex_localName (name : List Ident) (hne : name ≠ []) (h : (name.map String.toList).all isName = true) {r : List Char}
    (hr : ∀ c, r.head? = some c → isWordChar c = false) :
    ∃ w ws, name.map String.toList = w :: ws ∧ lex [] (localName name ++ r) = .word w :: (pathToks ws ++ lex [] r) := by
  match name with
  | [] => exact absurd rfl hne
  | [n] =>
    simp only [List.map_cons, List.map_nil, List.all_cons, List.all_nil, Bool.and_true] at h
    obtain ⟨w1, w2⟩ := isName_word h
    exact ⟨_, _, rfl, lex_whole w1 w2 hr⟩
  | n :: m :: rest =>
    rw [List.map_cons, List.all_cons, Bool.and_eq_true] at h
    obtain ⟨w1, w2⟩ := isName_word h.1
    obtain ⟨w, ws, hw, ih⟩ := lex_localName (m :: rest) (by simp) h.2 hr
    refine ⟨_, _, rfl, ?_⟩
    simp only [localName, List.append_assoc]
    change lex [] (n.toList ++ ':' :: ':' :: (localName (m :: rest) ++ r)) = _
    rw [lex_whole w1 w2 (by intro c hc; cases hc; decide), lex_colons, ih, hw]
    rfl

theorem localName_head (name : List Ident) (hne : name ≠ []) (h : (name.map String.toList).all isName = true) (r : List Char) :
    (localName name ++ r).head? ≠ some '&' := by
  match name with
  | [] => exact absurd rfl hne
  | [n] =>
    simp only [List.map_cons, List.map_nil, List.all_cons, List.all_nil, Bool.and_true] at h
    exact not_amp h r
  | n :: m :: rest =>
    rw [List.map_cons, List.all_cons, Bool.and_eq_true] at h
    simp only [localName, List.append_assoc]
    exact not_amp h.1 _

/-- The line of a declaration is read as the declaration. -/
theorem declOf_line (ret : Option CTok) (hr : OkRet ret) (name : List Ident) (hne : name ≠ [])
    (hn : (name.map String.toList).all isName = true) (xs : List (List Char × Param)) (hx : ∀ x ∈ xs, Says x)
    (tail : List Char) :
    declOf (returnType ret ++ localName name ++ "(".toList ++ commaSep (xs.map (·.1)) ++ ")".toList ++ tail) =
      (readQualifiers (lex [] tail)).map fun q =>
        ⟨denoteRet ret, name.map String.toList, xs.map fun x => (x.2.t, x.2.name), q.1, q.2⟩ := by
  have e : returnType ret ++ localName name ++ "(".toList ++ commaSep (xs.map (·.1)) ++ ")".toList ++ tail =
      returnType ret ++ (localName name ++ '(' :: (commaSep (xs.map (·.1)) ++ ')' :: tail)) := by
    simp [punct.2.2.1, punct.2.2.2.2.2.2]
  rw [e]
  generalize hs : returnType ret ++ (localName name ++ '(' :: (commaSep (xs.map (·.1)) ++ ')' :: tail)) = s
  have hlen : (commaSep (xs.map (·.1))).length + 2 ≤ s.length := by rw [← hs]; simp; omega
  have hlen2 : costRet ret ≤ s.length := by
    have := costRet_le ret
    have h2 : (textRet ret).length ≤ (returnType ret).length := by
      cases ret with
      | none => decide
      | some t => simp [returnType, typeSpace, textRet]
    rw [← hs]; simp; omega
  obtain ⟨w, ws, hw, hl⟩ := lex_localName name hne hn (r := '(' :: (commaSep (xs.map (·.1)) ++ ')' :: tail))
    (by intro c hc; cases hc; decide)
  have hwn : isName w = true := by
    rw [hw, List.all_cons, Bool.and_eq_true] at hn; exact hn.1
  have hlex : lex [] s = toksRet ret ++ .word w :: (pathToks ws ++ .lparen ::
      lex [] (commaSep (xs.map (·.1)) ++ ')' :: tail)) := by
    rw [← hs, lex_returnType ret hr (localName_head name hne hn _), hl]
    rfl
  have hread := read_ret ret hr (s.length + 1) (by omega) (.word w :: (pathToks ws ++ .lparen ::
      lex [] (commaSep (xs.map (·.1)) ++ ')' :: tail))) (after_word _ _)
  rw [ends_word hwn] at hread
  have hps := read_list xs hx tail (s.length + 1) (by omega)
  have hp := readPath_toks ws (r := .lparen :: lex [] (commaSep (xs.map (·.1)) ++ ')' :: tail)) (by simp)
  rw [declOf, hlex, hread]
  simp only [readName, hp]
  rw [hw] at hn
  simp only [ne_eq, reduceCtorEq, not_false_eq_true, hn, and_self, ↓reduceIte, hps]
  rw [hw]

/-- `const` and `noexcept`. -/
theorem qualifiers (c ne : Bool) : readQualifiers (lex [] ((if c then " const".toList else []) ++
    (if ne then " noexcept".toList else []))) = some (c, ne) := by
  cases c <;> cases ne <;> rfl

theorem extern_text : "void *extern$".toList = paramText .voidPtr "extern$" := by decide

theorem commaSep_snoc (xs : List (List Char)) (y : List Char) :
    commaSep (xs ++ [y]) = commaSep xs ++ (if xs = [] then [] else ", ".toList) ++ y := by
  match xs with
  | [] => simp [commaSep]
  | [x] => simp [commaSep]
  | x :: z :: xs =>
    have ih := commaSep_snoc (z :: xs) y
    simp only [List.cons_append, commaSep, reduceCtorEq, if_false] at ih ⊢
    rw [ih]
    simp only [List.append_assoc]

/-- The declaration of a function that Rust implements is read as intended. -/
theorem shim_reads (name : List Ident) (params : List (CTok × Ident)) (ret : Option CTok) (ic c ne : Bool)
    (hne : name ≠ []) (hn : (name.map String.toList).all isName = true) (hr : OkRet ret)
    (hp : ∀ p ∈ params, Ok p.1 ∧ isName p.2.toList = true) :
    declOf (shimDecl name params ret ic c ne) = some ⟨denoteRet ret, name.map String.toList,
      (params.map fun p => (denote p.1, some p.2.toList)) ++
        (if ic then [(.ptr (.prim "void".toList), some "extern$".toList)] else []), c, ne⟩ := by
  have key : shimDecl name params ret ic c ne = returnType ret ++ localName name ++ "(".toList ++
      commaSep (((params ++ if ic then [(CTok.voidPtr, "extern$")] else []).map fun p => named p.1 p.2).map (·.1)) ++
      ")".toList ++ ((if c then " const".toList else []) ++ (if ne then " noexcept".toList else [])) := by
    unfold shimDecl
    cases ic with
    | false => simp only [Bool.false_eq_true, if_false, List.append_nil, List.map_map, List.append_assoc]; rfl
    | true =>
      simp only [if_true, List.map_append, List.map_cons, List.map_nil, commaSep_snoc, List.map_map, List.map_eq_nil_iff,
        List.append_assoc, extern_text]
      rfl
  rw [key, declOf_line ret hr name hne hn]
  · rw [qualifiers]
    cases ic <;> simp [named, Function.comp_def] <;> rfl
  · intro x hx
    obtain ⟨p, hp', rfl⟩ := List.mem_map.1 hx
    rcases List.mem_append.1 hp' with h | h
    · exact says_named (hp p h).1 (hp p h).2
    · cases ic with
      | false => cases h
      | true =>
        cases List.mem_singleton.1 h
        exact says_named (by simp only [Ok]) (by decide)

theorem self_text (p : Pair) (m : Bool) : selfText p m = paramText (.lref m (.named p)) "self" := by
  cases m with
  | false => simp only [selfText, paramText, typeSpace, text_lref, text_named, List.append_assoc]; rfl
  | true => simp only [selfText, paramText, typeSpace, text_lref, text_named, List.append_assoc]; rfl

theorem slot_text (t : CTok) : typeSpace t ++ "*return$".toList = paramText (.star true t) "return$" := by
  simp only [paramText, typeSpace, text_star, List.append_assoc]; rfl

/-- The `extern "C"` declaration is read as intended. -/
theorem extern_reads (link : List Char) (self : Option (Pair × Bool)) (params : List (CTok × Ident)) (ret slot : Option CTok)
    (ic : Bool) (hl : isName link = true) (hr : OkRet ret) (hs : OkRet slot)
    (hself : ∀ s, self = some s → (pathOf s.1).all isName = true)
    (hp : ∀ p ∈ params, Ok p.1 ∧ isName p.2.toList = true) :
    declOf (externDecl link self params ret slot ic) = some ⟨denoteRet ret, [link],
      (self.toList.map fun s => (CType.ref ((CType.path (pathOf s.1) []).unless s.2), some "self".toList)) ++
      (params.map fun p => (denote p.1, some p.2.toList)) ++
      (slot.toList.map fun t => (CType.ptr (denote t), some "return$".toList)) ++
      (if ic then [(.ptr (.prim "void".toList), none)] else []), false, true⟩ := by
  have key : externDecl link self params ret slot ic = returnType ret ++ localName [String.ofList link] ++ "(".toList ++
      commaSep (((self.toList.map fun s => named (.lref s.2 (.named s.1)) "self") ++ (params.map fun p => named p.1 p.2) ++
        (slot.toList.map fun t => named (.star true t) "return$") ++ (if ic then [anonymous .voidPtr] else [])).map (·.1)) ++
      ")".toList ++ " noexcept".toList := by
    unfold externDecl
    have e1 : (self.map fun s => selfText s.1 s.2).toList =
        (self.toList.map fun s => named (.lref s.2 (.named s.1)) "self").map (·.1) := by
      cases self with
      | none => rfl
      | some s => simp [self_text, named]
    have e2 : (slot.map fun t => typeSpace t ++ "*return$".toList).toList =
        (slot.toList.map fun t => named (.star true t) "return$").map (·.1) := by
      cases slot with
      | none => rfl
      | some s => simp only [Option.map_some, Option.toList_some, List.map_cons, List.map_nil, slot_text, named]
    have e3 : (if ic then ["void *".toList] else []) = (if ic then [anonymous .voidPtr] else []).map (·.1) := by
      cases ic <;> rfl
    rw [e1, e2, e3]
    simp only [List.map_append, List.map_map, localName, String.toList_ofList, List.append_assoc]
    rfl
  rw [key, declOf_line ret hr [String.ofList link] (by simp) (by simpa using hl)]
  · have : readQualifiers (lex [] " noexcept".toList) = some (false, true) := rfl
    rw [this]
    simp only [Option.map_some, Option.some.injEq, FnDecl.mk.injEq, true_and, and_true, List.map_append, List.map_map,
      List.map_cons, List.map_nil, String.toList_ofList]
    refine congrArg₂ _ (congrArg₂ _ (congrArg₂ _ rfl rfl) rfl) ?_
    cases ic <;> rfl
  · intro x hx
    simp only [List.mem_append, List.mem_map] at hx
    rcases hx with ((⟨s, hs', rfl⟩ | ⟨p, hp', rfl⟩) | ⟨t, ht, rfl⟩) | hx
    · refine says_named ?_ (by decide)
      simp only [Ok]
      exact ⟨hself s (by simpa using hs'), fun m u h => by cases h⟩
    · exact says_named (hp p hp').1 (hp p hp').2
    · refine says_named ?_ (by decide)
      cases slot with
      | none => cases ht
      | some u =>
        simp only [Option.toList_some, List.mem_singleton] at ht
        subst ht
        simpa only [Ok, OkRet] using hs
    · cases ic with
      | false => cases hx
      | true => cases List.mem_singleton.1 hx; exact says_anonymous (by simp only [Ok])

/-- The line of a field. -/
theorem field_reads {t : CTok} (h : Ok t) {name : Ident} (hn : isName name.toList = true) :
    fieldOf (paramText t name) = some (denote t, name.toList) := by
  obtain ⟨w1, w2⟩ := isName_word hn
  have h1 : lex [] (paramText t name) = toks t ++ [.word name.toList] := by
    simp only [paramText, typeSpace, List.append_assoc]
    have := not_amp hn []
    rw [List.append_nil] at this
    rw [lex_text t h _ (stop_after t _ (.inl this)), lex_after]
    have := lex_whole w1 w2 (r := []) (by intro c hc; cases hc)
    rw [List.append_nil] at this
    rw [this]; rfl
  have hc := cost_le t
  have h2 := read_toks t h ((paramText t name).length + 1) (by simp [paramText, typeSpace]; omega) [.word name.toList]
    (after_word _ _)
  rw [ends_word hn] at h2
  simp [fieldOf, h1, h2, hn]

/-! ### The pointer to the C++ function -/

theorem isName_dollar {w : List Char} (h : isWord w = true) : isName (w ++ ['$']) = true := by
  simp only [isWord, Bool.and_eq_true, bne_iff_ne, ne_eq, Bool.not_eq_true'] at h
  have hk : keywords.any (fun k => k.toList == w ++ ['$']) = false := by
    have : ∀ k ∈ keywords, k.toList.getLast? ≠ some '$' := by decide
    rw [List.any_eq_false]
    intro k hk hx
    have := this k hk
    rw [eq_of_beq hx] at this
    simp at this
  have hn : isNumber (w ++ ['$']) = false := by
    cases w with
    | nil => exact absurd rfl h.1.1
    | cons c w => exact h.2
  simp only [isName, Bool.and_eq_true, bne_iff_ne, ne_eq, Bool.not_eq_true', hk, hn, List.all_append, h.1.2]
  refine ⟨⟨⟨by simp, ?_⟩, trivial⟩, trivial⟩
  decide

theorem lex_target (p : List Ident) (last : Ident) (h : (pathOf ⟨p, last, ""⟩).all isName = true) (s : List Char) :
    lex [] (qualified ⟨p, last, ""⟩ ++ ';' :: s) = pathToks (pathOf ⟨p, last, ""⟩) ++ .semi :: lex [] s := by
  rw [lex_qualified h (by intro c hc; cases hc; decide)]
  rfl

/-- The pointer is read as one to the function, with the types of the parameters and of the result. -/
theorem pointer_fn_reads (rust : Ident) (cxx : Pair) (params : List CTok) (ret : Option CTok)
    (hw : isWord rust.toList = true) (hc : (pathOf cxx).all isName = true) (hr : OkRet ret) (hp : ∀ p ∈ params, Ok p) :
    pointerOf (pointerLine rust cxx none params ret) =
      some ⟨denoteRet ret, none, rust.toList ++ ['$'], params.map denote, false, false, pathOf cxx⟩ := by
  have hx : ∀ x ∈ params.map anonymous, Says x := by
    intro x hx
    obtain ⟨p, hp', rfl⟩ := List.mem_map.1 hx
    exact says_anonymous (hp p hp')
  have e : pointerLine rust cxx none params ret = returnType ret ++ ('(' :: '*' :: ((rust.toList ++ ['$']) ++
      ')' :: '(' :: (commaSep ((params.map anonymous).map (·.1)) ++ ')' :: (' ' :: '=' :: ' ' :: (qualified cxx ++ [';']))))) := by
    unfold pointerLine
    simp only [List.append_assoc, List.map_map]
    rfl
  generalize hs : pointerLine rust cxx none params ret = s
  rw [hs] at e
  have hlen : (commaSep ((params.map anonymous).map (·.1))).length + 2 ≤ s.length := by rw [e]; simp; omega
  have hlen2 : costRet ret ≤ s.length := by
    have := costRet_le ret
    have h2 : (textRet ret).length ≤ (returnType ret).length := by
      cases ret with
      | none => decide
      | some t => simp [returnType, typeSpace, textRet]
    rw [e]; simp; omega
  have hname := isName_dollar hw
  obtain ⟨w1, w2⟩ := isName_word hname
  have htail : lex [] (' ' :: '=' :: ' ' :: (qualified cxx ++ [';'])) = .eq :: (pathToks (pathOf cxx) ++ [.semi]) := by
    change Tok.eq :: lex [] (qualified cxx ++ [';']) = _
    rw [lex_qualified hc (by intro c hc; cases hc; decide)]
    rfl
  have hlex : lex [] s = toksRet ret ++ .lparen :: .star :: .word (rust.toList ++ ['$']) :: .rparen :: .lparen ::
      lex [] (commaSep ((params.map anonymous).map (·.1)) ++ ')' :: (' ' :: '=' :: ' ' :: (qualified cxx ++ [';']))) := by
    rw [e, lex_returnType ret hr (by simp)]
    change _ ++ .lparen :: .star :: lex [] ((rust.toList ++ ['$']) ++ _) = _
    rw [lex_whole w1 w2 (by intro c hc; cases hc; decide)]
    rfl
  have hread := read_ret ret hr (s.length + 1) (by omega) _ (after_lparen (.star :: .word (rust.toList ++ ['$']) :: .rparen :: .lparen ::
      lex [] (commaSep ((params.map anonymous).map (·.1)) ++ ')' :: (' ' :: '=' :: ' ' :: (qualified cxx ++ [';'])))))
  rw [ends_lparen] at hread
  have hps := read_list _ hx (' ' :: '=' :: ' ' :: (qualified cxx ++ [';'])) (s.length + 1) (by omega)
  rw [htail] at hps
  have hi : readInit (.eq :: (pathToks (pathOf cxx) ++ [.semi])) = some (false, false, pathOf cxx) := by
    have h1 := readPath_toks (pathOf cxx) (r := [.semi]) (by simp)
    have h2 : pathOf cxx ≠ [] := by simp [pathOf]
    rw [readInit]
    · rw [h1]; simp only [h2, ne_eq, not_false_eq_true, hc, and_self, ↓reduceIte]
    · intro r hr
      cases hq : pathOf cxx with
      | nil => exact absurd hq h2
      | cons w p => rw [hq] at hr; cases hr
  rw [pointerOf, hlex, hread]
  simp only [readPtrName, hname, if_true, htail, hps, hi]
  simp [Function.comp_def, anonymous]

/-- The pointer is read as one to the member function of the class. -/
theorem pointer_method_reads (rust : Ident) (cxx cls : Pair) (mutable : Bool) (params : List CTok) (ret : Option CTok)
    (hw : isWord rust.toList = true) (hc : isName cxx.cxx.toList = true) (hcls : (pathOf cls).all isName = true)
    (hr : OkRet ret) (hp : ∀ p ∈ params, Ok p) :
    pointerOf (pointerLine rust cxx (some (cls, mutable)) params ret) =
      some ⟨denoteRet ret, some (pathOf cls), rust.toList ++ ['$'], params.map denote, !mutable, true,
        pathOf cls ++ [cxx.cxx.toList]⟩ := by
  have hx : ∀ x ∈ params.map anonymous, Says x := by
    intro x hx
    obtain ⟨p, hp', rfl⟩ := List.mem_map.1 hx
    exact says_anonymous (hp p hp')
  have hnil : pathOf cls ≠ [] := by simp [pathOf]
  obtain ⟨tail, htl⟩ : ∃ tail, tail = (if mutable then [] else " const".toList) ++ (' ' :: '=' :: ' ' :: '&' :: (qualified cls ++
      (':' :: ':' :: (cxx.cxx.toList ++ [';'])))) := ⟨_, rfl⟩
  have e : pointerLine rust cxx (some (cls, mutable)) params ret = returnType ret ++ ('(' :: (qualified cls ++ (':' :: ':' :: '*' ::
      ((rust.toList ++ ['$']) ++ ')' :: '(' :: (commaSep ((params.map anonymous).map (·.1)) ++ ')' :: tail))))) := by
    unfold pointerLine
    simp only [List.append_assoc, List.map_map, htl]
    rfl
  generalize hs : pointerLine rust cxx (some (cls, mutable)) params ret = s
  rw [hs] at e
  have hlen : (commaSep ((params.map anonymous).map (·.1))).length + 2 ≤ s.length := by rw [e]; simp; omega
  have hlen2 : costRet ret ≤ s.length := by
    have := costRet_le ret
    have h2 : (textRet ret).length ≤ (returnType ret).length := by
      cases ret with
      | none => decide
      | some t => simp [returnType, typeSpace, textRet]
    rw [e]; simp; omega
  have hname := isName_dollar hw
  obtain ⟨w1, w2⟩ := isName_word hname
  obtain ⟨c1, c2⟩ := isName_word hc
  have htail : lex [] tail = constTok mutable ++ .eq :: .amp :: (pathToks (pathOf cls ++ [cxx.cxx.toList]) ++ [.semi]) := by
    have h1 : lex [] ('&' :: (qualified cls ++ (':' :: ':' :: (cxx.cxx.toList ++ [';'])))) =
        .amp :: (pathToks (pathOf cls ++ [cxx.cxx.toList]) ++ [.semi]) := by
      rw [lex_amp, lex_qualified hcls (by intro c hc; cases hc; decide), lex_colons, lex_whole c1 c2
        (by intro c hc; cases hc; decide)]
      · simp [pathToks, lex, isWordChar, flush]
      · rcases starts_qualified hcls with ⟨c, r, h, h2⟩ | ⟨c, r, h, h2⟩
        · rw [h]; rintro ⟨⟩; exact absurd h2 (by decide)
        · rw [h]; rintro ⟨⟩
    rw [htl, ← h1]
    cases mutable <;> rfl
  have hlex : lex [] s = toksRet ret ++ .lparen :: (pathToks (pathOf cls) ++ .colons :: .star :: .word (rust.toList ++ ['$']) ::
      .rparen :: .lparen :: lex [] (commaSep ((params.map anonymous).map (·.1)) ++ ')' :: tail)) := by
    rw [e, lex_returnType ret hr (by simp)]
    change _ ++ .lparen :: lex [] (qualified cls ++ _) = _
    rw [lex_qualified hcls (by intro c hc; cases hc; decide), lex_colons]
    change _ ++ .lparen :: (_ ++ .colons :: .star :: lex [] ((rust.toList ++ ['$']) ++ _)) = _
    rw [lex_whole w1 w2 (by intro c hc; cases hc; decide)]
    rfl
  have hread := read_ret ret hr (s.length + 1) (by omega) _ (after_lparen (pathToks (pathOf cls) ++ .colons :: .star ::
      .word (rust.toList ++ ['$']) :: .rparen :: .lparen :: lex [] (commaSep ((params.map anonymous).map (·.1)) ++ ')' :: tail)))
  rw [ends_lparen] at hread
  have hps := read_list _ hx tail (s.length + 1) (by omega)
  rw [htail] at hps
  have hptr : ∀ r, readPtrName (pathToks (pathOf cls) ++ .colons :: .star :: .word (rust.toList ++ ['$']) :: .rparen :: .lparen :: r) =
      some (some (pathOf cls), rust.toList ++ ['$'], r) := by
    intro r
    have h1 := readPath_end (pathOf cls) (r := .colons :: .star :: .word (rust.toList ++ ['$']) :: .rparen :: .lparen :: r)
      (by intro w s h; cases h)
    rw [readPtrName]
    · rw [h1]; simp only [hnil, ne_eq, not_false_eq_true, hcls, hname, and_self, ↓reduceIte]
    · intro w r hr
      cases hq : pathOf cls with
      | nil => exact absurd hq hnil
      | cons w p => rw [hq] at hr; cases hr
  have hi : readInit (constTok mutable ++ .eq :: .amp :: (pathToks (pathOf cls ++ [cxx.cxx.toList]) ++ [.semi])) =
      some (!mutable, true, pathOf cls ++ [cxx.cxx.toList]) := by
    have h1 := readPath_toks (pathOf cls ++ [cxx.cxx.toList]) (r := [.semi]) (by simp)
    have h2 : (pathOf cls ++ [cxx.cxx.toList]).all isName = true := by simp [hc, List.all_append, hcls]
    have h3 : pathOf cls ++ [cxx.cxx.toList] ≠ [] := by simp
    cases mutable with
    | false =>
      change readInit (.word "const".toList :: .eq :: .amp :: _) = _
      rw [readInit, h1]
      simp only [h2, h3, ne_eq, not_false_eq_true, and_self, ↓reduceIte]; rfl
    | true =>
      change readInit (.eq :: .amp :: _) = _
      rw [readInit, h1]
      simp only [h2, h3, ne_eq, not_false_eq_true, and_self, ↓reduceIte]; rfl
  rw [pointerOf, hlex, hread]
  simp only [hptr, htail, hps, hi]
  simp [Function.comp_def, anonymous]

end Verif.CxxText
