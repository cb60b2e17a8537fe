import Verif.CxxText.Lex
/-!
# Reading back what the generator writes
-/
namespace Verif.CxxText
open Verif.Syntax Verif.Abi

mutual
/-- How deep the reader goes. -/
def cost : CTok → Nat
  | .box t | .vec t | .uniquePtr t | .sharedPtr t | .weakPtr t | .vector t | .slice _ t | .array t _ => cost t + 4
  | .lref _ t | .star _ t => cost t
  | .fn as r => costRet r + costArgs as + 5
  | _ => 1
/-- For a return type. -/
def costRet : Option CTok → Nat
  | none => 1
  | some t => cost t
/-- For the parameters. -/
def costArgs : List CTok → Nat
  | [] => 1
  | t :: rest => cost t + costArgs rest + 1
end

/-- What follows a type. -/
def After (r : List Tok) : Prop := r.head? ≠ some .colons ∧ r.head? ≠ some .lt

/-- The type ends here. -/
def Ends (r : List Tok) : Prop := ∀ t, suffix t r = (t, r)

theorem readPath_end (p : List (List Char)) {r : List Tok} (h : ∀ w s, r ≠ .colons :: .word w :: s) :
    readPath (pathToks p ++ r) = (p, r) := by
  induction p with
  | nil =>
    change readPath r = ([], r)
    unfold readPath
    split
    · exact absurd rfl (h _ _)
    · rfl
  | cons w p ih =>
    change readPath (.colons :: .word w :: (pathToks p ++ r)) = _
    rw [readPath, ih]

theorem readPath_toks (p : List (List Char)) {r : List Tok} (h : r.head? ≠ some .colons) :
    readPath (pathToks p ++ r) = (p, r) :=
  readPath_end p (by rintro w s rfl; exact h rfl)

theorem isName_lits : isName "rust".toList = true ∧ isName "std".toList = true ∧ isName "repr".toList = true := by decide

/-- A path without arguments. -/
theorem read_plain {p : List (List Char)} (hp : p ≠ []) (hn : p.all isName = true) {r : List Tok} (hr : After r) (n : Nat) :
    readType (n + 1) (pathToks p ++ r) = some (suffix (.path p []) r) := by
  cases p with
  | nil => exact absurd rfl hp
  | cons w p =>
    have e : readPath (.colons :: .word w :: (pathToks p ++ r)) = (w :: p, r) := readPath_toks (w :: p) hr.1
    change readType (n + 1) (.colons :: .word w :: (pathToks p ++ r)) = _
    simp only [readType, e, hn, ne_eq, reduceCtorEq, not_false_eq_true, and_self, ↓reduceIte]
    split
    · exact absurd rfl hr.2
    · rfl

/-- A path with arguments. -/
theorem read_inst (ns name : String) (h : ([ns.toList, name.toList]).all isName = true) (r : List Tok) (n : Nat) :
    readType (n + 1) (openToks ns name ++ r) =
      (readArgs n r).map fun x => suffix (.path [ns.toList, name.toList] x.1) x.2 := by
  have e : readPath (.colons :: .word ns.toList :: .colons :: .word name.toList :: .lt :: r) =
      ([ns.toList, name.toList], .lt :: r) := readPath_toks [ns.toList, name.toList] (r := .lt :: r) (by simp)
  change readType (n + 1) (.colons :: .word ns.toList :: .colons :: .word name.toList :: .lt :: r) = _
  simp only [readType, e, h, ne_eq, reduceCtorEq, not_false_eq_true, and_self, ↓reduceIte]

theorem ends_gt (r : List Tok) : Ends (.gt :: r) := fun _ => by simp [suffix]
theorem ends_comma (r : List Tok) : Ends (.comma :: r) := fun _ => by simp [suffix]
theorem ends_lparen (r : List Tok) : Ends (.lparen :: r) := fun _ => by simp [suffix]
theorem ends_rparen (r : List Tok) : Ends (.rparen :: r) := fun _ => by simp [suffix]
theorem ends_nil : Ends [] := fun _ => by simp [suffix]
theorem ends_word {w : List Char} (h : isName w = true) (r : List Tok) : Ends (.word w :: r) := fun _ => by
  have : w ≠ "const".toList := by rintro rfl; exact absurd h (by decide)
  rw [suffix, if_neg this]

/-- The tokens of a type never begin with a number. -/
def Begins (ts : List Tok) : Prop := ∃ r, ts = .colons :: r ∨ ∃ w, ts = .word w :: r ∧ isNumber w = false

theorem begins_append {a : List Tok} (h : Begins a) (b : List Tok) : Begins (a ++ b) := by
  obtain ⟨r, rfl | ⟨w, rfl, hw⟩⟩ := h
  · exact ⟨_, .inl rfl⟩
  · exact ⟨_, .inr ⟨w, rfl, hw⟩⟩

theorem begins_path {p : List (List Char)} (hp : p ≠ []) : Begins (pathToks p) := by
  cases p with
  | nil => exact absurd rfl hp
  | cons w p => exact ⟨_, .inl rfl⟩

theorem begins (t : CTok) : Begins (toks t) := by
  cases t with
  | atom a =>
    rw [toks_atom]
    cases a with
    | bool | char | f32 | f64 => exact ⟨_, .inr ⟨_, rfl, by decide⟩⟩
    | _ => exact ⟨_, .inl rfl⟩
  | named p => rw [toks_named]; exact begins_path (by simp [pathOf])
  | lref m t => rw [toks_lref, List.append_assoc]; exact begins_append (begins t) _
  | star m t => rw [toks_star, List.append_assoc]; exact begins_append (begins t) _
  | voidPtr => exact ⟨_, .inr ⟨_, rfl, by decide⟩⟩
  | box t | vec t | uniquePtr t | sharedPtr t | weakPtr t | vector t | str | slice m t | fn as r | array t n | fat
  | ptrLen => exact ⟨_, .inl rfl⟩
termination_by structural t

theorem begins_ret (t : Option CTok) : Begins (toksRet t) := by
  cases t with
  | none => exact ⟨_, .inr ⟨_, rfl, by decide⟩⟩
  | some t => exact begins t

/-- A template argument that is a type. -/
theorem readArg_type {ts : List Tok} (hb : Begins ts) {t : CType} {r : List Tok} {n : Nat}
    (h : readType n ts = some (t, r)) (hr : r.head? ≠ some .lparen) : readArg (n + 1) ts = some (t, r) := by
  obtain ⟨s, rfl | ⟨w, rfl, hw⟩⟩ := hb
  · rw [readArg]
    · rw [h]
      split
      · next h1 => cases h1; exact absurd rfl hr
      · rfl
    · intro _ _ hx; cases hx
  · rw [readArg, if_neg (by simp [hw]), h]
    split
    · next h1 => cases h1; exact absurd rfl hr
    · rfl

/-- A template argument that is the type of a function. -/
theorem readArg_fn {ts : List Tok} (hb : Begins ts) {t : CType} {r : List Tok} {n : Nat}
    (h : readType n ts = some (t, .lparen :: r)) :
    readArg (n + 1) ts = (readParams n r).map fun x => (.fn t (x.1.map (·.1)), x.2) := by
  obtain ⟨s, rfl | ⟨w, rfl, hw⟩⟩ := hb
  · rw [readArg]
    · rw [h]
    · intro _ _ hx; cases hx
  · rw [readArg, if_neg (by simp [hw]), h]

theorem suffix_const (t : CType) (m : Bool) (r : List Tok) : suffix t (constTok m ++ r) = suffix (t.unless m) r := by
  cases m with
  | false => change suffix t (.word "const".toList :: r) = _; rw [suffix, if_pos rfl]; rfl
  | true => rfl

theorem after_const (m : Bool) {r : List Tok} (h : After r) : After (constTok m ++ r) := by
  cases m with
  | false => exact ⟨by simp [constTok], by simp [constTok]⟩
  | true => exact h

/-- One argument. -/
theorem readArgs_one {ts : List Tok} {a : CType} {r : List Tok} {n : Nat} (h : readArg n ts = some (a, .gt :: r)) :
    readArgs (n + 1) ts = some ([a], r) := by
  rw [readArgs, h]

theorem readArgs_two {ts : List Tok} {a : CType} {w : List Char} (hw : isNumber w = true) {r : List Tok} {n : Nat}
    (h : readArg (n + 2) ts = some (a, .comma :: .word w :: .gt :: r)) :
    readArgs (n + 3) ts = some ([a, .number w], r) := by
  rw [readArgs, h]
  simp only
  rw [readArgs_one (r := r) (a := .number w)]
  · rfl
  · rw [readArg, if_pos hw]

/-- A parameter list that begins with a type. -/
theorem readParams_begins {ts : List Tok} (hb : Begins ts) (n : Nat) : readParams (n + 1) ts = readParams1 n ts := by
  rw [readParams]
  rintro r rfl
  obtain ⟨s, h | ⟨w, h, _⟩⟩ := hb <;> cases h

theorem after_gt (r : List Tok) : After (.gt :: r) := ⟨by simp, by simp⟩
theorem after_comma (r : List Tok) : After (.comma :: r) := ⟨by simp, by simp⟩
theorem after_lparen (r : List Tok) : After (.lparen :: r) := ⟨by simp, by simp⟩
theorem after_rparen (r : List Tok) : After (.rparen :: r) := ⟨by simp, by simp⟩
theorem after_word (w : List Char) (r : List Tok) : After (.word w :: r) := ⟨by simp, by simp⟩

theorem read_atom (a : Atom) {r : List Tok} (hr : After r) (n : Nat) :
    readType (n + 1) (atomToks a ++ r) = some (suffix (atomType a) r) := by
  cases a with
  | bool | char | f32 | f64 => rw [atomToks, atomType]; simp only [List.cons_append, List.nil_append]; rw [readType]; rfl
  | _ => exact read_plain (by simp) (by decide) hr n

theorem read_inst1 (ns name : String) (h : ([ns.toList, name.toList]).all isName = true) {ts r : List Tok} {a : CType} {n : Nat}
    (hb : Begins ts) (ht : readType n (ts ++ .gt :: r) = some (a, .gt :: r)) :
    readType (n + 3) (openToks ns name ++ (ts ++ .gt :: r)) = some (suffix (.path [ns.toList, name.toList] [a]) r) := by
  rw [read_inst ns name h, readArgs_one (readArg_type (begins_append hb _) ht (by simp))]
  rfl

/-! ### Parameters -/

/-- A parameter: its tokens, and what is read from them. -/
structure Param where
  ts : List Tok
  t : CType
  name : Option (List Char)
  cost : Nat

/-- The tokens of the name. -/
def nameToks (o : Option (List Char)) : List Tok := o.toList.map .word

/-- The tokens are read as the type and the name. -/
structure Param.Good (p : Param) : Prop where
  begins : Begins p.ts
  read : ∀ n, p.cost ≤ n → ∀ r, (∃ s, r = .comma :: s ∨ r = .rparen :: s) →
    readType n (p.ts ++ r) = some (p.t, nameToks p.name ++ r)
  name : ∀ w, p.name = some w → isName w = true

/-- What it takes to read all of them. -/
def total : List Param → Nat
  | [] => 1
  | p :: rest => p.cost + total rest + 1

theorem total_pos (ps : List Param) : 1 ≤ total ps := by cases ps <;> simp only [total] <;> omega

theorem readParams1_list (p : Param) (ps : List Param) (h : ∀ q ∈ p :: ps, q.Good) (n : Nat) (hn : p.cost + total ps ≤ n)
    (r : List Tok) : readParams1 n (commaToks ((p :: ps).map (·.ts)) ++ .rparen :: r) =
      some ((p :: ps).map fun p => (p.t, p.name), r) := by
  induction ps generalizing p n with
  | nil =>
    simp only [total] at hn
    obtain ⟨n, rfl⟩ : ∃ k, n = k + 1 := ⟨n - 1, by omega⟩
    obtain ⟨_, h2, h3⟩ := h p (by simp)
    simp only [List.map_cons, List.map_nil, commaToks]
    rw [readParams1, h2 n (by omega) _ ⟨_, .inr rfl⟩]
    cases hp : p.name with
    | none => simp [nameToks]
    | some w => simp [nameToks, h3 w hp]
  | cons q ps ih =>
    simp only [total] at hn
    have := total_pos ps
    obtain ⟨n, rfl⟩ : ∃ k, n = k + 1 := ⟨n - 1, by omega⟩
    obtain ⟨_, h2, h3⟩ := h p (by simp)
    have hq := ih q (fun x hx => h x (List.mem_cons_of_mem _ hx)) n (by omega)
    simp only [List.map_cons, commaToks, List.append_assoc, List.cons_append] at hq ⊢
    rw [readParams1, h2 n (by omega) _ ⟨_, .inl rfl⟩]
    cases hp : p.name with
    | none => simp [nameToks, hq]
    | some w => simp [nameToks, h3 w hp, hq]

/-- Reading a list of parameters. -/
theorem readParams_list (ps : List Param) (h : ∀ q ∈ ps, q.Good) (n : Nat) (hn : total ps ≤ n)
    (r : List Tok) : readParams n (commaToks (ps.map (·.ts)) ++ .rparen :: r) = some (ps.map fun p => (p.t, p.name), r) := by
  have := total_pos ps
  obtain ⟨n, rfl⟩ : ∃ k, n = k + 1 := ⟨n - 1, by omega⟩
  cases ps with
  | nil => simp only [List.map_nil, commaToks, List.nil_append]; rw [readParams]
  | cons p ps =>
    simp only [total] at hn
    rw [readParams_begins, readParams1_list p ps h n (by omega)]
    cases ps with
    | nil => exact begins_append (h p (by simp)).begins _
    | cons q ps =>
      simp only [List.map_cons, commaToks, List.append_assoc]
      exact begins_append (h p (by simp)).begins _

/-- Parameters without names. -/
def nameless (as : List CTok) : List Param := as.map fun t => ⟨toks t, denote t, none, cost t⟩

theorem toksArgs_map (as : List CTok) : toksArgs as = as.map toks := by
  induction as with
  | nil => rfl
  | cons t as ih => simp only [toksArgs, List.map_cons, ih]

theorem denoteArgs_map (as : List CTok) : denoteArgs as = as.map denote := by
  induction as with
  | nil => rfl
  | cons t as ih => simp only [denoteArgs, List.map_cons, ih]

theorem costArgs_eq (as : List CTok) : costArgs as = total (nameless as) := by
  induction as with
  | nil => rfl
  | cons t as ih => simp only [costArgs, ih]; rfl

mutual
/-- Reading the tokens of a type gives the type it stands for. -/
theorem read_toks (t : CTok) (h : Ok t) (n : Nat) (hn : cost t ≤ n) (r : List Tok) (hr : After r) :
    readType n (toks t ++ r) = some (suffix (denote t) r) := by
  cases t with
  | atom a =>
    obtain ⟨n, rfl⟩ : ∃ k, n = k + 1 := ⟨n - 1, by simp only [cost] at hn; omega⟩
    rw [toks_atom]; exact read_atom a hr n
  | named p =>
    obtain ⟨n, rfl⟩ : ∃ k, n = k + 1 := ⟨n - 1, by simp only [cost] at hn; omega⟩
    simp only [Ok] at h
    rw [toks_named]; exact read_plain (by simp [pathOf]) h hr n
  | str =>
    obtain ⟨n, rfl⟩ : ∃ k, n = k + 1 := ⟨n - 1, by simp only [cost] at hn; omega⟩
    rw [toks_str]; exact read_plain (by simp) (by decide) hr n
  | fat =>
    obtain ⟨n, rfl⟩ : ∃ k, n = k + 1 := ⟨n - 1, by simp only [cost] at hn; omega⟩
    rw [toks_fat]; exact read_plain (by simp) (by decide) hr n
  | ptrLen =>
    obtain ⟨n, rfl⟩ : ∃ k, n = k + 1 := ⟨n - 1, by simp only [cost] at hn; omega⟩
    rw [toks_ptrLen]; exact read_plain (by simp) (by decide) hr n
  | voidPtr =>
    obtain ⟨n, rfl⟩ : ∃ k, n = k + 1 := ⟨n - 1, by simp only [cost] at hn; omega⟩
    rw [toks_voidPtr]; simp only [List.cons_append, List.nil_append]; rw [readType]; rfl
  | box t =>
    simp only [Ok] at h; simp only [cost] at hn
    obtain ⟨n, rfl⟩ : ∃ k, n = k + 3 := ⟨n - 3, by omega⟩
    simp only [toks_box, List.append_assoc, List.cons_append, List.nil_append]
    refine read_inst1 "rust" "Box" (by decide) (begins t) ?_
    rw [read_toks t h n (by omega) _ (after_gt r), ends_gt]
  | vec t =>
    simp only [Ok] at h; simp only [cost] at hn
    obtain ⟨n, rfl⟩ : ∃ k, n = k + 3 := ⟨n - 3, by omega⟩
    simp only [toks_vec, List.append_assoc, List.cons_append, List.nil_append]
    refine read_inst1 "rust" "Vec" (by decide) (begins t) ?_
    rw [read_toks t h n (by omega) _ (after_gt r), ends_gt]
  | uniquePtr t =>
    simp only [Ok] at h; simp only [cost] at hn
    obtain ⟨n, rfl⟩ : ∃ k, n = k + 3 := ⟨n - 3, by omega⟩
    simp only [toks_uniquePtr, List.append_assoc, List.cons_append, List.nil_append]
    refine read_inst1 "std" "unique_ptr" (by decide) (begins t) ?_
    rw [read_toks t h n (by omega) _ (after_gt r), ends_gt]
  | sharedPtr t =>
    simp only [Ok] at h; simp only [cost] at hn
    obtain ⟨n, rfl⟩ : ∃ k, n = k + 3 := ⟨n - 3, by omega⟩
    simp only [toks_sharedPtr, List.append_assoc, List.cons_append, List.nil_append]
    refine read_inst1 "std" "shared_ptr" (by decide) (begins t) ?_
    rw [read_toks t h n (by omega) _ (after_gt r), ends_gt]
  | weakPtr t =>
    simp only [Ok] at h; simp only [cost] at hn
    obtain ⟨n, rfl⟩ : ∃ k, n = k + 3 := ⟨n - 3, by omega⟩
    simp only [toks_weakPtr, List.append_assoc, List.cons_append, List.nil_append]
    refine read_inst1 "std" "weak_ptr" (by decide) (begins t) ?_
    rw [read_toks t h n (by omega) _ (after_gt r), ends_gt]
  | vector t =>
    simp only [Ok] at h; simp only [cost] at hn
    obtain ⟨n, rfl⟩ : ∃ k, n = k + 3 := ⟨n - 3, by omega⟩
    simp only [toks_vector, List.append_assoc, List.cons_append, List.nil_append]
    refine read_inst1 "std" "vector" (by decide) (begins t) ?_
    rw [read_toks t h n (by omega) _ (after_gt r), ends_gt]
  | lref m t =>
    simp only [Ok] at h; simp only [cost] at hn
    rw [toks_lref, List.append_assoc, List.append_assoc, read_toks t h.1 n hn _ (after_const m ⟨by simp, by simp⟩), suffix_const]
    rfl
  | star m t =>
    simp only [Ok] at h; simp only [cost] at hn
    rw [toks_star, List.append_assoc, List.append_assoc, read_toks t h n hn _ (after_const m ⟨by simp, by simp⟩), suffix_const]
    rfl
  | slice m t =>
    simp only [Ok] at h; simp only [cost] at hn
    obtain ⟨n, rfl⟩ : ∃ k, n = k + 3 := ⟨n - 3, by omega⟩
    simp only [toks_slice, List.append_assoc, List.cons_append, List.nil_append]
    rw [← List.append_assoc (toks t)]
    refine read_inst1 "rust" "Slice" (by decide) (begins_append (begins t) _) ?_
    rw [List.append_assoc, read_toks t h n (by omega) _ (after_const m (after_gt r)), suffix_const, ends_gt]
  | array t k =>
    simp only [Ok] at h; simp only [cost] at hn
    obtain ⟨n, rfl⟩ : ∃ k, n = k + 4 := ⟨n - 4, by omega⟩
    simp only [toks_array, List.append_assoc, List.cons_append, List.nil_append]
    have h1 : readType (n + 1) (toks t ++ .comma :: .word (Nat.repr k).toList :: .gt :: r) =
        some (denote t, .comma :: .word (Nat.repr k).toList :: .gt :: r) := by
      rw [read_toks t h (n + 1) (by omega) _ (after_comma _), ends_comma]
    rw [read_inst "std" "array" (by decide),
      readArgs_two (repr_word k).2.2 (readArg_type (begins_append (begins t) _) h1 (by simp))]
    rfl
  | fn as ret =>
    simp only [Ok] at h; simp only [cost] at hn
    obtain ⟨n, rfl⟩ : ∃ k, n = k + 3 := ⟨n - 3, by omega⟩
    simp only [toks_fn, List.append_assoc, List.cons_append, List.nil_append]
    have h1 : readType n (toksRet ret ++ .lparen :: (commaToks (toksArgs as) ++ .rparen :: .gt :: r)) =
        some (denoteRet ret, .lparen :: (commaToks (toksArgs as) ++ .rparen :: .gt :: r)) := by
      rw [read_ret ret h.1 n (by omega) _ (after_lparen _), ends_lparen]
    have h2 : readArg (n + 1) (toksRet ret ++ .lparen :: (commaToks (toksArgs as) ++ .rparen :: .gt :: r)) =
        some (.fn (denoteRet ret) (denoteArgs as), .gt :: r) := by
      rw [readArg_fn (begins_append (begins_ret ret) _) h1, read_args as h.2 n (by omega) (.gt :: r)]
      simp [Function.comp_def]
    rw [read_inst "rust" "Fn" (by decide), readArgs_one h2]
    rfl
/-- Reading a return type. -/
theorem read_ret (t : Option CTok) (h : OkRet t) (n : Nat) (hn : costRet t ≤ n) (r : List Tok) (hr : After r) :
    readType n (toksRet t ++ r) = some (suffix (denoteRet t) r) := by
  cases t with
  | none =>
    obtain ⟨n, rfl⟩ : ∃ k, n = k + 1 := ⟨n - 1, by simp only [costRet] at hn; omega⟩
    rw [toksRet]; simp only [List.cons_append, List.nil_append]; rw [readType]; rfl
  | some t =>
    simp only [OkRet] at h; simp only [costRet] at hn
    exact read_toks t h n hn r hr
/-- Reading parameters without names. -/
theorem read_args (as : List CTok) (h : OkArgs as) (n : Nat) (hn : costArgs as ≤ n) (r : List Tok) :
    readParams n (commaToks (toksArgs as) ++ .rparen :: r) = some ((denoteArgs as).map (·, none), r) := by
  have e1 : toksArgs as = (nameless as).map (·.ts) := by rw [nameless, List.map_map]; exact toksArgs_map as
  have e2 : (denoteArgs as).map (·, none) = (nameless as).map fun p => (p.t, p.name) := by
    rw [nameless, List.map_map, denoteArgs_map, List.map_map]; rfl
  rw [e1, e2]
  exact readParams_list _ (read_each as h) n (by rw [← costArgs_eq]; exact hn) r
/-- Reading each of them. -/
theorem read_each (as : List CTok) (h : OkArgs as) : ∀ p ∈ nameless as, p.Good := by
  cases as with
  | nil => intro p hp; cases hp
  | cons t rest =>
    intro p hp
    simp only [OkArgs] at h
    rcases List.mem_cons.1 hp with rfl | hp
    · refine ⟨begins t, fun n hn r hr => ?_, fun w hw => by cases hw⟩
      have := read_toks t h.1 n hn r (by rcases hr with ⟨r, rfl | rfl⟩; exact after_comma r; exact after_rparen r)
      rcases hr with ⟨r, rfl | rfl⟩
      · rw [ends_comma] at this; exact this
      · rw [ends_rparen] at this; exact this
    · exact read_each rest h.2 p hp
end

end Verif.CxxText
