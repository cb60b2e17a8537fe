import Verif.Together.Spec
import Verif.Preamble.BuiltinCheck
import Verif.Preamble.BuiltinProps
/-!
# Preprocessing piece by piece

The pieces are checked against their text by the kernel, for every outcome of the conditions in them.
-/
namespace Verif.Together
open Verif.Preamble
open Verif.Header (Chunk Chunk.lines Cxx.layout bodies guards)

/-! ### Preprocessing -/

/-- `preprocess` with the conditionals that are open in the end. -/
noncomputable def run (cond : Text → Bool) : List Bool → List Text → List Text → List Text × List Bool × List Text
  | taken, defined, [] => ([], taken, defined)
  | taken, defined, l :: ls =>
    match directive l with
    | .ifndef g => run cond ((!defined.contains g) :: taken) defined ls
    | .cond c => run cond (cond c :: taken) defined ls
    | .els => run cond (flip taken) defined ls
    | .endif => run cond taken.tail defined ls
    | .define g => run cond taken (if taken.all id then g :: defined else defined) ls
    | .nothing => (if taken.all id then l :: (run cond taken defined ls).1 else (run cond taken defined ls).1,
      (run cond taken defined ls).2)

theorem preprocess_run (cond : Text → Bool) (ls : List Text) : ∀ taken defined,
    preprocess cond taken defined ls = ((run cond taken defined ls).1, (run cond taken defined ls).2.2) := by
  induction ls with
  | nil => intro _ _; rfl
  | cons l ls ih =>
    intro taken defined
    unfold preprocess run
    cases directive l <;> simp only [ih]

theorem run_append (cond : Text → Bool) (a b : List Text) : ∀ taken defined,
    run cond taken defined (a ++ b) =
      ((run cond taken defined a).1 ++ (run cond (run cond taken defined a).2.1 (run cond taken defined a).2.2 b).1,
        (run cond (run cond taken defined a).2.1 (run cond taken defined a).2.2 b).2) := by
  induction a with
  | nil => intro _ _; rfl
  | cons l ls ih =>
    intro taken defined
    rw [List.cons_append, run, run]
    cases directive l with
    | nothing => simp only [ih]; split <;> simp
    | _ => simp only [ih]

/-- The line neither asks for nor defines a macro. -/
noncomputable def calm (l : Text) : Bool :=
  match directive l with
  | .ifndef _ | .define _ => false
  | _ => true

theorem run_calm (cond : Text → Bool) (ls : List Text) (h : ls.all calm = true) : ∀ taken defined,
    run cond taken defined ls = ((run cond taken [] ls).1, (run cond taken [] ls).2.1, defined) := by
  induction ls with
  | nil => intro _ _; rfl
  | cons l ls ih =>
    intro taken defined
    rw [List.all_cons, Bool.and_eq_true] at h
    have hc := h.1
    rw [calm] at hc
    rw [run, run]
    cases hd : directive l with
    | ifndef g => rw [hd] at hc; cases hc
    | define g => rw [hd] at hc; cases hc
    | nothing => simp only [ih h.2 taken defined]
    | _ => simp only; exact ih h.2 _ _

/-- The conditions in a text. -/
noncomputable def conds : List Text → List Text
  | [] => []
  | l :: ls => match directive l with
    | .cond c => c :: conds ls
    | _ => conds ls

theorem run_conds (a b : Text → Bool) (ls : List Text) (h : ∀ c ∈ conds ls, a c = b c) : ∀ taken defined,
    run a taken defined ls = run b taken defined ls := by
  induction ls with
  | nil => intro _ _; rfl
  | cons l ls ih =>
    intro taken defined
    rw [conds] at h
    rw [run, run]
    cases hd : directive l with
    | cond c => rw [hd] at h; simp only at h ⊢; rw [h c (by simp)]; exact ih (fun x hx => h x (by simp [hx])) _ _
    | nothing => rw [hd] at h; simp only at h ⊢; rw [ih h]
    | _ => rw [hd] at h; simp only at h ⊢; exact ih h _ _

/-- All outcomes of these conditions. -/
def assignments : List Text → List (Text → Bool)
  | [] => [fun _ => false]
  | c :: cs => (assignments cs).flatMap fun a => [fun x => bif sameB x c then true else a x, fun x => bif sameB x c then false else a x]

theorem sameB_iff (s t : List Tok) : sameB s t = true ↔ s = t := by
  refine ⟨sameB_spec, ?_⟩
  rintro rfl
  induction s with
  | nil => rfl
  | cons a s ih => simp [sameB, ih, Nat.beq_eq_true_eq]

theorem assignments_all (cond : Text → Bool) (cs : List Text) : ∃ a ∈ assignments cs, ∀ c ∈ cs, a c = cond c := by
  induction cs with
  | nil => exact ⟨fun _ => false, by simp [assignments], nofun⟩
  | cons c cs ih =>
    obtain ⟨a, ha, h⟩ := ih
    refine ⟨fun x => bif sameB x c then cond c else a x, ?_, ?_⟩
    · unfold assignments
      refine List.mem_flatMap.2 ⟨a, ha, ?_⟩
      cases cond c <;> simp
    · intro x hx
      by_cases hxc : x = c
      · subst hxc; simp [(sameB_iff x x).2 rfl]
      · have : sameB x c = false := by
          cases hs : sameB x c
          · rfl
          · exact absurd (sameB_spec hs) hxc
        simp only [this, cond_false]
        exact h x (by simpa [hxc] using hx)

/-! ### Definitions -/

theorem scan_append (a b : List Tok) : ∀ s, scan s (a ++ b) =
    ((scan s a).1 ++ (scan (scan s a).2 b).1, (scan (scan s a).2 b).2) := by
  induction a with
  | nil => intro _; rfl
  | cons t a ih => intro s; rw [List.cons_append, scan, scan, ih]; simp

def sameL : List (List Tok) → List (List Tok) → Bool
  | [], [] => true
  | a :: s, b :: t => sameB a b && sameL s t
  | _, _ => false

theorem sameL_spec : ∀ {s t : List (List Tok)}, sameL s t = true → s = t
  | [], [], _ => rfl
  | a :: s, b :: t, h => by
    rw [sameL, Bool.and_eq_true] at h
    rw [sameB_spec h.1, sameL_spec h.2]

def sameO : List (Option (List Tok)) → List (Option (List Tok)) → Bool
  | [], [] => true
  | some a :: s, some b :: t => sameB a b && sameO s t
  | none :: s, none :: t => sameO s t
  | _, _ => false

theorem sameO_spec : ∀ {s t : List (Option (List Tok))}, sameO s t = true → s = t
  | [], [], _ => rfl
  | some a :: s, some b :: t, h => by
    rw [sameO, Bool.and_eq_true] at h
    rw [sameB_spec h.1, sameO_spec h.2]
  | none :: s, none :: t, h => by rw [sameO_spec (s := s) (t := t) h]

/-- Between declarations, in these blocks. -/
def within (blocks : List (Option (List Tok))) : Scan := ⟨blocks, .other, false, []⟩

def isWithin (s : Scan) (blocks : List (Option (List Tok))) : Bool :=
  sameO s.blocks blocks && !s.naming && s.name.isEmpty && match s.head with | .other => true | _ => false

theorem isWithin_spec {s : Scan} {blocks : List (Option (List Tok))} (h : isWithin s blocks = true) : s = within blocks := by
  obtain ⟨bl, hd, nm, na⟩ := s
  simp only [isWithin, Bool.and_eq_true, Bool.not_eq_true', List.isEmpty_iff] at h
  obtain ⟨⟨⟨h1, h2⟩, h3⟩, h4⟩ := h
  rw [sameO_spec h1, h2, h3]
  cases hd <;> first | rfl | cases h4

/-- The blocks as they are read. -/
def nameOf : Blk → Option (List Tok)
  | .rust => some [w!"rust"]
  | .cxxbridge1 => some []
  | .repr => some [w!"repr"]
  | .detail => some [w!"detail"]
  | .behavior => some [w!"behavior"]
  | .anonymous => some []

def at_ (s : List Blk) : Scan := within (s.map nameOf)

/-- The types a text defines within these blocks. -/
noncomputable def defsIn (s : List Blk) (ls : List Text) : List (List Tok) := (scan (at_ s) (tokensOf ls)).1

/-- Read within these blocks, the text ends there, and the types are these. -/
noncomputable def reads (s : List Blk) (ls : List Text) (defs : List (List Tok)) : Bool :=
  isWithin (scan (at_ s) (tokensOf ls)).2 (s.map nameOf) && sameL (scan (at_ s) (tokensOf ls)).1 defs

theorem reads_spec {s : List Blk} {ls : List Text} {defs : List (List Tok)} (h : reads s ls defs = true) :
    scan (at_ s) (tokensOf ls) = (defs, at_ s) := by
  rw [reads, Bool.and_eq_true] at h
  exact Prod.ext (sameL_spec h.2) (isWithin_spec h.1)

/-- A text between `#ifndef` and `#endif`: whatever the conditions, they match up, nothing is left of it if the outer
one is off, and otherwise it defines these types. -/
noncomputable def solid (ls : List Text) (defs : List (List Tok)) : Bool :=
  ls.all calm && (assignments (conds ls)).all fun a =>
    (match (run a [true] [] ls).2.1 with | [true] => true | _ => false) &&
    (match (run a [false] [] ls).2.1 with | [false] => true | _ => false) &&
    (run a [false] [] ls).1.isEmpty &&
    reads top (run a [true] [] ls).1 defs

theorem solid_spec {ls : List Text} {defs : List (List Tok)} (h : solid ls defs = true) (cond : Text → Bool) (defined : List Text) :
    (∃ k, run cond [true] defined ls = (k, [true], defined) ∧ scan (at_ top) (tokensOf k) = (defs, at_ top)) ∧
    run cond [false] defined ls = ([], [false], defined) := by
  rw [solid, Bool.and_eq_true] at h
  obtain ⟨a, ha, hc⟩ := assignments_all cond (conds ls)
  have := List.all_eq_true.1 h.2 a ha
  simp only [Bool.and_eq_true, List.isEmpty_iff] at this
  obtain ⟨⟨⟨h1, h2⟩, h3⟩, h4⟩ := this
  have e1 : (run a [true] [] ls).2.1 = [true] := by
    revert h1; split <;> simp_all
  have e2 : (run a [false] [] ls).2.1 = [false] := by
    revert h2; split <;> simp_all
  refine ⟨⟨(run a [true] [] ls).1, ?_, reads_spec h4⟩, ?_⟩
  · rw [← run_conds a cond ls hc, run_calm a ls h.1, e1]
  · rw [← run_conds a cond ls hc, run_calm a ls h.1, e2, h3]

/-! ### The sections -/

def off : Text → Bool := fun _ => false

/-- Whether the first line defines the macro, and the rest. -/
noncomputable def strip (g : Text) : List Text → Bool × List Text
  | [] => (false, [])
  | l :: ls => bif sameB l (Verif.Header.define ++ g) then (true, ls) else (false, l :: ls)

/-- The types defined in one part of rust/cxx.h. -/
noncomputable def bodyDefs (g : Text) (body : List Text) : List (List Tok) :=
  defsIn top (run off [true] [] (strip g body).2).1

/-- The types defined in the parts with this guard. -/
noncomputable def secDefs (g : Text) : List (List Tok) := (bodies g Cxx.layout).flatMap (bodyDefs g)

noncomputable def chunkOk : Chunk → Bool
  | .text _ => true
  | .guarded g body => solid (strip g body).2 (bodyDefs g body)

theorem chunks_ok : ∀ c ∈ Cxx.layout, chunkOk c = true := by
  have : Cxx.layout.all chunkOk = true := by decide +kernel
  simpa [List.all_eq_true] using this

/-- What the generator copies for this guard. -/
noncomputable def copy (g : Text) : List Text := (bodies g Cxx.layout).flatMap (keptB (Verif.Header.define ++ g))

theorem copy_ok (s : Sec) : solid (copy s.guard) (secDefs s.guard) = true := by
  cases s <;> decide +kernel

/-! ### The rest of rust/cxx.h -/

/-- Not for the preprocessor. -/
def plain (l : Text) : Bool :=
  match l with
  | 35 :: _ => false
  | _ => true

theorem directive_plain {l : Text} (h : plain l = true) : directive l = .nothing := by
  unfold directive
  split
  · cases h
  · rfl

theorem run_plain (cond : Text → Bool) (ls : List Text) (h : ls.all plain = true) (defined : List Text) :
    run cond [] defined ls = (ls, [], defined) := by
  induction ls with
  | nil => rfl
  | cons l ls ih =>
    rw [List.all_cons, Bool.and_eq_true] at h
    rw [run, directive_plain h.1]
    simp [ih h.2]

/-- The beginning of rust/cxx.h, and the rest. -/
noncomputable def opening : List Text := (Cxx.layout.take 40).flatMap Chunk.lines
noncomputable def following : List Chunk := Cxx.layout.drop 40

/-- The beginning of rust/cxx.h opens the namespaces. -/
theorem opening_reads (cond : Text → Bool) (defined : List Text) :
    ∃ k, run cond [] defined opening = (k, [], defined) ∧ scan (at_ []) (tokensOf k) = ([], at_ top) := by
  have h : (opening.all calm && (assignments (conds opening)).all fun a =>
    (run a [] [] opening).2.1.isEmpty && isWithin (scan (at_ []) (tokensOf (run a [] [] opening).1)).2 (top.map nameOf) &&
      (scan (at_ []) (tokensOf (run a [] [] opening).1)).1.isEmpty) = true := by decide +kernel
  rw [Bool.and_eq_true] at h
  obtain ⟨a, ha, hc⟩ := assignments_all cond (conds opening)
  have := List.all_eq_true.1 h.2 a ha
  simp only [Bool.and_eq_true, List.isEmpty_iff] at this
  obtain ⟨⟨h1, h2⟩, h3⟩ := this
  refine ⟨(run a [] [] opening).1, ?_, Prod.ext h3 (isWithin_spec h2)⟩
  rw [← run_conds a cond _ hc, run_calm a _ h.1, h1]

/-- No later part has this guard. -/
noncomputable def over (g : Text) (cs : List Chunk) : Bool :=
  cs.all fun
    | .text _ => true
    | .guarded g' _ => !sameB g' g

/-- Between the parts with guards there are declarations that define nothing, and a macro is defined in the last part
with its guard. -/
noncomputable def walk : Scan → List Chunk → Bool
  | s, [] => isWithin s []
  | s, .text l :: cs => plain l && (scan s (lineTokens l)).1.isEmpty && walk (scan s (lineTokens l)).2 cs
  | s, .guarded g body :: cs => isWithin s (top.map nameOf) && (!(strip g body).1 || over g cs) && walk s cs

theorem walk_ok : walk (at_ top) following = true := by decide +kernel

/-- Every macro is defined. -/
noncomputable def definesMacro (g : Text) : Chunk → Bool
  | .text _ => false
  | .guarded g' body => sameB g' g && (strip g body).1

theorem all_defined (s : Sec) : following.any (definesMacro s.guard) = true := by
  have : guards.all (fun g => following.any (definesMacro g)) = true := by decide +kernel
  exact List.all_eq_true.1 this _ (guard_mem s)

/-- The guards are those of the sections. -/
theorem guards_sec {g : Text} {body : List Text} (h : Chunk.guarded g body ∈ Cxx.layout) : ∃ s : Sec, g = s.guard := by
  have : Cxx.layout.all (fun | .text _ => true | .guarded g _ => guards.any (sameB g)) = true := by decide +kernel
  have := List.all_eq_true.1 this _ h
  simp only [List.any_eq_true] at this
  obtain ⟨g', hg', he⟩ := this
  rw [sameB_spec he]
  have key : ∀ g ∈ guards, ∃ s : Sec, g = s.guard := by
    have : ([.panic, .rustString, .rustStr, .rustSlice, .rustBox, .bitcopyT, .bitcopy, .rustVec, .rustFn, .rustError, .rustIsize,
      .rustOpaque, .isComplete, .layout, .relocatable] : List Sec).map Sec.guard = guards := rfl
    intro g hg
    rw [← this] at hg
    obtain ⟨s, -, hs⟩ := List.mem_map.1 hg
    exact ⟨s, hs.symm⟩
  exact key g' hg'

/-! ### The other pieces -/

/-- Where a piece stands. -/
def home : Piece → List Blk
  | .fwdImpl | .implStr .. | .implSlice .. | .implError | .destroy | .deleterIf | .relocatableOrArray => anon
  | .fat | .ptrLen => .repr :: top
  | .operatorNew | .fail => .detail :: top
  | .trycatch => [.behavior, .rust]
  | _ => top

def isCopy : Piece → Bool
  | .copied _ => true
  | _ => false

/-- The types defined in a piece. -/
noncomputable def ownDefs (p : Piece) : List (List Tok) := defsIn (home p) p.lines

theorem own_ok (p : Piece) (h : isCopy p = false) : (p.lines.all plain && reads (home p) p.lines (ownDefs p)) = true := by
  match p with
  | .copied s => cases h
  | .implStr true true | .implStr true false | .implStr false true | .implStr false false
  | .implSlice true true | .implSlice true false | .implSlice false true | .implSlice false false
  | .comment | .fwdBitcopyT | .fwdImpl | .fwdString | .fwdOpaque | .fwdLayout | .strUninit | .sliceUninit | .fat | .ptrLen
  | .operatorNew | .fail | .manuallyDrop | .maybeUninit | .implError | .destroy | .deleterIf | .relocatableOrArray
  | .trycatch => decide +kernel

/-- Pieces that define something, one for each rank. -/
def owners : List Piece :=
  [.strUninit, .sliceUninit, .ptrLen, .operatorNew, .fail, .manuallyDrop, .maybeUninit, .implStr true true, .implSlice true true,
   .implError, .deleterIf, .relocatableOrArray, .trycatch]

theorem owners_all (p : Piece) (h : isCopy p = false) : ownDefs p = [] ∨ ∃ q ∈ owners, ownDefs p = ownDefs q ∧ q.rank = p.rank := by
  match p with
  | .copied s => cases h
  | .implStr true false | .implStr false true | .implStr false false => exact .inr ⟨.implStr true true, by simp [owners], sameL_spec (by decide +kernel), rfl⟩
  | .implSlice true false | .implSlice false true | .implSlice false false =>
    exact .inr ⟨.implSlice true true, by simp [owners], sameL_spec (by decide +kernel), rfl⟩
  | .comment | .fwdBitcopyT | .fwdImpl | .fwdString | .fwdOpaque | .fwdLayout | .fat | .destroy =>
    exact .inl (sameL_spec (t := []) (by decide +kernel))
  | .strUninit | .sliceUninit | .ptrLen | .operatorNew | .fail | .manuallyDrop | .maybeUninit | .implStr true true
  | .implSlice true true | .implError | .deleterIf | .relocatableOrArray | .trycatch =>
    exact .inr ⟨_, by simp [owners], rfl, rfl⟩

/-! ### Nothing is defined twice -/

def nodupB : List (List Tok) → Bool
  | [] => true
  | a :: s => !s.any (sameB a) && nodupB s

theorem nodupB_spec : ∀ {s : List (List Tok)}, nodupB s = true → s.Nodup
  | [], _ => List.nodup_nil
  | a :: s, h => by
    rw [nodupB, Bool.and_eq_true, Bool.not_eq_true', ← Bool.not_eq_true, List.any_eq_true] at h
    rw [List.nodup_cons]
    exact ⟨fun ha => h.1 ⟨a, ha, (sameB_iff a a).2 rfl⟩, nodupB_spec h.2⟩

theorem tables_nodup : (guards.flatMap secDefs ++ owners.flatMap ownDefs).Nodup := nodupB_spec (by decide +kernel)

/-- The types of rust/cxx.h. -/
noncomputable def chunkDefs : Chunk → List (List Tok)
  | .text _ => []
  | .guarded g body => bodyDefs g body

theorem header_nodup : (Cxx.layout.flatMap chunkDefs).Nodup := nodupB_spec (by decide +kernel)

end Verif.Together

