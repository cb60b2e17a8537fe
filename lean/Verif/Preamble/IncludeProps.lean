import Verif.Preamble.IncludeSpec
import Verif.Header.Check
/-!
# The include section
-/
namespace Verif.Preamble

theorem hasCxx_iff (i : Includes) : i.hasCxxHeader = true ↔ UserHasCxx i.custom := by
  have e1 : "rust/cxx.h".toList.map Char.toNat = [114, 117, 115, 116, 47, 99, 120, 120, 46, 104] := by decide +kernel
  have e2 : "rust\\cxx.h".toList.map Char.toNat = [114, 117, 115, 116, 92, 99, 120, 120, 46, 104] := by decide +kernel
  simp [Includes.hasCxxHeader, UserHasCxx, e1, e2]

instance (custom : List Include) : Decidable (UserHasCxx custom) :=
  decidable_of_iff _ (hasCxx_iff ⟨custom, fun _ => false⟩)

/-- The lines of the user, as read. -/
theorem read_custom (p : Platform) (custom : List Include) (ls : List Line) :
    read p [] (custom.map customLine ++ ls) =
      (read p [] ls).map ((custom.map fun h => match h.kind with
        | .quoted => Item.user .quoted (escape h.path)
        | .bracketed => .user .bracketed h.path) ++ ·) := by
  induction custom with
  | nil => simp
  | cons h custom ih =>
    cases hk : h.kind <;> simp [customLine, hk, read, ih, Function.comp_def]

/-- A single header outside of conditionals. -/
theorem read_plain (p : Platform) (b : Bool) (h : Std) (ls : List Line) :
    read p [] ((if b = true then [.std h] else []) ++ ls) = (read p [] ls).map ((if b = true then [.std h] else []) ++ ·) := by
  cases b <;> simp [read]

theorem read_once (p : Platform) (b : Bool) (ls : List Line) :
    read p [] ((if b = true then [.pragmaOnce] else []) ++ ls) = (read p [] ls).map ((if b = true then [.once] else []) ++ ·) := by
  cases b <;> simp [read]

/-- A header in a conditional of its own. -/
theorem read_version (p : Platform) (b : Bool) (h : Std) (v : Nat) (ls : List Line) :
    read p [] ((if b = true then [.ifCplusplus v, .std h, .endif] else []) ++ ls) =
      (read p [] ls).map ((if b = true ∧ v ≤ p.cplusplus then [.std h] else []) ++ ·) := by
  cases b
  · simp
  · by_cases hv : v ≤ p.cplusplus <;> simp [read, hv]

theorem read_win (p : Platform) (b s c : Bool) (ls : List Line) :
    read p [] ((if b && !c then [.ifWin32, .std .basetsd] else []) ++
      ((if s && !c then (if b then [.otherwise] else [.ifNotWin32]) else []) ++
      ((if s && !c then [.std .sysTypes] else []) ++ ((if (b || s) && !c then [.endif] else []) ++ ls)))) =
      (read p [] ls).map (((if (b && !c) = true ∧ p.win32 = true then [.std .basetsd] else []) ++
        (if (s && !c) = true ∧ p.win32 = false then [.std .sysTypes] else [])) ++ ·) := by
  cases b <;> cases s <;> cases c <;> cases hw : p.win32 <;> simp [read, hw, Function.comp_def]

/-- **C30**.  Whatever was asked for, the conditionals of the include section match up, and on every platform it
includes: what the user asked for, in the order given; and of the standard headers asked for those the platform has,
in a fixed order, except that with rust/cxx.h among the user's includes only the ones which that does not provide. -/
theorem includes_exact (p : Platform) (header : Bool) (i : Includes) :
    read p [] (write header i) = some ((if header then [.once] else []) ++
      (i.custom.map fun h => match h.kind with
        | .quoted => Item.user .quoted (escape h.path)
        | .bracketed => .user .bracketed h.path) ++
      (everyStd.filter fun h => i.flag h = true ∧ h.Available p ∧ (UserHasCxx i.custom → h.Extra)).map .std) := by
  have hw := hasCxx_iff i
  generalize hc : i.hasCxxHeader = c at hw
  have hend := read_version p (i.flag .ranges && !c) .ranges 202002 []
  rw [List.append_nil] at hend
  unfold write
  rw [hc]
  simp only [List.append_assoc, read_once, read_custom, read_plain, read_win, read_version]
  rw [hend]
  simp only [read, Option.map_some, List.append_nil]
  congr 1
  congr 1
  congr 1
  have hx : ∀ h : Std, (UserHasCxx i.custom → h.Extra) ↔ (c = false ∨ h.Extra) := by
    intro h
    rw [← hw]
    cases c <;> simp
  have single : ∀ h : Std, ∀ hs : List Std,
      ((h :: hs).filter fun h => decide (i.flag h = true ∧ h.Available p ∧ (c = false ∨ h.Extra))).map Item.std =
      (if i.flag h = true ∧ h.Available p ∧ (c = false ∨ h.Extra) then [Item.std h] else []) ++
      (hs.filter fun h => decide (i.flag h = true ∧ h.Available p ∧ (c = false ∨ h.Extra))).map Item.std := by
    intro h hs
    by_cases hh : i.flag h = true ∧ h.Available p ∧ (c = false ∨ h.Extra)
    · rw [List.filter_cons_of_pos (by simpa using hh), if_pos hh]; rfl
    · rw [List.filter_cons_of_neg (by simpa using hh), if_neg hh]; rfl
  simp only [hx]
  unfold everyStd
  simp only [single, List.filter_nil, List.map_nil, List.append_nil]
  simp [Std.Available, Std.Extra, and_assoc, and_comm, and_left_comm]

/-! ### The header -/

open Verif.Header (Chunk Cxx.layout)

/-- The includes at the top of include/cxx.h. -/
noncomputable def cxxTop : List Line :=
  [.pragmaOnce, .std .algorithm, .std .array, .std .cassert, .std .cstddef, .std .cstdint, .std .exception,
   .std .initializerList, .bracketed b!"iosfwd", .std .iterator, .std .new, .std .stdexcept, .std .string,
   .std .typeTraits, .std .utility, .std .vector, .ifWin32, .std .basetsd, .otherwise, .std .sysTypes, .endif,
   .ifCplusplus 201703, .std .stringView, .endif, .ifCplusplus 202002, .std .ranges, .endif]

/-- They are: the lines of the header up to the first namespace are these, but for empty ones. -/
theorem cxx_top :
    ((Cxx.layout.flatMap Chunk.lines).takeWhile fun l => decide (l ≠ b!"namespace rust {")).filter (· ≠ []) =
      cxxTop.map render := by decide +kernel

/-- rust/cxx.h includes everything which is left out when the user includes it. -/
theorem cxx_provides (p : Platform) {h : Std} (hx : ¬ h.Extra) (ha : h.Available p) :
    ∃ items, read p [] cxxTop = some items ∧ .std h ∈ items := by
  unfold cxxTop
  obtain ⟨w, v⟩ := p
  by_cases h1 : 201703 ≤ v <;> by_cases h2 : 202002 ≤ v <;> cases w <;>
    simp only [read, h1, h2, decide_true, decide_false, List.all_cons, List.all_nil, Bool.and_true, Bool.not_true,
      Bool.not_false, Option.map_some, Bool.false_eq_true, if_true, if_false, Option.some.injEq, exists_eq_left'] <;>
    cases h <;> simp_all [Std.Extra, Std.Available] <;> omega

/-- So every header asked for is there on every platform that has it. -/
theorem requested_included (p : Platform) (header : Bool) (i : Includes) {h : Std} (hf : i.flag h = true)
    (ha : h.Available p) :
    ∃ items, read p [] (write header i) = some items ∧
      (.std h ∈ items ∨ UserHasCxx i.custom ∧ ∃ top, read p [] cxxTop = some top ∧ .std h ∈ top) := by
  refine ⟨_, includes_exact p header i, ?_⟩
  by_cases hx : UserHasCxx i.custom → h.Extra
  · left
    apply List.mem_append_right
    refine List.mem_map_of_mem ?_
    rw [List.mem_filter]
    exact ⟨by cases h <;> simp [everyStd], by simp only [decide_eq_true_eq]; exact ⟨hf, ha, hx⟩⟩
  · right
    have := Classical.not_imp.1 hx
    exact ⟨this.1, cxx_provides p this.2 ha⟩

example : ∃ i : Includes, UserHasCxx i.custom ∧ i.flag .string = true ∧
    read ⟨false, 201703⟩ [] (write true i) = some [.once, .user .bracketed ("rust/cxx.h".toList.map Char.toNat), .std .memory] :=
  ⟨⟨[⟨"rust/cxx.h".toList.map Char.toNat, .bracketed⟩], fun h => h = .string ∨ h = .memory⟩, by decide +kernel, rfl,
    by decide +kernel⟩

example : read ⟨true, 202002⟩ [] (write false ⟨[⟨[97, 34], .quoted⟩, ⟨[98], .bracketed⟩], fun _ => true⟩) =
    some ([.user .quoted [97, 92, 34], .user .bracketed [98]] ++ (everyStd.filter (· ≠ .sysTypes)).map .std) := by
  decide +kernel

/-! ### Escaping -/

theorem hex_digit (fuel n : Nat) : ∀ c ∈ hex fuel n, (48 ≤ c ∧ c ≤ 57) ∨ (97 ≤ c ∧ c ≤ 102) := by
  induction fuel generalizing n with
  | zero => intro c hc; simp [hex] at hc
  | succ fuel ih =>
    intro c hc
    simp only [hex, List.mem_append, List.mem_singleton] at hc
    rcases hc with hc | rfl
    · split at hc
      · cases hc
      · exact ih _ c hc
    · have : n % 16 < 16 := Nat.mod_lt _ (by decide)
      split <;> omega

theorem contained_append {a b : Text} (ha : Contained a) (hb : Contained b) : Contained (a ++ b) := by
  induction ha with
  | nil => exact hb
  | plain h h' _ ih => exact .plain h h' ih
  | escaped _ ih => exact .escaped ih

theorem contained_plain {t : Text} (h : ∀ c ∈ t, c ≠ 34 ∧ c ≠ 92) : Contained t := by
  induction t with
  | nil => exact .nil
  | cons c t ih => exact .plain (h c (by simp)).1 (h c (by simp)).2 (ih fun c' h' => h c' (by simp [h']))

theorem escapeChar_printable (c : Nat) : ∀ d ∈ escapeChar c, Printable d := by
  intro d hd
  unfold escapeChar at hd
  unfold Printable
  split at hd
  · simp at hd; omega
  split at hd
  · simp at hd; omega
  split at hd
  · simp at hd; omega
  split at hd
  · simp at hd; omega
  split at hd
  · simp at hd; omega
  · simp only [List.mem_append, List.mem_cons, List.not_mem_nil, or_false] at hd
    rcases hd with (hd | hd) | hd
    · omega
    · have := hex_digit _ _ _ hd; omega
    · omega

theorem escapeChar_contained (c : Nat) : Contained (escapeChar c) := by
  unfold escapeChar
  split
  · exact .escaped .nil
  split
  · exact .escaped .nil
  split
  · exact .escaped .nil
  split
  · exact .escaped .nil
  split
  · rename_i h _
    exact .plain (by omega) (by omega) .nil
  · refine .escaped (.plain (by decide) (by decide) ?_)
    refine contained_append (contained_plain fun d hd => ?_) (.plain (by decide) (by decide) .nil)
    have := hex_digit _ _ _ hd
    omega

/-- A quoted path cannot end its line, nor its quotation, whatever characters it has. -/
theorem quoted_contained (path : Text) : (∀ c ∈ escape path, Printable c) ∧ Contained (escape path) := by
  constructor
  · intro c hc
    obtain ⟨d, _, hd⟩ := List.mem_flatMap.1 hc
    exact escapeChar_printable d c hd
  · unfold escape
    induction path with
    | nil => exact .nil
    | cons c path ih => rw [List.flatMap_cons]; exact contained_append (escapeChar_contained c) ih

/-- An ordinary path is written as it is. -/
theorem quoted_verbatim {path : Text} (h : ∀ c ∈ path, Ordinary c) : escape path = path := by
  unfold escape
  induction path with
  | nil => rfl
  | cons c path ih =>
    rw [List.flatMap_cons, ih fun c' h' => h c' (by simp [h'])]
    have := h c (by simp)
    unfold Ordinary Printable at this
    have e : escapeChar c = [c] := by
      unfold escapeChar
      rw [if_neg (by omega), if_neg (by omega), if_neg (by omega), if_neg (by omega), if_pos (by omega)]
    rw [e]; rfl

/-- Paths beyond ASCII are not: the header `é.h` is asked for as `\u{e9}.h`. -/
theorem quoted_not_ascii : escape [233, 46, 104] = b!"\\u{e9}.h" := by decide +kernel

/-! ### The command line -/

/-- `--include <path>` and `--include path`. -/
theorem arg_bracketed (path : Text) : fromArg (60 :: path ++ [62]) = ⟨path, .bracketed⟩ := by
  have : (60 :: (path ++ [62])).getLast? = some 62 := by rw [← List.cons_append, List.getLast?_concat]
  simp [fromArg, this]

theorem arg_quoted {arg : Text} (h : ∀ path, arg ≠ 60 :: path ++ [62]) : fromArg arg = ⟨arg, .quoted⟩ := by
  unfold fromArg
  rw [if_neg]
  rintro ⟨h1, h2⟩
  obtain ⟨init, rfl⟩ := List.getLast?_eq_some_iff.1 h2
  cases init with
  | nil => simp at h1
  | cons c init =>
    simp only [List.cons_append, List.head?_cons, Option.some.injEq] at h1
    exact h init (by rw [h1])

example : fromArg [60, 97, 62] = ⟨[97], .bracketed⟩ ∧ fromArg [60, 97] = ⟨[60, 97], .quoted⟩ := by decide

end Verif.Preamble
