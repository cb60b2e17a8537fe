import Verif.Stream.Spec
/-!
# A UniquePtr to a stream is that stream
-/
namespace Verif.Stream
open Spec

theorem forwards (rustc : Nat) (t : Target σ) (name : String) (c : Call) (h1 : Exists rustc c) (h2 : NotVectoredRead c)
    (p : Option σ) : uniquePtr rustc t name c p = onTarget t name c p := by
  cases c with
  | readVectored => exact h2.elim
  | seekRelative offset =>
    have h1 : 80 ≤ rustc := h1
    simp [uniquePtr, seekRelative, seekRelativeFlag, h1]
  | _ => rfl

theorem run_iff (t : Target σ) (u : Target τ) (f : σ → τ) : ∀ (cs : List Call),
    (∀ c ∈ cs, ∀ s, u c (f s) = (f (t c s).1, (t c s).2)) →
    ∀ (s s' : σ) (rs : List Reply), Run t s cs s' rs → Run u (f s) cs (f s') rs
  | [], _, s, s', rs, h => by cases h; exact .done
  | c :: cs, hall, s, s', rs, h => by
    cases h with
    | call h1 h2 =>
      refine .call (s1 := f _) ?_ (run_iff t u f cs (fun c hc => hall c (List.mem_cons_of_mem _ hc)) _ _ _ h2)
      rw [hall c List.mem_cons_self s, h1]

theorem run_fun (t : Target σ) : ∀ (cs : List Call) (s : σ), ∃ s' rs, Run t s cs s' rs
  | [], s => ⟨s, [], .done⟩
  | c :: cs, s => by
    obtain ⟨s', rs, h⟩ := run_fun t cs (t c s).1
    exact ⟨s', _ :: rs, .call rfl h⟩

theorem run_unique {t : Target σ} {cs : List Call} {s a b : σ} {rs qs : List Reply}
    (h : Run t s cs a rs) (h' : Run t s cs b qs) : a = b ∧ rs = qs := by
  induction h generalizing b qs with
  | done => cases h'; exact ⟨rfl, rfl⟩
  | call h1 _ ih =>
    cases h' with
    | call h2 h3 =>
      rw [h1] at h2
      obtain ⟨rfl, rfl⟩ := Prod.mk.inj h2
      obtain ⟨rfl, rfl⟩ := ih h3
      exact ⟨rfl, rfl⟩

/-- C92.  Whatever the target does, every history of calls on a non-null `UniquePtr` gives the results, fills the
buffers and leaves the target as the same calls made on the target do.  Missing: `read_vectored`, see below. -/
theorem stream_partial (rustc : Nat) (t : Target σ) (name : String) (cs : List Call)
    (h1 : ∀ c ∈ cs, Exists rustc c) (h2 : ∀ c ∈ cs, NotVectoredRead c) (s : σ) (p : Option σ) (rs : List Reply) :
    Run (uniquePtr rustc t name) (some s) cs p rs ↔ ∃ s', p = some s' ∧ Run t s cs s' rs := by
  have key := run_iff t (uniquePtr rustc t name) some cs (fun c hc s => by
    rw [forwards rustc t name c (h1 c hc) (h2 c hc)]; rfl)
  constructor
  · intro h
    obtain ⟨s', qs, h3⟩ := run_fun t cs s
    obtain ⟨rfl, rfl⟩ := run_unique h (key s s' qs h3)
    exact ⟨s', rfl, h3⟩
  · rintro ⟨s', rfl, h⟩
    exact key s s' rs h

/-- C92.  On a null `UniquePtr` every call panics, says so with the type's name, and leaves the pointer and all
buffers as they were. -/
theorem stream_null (rustc : Nat) (t : Target σ) (name : String) (c : Call) :
    uniquePtr rustc t name c none =
      (none, ⟨c.lent, .panicked ("called pin_mut on a null UniquePtr<" ++ name ++ ">")⟩) := by
  cases c with
  | readVectored bufs =>
    have hb := List.takeWhile_append_dropWhile (p := fun b : List Nat => b.isEmpty) (l := bufs)
    simp only [uniquePtr, readVectored]
    cases hd : bufs.dropWhile (·.isEmpty) with
    | nil => rfl
    | cons b rest =>
      rw [hd] at hb
      simp only [read, onTarget, Call.lent, Prod.mk.injEq, Reply.mk.injEq, true_and, and_true]
      simpa using hb
  | seekRelative offset =>
    simp only [uniquePtr, seekRelative]
    split <;> rfl
  | _ => rfl

/-- C92.  `read_vectored` on a `UniquePtr` reads once, into the first buffer that is not empty, with the target's `read`;
the other buffers are left alone. -/
theorem read_vectored_partial (rustc : Nat) (t : Target σ) (name : String) (s : σ) (before after : List (List Nat))
    (buf : List Nat) (hb : ∀ b ∈ before, b = []) (hne : buf ≠ []) :
    uniquePtr rustc t name (.readVectored (before ++ buf :: after)) (some s) =
      (some (t (.read buf) s).1, ⟨before ++ (t (.read buf) s).2.bufs ++ after, (t (.read buf) s).2.result⟩) := by
  have h1 : (before ++ buf :: after).takeWhile (·.isEmpty) = before := by
    rw [List.takeWhile_append_of_pos (by intro b h; simp [hb b h])]
    cases buf with
    | nil => exact absurd rfl hne
    | cons => simp
  have h2 : (before ++ buf :: after).dropWhile (·.isEmpty) = buf :: after := by
    rw [List.dropWhile_append_of_pos (by intro b h; simp [hb b h])]
    cases buf with
    | nil => exact absurd rfl hne
    | cons => simp
  simp only [uniquePtr, readVectored, h1, h2, read, onTarget]

/-- A source of bytes that fills all the buffers in one go. -/
def fill : List (List Nat) → List Nat → List (List Nat) × List Nat
  | [], s => ([], s)
  | b :: bs, s =>
    let (bs1, s1) := fill bs (s.drop b.length)
    ((s.take b.length ++ b.drop s.length) :: bs1, s1)

/-- It implements `read` and `read_vectored`. -/
def source : Target (List Nat)
  | .read buf, s => (s.drop buf.length, ⟨[s.take buf.length ++ buf.drop s.length], .ok (min buf.length s.length)⟩)
  | .readVectored bufs, s => ((fill bufs s).2, ⟨(fill bufs s).1, .ok (min bufs.flatten.length s.length)⟩)
  | c, s => (s, ⟨c.lent, .ok 0⟩)

/-- C92, where the full statement fails: `read_vectored` of the target is not called, so a target that fills all buffers
at once fills only one of them through a `UniquePtr`. -/
theorem read_vectored_not_passed_on :
    source (.readVectored [[0, 0], [0]]) [7, 8, 9] = ([], ⟨[[7, 8], [9]], .ok 3⟩) ∧
    uniquePtr 80 source "Source" (.readVectored [[0, 0], [0]]) (some [7, 8, 9]) = (some [9], ⟨[[7, 8], [0]], .ok 2⟩) := by
  decide +kernel

/-! ## C++ strings -/

theorem stringWriteAll_eq (buf s : List Nat) : stringWriteAll buf s = (s ++ buf, .ok 0) := by
  cases buf with
  | nil => unfold stringWriteAll; simp
  | cons b rest =>
    unfold stringWriteAll
    simp only [stringWrite, pushBytes, List.length_cons]
    rw [if_neg (by omega), List.drop_of_length_le (Nat.le_refl _)]
    unfold stringWriteAll
    rfl

theorem stringWriteFmt_eq : ∀ (pieces : List (List Nat)) (s : List Nat),
    stringWriteFmt pieces s = (s ++ pieces.flatten, .ok 0)
  | [], s => by simp [stringWriteFmt]
  | piece :: rest, s => by
    simp only [stringWriteFmt, stringWriteAll_eq, stringWriteFmt_eq rest, List.flatten_cons, List.append_assoc]

theorem first_taken : ∀ (bufs : List (List Nat)),
    bufs.flatten.take ((bufs.find? (!·.isEmpty)).getD []).length = (bufs.find? (!·.isEmpty)).getD []
  | [] => rfl
  | [] :: rest => by simpa using first_taken rest
  | (b :: bs) :: rest => by simp

theorem string_step (c : Call) (h : Writes c) (s : List Nat) :
    ∃ n, (cxxString c s).2 = ⟨[], .ok n⟩ ∧ (cxxString c s).1 = s ++ taken c (.ok n) ∧
      (∀ buf, c = .write buf → n = buf.length) := by
  cases c with
  | write buf => exact ⟨buf.length, rfl, by simp [cxxString, stringWrite, pushBytes, taken], by
      intro b h; injection h with h; rw [h]⟩
  | writeVectored bufs =>
    refine ⟨_, rfl, ?_, by simp⟩
    simp only [cxxString, stringWrite, pushBytes, taken, first_taken]
  | flush => exact ⟨0, rfl, by simp [cxxString, taken], by simp⟩
  | writeAll buf => exact ⟨0, by simp [cxxString, stringWriteAll_eq], by simp [cxxString, stringWriteAll_eq, taken], by simp⟩
  | writeFmt pieces => exact ⟨0, by simp [cxxString, stringWriteFmt_eq], by simp [cxxString, stringWriteFmt_eq, taken], by simp⟩
  | _ => exact h.elim

/-- The bytes taken over a history. -/
def allTaken (cs : List Call) (rs : List Reply) : List Nat := (cs.zip rs).flatMap fun x => taken x.1 x.2.result

theorem string_run {cs : List Call} {s s' : List Nat} {rs : List Reply} (h : Run cxxString s cs s' rs)
    (hw : ∀ c ∈ cs, Writes c) : s' = s ++ allTaken cs rs ∧ ∀ r ∈ rs, ∃ n, r.result = .ok n := by
  induction h with
  | done => simp [allTaken]
  | @call c s s1 r cs s2 rs h1 _ ih =>
    obtain ⟨n, h3, h4, _⟩ := string_step c (hw c List.mem_cons_self) s
    rw [h1] at h3 h4
    obtain ⟨h5, h6⟩ := ih fun c hc => hw c (List.mem_cons_of_mem _ hc)
    simp only at h3 h4
    subst h3 h4
    refine ⟨?_, ?_⟩
    · rw [h5]; simp [allTaken]
    · intro r hr
      rcases List.mem_cons.mp hr with rfl | hr
      · exact ⟨n, rfl⟩
      · exact h6 r hr

/-- C92.  Over any history of writes to a C++ string, directly or through a `UniquePtr`, no call fails and the string
ends up with what it held followed by exactly the bytes reported as taken, in order. -/
theorem string_writes (rustc : Nat) (name : String) (cs : List Call) (hw : ∀ c ∈ cs, Writes c) (s : List Nat) (rs : List Reply) :
    (∀ s', Run cxxString s cs s' rs → s' = s ++ allTaken cs rs ∧ ∀ r ∈ rs, ∃ n, r.result = .ok n) ∧
    (∀ p, Run (uniquePtr rustc cxxString name) (some s) cs p rs →
      p = some (s ++ allTaken cs rs) ∧ ∀ r ∈ rs, ∃ n, r.result = .ok n) := by
  refine ⟨fun s' h => string_run h hw, fun p h => ?_⟩
  have h1 : ∀ c ∈ cs, Exists rustc c := by
    intro c hc; have := hw c hc; cases c <;> first | trivial | exact this.elim
  have h2 : ∀ c ∈ cs, NotVectoredRead c := by
    intro c hc; have := hw c hc; cases c <;> first | trivial | exact this.elim
  obtain ⟨s', rfl, h3⟩ := (stream_partial rustc cxxString name cs h1 h2 s p rs).mp h
  obtain ⟨rfl, h4⟩ := string_run h3 hw
  exact ⟨rfl, h4⟩

/-- C92.  A single `write` takes the whole buffer, `write_all` and `write!` write all bytes of all pieces. -/
theorem string_takes_all (s buf : List Nat) (pieces : List (List Nat)) :
    cxxString (.write buf) s = (s ++ buf, ⟨[], .ok buf.length⟩) ∧
    (cxxString (.writeAll buf) s).1 = s ++ buf ∧
    (cxxString (.writeFmt pieces) s).1 = s ++ pieces.flatten ∧
    fmtWriteFmt pieces s = (s ++ pieces.flatten, true) := by
  refine ⟨rfl, by simp [cxxString, stringWriteAll_eq], by simp [cxxString, stringWriteFmt_eq], ?_⟩
  induction pieces generalizing s with
  | nil => simp [fmtWriteFmt]
  | cons p rest ih => simp only [fmtWriteFmt, fmtWriteStr, ih, pushBytes, List.flatten_cons, List.append_assoc]

/-! ## Cases -/

/-- Reading in two steps through the pointer. -/
example : Run (uniquePtr 60 source "Source") (some [7, 8, 9]) [.read [0, 0], .read [0, 0]] (some [])
    [⟨[[7, 8]], .ok 2⟩, ⟨[[9, 0]], .ok 1⟩] :=
  .call (s1 := some [9]) (by decide +kernel) (.call (by decide +kernel) .done)

example : ∃ p rs, Run (uniquePtr 80 cxxString "CxxString") (some [65])
    [.write [66, 67], .writeVectored [[], [68], [69]], .flush, .writeAll [70], .writeFmt [[71], [72, 73]]] p rs ∧
    p = some [65, 66, 67, 68, 70, 71, 72, 73] := by
  obtain ⟨p, rs, h⟩ := run_fun (uniquePtr 80 cxxString "CxxString")
    [.write [66, 67], .writeVectored [[], [68], [69]], .flush, .writeAll [70], .writeFmt [[71], [72, 73]]] (some [65])
  refine ⟨p, rs, h, ?_⟩
  cases h with
  | call h1 h => cases h with
    | call h2 h => cases h with
      | call h3 h => cases h with
        | call h4 h => cases h with
          | call h5 h =>
            cases h
            simp [uniquePtr, write, writeVectored, flush, writeAll, writeFmt, onTarget, cxxString, stringWrite, pushBytes,
              stringWriteAll_eq, stringWriteFmt_eq] at h1 h2 h3 h4 h5
            obtain ⟨rfl, _⟩ := h1
            simp at h2
            obtain ⟨rfl, _⟩ := h2
            simp at h3
            obtain ⟨rfl, _⟩ := h3
            simp at h4
            obtain ⟨rfl, _⟩ := h4
            simp at h5
            exact h5.1.symm

end Verif.Stream
