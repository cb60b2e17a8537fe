import Verif.Build.TargetSpec
import Verif.Build.TouchProps
/-!
# C96: crates share one directory, and go on sharing it
-/
namespace Verif.Build

theorem join_normal (d : List Comp) (n : Name) : join d [.normal n] = d ++ [.normal n] := rfl

theorem getLast?_split {d : List Comp} {c : Comp} (h : d.getLast? = some c) : d = d.dropLast ++ [c] := by
  obtain ⟨l, rfl⟩ := List.getLast?_eq_some_iff.1 h
  simp

theorem fileName_some {d : List Comp} {n : Name} : fileName d = some n ↔ ∃ p, d = p ++ [.normal n] := by
  unfold fileName
  constructor
  · intro h
    split at h
    · rename_i m hm
      cases h
      exact ⟨_, getLast?_split hm⟩
    · cases h
  · rintro ⟨p, rfl⟩
    simp

theorem parent_some {d p : List Comp} :
    parent d = some p ↔ ∃ c, d = p ++ [c] ∧ c ≠ .root ∧ ∀ v, c ≠ .volume v := by
  constructor
  · intro h
    unfold parent at h
    split at h
    · rename_i m hm; cases h; exact ⟨_, getLast?_split hm, by simp, by simp⟩
    · rename_i hm; cases h; exact ⟨_, getLast?_split hm, by simp, by simp⟩
    · rename_i hm; cases h; exact ⟨_, getLast?_split hm, by simp, by simp⟩
    · cases h
  · rintro ⟨c, rfl, h1, h2⟩
    unfold parent
    cases c with
    | volume v => exact absurd rfl (h2 v)
    | root => exact absurd rfl h1
    | cur => simp
    | parent => simp
    | normal n => simp

theorem marked_iff {found : List Comp → Bool} {d : List Comp} : marked found d = true ↔ IsTarget found d := by
  unfold marked IsTarget
  rw [join_normal, join_normal]
  simp only [Bool.or_eq_true, Bool.and_eq_true, beq_iff_eq, or_assoc]
  refine or_congr Iff.rfl (or_congr Iff.rfl ?_)
  constructor
  · rintro ⟨h1, h2⟩
    obtain ⟨p, rfl⟩ := fileName_some.1 h1
    have hp : parent (p ++ [Comp.normal "target".toList]) = some p := parent_some.2 ⟨_, rfl, by simp, by simp⟩
    rw [hp] at h2
    exact ⟨p, rfl, h2⟩
  · rintro ⟨p, rfl, h⟩
    have hp : parent (p ++ [Comp.normal "target".toList]) = some p := parent_some.2 ⟨_, rfl, by simp, by simp⟩
    refine ⟨fileName_some.2 ⟨p, rfl⟩, ?_⟩
    rw [hp]
    exact h

theorem up_refl (p : List Comp) : Up p p := ⟨[], by simp, by simp⟩

theorem Up.trans {a b c : List Comp} (h1 : Up a b) (h2 : Up b c) : Up a c := by
  obtain ⟨r, rfl, hr⟩ := h1
  obtain ⟨s, rfl, hs⟩ := h2
  refine ⟨s ++ r, by simp, fun x hx => ?_⟩
  rcases List.mem_append.1 hx with h | h
  · exact hs x h
  · exact hr x h

theorem Up.antisymm {a b : List Comp} (h1 : Up a b) (h2 : Up b a) : a = b := by
  obtain ⟨r, rfl, _⟩ := h1
  obtain ⟨s, hs, _⟩ := h2
  have := congrArg List.length hs
  simp only [List.length_append] at this
  have hr : r = [] := List.eq_nil_of_length_eq_zero (by omega)
  simp [hr]

/-- Above a path are itself and what is above its parent. -/
theorem up_step {p d : List Comp} : Up p d ↔ d = p ∨ ∃ q, parent p = some q ∧ Up q d := by
  constructor
  · rintro ⟨rest, rfl, hr⟩
    rcases List.eq_nil_or_concat rest with rfl | ⟨init, c, rfl⟩
    · exact .inl (by simp)
    · have hc := hr c (by simp)
      refine .inr ⟨d ++ init, parent_some.2 ⟨c, by simp, hc.1, hc.2⟩, init, rfl, fun x hx => hr x (by simp [hx])⟩
  · rintro (rfl | ⟨q, hq, h⟩)
    · exact up_refl _
    · obtain ⟨c, rfl, h1, h2⟩ := parent_some.1 hq
      exact Up.trans ⟨[c], rfl, by simpa using ⟨h1, h2⟩⟩ h

theorem nearest_unique {found : List Comp → Bool} {p d e : List Comp} (h1 : Nearest found p d) (h2 : Nearest found p e) :
    d = e := Up.antisymm (h1.2.2 e h2.1 h2.2.1) (h2.2.2 d h1.1 h1.2.1)

theorem parent_length {p q : List Comp} (h : parent p = some q) : p.length = q.length + 1 := by
  obtain ⟨c, rfl, _⟩ := parent_some.1 h
  simp

theorem ascend_spec {found : List Comp → Bool} (n : Nat) (p : List Comp) (hn : p.length < n) :
    match ascend found n p with
    | some d => Nearest found p d
    | none => ∀ d, Up p d → ¬ IsTarget found d := by
  induction n generalizing p with
  | zero => omega
  | succ n ih =>
    unfold ascend
    by_cases hm : marked found p = true
    · rw [if_pos hm]
      exact ⟨up_refl p, marked_iff.1 hm, fun d h _ => h⟩
    · rw [if_neg hm]
      have hnot : ¬ IsTarget found p := fun h => hm (marked_iff.2 h)
      cases hp : parent p with
      | none =>
        simp only
        intro d hd
        rcases up_step.1 hd with rfl | ⟨q, hq, _⟩
        · exact hnot
        · rw [hp] at hq; cases hq
      | some q =>
        simp only
        have hl := parent_length hp
        refine (?_ : ∀ o, (match o with
          | some d => Nearest found q d
          | none => ∀ d, Up q d → ¬ IsTarget found d) → (match o with
          | some d => Nearest found p d
          | none => ∀ d, Up p d → ¬ IsTarget found d)) _ (ih q (by omega))
        intro o ho
        cases o with
        | none =>
          intro d hd
          rcases up_step.1 hd with rfl | ⟨q', hq, hu⟩
          · exact hnot
          · rw [hp] at hq; cases hq; exact ho d hu
        | some d =>
          refine ⟨up_step.2 (.inr ⟨q, hp, ho.1⟩), ho.2.1, fun d' hd ht => ?_⟩
          rcases up_step.1 hd with rfl | ⟨q', hq, hu⟩
          · exact absurd ht hnot
          · rw [hp] at hq; cases hq; exact ho.2.2 d' hu ht

theorem ascend_some {found : List Comp → Bool} {p d : List Comp} :
    ascend found (p.length + 1) p = some d ↔ Nearest found p d := by
  have h := ascend_spec (found := found) (p.length + 1) p (by omega)
  constructor
  · intro e; rw [e] at h; exact h
  · intro hn
    cases e : ascend found (p.length + 1) p with
    | none => rw [e] at h; exact absurd hn.2.1 (h d hn.1)
    | some d' => rw [e] at h; exact congrArg some (nearest_unique h hn)

theorem ascend_none {found : List Comp → Bool} {p : List Comp} :
    ascend found (p.length + 1) p = none ↔ ∀ d, Up p d → ¬ IsTarget found d := by
  have h := ascend_spec (found := found) (p.length + 1) p (by omega)
  constructor
  · intro e; rw [e] at h; exact h
  · intro hn
    cases e : ascend found (p.length + 1) p with
    | none => rfl
    | some d' => rw [e] at h; exact absurd h.2.1 (hn d' h.1)

/-- **C96.** Without `CARGO_TARGET_DIR`, the target directory is the nearest directory above `OUT_DIR` that is marked as one;
if there is none, the nearest above the real path of `OUT_DIR`, except on Windows. -/
theorem target_exact (windows : Bool) (found : List Comp → Bool) (canonical : Option (List Comp)) (out d : List Comp) :
    findTargetDir windows none found canonical out = .path d ↔
      Nearest found out d ∨ ((∀ e, Up out e → ¬ IsTarget found e) ∧ windows = false ∧
        ∃ c, canonical = some c ∧ Nearest found c d) := by
  unfold findTargetDir
  simp only
  cases h : ascend found (out.length + 1) out with
  | some e =>
    have he := ascend_some.1 h
    constructor
    · intro hd; cases hd; exact .inl he
    · rintro (hd | ⟨hn, _⟩)
      · rw [nearest_unique he hd]
      · exact absurd he.2.1 (hn e he.1)
  | none =>
    have hn := ascend_none.1 h
    simp only
    constructor
    · intro hd
      split at hd
      · cases hd
      · rename_i hw
        cases canonical with
        | none => cases hd
        | some c =>
          simp only at hd
          cases hc : ascend found (c.length + 1) c with
          | none => rw [hc] at hd; cases hd
          | some e => rw [hc] at hd; cases hd; exact .inr ⟨hn, by simpa using hw, c, rfl, ascend_some.1 hc⟩
    · rintro (hd | ⟨_, hw, c, rfl, hd⟩)
      · exact absurd hd.2.1 (hn d hd.1)
      · simp only [hw, Bool.false_eq_true, if_false, ascend_some.2 hd]

/-- **C96.** `CARGO_TARGET_DIR` counts if it is an absolute path, whatever lies in the file system. -/
theorem target_given (windows : Bool) (found : List Comp → Bool) (canonical : Option (List Comp)) (out t : List Comp) :
    findTargetDir windows (some t) found canonical out = if isAbsolute t then .path t else .unknown := rfl

/-- **C96.** Crates whose output directories lie in one target directory, and below it in no other, share a directory. -/
theorem targets_agree (windows : Bool) (found : List Comp → Bool) (canonical : Option (List Comp)) (t out scratch : List Comp)
    (hup : Up out t) (ht : IsTarget found t) (hin : ∀ d, Up out d → IsTarget found d → Up t d) :
    sharedDirOf scratch (findTargetDir windows none found canonical out) = t ++ [.normal "cxxbridge".toList] := by
  rw [(target_exact windows found canonical out t).2 (.inl ⟨hup, ht, hin⟩)]
  rfl

theorem nearest_congr {f g : List Comp → Bool} {p : List Comp} (h : ∀ d, Up p d → (IsTarget f d ↔ IsTarget g d)) (d : List Comp) :
    Nearest f p d ↔ Nearest g p d := by
  unfold Nearest
  constructor
  · rintro ⟨h1, h2, h3⟩
    exact ⟨h1, (h d h1).1 h2, fun e he ht => h3 e he ((h e he).2 ht)⟩
  · rintro ⟨h1, h2, h3⟩
    exact ⟨h1, (h d h1).2 h2, fun e he ht => h3 e he ((h e he).1 ht)⟩

theorem ascend_congr {f g : List Comp → Bool} {p : List Comp} (h : ∀ d, Up p d → (IsTarget f d ↔ IsTarget g d)) :
    ascend f (p.length + 1) p = ascend g (p.length + 1) p := by
  cases e : ascend f (p.length + 1) p with
  | some d => exact (ascend_some.2 ((nearest_congr h d).1 (ascend_some.1 e))).symm
  | none => exact (ascend_none.2 fun d hd ht => ascend_none.1 e d hd ((h d hd).2 ht)).symm

/-! ## What builds leave -/

theorem names_of (p : Place) :
    (p.map Comp.normal).filterMap Comp.name? = p := by
  induction p with
  | nil => rfl
  | cons n p ih => simp [ih, Comp.name?]

theorem exists_path (fs : Fs) (p : Place) :
    fs.exists (Place.path p) = match fs.walk [] p with
      | some q => (fs.node q).isSome
      | none => false := by
  unfold Fs.exists Place.path
  simp only
  rw [names_of]
  rfl

/-- What is above the path of a place is the path of a place above it. -/
theorem up_path {p : Place} {d : List Comp} (h : Up (Place.path p) d) : ∃ q, q <+: p ∧ d = Place.path q := by
  obtain ⟨rest, h, hr⟩ := h
  unfold Place.path at h
  cases d with
  | nil =>
    simp only [List.nil_append] at h
    subst h
    exact absurd rfl (hr .root (by simp)).1
  | cons c d =>
    simp only [List.cons_append, List.cons.injEq] at h
    obtain ⟨rfl, h⟩ := h
    obtain ⟨a, b, rfl, rfl, rfl⟩ := List.map_eq_append_iff.1 h
    exact ⟨a, List.prefix_append _ _, rfl⟩

theorem path_concat (p : Place) (n : Name) : Place.path p ++ [.normal n] = Place.path (p ++ [n]) := by
  simp [Place.path]

theorem path_drop {q : Place} {p : List Comp} {n : Name} (h : Place.path q = p ++ [.normal n]) :
    ∃ r, q = r ++ [n] ∧ p = Place.path r := by
  rcases List.eq_nil_or_concat q with rfl | ⟨r, m, rfl⟩
  · unfold Place.path at h
    cases p with
    | nil => simp at h
    | cons c p => simp at h
  · rw [List.concat_eq_append] at h ⊢
    rw [← path_concat] at h
    obtain ⟨h1, h2⟩ := List.append_inj' h rfl
    simp only [List.cons.injEq, Comp.normal.injEq, and_true] at h2
    exact ⟨r, by rw [h2], h1.symm⟩

theorem walk_tag {fs : Fs} {p q : Place} {m : Name} (h : Straight fs p) (hq : q <+: p) (hm : m ∈ tagNames) :
    fs.walk [] (q ++ [m]) = some (q ++ [m]) := by
  have := walk_straight (fs := fs) (q ++ [m]) [] (fun a b e ha t => by
    rw [List.nil_append]
    rcases List.eq_nil_or_concat b with rfl | ⟨b', x, rfl⟩
    · rw [List.append_nil] at e
      rw [← e]
      exact (h q hq).2 m hm t
    · rw [List.concat_eq_append, ← List.append_assoc] at e
      have ea : q = a ++ b' := (List.append_inj' e rfl).1
      have hpre : a <+: p := (ea ▸ List.prefix_append a b' : a <+: q).trans hq
      rw [(h a hpre).1]
      simp)
  simpa using this

theorem exists_tag {fs : Fs} {p q : Place} {m : Name} (h : Straight fs p) (hq : q <+: p) (hm : m ∈ tagNames) :
    fs.exists (Place.path (q ++ [m])) = (fs.node (q ++ [m])).isSome := by
  rw [exists_path, walk_tag h hq hm]

/-- With the same entries for the files that are looked for, the same directories are taken for target directories. -/
theorem isTarget_congr {fs f : Fs} {p : Place} (h : Straight fs p) (h' : Straight f p)
    (hn : ∀ q, q <+: p → ∀ m ∈ tagNames, (f.node (q ++ [m])).isSome = (fs.node (q ++ [m])).isSome) (d : List Comp)
    (hd : Up (Place.path p) d) : IsTarget fs.exists d ↔ IsTarget f.exists d := by
  obtain ⟨q, hq, rfl⟩ := up_path hd
  have key : ∀ r, r <+: p → ∀ m ∈ tagNames, fs.exists (Place.path (r ++ [m])) = f.exists (Place.path (r ++ [m])) := by
    intro r hr m hm
    rw [exists_tag h hr hm, exists_tag h' hr hm, hn r hr m hm]
  unfold IsTarget
  rw [path_concat, path_concat, key q hq _ (by simp [tagNames]), key q hq _ (by simp [tagNames])]
  refine or_congr Iff.rfl (or_congr Iff.rfl ?_)
  constructor
  · rintro ⟨r, e, hr⟩
    obtain ⟨s, rfl, rfl⟩ := path_drop e
    refine ⟨_, e, ?_⟩
    rw [path_concat] at hr ⊢
    rw [← key s ((List.prefix_append _ _).trans hq) _ (by simp [tagNames])]
    exact hr
  · rintro ⟨r, e, hr⟩
    obtain ⟨s, rfl, rfl⟩ := path_drop e
    refine ⟨_, e, ?_⟩
    rw [path_concat] at hr ⊢
    rw [key s ((List.prefix_append _ _).trans hq) _ (by simp [tagNames])]
    exact hr

theorem tag_ne {m : Name} (hm : m ∈ tagNames) : m ≠ "cxxbridge".toList := by
  simp only [tagNames, List.mem_cons, List.not_mem_nil, or_false] at hm
  rcases hm with rfl | rfl | rfl <;> decide +kernel

theorem prefix_tag {p q : Place} {m : Name} {t : Place} (hm : m ∈ tagNames) (hq : q <+: p)
    (ht : t ++ ["cxxbridge".toList] <+: q ++ [m]) : t ++ ["cxxbridge".toList] <+: p := by
  rcases List.prefix_concat_iff.1 ht with h | h
  · have := (List.append_inj' h rfl).2
    simp only [List.cons.injEq, and_true] at this
    exact absurd this.symm (tag_ne hm)
  · exact h.trans hq

theorem tag_prefix {q : Place} {m : Name} {t : Place} (hm : m ∈ tagNames) (h : q ++ [m] <+: t ++ ["cxxbridge".toList]) :
    q ++ [m] <+: t := by
  rcases List.prefix_concat_iff.1 h with h | h
  · have := (List.append_inj' h rfl).2
    simp only [List.cons.injEq, and_true] at this
    exact absurd this (tag_ne hm)
  · exact h

/-- **C96.** A build that changes nothing but its own directories leaves the way up from the output directory `out` of any
crate as it was, if this is not itself in one of the directories of the build. -/
theorem target_kept {prj : Project} {fs f : Fs} {out t : Place} (hsp : prj.Spares fs f) (hst : Straight fs out)
    (hshared : prj.sharedDir = t ++ ["cxxbridge".toList]) (hdirs : ∀ q, q <+: prj.outDir ∨ q <+: t → fs.node q = some .dir)
    (hout : ¬ prj.Owns out) (windows : Bool) :
    Straight f out ∧ findTargetDir windows none f.exists (some (Place.path out)) (Place.path out) =
      findTargetDir windows none fs.exists (some (Place.path out)) (Place.path out) := by
  have hown : ∀ q, q <+: out → ¬ prj.Owns q := by
    rintro q hq (h | h)
    · exact hout (.inl (h.trans hq))
    · exact hout (.inr (h.trans hq))
  have hdir : ∀ q, q <+: out → f.node q = some .dir := by
    intro q hq
    rcases hsp.nodes q (hown q hq) with e | ⟨_, _, e⟩
    · rw [e]; exact (hst q hq).1
    · exact e
  have htag : ∀ q, q <+: out → ∀ m ∈ tagNames, f.node (q ++ [m]) = fs.node (q ++ [m]) := by
    intro q hq m hm
    have hno : ¬ prj.Owns (q ++ [m]) := by
      rintro (h | h)
      · exact hout (.inl (prefix_tag hm hq h))
      · rw [hshared] at h
        exact hout (.inr (hshared ▸ prefix_tag hm hq h))
    rcases hsp.nodes _ hno with e | ⟨ha, hn, _⟩
    · exact e
    · rcases ha with h | h
      · rw [hdirs _ (.inl (tag_prefix hm h))] at hn; cases hn
      · rw [hshared] at h
        rw [hdirs _ (.inr (tag_prefix hm h))] at hn; cases hn
  have hst' : Straight f out := fun q hq => ⟨hdir q hq, fun m hm t => by rw [htag q hq m hm]; exact (hst q hq).2 m hm t⟩
  refine ⟨hst', ?_⟩
  have hc := ascend_congr (p := Place.path out) (f := fs.exists) (g := f.exists) (fun d hd =>
    isTarget_congr hst hst' (fun q hq m hm => by rw [htag q hq m hm]) d hd)
  unfold findTargetDir
  simp only
  rw [hc]

/-- **C96.** The same for any number of builds of a crate, each of which may fail or be killed: afterwards all crates find
the directory that they have found before. -/
theorem targets_kept_partial {prj : Project} {fs f : Fs} {out t : Place}
    (hsh : Apart (prj.outDir ++ ["cxxbridge".toList]) prj.sharedDir) (hc : prj.Clean fs) (h : prj.History fs f)
    (hst : Straight fs out) (hshared : prj.sharedDir = t ++ ["cxxbridge".toList])
    (hdirs : ∀ q, q <+: prj.outDir ∨ q <+: t → fs.node q = some .dir) (hout : ¬ prj.Owns out) (windows : Bool) :
    findTargetDir windows none f.exists (some (Place.path out)) (Place.path out) =
      findTargetDir windows none fs.exists (some (Place.path out)) (Place.path out) :=
  (target_kept (builds_spare_partial hsh hc h).1 hst hshared hdirs hout windows).2

namespace TargetDemo
open TouchDemo (prj)

def n (s : String) : Comp := .normal s.toList

/-- A workspace in `/w`, with the output directories of two crates; the second is also known by another path. -/
def found (p : List Comp) : Bool := p ∈ [[.root, n "w", n "target", n "CACHEDIR.TAG"], [.root, n "w", n "Cargo.toml"]]

def outA : List Comp := [.root, n "w", n "target", n "debug", n "build", n "a-1", n "out"]
def outB : List Comp := [.root, n "w", n "target", n "debug", n "build", n "b-2", n "out"]

theorem target_w : IsTarget found [.root, n "w", n "target"] := .inr (.inl (by decide +kernel))

/-- The hypotheses of `targets_agree` are met: both crates share `/w/target/cxxbridge`. -/
example : sharedDirOf [] (findTargetDir false none found none outA) = [.root, n "w", n "target", n "cxxbridge"] ∧
    sharedDirOf [] (findTargetDir false none found none outB) = [.root, n "w", n "target", n "cxxbridge"] ∧
    (findTargetDir false none found (some outA) [.root, n "link", n "out"]) = .path [.root, n "w", n "target"] ∧
    (findTargetDir true none found (some outA) [.root, n "link", n "out"]) = .unknown ∧
    Up outA [.root, n "w", n "target"] :=
  ⟨by decide +kernel, by decide +kernel, by decide +kernel, by decide +kernel,
    ⟨[n "debug", n "build", n "a-1", n "out"], rfl, by simp [n]⟩⟩

/-- A file `CACHEDIR.TAG` in the output directory of one crate makes it keep to itself. -/
theorem tag_separates : ∃ found : List Comp → Bool, IsTarget found [.root, n "w", n "target"] ∧
    sharedDirOf [] (findTargetDir false none found none outA) ≠ sharedDirOf [] (findTargetDir false none found none outB) :=
  ⟨fun p => found p || p == outA ++ [n "CACHEDIR.TAG"], .inr (.inl (by decide +kernel)), by decide +kernel⟩

/-! A build in `/t/a`, and the crate with the output directory `/t/b`. -/

def ws : Project := ⟨[Demo.n "demo"], [Demo.n "m"], [Demo.n "t", Demo.n "a"], [Demo.n "t", Demo.n "cxxbridge"], none⟩

def wsEntries : List (Place × Node) :=
  [([], .dir), ([Demo.n "m"], .dir), ([Demo.n "t"], .dir), ([Demo.n "t", Demo.n "a"], .dir), ([Demo.n "t", Demo.n "b"], .dir),
   ([Demo.n "t", Demo.n "CACHEDIR.TAG"], .file 0)]

def wsBefore : Fs := listed wsEntries (fun _ => [9]) 1

theorem ws_sound : Sound wsBefore := listed_sound (by
  intro e he
  simp only [wsEntries, List.mem_cons, List.not_mem_nil, or_false] at he
  rcases he with rfl | rfl | rfl | rfl | rfl | rfl
  · exact ⟨by decide +kernel, fun i h => by cases h⟩
  · exact ⟨by decide +kernel, fun i h => by cases h⟩
  · exact ⟨by decide +kernel, fun i h => by cases h⟩
  · exact ⟨by decide +kernel, fun i h => by cases h⟩
  · exact ⟨by decide +kernel, fun i h => by cases h⟩
  · exact ⟨by decide +kernel, fun i h => by cases h; decide⟩)

theorem ws_no_links (q t : Place) : wsBefore.node q ≠ some (.link t) := by
  intro h
  have hm := lookup_mem h
  simp [wsEntries] at hm

theorem ws_fresh : ws.Fresh wsBefore := by
  intro q hq
  refine Demo.lookup_nil fun e he => ?_
  rintro rfl
  simp only [wsEntries, List.mem_cons, List.not_mem_nil, or_false] at he
  rcases he with rfl | rfl | rfl | rfl | rfl | rfl <;> revert hq <;> decide +kernel

theorem ws_clean : ws.Clean wsBefore :=
  fresh_clean ws_sound ws_fresh (fun q _ t => ws_no_links q t) (fun q t _ h => absurd h (ws_no_links q t))

def wsOps : List (Op × Bool) := (ws.buildOps [8, 8] [Demo.lib]).getD []

theorem wsOps_eq : ws.buildOps [8, 8] [Demo.lib] = some wsOps := by decide +kernel

def wsAfter : Fs := (execPath Demo.evs wsBefore wsOps).getD wsBefore

theorem ws_reached : Reaches looks looksLink wsBefore wsOps wsAfter := by
  refine execPath_reaches (evs := Demo.evs) (looks_evs Demo.evs_smooth) looksLink_any ?_
  have : (execPath Demo.evs wsBefore wsOps).isSome = true := by decide +kernel
  obtain ⟨f, hf⟩ := Option.isSome_iff_exists.1 this
  rw [wsAfter, hf]; rfl

theorem prefix_take {q p : Place} (h : q <+: p) : ∃ k : Fin (p.length + 1), q = p.take k := by
  refine ⟨⟨q.length, Nat.lt_succ_of_le h.length_le⟩, ?_⟩
  exact List.prefix_iff_eq_take.1 h

theorem ws_up : ∀ k : Fin 3, wsBefore.node ([Demo.n "t", Demo.n "b"].take k) = some .dir := by decide +kernel
theorem ws_up' : ∀ k : Fin 3, wsBefore.node ([Demo.n "t", Demo.n "a"].take k) = some .dir := by decide +kernel
theorem ws_up'' : ∀ k : Fin 2, wsBefore.node ([Demo.n "t"].take k) = some .dir := by decide +kernel

/-- The hypotheses of `target_kept` are met by the crate in `/t/b`, which finds `/t` before and after. -/
example : findTargetDir false none wsAfter.exists (some (Place.path [Demo.n "t", Demo.n "b"])) (Place.path [Demo.n "t", Demo.n "b"]) =
      .path (Place.path [Demo.n "t"]) ∧ wsAfter.node [Demo.n "t", Demo.n "cxxbridge", Demo.n "rust"] = some .dir := by
  have h := targets_kept_partial (prj := ws) (fs := wsBefore) (f := wsAfter) (out := [Demo.n "t", Demo.n "b"]) (t := [Demo.n "t"])
    (by decide +kernel) ws_clean (.build none [8, 8] [Demo.lib] (by intro d h; cases h) wsOps_eq ws_reached (.none _))
    (fun q hq => ⟨by
      obtain ⟨k, rfl⟩ := prefix_take hq
      exact ws_up k, fun m _ t => ws_no_links _ t⟩) rfl
    (fun q hq => by
      rcases hq with hq | hq
      · obtain ⟨k, rfl⟩ := prefix_take hq
        exact ws_up' k
      · obtain ⟨k, rfl⟩ := prefix_take hq
        exact ws_up'' k) (by rintro (h | h) <;> revert h <;> decide +kernel) false
  refine ⟨h.trans (by decide +kernel), by decide +kernel⟩

end TargetDemo

end Verif.Build
