import Verif.Build.PathSpec
/-!
# Generated files stay where they belong
-/
namespace Verif.Build

/-! ### Components -/

theorem splitSlash_ne (s : List Char) : splitSlash s ≠ [] := by
  cases s with
  | nil => simp [splitSlash]
  | cons c cs =>
    unfold splitSlash
    split
    · simp
    · split <;> simp

theorem splitSlash_noslash {s p : List Char} (h : p ∈ splitSlash s) : '/' ∉ p := by
  induction s generalizing p with
  | nil => simp [splitSlash] at h; simp [h]
  | cons c cs ih =>
    unfold splitSlash at h
    split at h
    · rcases List.mem_cons.1 h with rfl | h
      · simp
      · exact ih h
    · next hc =>
      split at h
      · simp at h; subst h; simpa using fun e => hc e.symm
      · next q qs hq =>
        rcases List.mem_cons.1 h with rfl | h
        · simp only [List.mem_cons, not_or]
          exact ⟨fun e => hc e.symm, ih (hq ▸ List.mem_cons_self ..)⟩
        · exact ih (hq ▸ List.mem_cons_of_mem _ h)

/-- The names among the components of a text are names. -/
theorem components_names {s : List Char} {n : Name} (h : Comp.normal n ∈ components s) : IsName n := by
  unfold components at h
  rcases List.mem_append.1 h with h | h
  · split at h
    · simp at h
    · split at h <;> simp at h
  · obtain ⟨p, hp, hc⟩ := List.mem_filterMap.1 h
    unfold piece at hc
    split at hc
    · cases hc
    · split at hc
      · cases hc
      · split at hc
        · cases hc
        · cases hc
          exact ⟨‹_›, splitSlash_noslash hp, ‹_›, ‹_›⟩

theorem splitSlash_name {n : List Char} (h : '/' ∉ n) : splitSlash n = [n] := by
  induction n with
  | nil => rfl
  | cons c cs ih =>
    simp only [List.mem_cons, not_or] at h
    unfold splitSlash
    rw [if_neg fun e => h.1 e.symm, ih h.2]

theorem splitSlash_cons {n s : List Char} (h : '/' ∉ n) : splitSlash (n ++ '/' :: s) = n :: splitSlash s := by
  induction n with
  | nil => simp [splitSlash]
  | cons c cs ih =>
    simp only [List.mem_cons, not_or] at h
    rw [List.cons_append, splitSlash, if_neg fun e => h.1 e.symm, ih h.2]

theorem piece_name {n : Name} (h : IsName n) : piece n = some (.normal n) := by
  simp [piece, h.1, h.2.2.1, h.2.2.2]

theorem splitSlash_text {ns : List Name} (hn : ns ≠ []) (h : ∀ n ∈ ns, IsName n) : splitSlash (text ns) = ns := by
  induction ns with
  | nil => exact absurd rfl hn
  | cons n ns ih =>
    have hs := (h n (List.mem_cons_self ..)).2.1
    cases ns with
    | nil => exact splitSlash_name hs
    | cons m ms =>
      rw [text, splitSlash_cons hs, ih (by simp) fun k hk => h k (List.mem_cons_of_mem _ hk)]

/-- The text that is made of names has these names as components. -/
theorem components_text {ns : List Name} (h : ∀ n ∈ ns, IsName n) : components (text ns) = ns.map .normal := by
  cases ns with
  | nil => rfl
  | cons n ms =>
    have hn := h n (List.mem_cons_self ..)
    have hsp := splitSlash_text (by simp) h
    have hfm : ∀ l : List Name, (∀ n ∈ l, IsName n) → l.filterMap piece = l.map .normal := by
      intro l hl
      induction l with
      | nil => rfl
      | cons a l ih =>
        rw [List.filterMap_cons, piece_name (hl a (List.mem_cons_self ..)), ih fun k hk => hl k (List.mem_cons_of_mem _ hk)]
        rfl
    unfold components
    rw [hsp, hfm _ h]
    have hroot : ∀ s, text (n :: ms) ≠ '/' :: s := by
      intro s he
      have : splitSlash ('/' :: s) = n :: ms := he ▸ hsp
      unfold splitSlash at this
      simp at this
      exact hn.1 this.1
    split
    · next s he => exact absurd he (hroot s)
    · simp [hn.2.2.1]

/-! ### The relative path -/

theorem follow_append (dir : List Name) (a b : List Comp) : follow dir (a ++ b) = follow (follow dir a) b := by
  induction a generalizing dir with
  | nil => rfl
  | cons c a ih => cases c <;> simp [follow, ih]

theorem follow_normal (dir ns : List Name) : follow dir (ns.map .normal) = dir ++ ns := by
  induction ns generalizing dir with
  | nil => simp [follow]
  | cons n ns ih => simp [follow, ih]

theorem localRelative_fold (path : List Comp) (hr : Comp.root ∉ path) (rel : List Name) :
    path.foldl pushComp rel = follow rel path := by
  induction path generalizing rel with
  | nil => rfl
  | cons c path ih =>
    simp only [List.mem_cons, not_or] at hr
    rw [List.foldl_cons, ih hr.2]
    cases c <;> first | rfl | exact absurd rfl hr.1

theorem localRelative_append (a b : List Comp) (h : Comp.root ∉ b) :
    localRelative (a ++ b) = follow (localRelative a) b := by
  unfold localRelative
  rw [List.foldl_append, localRelative_fold b h]

theorem components_shape (s : List Char) : ∃ cs, Comp.root ∉ cs ∧ (components s = cs ∨ components s = .root :: cs) := by
  have hno : Comp.root ∉ (splitSlash s).filterMap piece := by
    intro h
    obtain ⟨p, -, hc⟩ := List.mem_filterMap.1 h
    unfold piece at hc
    grind
  unfold components
  split
  · exact ⟨_, hno, .inr rfl⟩
  · split
    · exact ⟨.cur :: _, by simpa using hno, .inl rfl⟩
    · exact ⟨_, hno, .inl rfl⟩

/-- The place of the generated files in their directory is the place that the source path denotes where this directory is
the root of the file system. -/
theorem localRelative_place (s : List Char) : localRelative (components s) = follow [] (components s) := by
  obtain ⟨cs, hr, h | h⟩ := components_shape s
  · rw [h]; exact localRelative_append [] cs hr
  · rw [h]; exact localRelative_append [.root] cs hr

theorem follow_names {path : List Comp} {dir : List Name} (hd : ∀ n ∈ dir, IsName n)
    (h : ∀ n, Comp.normal n ∈ path → IsName n) : ∀ n ∈ follow dir path, IsName n := by
  induction path generalizing dir with
  | nil => exact hd
  | cons c path ih =>
    have hp : ∀ n, Comp.normal n ∈ path → IsName n := fun n hn => h n (List.mem_cons_of_mem _ hn)
    cases c with
    | volume _ => exact ih hd hp
    | cur => exact ih hd hp
    | root => exact ih (by simp) hp
    | parent => exact ih (fun n hn => hd n ((List.dropLast_sublist _).mem hn)) hp
    | normal m =>
      refine ih (fun n hn => ?_) hp
      rcases List.mem_append.1 hn with hn | hn
      · exact hd n hn
      · cases List.mem_singleton.1 hn
        exact h _ (List.mem_cons_self ..)

/-- **C40.** Whatever text a build script passes as the path of a source file, the relative path under which its output is
filed has no root, no `..` and no `.`: read back as a path it consists of names only. -/
theorem relative_only_names (s : List Char) :
    Downward (components (text (localRelative (components s)))) := by
  have hn : ∀ n ∈ localRelative (components s), IsName n := by
    rw [localRelative_place]
    exact follow_names (by simp) fun n hn => components_names hn
  rw [components_text hn]
  intro c hc
  obtain ⟨n, -, rfl⟩ := List.mem_map.1 hc
  exact ⟨n, rfl⟩

example : text (localRelative (components "/../../etc/./x/..//../src/../lib.rs".toList)) = "lib.rs".toList := by
  decide +kernel

theorem join_names (a : List Comp) (ns : List Name) : join a (ns.map .normal) = a ++ ns.map .normal := by
  cases ns <;> rfl

theorem join_plainly {a p : List Comp} (h : Plainly p) : join a p = a ++ p := by
  unfold join
  split
  · exact absurd rfl ((h _ rfl).2 _)
  · exact absurd rfl (h _ rfl).1
  · rfl

/-- **C40.** For every output directory, every include prefix without a root, and every source path, the generated files
lie exactly here: in the include directory and the source directory of the crate, at the place that the source path denotes
where that directory is the root, under the name of the source file with `.h` or `.cc` appended.  There is no output only
if the source path does not name a file. -/
theorem outputs_place (out shared pre : List Comp) (hp : Plainly pre) (s : List Char) :
    (follow [] (components s) = [] → outputs out shared pre (components s) = none) ∧
    ∀ dirs name, follow [] (components s) = dirs ++ [name] →
      ∃ o, outputs out shared pre (components s) = some o ∧
        follow [] o.header =
          follow [] (out ++ [.normal "cxxbridge".toList, .normal "include".toList] ++ pre) ++ dirs ++ [name ++ ".h".toList] ∧
        follow [] o.source =
          follow [] (out ++ [.normal "cxxbridge".toList, .normal "sources".toList] ++ pre) ++ dirs ++ [name ++ ".cc".toList] ∧
        follow [] o.link =
          follow [] (out ++ [.normal "cxxbridge".toList, .normal "include".toList] ++ pre) ++ dirs ++ [name] ∧
        follow [] o.sharedHeader = follow [] (shared ++ pre) ++ dirs ++ [name ++ ".h".toList] ∧
        follow [] o.sharedSource = follow [] (shared ++ pre) ++ dirs ++ [name ++ ".cc".toList] := by
  rw [← localRelative_place]
  refine ⟨fun h => by simp [outputs, h, withAppendedExtension], fun dirs name h => ?_⟩
  have ho : ∀ suffix, withAppendedExtension (dirs ++ [name]) suffix = some (dirs ++ [name ++ suffix]) := by
    intro suffix
    simp [withAppendedExtension]
  have he : outputs out shared pre (components s) = some
      { header := join (join (join (join out [.normal "cxxbridge".toList]) [.normal "include".toList]) pre)
          ((dirs ++ [name ++ ".h".toList]).map .normal),
        source := join (join (join (join out [.normal "cxxbridge".toList]) [.normal "sources".toList]) pre)
          ((dirs ++ [name ++ ".cc".toList]).map .normal),
        link := join (join (join (join out [.normal "cxxbridge".toList]) [.normal "include".toList]) pre)
          ((dirs ++ [name]).map .normal),
        sharedHeader := join (join shared pre) ((dirs ++ [name ++ ".h".toList]).map .normal),
        sharedSource := join (join shared pre) ((dirs ++ [name ++ ".cc".toList]).map .normal) } := by
    simp only [outputs, h, ho, Option.bind_some, Option.map_some]
  refine ⟨_, he, ?_⟩
  have hc : ∀ a n, join a [.normal n] = a ++ [.normal n] := fun a n => rfl
  simp only [join_names, join_plainly hp, hc, follow_append, follow_normal, List.append_assoc, List.cons_append,
    List.nil_append, follow, and_self]

/-- **C40.** If the include prefix goes only downward, as the name of a crate does, everything that is generated lies below
`OUT_DIR` and below the directory of shared links, for every source path. -/
theorem outputs_inside (out shared pre : List Comp) (hp : Downward pre) (s : List Char) {o : Outputs}
    (ho : outputs out shared pre (components s) = some o) :
    Below (follow [] out) (follow [] o.header) ∧ Below (follow [] out) (follow [] o.source) ∧
    Below (follow [] out) (follow [] o.link) ∧
    Below (follow [] shared) (follow [] o.sharedHeader) ∧ Below (follow [] shared) (follow [] o.sharedSource) := by
  have hplain : Plainly pre := by
    intro c hc
    obtain ⟨n, rfl⟩ := hp c (List.mem_of_mem_head? hc)
    exact ⟨nofun, nofun⟩
  obtain ⟨ns, rfl⟩ : ∃ ns : List Name, pre = ns.map .normal := by
    clear ho hplain
    induction pre with
    | nil => exact ⟨[], rfl⟩
    | cons c pre ih =>
      obtain ⟨n, rfl⟩ := hp c (List.mem_cons_self ..)
      obtain ⟨ns, rfl⟩ := ih fun c hc => hp c (List.mem_cons_of_mem _ hc)
      exact ⟨n :: ns, rfl⟩
  obtain ⟨hnone, hsome⟩ := outputs_place out shared _ hplain s
  rcases List.eq_nil_or_concat (follow [] (components s)) with h | ⟨dirs, name, h⟩
  · rw [hnone h] at ho; cases ho
  · obtain ⟨o', ho', h1, h2, h3, h4, h5⟩ := hsome dirs name (by simpa using h)
    cases ho.symm.trans ho'
    simp only [follow_append, follow_normal, List.append_assoc] at h1 h2 h3 h4 h5
    have hc : ∀ d a b, follow d [.normal a, .normal b] = d ++ [a, b] := by simp [follow]
    rw [hc, List.append_assoc] at h1 h2 h3
    exact ⟨⟨_, h1⟩, ⟨_, h2⟩, ⟨_, h3⟩, ⟨_, h4⟩, ⟨_, h5⟩⟩

example : (outputs (components "/t/out".toList) (components "/t/cxxbridge".toList) (components "demo".toList)
    (components "../../src/lib.rs".toList)).map (·.header) =
    some (components "/t/out/cxxbridge/include/demo/src/lib.rs.h".toList) := by decide +kernel

/-- The include prefix, which is checked only for being relative (gen/build/src/lib.rs:161), is not confined: with `..`
in it the output leaves `OUT_DIR`. -/
theorem prefix_escapes : ∃ o, outputs (components "/t/out".toList) (components "/t/c".toList)
    (components "../../../x".toList) (components "lib.rs".toList) = some o ∧
    ¬ Below (follow [] (components "/t/out".toList)) (follow [] o.header) := by
  refine ⟨_, rfl, ?_⟩
  rintro ⟨rest, h⟩
  have he : follow [] (components "/t/out".toList) = ["t".toList, "out".toList] := by decide +kernel
  rw [he] at h
  have := congrArg (List.take 2) h
  revert this
  simp only [List.cons_append, List.nil_append, List.take_succ_cons, List.take_zero]
  decide +kernel

/-- Along a path that never leaves the directory where it starts. -/
theorem inside_way {path : List Comp} (hi : Inside path) (hr : Comp.root ∉ path) :
    ∀ (n : Nat) (way rest : List Comp), way.length = n → path = way ++ rest →
      ∀ dir, follow dir way = dir ++ follow [] way
  | 0, way, rest, hn, h, dir => by
    cases List.length_eq_zero_iff.1 hn
    simp [follow]
  | n + 1, way, rest, hn, h, dir => by
    rcases List.eq_nil_or_concat way with rfl | ⟨way, c, rfl⟩
    · simp at hn
    · simp only [List.concat_eq_append, List.append_assoc, List.cons_append, List.nil_append] at h
      have ih := inside_way hi hr n way (c :: rest) (by simpa using hn) h
      rw [List.concat_eq_append, follow_append, follow_append, ih dir]
      cases c with
      | volume _ => rfl
      | cur => rfl
      | root => exact absurd (h ▸ by simp) hr
      | normal n => simp [follow]
      | parent =>
        simp only [follow]
        rcases List.eq_nil_or_concat (follow [] way) with he | ⟨xs, x, he⟩
        · obtain ⟨r, hb⟩ := hi [[]] (way ++ [.parent]) rest (by simpa using h)
          rw [follow_append, ih, he] at hb
          simp [follow] at hb
        · rw [he]
          simp only [List.concat_eq_append, ← List.append_assoc, List.dropLast_concat]

/-- **C40.** Source files in a crate directory that are given by relative paths which never leave it: the relative output
path leads from the crate directory to the file, so different files get different headers and different sources. -/
theorem inside_place (dir : List Name) {s : List Char} (hi : Inside (components s)) (hr : Comp.root ∉ components s) :
    follow dir (components s) = dir ++ localRelative (components s) := by
  rw [localRelative_place]
  exact inside_way hi hr _ _ [] rfl (by simp) dir

theorem inside_distinct (out shared pre : List Comp) (hp : Plainly pre) (dir : List Name) {s t : List Char}
    (hs : Inside (components s)) (hrs : Comp.root ∉ components s)
    (ht : Inside (components t)) (hrt : Comp.root ∉ components t) {o q : Outputs}
    (ho : outputs out shared pre (components s) = some o) (hq : outputs out shared pre (components t) = some q)
    (he : follow [] o.header = follow [] q.header ∨ follow [] o.source = follow [] q.source) :
    follow dir (components s) = follow dir (components t) := by
  rw [inside_place dir hs hrs, inside_place dir ht hrt, localRelative_place, localRelative_place]
  congr 1
  obtain ⟨hn, h⟩ := outputs_place out shared pre hp s
  obtain ⟨hn', h'⟩ := outputs_place out shared pre hp t
  rcases List.eq_nil_or_concat (follow [] (components s)) with h0 | ⟨ds, n, h0⟩
  · rw [hn h0] at ho; cases ho
  rcases List.eq_nil_or_concat (follow [] (components t)) with h1 | ⟨es, m, h1⟩
  · rw [hn' h1] at hq; cases hq
  obtain ⟨o', ho', a1, a2, -⟩ := h ds n (by simpa using h0)
  obtain ⟨q', hq', b1, b2, -⟩ := h' es m (by simpa using h1)
  cases ho.symm.trans ho'
  cases hq.symm.trans hq'
  rw [h0, h1]
  rcases he with he | he
  · rw [a1, b1] at he
    simp only [List.append_assoc, List.append_cancel_left_eq] at he
    have := List.append_inj' he rfl
    simp only [List.cons.injEq, List.append_cancel_right_eq, and_true] at this
    simp [this]
  · rw [a2, b2] at he
    simp only [List.append_assoc, List.append_cancel_left_eq] at he
    have := List.append_inj' he rfl
    simp only [List.cons.injEq, List.append_cancel_right_eq, and_true] at this
    simp [this]

theorem inside_of_normal {path : List Comp} (h : Downward path) : Inside path := by
  intro dir way rest he
  have hw : Downward way := fun c hc => h c (he ▸ List.mem_append_left _ hc)
  clear he h
  induction way generalizing dir with
  | nil => exact ⟨[], by simp [follow]⟩
  | cons c way ih =>
    obtain ⟨n, rfl⟩ := hw c (List.mem_cons_self ..)
    obtain ⟨r, hr⟩ := ih (dir ++ [n]) fun c hc => hw c (List.mem_cons_of_mem _ hc)
    exact ⟨n :: r, by simpa [follow] using hr⟩

example : Inside (components "src/a/lib.rs".toList) ∧ Comp.root ∉ components "src/a/lib.rs".toList := by
  have he : components "src/a/lib.rs".toList = [.normal "src".toList, .normal "a".toList, .normal "lib.rs".toList] := by
    decide +kernel
  rw [he]
  exact ⟨inside_of_normal (by intro c hc; simp at hc; rcases hc with rfl | rfl | rfl <;> exact ⟨_, rfl⟩), by decide⟩

/-- Sources outside the crate can share their output with one inside. -/
theorem outside_collides (out shared pre : List Comp) :
    outputs out shared pre (components "../src/lib.rs".toList) = outputs out shared pre (components "src/lib.rs".toList) := by
  have h : localRelative (components "../src/lib.rs".toList) = localRelative (components "src/lib.rs".toList) := by
    decide +kernel
  unfold outputs
  rw [h]

/-! ### Symbolic links -/

theorem restAfterCommon_spec (a b : List Comp) : ∃ c, a = c ++ (restAfterCommon a b).1 ∧ b = c ++ (restAfterCommon a b).2 := by
  induction a generalizing b with
  | nil => exact ⟨[], by cases b <;> simp [restAfterCommon]⟩
  | cons x a ih =>
    cases b with
    | nil => exact ⟨[], by simp [restAfterCommon]⟩
    | cons y b =>
      by_cases h : x = y
      · subst h
        obtain ⟨c, h1, h2⟩ := ih b
        refine ⟨x :: c, ?_⟩
        simp only [restAfterCommon, if_pos rfl, List.cons_append]
        exact ⟨congrArg _ h1, congrArg _ h2⟩
      · exact ⟨[], by simp [restAfterCommon, h]⟩

theorem restAfterCommon_append (c a b : List Comp) : restAfterCommon (c ++ a) (c ++ b) = restAfterCommon a b := by
  induction c with
  | nil => rfl
  | cons x c ih => simp [restAfterCommon, ih]

theorem climb_normals (base : List Comp) (ns : List Name) : climb ns.length (base ++ ns.map .normal) = base := by
  generalize hn : ns.length = n
  induction n generalizing ns with
  | zero => cases List.length_eq_zero_iff.1 hn; simp [climb]
  | succ n ih =>
    rcases List.eq_nil_or_concat ns with rfl | ⟨ms, m, rfl⟩
    · simp at hn
    · have : parent (base ++ (ms.concat m).map .normal) = some (base ++ ms.map .normal) := by
        simp [parent, List.concat_eq_append, ← List.append_assoc]
      rw [climb, this]
      exact ih ms (by simpa using hn)

theorem climb_over (base : List Comp) (hb : parent base = none) (ns : List Name) (k : Nat) :
    climb (ns.length + (k + 1)) (base ++ ns.map .normal) = [] := by
  generalize hn : ns.length = n
  induction n generalizing ns with
  | zero => cases List.length_eq_zero_iff.1 hn; simp [climb, hb]
  | succ n ih =>
    rcases List.eq_nil_or_concat ns with rfl | ⟨ms, m, rfl⟩
    · simp at hn
    · have : parent (base ++ (ms.concat m).map .normal) = some (base ++ ms.map .normal) := by
        simp [parent, List.concat_eq_append, ← List.append_assoc]
      rw [show n + 1 + (k + 1) = (n + (k + 1)) + 1 by omega, climb, this]
      exact ih ms (by simpa using hn)

theorem follow_up (dir ns : List Name) : follow (dir ++ ns) (List.replicate ns.length .parent) = dir := by
  generalize hn : ns.length = n
  induction n generalizing ns with
  | zero => cases List.length_eq_zero_iff.1 hn; simp [follow]
  | succ n ih =>
    rcases List.eq_nil_or_concat ns with rfl | ⟨ms, m, rfl⟩
    · simp at hn
    · simp only [List.replicate_succ, follow, List.concat_eq_append, ← List.append_assoc, List.dropLast_concat]
      exact ih ms (by simpa using hn)

theorem isAbsolute_absolute (v : Option Name) (ns : List Name) : isAbsolute (absolute v ns) = true := by
  cases v <;> rfl

theorem hasParent_absolute (v : Option Name) (ns : List Name) : hasParent (absolute v ns) = false := by
  cases v <;> simp [hasParent, absolute]

theorem absolute_eq (v : Option Name) (ns : List Name) : absolute v ns = absolute v [] ++ ns.map .normal := by
  cases v <;> rfl

theorem parent_absolute (v : Option Name) : parent (absolute v []) = none := by cases v <;> rfl

theorem restAfterCommon_names (a b : List Name) :
    ∃ c x y, a = c ++ x ∧ b = c ++ y ∧ (∀ m ms n ns, x = m :: ms → y = n :: ns → m ≠ n) ∧
      restAfterCommon (a.map .normal) (b.map .normal) = (x.map .normal, y.map .normal) := by
  induction a generalizing b with
  | nil => exact ⟨[], [], b, rfl, rfl, nofun, by cases b <;> rfl⟩
  | cons m a ih =>
    cases b with
    | nil => exact ⟨[], m :: a, [], rfl, rfl, nofun, rfl⟩
    | cons n b =>
      by_cases h : m = n
      · subst h
        obtain ⟨c, x, y, rfl, rfl, h1, h2⟩ := ih b
        exact ⟨m :: c, x, y, rfl, rfl, h1, by simpa [restAfterCommon] using h2⟩
      · refine ⟨[], m :: a, n :: b, rfl, rfl, ?_, ?_⟩
        · rintro _ _ _ _ ⟨⟩ ⟨⟩; exact h
        · simp [restAfterCommon, h]

/-- **C41.** Between absolute paths on one volume the link is computed, unless the link is the original or a directory that
contains it, and followed from the directory of the link it leads to the original. -/
theorem relative_link (v : Option Name) (ns dirs : List Name) (name : Name) (h : ¬ ∃ rest, ns = dirs ++ [name] ++ rest) :
    ∃ p, relativize false (absolute v ns) (absolute v (dirs ++ [name])) = .path p ∧ follow dirs p = ns := by
  obtain ⟨c, x, y, hx, hy, hne, hr⟩ := restAfterCommon_names ns (dirs ++ [name])
  have hrest : restAfterCommon (absolute v ns) (absolute v (dirs ++ [name])) = (x.map .normal, y.map .normal) := by
    rw [absolute_eq, absolute_eq v (dirs ++ [name]), restAfterCommon_append, hr]
  have hclimb : climb x.length (absolute v ns) = absolute v c := by
    have : absolute v ns = absolute v c ++ x.map .normal := by
      rw [absolute_eq, absolute_eq v c, hx]; simp
    rw [this]
    exact climb_normals _ x
  have hc : absolute v c ≠ [] := by cases v <;> simp [absolute]
  have hy' : y ≠ [] := by
    rintro rfl
    exact h ⟨x, by rw [hx, hy]; simp⟩
  rcases List.eq_nil_or_concat y with rfl | ⟨ys, z, rfl⟩
  · exact absurd rfl hy'
  have hy2 : dirs = c ++ ys := by
    rw [List.concat_eq_append, ← List.append_assoc] at hy
    exact (List.append_inj' hy rfl).1
  refine ⟨List.replicate ys.length .parent ++ x.map .normal, ?_, ?_⟩
  · simp only [relativize, isAbsolute_absolute, hasParent_absolute, hrest, List.length_map, hclimb, if_neg hc]
    cases hl : (ys.concat z).map Comp.normal with
    | nil => simp at hl
    | cons w ws =>
      have hlen : ws.length = ys.length := by
        have := congrArg List.length hl
        simpa using this.symm
      simp [hlen, join_names]
  · rw [follow_append, hy2, follow_up, follow_normal, ← hx]

/-- No relative link is computed if one of the paths does not start at the root or goes up with `..`, or if the target directory
has been moved. -/
theorem relativize_refuses {set : Bool} {original link : List Comp}
    (h : set = true ∨ .parent ∈ original ∨ .parent ∈ link ∨
      (∃ p ∈ [original, link], (∀ rest, p ≠ .root :: rest) ∧ ∀ v rest, p ≠ .volume v :: .root :: rest)) :
    relativize set original link = .unsuitable := by
  have parent : ∀ {p : List Comp}, Comp.parent ∈ p → hasParent p = true := fun hp =>
    List.any_eq_true.2 ⟨_, hp, by simp⟩
  have relative : ∀ {p : List Comp}, ((∀ rest, p ≠ .root :: rest) ∧ ∀ v rest, p ≠ .volume v :: .root :: rest) →
      isAbsolute p = false := by
    rintro p ⟨h1, h2⟩
    unfold isAbsolute
    split
    · exact absurd rfl (h1 _)
    · exact absurd rfl (h2 _ _)
    · rfl
  unfold relativize
  rw [if_pos]
  simp only [List.mem_cons, List.not_mem_nil, or_false] at h
  rcases h with h | h | h | ⟨p, rfl | rfl, h⟩
  · simp [h]
  · simp [parent h]
  · simp [parent h]
  · simp [relative h]
  · simp [relative h]

example : relativize false (components "out/a.h".toList) (components "/t/b.h".toList) = .unsuitable :=
  relativize_refuses (.inr (.inr (.inr ⟨components "out/a.h".toList, by simp, by
    have : components "out/a.h".toList = [.normal "out".toList, .normal "a.h".toList] := by decide +kernel
    rw [this]; simp⟩)))

/-- A relative link is computed exactly if the two paths are on the same volume, and the target directory has not been moved
by `CARGO_TARGET_DIR`.  If the link is the original or a directory that contains it, the build script panics. -/
theorem relativize_cases (set : Bool) (v w : Option Name) (ns ms : List Name) :
    (relativize set (absolute v ns) (absolute w ms) = .unsuitable ↔ set = true ∨ v ≠ w) ∧
    (relativize set (absolute v ns) (absolute w ms) = .panics ↔ set = false ∧ v = w ∧ ∃ rest, ns = ms ++ rest) := by
  cases set with
  | true => simp [relativize]
  | false =>
    by_cases hv : v = w
    · subst hv
      rcases List.eq_nil_or_concat ms with rfl | ⟨dirs, name, rfl⟩
      · have hp : relativize false (absolute v ns) (absolute v []) = .panics := by
          have hrest : restAfterCommon (absolute v ns) (absolute v []) = (ns.map .normal, []) := by
            have := restAfterCommon_append (absolute v []) (ns.map .normal) []
            rw [List.append_nil, ← absolute_eq] at this
            rw [this]
            cases ns <;> rfl
          have hclimb : climb ns.length (absolute v ns) = absolute v [] := by
            rw [absolute_eq]; exact climb_normals _ ns
          have hc : absolute v [] ≠ [] := by cases v <;> simp [absolute]
          simp [relativize, isAbsolute_absolute, hasParent_absolute, hrest, hclimb, hc]
        rw [hp]
        simp
      · by_cases h : ∃ rest, ns = dirs ++ [name] ++ rest
        · obtain ⟨rest, rfl⟩ := h
          have hp : relativize false (absolute v (dirs ++ [name] ++ rest)) (absolute v (dirs ++ [name])) = .panics := by
            have hrest : restAfterCommon (absolute v (dirs ++ [name] ++ rest)) (absolute v (dirs ++ [name])) =
                (rest.map .normal, []) := by
              have := restAfterCommon_append (absolute v (dirs ++ [name])) (rest.map .normal) []
              rw [List.append_nil] at this
              rw [absolute_eq, List.map_append, ← List.append_assoc, ← absolute_eq, this]
              cases rest <;> rfl
            have hclimb : climb rest.length (absolute v (dirs ++ [name] ++ rest)) = absolute v (dirs ++ [name]) := by
              rw [absolute_eq, List.map_append, ← List.append_assoc, ← absolute_eq]
              exact climb_normals _ rest
            have hc : absolute v (dirs ++ [name]) ≠ [] := by cases v <;> simp [absolute]
            simp [relativize, isAbsolute_absolute, hasParent_absolute, hrest, hclimb, hc, -List.append_assoc]
          rw [List.concat_eq_append, hp]
          simp
        · obtain ⟨p, hp, -⟩ := relative_link v ns dirs name h
          rw [List.concat_eq_append, hp]
          simp only [reduceCtorEq, false_iff, ne_eq, not_true_eq_false, or_self, Bool.false_eq_true,
            not_false_eq_true, true_and, and_true]
          exact h
    · have hu : relativize false (absolute v ns) (absolute w ms) = .unsuitable := by
        have hrest : ∃ k, (restAfterCommon (absolute v ns) (absolute w ms)).1.length = ns.length + (k + 1) := by
          cases v <;> cases w
          · exact absurd rfl hv
          · exact ⟨0, by simp [absolute, restAfterCommon]⟩
          · exact ⟨1, by simp [absolute, restAfterCommon]⟩
          · next a b =>
            have : a ≠ b := fun e => hv (e ▸ rfl)
            exact ⟨1, by simp [absolute, restAfterCommon, this]⟩
        obtain ⟨k, hk⟩ := hrest
        have hclimb : climb (ns.length + (k + 1)) (absolute v ns) = [] := by
          rw [absolute_eq]
          exact climb_over _ (parent_absolute v) ns k
        simp [relativize, isAbsolute_absolute, hasParent_absolute, hk, hclimb]
      rw [hu]
      simp [hv]

/-- On Unix every absolute path without `..` is of the form that `relative_link` speaks about. -/
theorem unix_absolute {s : List Char} (ha : isAbsolute (components s) = true) (hp : Comp.parent ∉ components s) :
    components s = absolute none (follow [] (components s)) := by
  have hnv : ∀ v, Comp.volume v ∉ components s := by
    intro v hv
    unfold components at hv
    rcases List.mem_append.1 hv with h | h
    · split at h
      · simp at h
      · split at h <;> simp at h
    · obtain ⟨p, -, hc⟩ := List.mem_filterMap.1 h
      unfold piece at hc
      grind
  cases s with
  | nil => exact absurd ha (by decide)
  | cons ch s =>
    by_cases hch : ch = '/'
    · subst hch
      have hcs : components ('/' :: s) = .root :: (splitSlash ('/' :: s)).filterMap piece := rfl
      have hn : ∀ l : List (List Char), Comp.parent ∉ l.filterMap piece →
          ∃ ns : List Name, l.filterMap piece = ns.map .normal := by
        intro l
        induction l with
        | nil => exact fun _ => ⟨[], rfl⟩
        | cons p l ih =>
          intro h
          cases hpc : piece p with
          | none =>
            rw [List.filterMap_cons_none hpc] at h ⊢
            exact ih h
          | some c =>
            rw [List.filterMap_cons_some hpc] at h ⊢
            simp only [List.mem_cons, not_or] at h
            obtain ⟨ns, hns⟩ := ih h.2
            unfold piece at hpc
            split at hpc
            · cases hpc
            · split at hpc
              · cases hpc
              · split at hpc
                · cases hpc; exact absurd rfl h.1
                · cases hpc; exact ⟨p :: ns, by rw [hns]; rfl⟩
      obtain ⟨ns, hns⟩ := hn (splitSlash ('/' :: s)) (fun h => hp (hcs ▸ List.mem_cons_of_mem _ h))
      rw [hcs, hns]
      simp [follow, follow_normal, absolute]
    · exfalso
      have hcs : components (ch :: s) =
          (if (splitSlash (ch :: s)).head? = some ['.'] then [Comp.cur] else []) ++ (splitSlash (ch :: s)).filterMap piece := by
        unfold components
        split
        · next h => cases h; exact absurd rfl hch
        · rfl
      have hroot : Comp.root ∉ components (ch :: s) := by
        rw [hcs]
        intro h
        rcases List.mem_append.1 h with h | h
        · split at h <;> simp at h
        · obtain ⟨p, -, hc⟩ := List.mem_filterMap.1 h
          unfold piece at hc
          grind
      unfold isAbsolute at ha
      split at ha
      · next h => exact hroot (h ▸ List.mem_cons_self ..)
      · next h => exact hnv _ (h ▸ List.mem_cons_self ..)
      · cases ha

example : relativize false (components "/foo/bar/baz".toList) (components "/foo/spam/./eggs".toList) =
    .path (components "../bar/baz".toList) := by decide +kernel

/-- The computed path is empty, and cannot be the content of a symbolic link, only if the link is to lead to the directory
where it is. -/
theorem empty_link (v : Option Name) (ns dirs : List Name) (name : Name) :
    relativize false (absolute v ns) (absolute v (dirs ++ [name])) = .path [] ↔ ns = dirs := by
  constructor
  · intro h
    by_cases hn : ∃ rest, ns = dirs ++ [name] ++ rest
    · rw [((relativize_cases false v v ns (dirs ++ [name])).2).2 ⟨rfl, rfl, hn⟩] at h
      cases h
    · obtain ⟨p, hp, hf⟩ := relative_link v ns dirs name hn
      cases hp.symm.trans h
      exact hf.symm
  · rintro rfl
    have hrest : restAfterCommon (absolute v ns) (absolute v (ns ++ [name])) = ([], [.normal name]) := by
      have := restAfterCommon_append (absolute v ns) [] [.normal name]
      rw [List.append_nil] at this
      rw [absolute_eq v (ns ++ [name]), List.map_append, ← List.append_assoc, ← absolute_eq]
      exact this
    have hc : absolute v ns ≠ [] := by cases v <;> simp [absolute]
    simp [relativize, isAbsolute_absolute, hasParent_absolute, hrest, climb, hc, join]

/-- **C41.** Whatever symbolic links there are on the way, what is written into the link denotes, from the directory of the
link, the same file as the original path. -/
theorem link_denotes (canon : List Comp → Option (List Name)) (set : Bool) {original link p : List Comp}
    (ha : isAbsolute original = true) (h : bestEffort canon set original link = some p) :
    canon (join link.dropLast p) = canon original := by
  have hj : ∀ a, join a original = original := by
    intro a
    unfold isAbsolute at ha
    split at ha
    · rfl
    · rfl
    · cases ha
  unfold bestEffort at h
  split at h
  · cases h
  · cases h; rw [hj]
  · split at h
    · next q _ a b h1 h2 =>
      split at h
      · next he => cases h; rw [h1, h2, he]
      · cases h; rw [hj]
    · cases h; rw [hj]

example : bestEffort (fun p => some (follow [] p)) false (components "/t/out/include/a.h".toList)
    (components "/t/shared/a.h".toList) = some (components "../out/include/a.h".toList) := by decide +kernel

end Verif.Build
