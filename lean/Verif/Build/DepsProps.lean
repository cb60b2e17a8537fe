import Verif.Build.SortedMap
import Verif.Build.DepsSpec
/-!
# Exported header directories reach the dependents
-/
namespace Verif.Build

/-! ### Numbers -/

theorem ofNat_digit {n : Nat} (h : n < 10) : (Char.ofNat (48 + n)).toNat = 48 + n := by
  have : ∀ n : Fin 10, (Char.ofNat (48 + n.val)).toNat = 48 + n.val := by decide
  exact this ⟨n, h⟩

theorem decimalFuel_digits (fuel n : Nat) : ∀ c ∈ decimalFuel fuel n, isDigit c = true := by
  induction fuel generalizing n with
  | zero => simp [decimalFuel]
  | succ fuel ih =>
    intro c hc
    rw [decimalFuel] at hc
    rcases List.mem_append.1 hc with hc | hc
    · split at hc
      · cases hc
      · exact ih _ c hc
    · cases List.mem_singleton.1 hc
      have := ofNat_digit (Nat.mod_lt n (by omega : 10 > 0))
      simp [isDigit, this]
      omega

theorem decimalFuel_value (fuel n : Nat) (h : n < fuel) :
    (decimalFuel fuel n).foldl (fun n c => 10 * n + (c.toNat - 48)) 0 = n := by
  induction fuel generalizing n with
  | zero => omega
  | succ fuel ih =>
    rw [decimalFuel, List.foldl_append]
    have hd := ofNat_digit (Nat.mod_lt n (by omega : 10 > 0))
    simp only [List.foldl_cons, List.foldl_nil, hd]
    split
    · simp only [List.foldl_nil]; omega
    · rw [ih (n / 10) (by omega)]; omega

theorem decimal_ne (n : Nat) : decimal n ≠ [] := by simp [decimal, decimalFuel]

theorem decimal_digits (n : Nat) : ∀ c ∈ decimal n, isDigit c = true := decimalFuel_digits _ _

theorem decimal_parse {n : Nat} (h : n < 2 ^ 64) : parseUsize (decimal n) = n := by
  have := decimalFuel_value (n + 1) n (by omega)
  simp only [parseUsize, decimal, this, if_pos h]

/-! ### Names of variables -/

theorem stripEnd_append (ending a : Text) : stripEnd ending (a ++ ending) = some a := by
  simp [stripEnd]

theorem suffix_last {e k : Text} {c d : Char} (h : e ++ [c] <:+ k ++ [d]) : c = d := by
  obtain ⟨t, ht⟩ := h
  rw [← List.append_assoc] at ht
  have := List.append_inj' ht rfl
  simpa using this.2

theorem stripEnd_last {e k : Text} {c d : Char} (h : c ≠ d) : stripEnd (e ++ [c]) (k ++ [d]) = none := by
  rw [stripEnd, if_neg fun hs => h (suffix_last hs)]

theorem prefix_dep (n : Text) (k : Text) : "DEP_".toList.isPrefixOf (depName n ++ k) = true := by
  rw [List.isPrefixOf_iff_prefix]
  exact ⟨n.map envChar ++ k, by simp [depName]⟩

theorem classify_prefix (n : Text) :
    classify (depName n ++ '_' :: "CXXBRIDGE_PREFIX".toList) = some (depName n, .includePrefix) := by
  have : stripEnd "_CXXBRIDGE_PREFIX".toList (depName n ++ '_' :: "CXXBRIDGE_PREFIX".toList) = some (depName n) :=
    stripEnd_append _ _
  simp only [classify, prefix_dep, Bool.not_true, Bool.false_eq_true, if_false, this]

theorem classify_links (n : Text) :
    classify (depName n ++ '_' :: "CXXBRIDGE_LINKS".toList) = some (depName n, .links) := by
  have h1 : stripEnd "_CXXBRIDGE_PREFIX".toList (depName n ++ '_' :: "CXXBRIDGE_LINKS".toList) = none := by
    have := stripEnd_last (e := "_CXXBRIDGE_PREFI".toList) (k := depName n ++ '_' :: "CXXBRIDGE_LINK".toList)
      (c := 'X') (d := 'S') (by decide)
    rw [List.append_assoc] at this
    exact this
  have h2 : stripEnd "_CXXBRIDGE_LINKS".toList (depName n ++ '_' :: "CXXBRIDGE_LINKS".toList) = some (depName n) :=
    stripEnd_append _ _
  simp only [classify, prefix_dep, Bool.not_true, Bool.false_eq_true, if_false, h1, h2]

theorem digits_at_end {a ds : Text} {c : Char} (hc : isDigit c = false) (hd : ∀ c ∈ ds, isDigit c = true) :
    (((a ++ [c] ++ ds).reverse.takeWhile isDigit).reverse) = ds := by
  have : (a ++ [c] ++ ds).reverse = ds.reverse ++ c :: a.reverse := by simp
  rw [this, List.takeWhile_append_of_pos (fun x hx => hd x (List.mem_reverse.1 hx)),
    List.takeWhile_cons_of_neg (by simp [hc]), List.append_nil, List.reverse_reverse]

theorem last_digit {ds : Text} (hn : ds ≠ []) (hd : ∀ c ∈ ds, isDigit c = true) (a : Text) :
    ∃ k d, a ++ ds = k ++ [d] ∧ isDigit d = true := by
  rcases List.eq_nil_or_concat ds with rfl | ⟨xs, x, rfl⟩
  · exact absurd rfl hn
  · exact ⟨a ++ xs, x, by simp, hd x (by simp)⟩

theorem classify_dir (n : Text) {ds : Text} (hn : ds ≠ []) (hd : ∀ c ∈ ds, isDigit c = true) :
    classify (depName n ++ '_' :: ("CXXBRIDGE_DIR".toList ++ ds)) = some (depName n, .dir (parseUsize ds)) := by
  have hk : depName n ++ '_' :: ("CXXBRIDGE_DIR".toList ++ ds) = (depName n ++ "_CXXBRIDGE_DI".toList) ++ ['R'] ++ ds := by
    simp only [List.append_assoc]; rfl
  obtain ⟨k, d, hkd, hdig⟩ := last_digit hn hd (depName n ++ '_' :: "CXXBRIDGE_DIR".toList)
  have hkd' : depName n ++ '_' :: ("CXXBRIDGE_DIR".toList ++ ds) = k ++ [d] := by
    rw [← hkd, List.append_assoc]; rfl
  have h1 : stripEnd "_CXXBRIDGE_PREFIX".toList (depName n ++ '_' :: ("CXXBRIDGE_DIR".toList ++ ds)) = none := by
    rw [hkd']
    refine stripEnd_last (e := "_CXXBRIDGE_PREFI".toList) (c := 'X') fun e => ?_
    rw [← e] at hdig; revert hdig; decide
  have h2 : stripEnd "_CXXBRIDGE_LINKS".toList (depName n ++ '_' :: ("CXXBRIDGE_DIR".toList ++ ds)) = none := by
    rw [hkd']
    refine stripEnd_last (e := "_CXXBRIDGE_LINK".toList) (c := 'S') fun e => ?_
    rw [← e] at hdig; revert hdig; decide
  have h3 := digits_at_end (a := depName n ++ "_CXXBRIDGE_DI".toList) (c := 'R') (by decide) hd
  rw [← hk] at h3
  have h4 : (depName n ++ '_' :: ("CXXBRIDGE_DIR".toList ++ ds)).take
      ((depName n ++ '_' :: ("CXXBRIDGE_DIR".toList ++ ds)).length - ds.length) = depName n ++ "_CXXBRIDGE_DIR".toList := by
    have he : depName n ++ '_' :: ("CXXBRIDGE_DIR".toList ++ ds) = (depName n ++ "_CXXBRIDGE_DIR".toList) ++ ds := by
      rw [List.append_assoc]; rfl
    rw [he, List.length_append, Nat.add_sub_cancel, List.take_left']
    rfl
  have h5 : stripEnd "_CXXBRIDGE_DIR".toList (depName n ++ "_CXXBRIDGE_DIR".toList) = some (depName n) := stripEnd_append _ _
  simp only [classify, prefix_dep, Bool.not_true, Bool.false_eq_true, if_false, h1, h2, h3, hn, h4, h5]

theorem stripEnd_some {e k key : Text} (h : stripEnd e k = some key) : k = key ++ e := by
  unfold stripEnd at h
  split at h
  · next hs =>
    obtain ⟨t, rfl⟩ := hs
    cases h
    simp
  · cases h

theorem classify_unrelated {k : Text} (h : Unrelated k) : classify k = none := by
  unfold classify
  split
  · rfl
  · next hp =>
    have hp' : "DEP_".toList <+: k := by
      rw [← List.isPrefixOf_iff_prefix]
      simpa using hp
    rcases h with h | ⟨h1, h2, h3⟩
    · exact absurd hp' h
    · split
      · next key hk => exact absurd ⟨key, (stripEnd_some hk).symm⟩ h1
      · split
        · next key hk => exact absurd ⟨key, (stripEnd_some hk).symm⟩ h2
        · dsimp only
          split
          · rfl
          · split
            · next key hk =>
              have hds : ∀ c ∈ (k.reverse.takeWhile isDigit).reverse, isDigit c = true := by
                intro c hc
                exact (List.all_eq_true.1 (List.all_takeWhile (l := k.reverse) (p := isDigit))) c (List.mem_reverse.1 hc)
              refine absurd ?_ (h3 key _ hds)
              rw [← stripEnd_some hk]
              have hsuf : (k.reverse.takeWhile isDigit).reverse <:+ k := by
                rw [← List.reverse_prefix, List.reverse_reverse]
                exact List.takeWhile_prefix _
              obtain ⟨t, ht⟩ := hsuf
              generalize (k.reverse.takeWhile isDigit).reverse = ds at ht
              subst ht
              simp
            · rfl

/-! ### What the loop gathers -/

def prefixesOf (key : Text) (env : List (Text × Text)) : List Text :=
  env.filterMap fun kv => if classify kv.1 = some (key, .includePrefix) then some kv.2 else none

def linksOf (key : Text) (env : List (Text × Text)) : List Text :=
  env.filterMap fun kv => if classify kv.1 = some (key, .links) then some kv.2 else none

def dirOf (key : Text) (kv : Text × Text) : Option (Nat × Text) :=
  match classify kv.1 with
  | some (k, .dir n) => if k = key then some (n, kv.2) else none
  | _ => none

def dirsOf (key : Text) (env : List (Text × Text)) : List (Nat × Text) := env.filterMap (dirOf key)

structure Represents (env : List (Text × Text)) (g : Gathered) : Prop where
  orderedCrates : Ordered g.crates
  orderedDirs : Ordered g.dirs
  crates : ∀ key, value key g.crates =
    if prefixesOf key env = [] ∧ linksOf key env = [] then none
    else some ⟨(prefixesOf key env).getLast?, (linksOf key env).getLast?, []⟩
  dirs : ∀ key, value key g.dirs = if dirsOf key env = [] then none else some (dirsOf key env)

theorem gather_represents {env : List (Text × Text)} {g : Gathered} (h : Represents env g) (kv : Text × Text) :
    Represents (env ++ [kv]) (gather g kv) := by
  have hp : ∀ key, prefixesOf key (env ++ [kv]) = prefixesOf key env ++
      (if classify kv.1 = some (key, .includePrefix) then [kv.2] else []) := by
    intro key
    simp only [prefixesOf, List.filterMap_append, List.filterMap_cons, List.filterMap_nil]
    split <;> simp_all
  have hl : ∀ key, linksOf key (env ++ [kv]) = linksOf key env ++
      (if classify kv.1 = some (key, .links) then [kv.2] else []) := by
    intro key
    simp only [linksOf, List.filterMap_append, List.filterMap_cons, List.filterMap_nil]
    split <;> simp_all
  have hd : ∀ key, dirsOf key (env ++ [kv]) = dirsOf key env ++ (dirOf key kv).toList := by
    intro key
    simp only [dirsOf, List.filterMap_append, List.filterMap_cons, List.filterMap_nil]
    cases dirOf key kv <;> rfl
  unfold gather
  cases hc : classify kv.1 with
  | none =>
    refine ⟨h.orderedCrates, h.orderedDirs, fun key => ?_, fun key => ?_⟩
    · rw [hp, hl, hc]; simpa using h.crates key
    · rw [hd]; simpa [dirOf, hc] using h.dirs key
  | some ks =>
    obtain ⟨k, slot⟩ := ks
    cases slot with
    | includePrefix =>
      refine ⟨alter_ordered _ _ _ h.orderedCrates, h.orderedDirs, fun key => ?_, fun key => ?_⟩
      · rw [hp, hl, hc, value_alter _ _ _ h.orderedCrates, h.crates k]
        by_cases e : key = k
        · subst e
          by_cases hn : prefixesOf key env = [] ∧ linksOf key env = []
          · simp [hn, Crate.default]
          · simp [hn]
        · simpa [e, Ne.symm e] using h.crates key
      · rw [hd]; simpa [dirOf, hc] using h.dirs key
    | links =>
      refine ⟨alter_ordered _ _ _ h.orderedCrates, h.orderedDirs, fun key => ?_, fun key => ?_⟩
      · rw [hp, hl, hc, value_alter _ _ _ h.orderedCrates, h.crates k]
        by_cases e : key = k
        · subst e
          by_cases hn : prefixesOf key env = [] ∧ linksOf key env = []
          · simp [hn, Crate.default]
          · simp [hn]
        · simpa [e, Ne.symm e] using h.crates key
      · rw [hd]; simpa [dirOf, hc] using h.dirs key
    | dir n =>
      refine ⟨h.orderedCrates, alter_ordered _ _ _ h.orderedDirs, fun key => ?_, fun key => ?_⟩
      · rw [hp, hl, hc]; simpa using h.crates key
      · rw [hd, value_alter _ _ _ h.orderedDirs, h.dirs k]
        by_cases e : key = k
        · subst e
          by_cases hn : dirsOf key env = []
          · simp [hn, dirOf, hc]
          · simp [hn, dirOf, hc]
        · simpa [e, Ne.symm e, dirOf, hc] using h.dirs key

theorem gather_all (env : List (Text × Text)) : Represents env (env.foldl gather ⟨[], []⟩) := by
  have key : ∀ (todo finished : List (Text × Text)) (g : Gathered), Represents finished g →
      Represents (finished ++ todo) (todo.foldl gather g) := by
    intro todo
    induction todo with
    | nil => intro finished g h; simpa using h
    | cons kv todo ih =>
      intro finished g h
      have := ih (finished ++ [kv]) (gather g kv) (gather_represents h kv)
      simpa using this
  have := key env [] ⟨[], []⟩ ⟨.nil, .nil, fun _ => rfl, fun _ => rfl⟩
  simpa using this

/-! ### The dependencies -/

def withDirs (c : Crate) (ds : List (Nat × Text)) : Crate :=
  { c with headerDirs := c.headerDirs ++ (sortByKey ds).map fun d => ⟨true, d.2⟩ }

theorem attach_dirs (dirs : List (Text × List (Nat × Text))) (hd : Ordered dirs) (crates : List (Text × Crate))
    (hc : Ordered crates) :
    Ordered (dirs.foldl (fun crates kd => alter .default kd.1 (fun c => withDirs c kd.2) crates) crates) ∧
    ∀ key, value key (dirs.foldl (fun crates kd => alter .default kd.1 (fun c => withDirs c kd.2) crates) crates) =
      match value key dirs with
      | none => value key crates
      | some ds => some (withDirs ((value key crates).getD .default) ds) := by
  induction dirs generalizing crates with
  | nil => exact ⟨hc, fun _ => rfl⟩
  | cons kd dirs ih =>
    obtain ⟨k, ds⟩ := kd
    have hcons := List.pairwise_cons.1 hd
    have := ih hcons.2 (alter .default k (fun c => withDirs c ds) crates) (alter_ordered _ _ _ hc)
    refine ⟨this.1, fun key => ?_⟩
    rw [List.foldl_cons, this.2 key, value_alter _ _ _ hc]
    by_cases e : key = k
    · subst e
      have hn : value key dirs = none := value_none fun kv hkv e => by
        have := hcons.1 kv hkv
        rw [e, keyLt_irrefl] at this
        cases this
      simp [value, hn]
    · simp only [value, if_neg (Ne.symm e), if_neg e]

theorem directDependencies_eq (env : List (Text × Text)) :
    directDependencies env = (env.foldl gather ⟨[], []⟩).dirs.foldl
      (fun crates kd => alter .default kd.1 (fun c => withDirs c kd.2) crates) (env.foldl gather ⟨[], []⟩).crates := rfl

theorem direct_value (env : List (Text × Text)) :
    Ordered (directDependencies env) ∧
    ∀ key, value key (directDependencies env) =
      if prefixesOf key env = [] ∧ linksOf key env = [] ∧ dirsOf key env = [] then none
      else some ⟨(prefixesOf key env).getLast?, (linksOf key env).getLast?,
        (sortByKey (dirsOf key env)).map fun d => ⟨true, d.2⟩⟩ := by
  have hr := gather_all env
  have ha := attach_dirs _ hr.orderedDirs _ hr.orderedCrates
  rw [directDependencies_eq]
  refine ⟨ha.1, fun key => ?_⟩
  rw [ha.2 key, hr.dirs key, hr.crates key]
  by_cases h1 : dirsOf key env = []
  · by_cases h2 : prefixesOf key env = [] ∧ linksOf key env = []
    · simp [h1, h2]
    · simp only [h1, if_true, h2, if_false, and_true]
      rfl
  · by_cases h2 : prefixesOf key env = [] ∧ linksOf key env = []
    · simp [h1, h2, withDirs, Crate.default]
    · simp [h1, h2, withDirs]

/-! ### Sorting -/

theorem insertKey_perm (x : Nat × Text) (l : List (Nat × Text)) : (insertKey x l).Perm (x :: l) := by
  induction l with
  | nil => exact .refl _
  | cons y l ih =>
    rw [insertKey]
    split
    · exact (ih.cons y).trans (.swap ..)
    · exact .refl _

theorem insertKey_sorted {x : Nat × Text} {l : List (Nat × Text)} (h : l.Pairwise fun a b => a.1 ≤ b.1) :
    (insertKey x l).Pairwise fun a b => a.1 ≤ b.1 := by
  induction l with
  | nil => simp [insertKey]
  | cons y l ih =>
    have hc := List.pairwise_cons.1 h
    rw [insertKey]
    split
    · next hle =>
      refine List.pairwise_cons.2 ⟨fun z hz => ?_, ih hc.2⟩
      rcases List.mem_cons.1 ((insertKey_perm x l).subset hz) with rfl | hz
      · exact hle
      · exact hc.1 z hz
    · next hle =>
      refine List.pairwise_cons.2 ⟨fun z hz => ?_, h⟩
      rcases List.mem_cons.1 hz with rfl | hz
      · omega
      · have := hc.1 z hz; omega

theorem sortByKey_spec (l : List (Nat × Text)) :
    (sortByKey l).Perm l ∧ (sortByKey l).Pairwise fun a b => a.1 ≤ b.1 := by
  have key : ∀ (l s : List (Nat × Text)), s.Pairwise (fun a b => a.1 ≤ b.1) →
      (l.foldl (fun s x => insertKey x s) s).Perm (s ++ l) ∧
      (l.foldl (fun s x => insertKey x s) s).Pairwise fun a b => a.1 ≤ b.1 := by
    intro l
    induction l with
    | nil => intro s hs; exact ⟨by simp, hs⟩
    | cons x l ih =>
      intro s hs
      have := ih (insertKey x s) (insertKey_sorted hs)
      refine ⟨this.1.trans ?_, this.2⟩
      exact ((insertKey_perm x s).append_right l).trans (List.perm_middle).symm
  simpa [sortByKey] using key l [] .nil

/-- Sorting brings back the order in which strictly increasing numbers were given. -/
theorem sort_back {l m : List (Nat × Text)} (hl : l.Pairwise fun a b => a.1 < b.1) (hp : m.Perm l) : sortByKey m = l := by
  obtain ⟨h1, h2⟩ := sortByKey_spec m
  refine List.Perm.eq_of_pairwise (le := fun a b : Nat × Text => a.1 ≤ b.1) (fun a b ha hb hab hba => ?_) h2
    (hl.imp fun h => Nat.le_of_lt h) (h1.trans hp)
  have hal : a ∈ l := (h1.trans hp).subset ha
  rcases List.mem_iff_getElem.1 hal with ⟨i, hi, rfl⟩
  rcases List.mem_iff_getElem.1 hb with ⟨j, hj, rfl⟩
  have := List.pairwise_iff_getElem.1 hl
  rcases Nat.lt_trichotomy i j with h | h | h
  · have := this i j hi hj h; omega
  · subst h; rfl
  · have := this j i hj hi h; omega

/-! ### From one build script to the other -/

/-- The exported directories with their numbers. -/
def numbered (dirs : List HeaderDir) (k : Nat) : List (Nat × Text) :=
  (dirs.zipIdx k).filterMap fun (dir, i) => if dir.exported then some (i, dir.path) else none

theorem numbered_ge {dirs : List HeaderDir} {k : Nat} : ∀ x ∈ numbered dirs k, k ≤ x.1 := by
  intro x hx
  obtain ⟨⟨d, i⟩, h1, h2⟩ := List.mem_filterMap.1 hx
  have := List.mem_zipIdx h1
  dsimp only at h2
  split at h2
  · cases h2; exact this.1
  · cases h2

theorem numbered_cons (d : HeaderDir) (dirs : List HeaderDir) (k : Nat) :
    numbered (d :: dirs) k = if d.exported then (k, d.path) :: numbered dirs (k + 1) else numbered dirs (k + 1) := by
  simp only [numbered, List.zipIdx_cons, List.filterMap_cons]
  split
  · next h => split at h <;> simp_all
  · next h => split at h <;> simp_all

theorem numbered_increasing (dirs : List HeaderDir) (k : Nat) : (numbered dirs k).Pairwise fun a b => a.1 < b.1 := by
  induction dirs generalizing k with
  | nil => exact .nil
  | cons d dirs ih =>
    rw [numbered_cons]
    split
    · refine List.pairwise_cons.2 ⟨fun x hx => ?_, ih _⟩
      have := numbered_ge x hx
      dsimp only; omega
    · exact ih _

theorem numbered_paths (dirs : List HeaderDir) (k : Nat) :
    (numbered dirs k).map (fun d => (⟨true, d.2⟩ : HeaderDir)) = dirs.filter (·.exported) := by
  induction dirs generalizing k with
  | nil => rfl
  | cons d dirs ih =>
    rw [numbered_cons, List.filter_cons]
    split
    · next h =>
      rw [List.map_cons, ih]
      obtain ⟨e, p⟩ := d
      cases h
      rfl
    · exact ih _

/-- The variables of a dependency, as the loop sees them. -/
def dirVars (d : Dep) : List (Text × Text) :=
  (d.exports.headerDirs.zipIdx.filterMap fun (dir, i) =>
    if dir.exported then some ("CXXBRIDGE_DIR".toList ++ decimal i, dir.path) else none).map
    fun kv => (depName d.name ++ '_' :: kv.1, kv.2)

/-! ### What Cargo reads of what is printed -/

theorem linesOf_append {l : Text} (hl : '\n' ∉ l) (rest : Text) : linesOf (l ++ '\n' :: rest) = l :: linesOf rest := by
  induction l with
  | nil => simp [linesOf]
  | cons c l ih =>
    have hc : c ≠ '\n' := fun e => hl (e ▸ List.mem_cons_self ..)
    rw [List.cons_append, linesOf, if_neg hc, ih fun h => hl (List.mem_cons_of_mem _ h)]

theorem trimEnd_id {t : Text} (h : ∀ c, t.getLast? = some c → blank c = false) : trimEnd t = t := by
  unfold trimEnd
  cases hr : t.reverse with
  | nil => rw [List.reverse_eq_nil_iff.1 hr]; rfl
  | cons c r =>
    have ht : t = r.reverse ++ [c] := by rw [← List.reverse_reverse t, hr, List.reverse_cons]
    have hb := h c (by rw [ht, List.getLast?_concat])
    rw [List.dropWhile_cons_of_neg (by simp [hb]), ← hr, List.reverse_reverse]

theorem takeWhile_eq {k : Text} (hk : '=' ∉ k) (v : Text) :
    (k ++ '=' :: v).takeWhile (· ≠ '=') = k ∧ (k ++ '=' :: v).dropWhile (· ≠ '=') = '=' :: v := by
  induction k with
  | nil => simp
  | cons c k ih =>
    have hc : c ≠ '=' := fun e => hk (e ▸ List.mem_cons_self ..)
    obtain ⟨h1, h2⟩ := ih fun h => hk (List.mem_cons_of_mem _ h)
    simp only [List.cons_append, List.takeWhile_cons, List.dropWhile_cons, ne_eq, hc, not_false_eq_true, decide_true, if_true] at *
    exact ⟨by rw [h1], h2⟩

theorem cargoLine_printed {k v : Text} (hk : '=' ∉ k) (hv : OneLine v) :
    cargoLine ("cargo:".toList ++ k ++ '=' :: v) = some (k, v) := by
  have h1 : ("cargo:".toList ++ k ++ '=' :: v).dropWhile blank = "cargo:".toList ++ k ++ '=' :: v := by
    show (('c' :: ("argo:".toList ++ k ++ '=' :: v)).dropWhile blank) = _
    rw [List.dropWhile_cons_of_neg (by decide +kernel)]; rfl
  have h2 : trimEnd ("cargo:".toList ++ k ++ '=' :: v) = "cargo:".toList ++ k ++ '=' :: v := by
    refine trimEnd_id fun c hc => ?_
    cases v with
    | nil =>
      rw [List.getLast?_concat] at hc
      cases hc; decide +kernel
    | cons x v => exact hv.2 c (by rw [← hc]; simp [List.getLast?_append, List.getLast?_cons])
  have h3 : ("cargo:".toList ++ k ++ '=' :: v).drop 6 = k ++ '=' :: v := by
    rw [List.append_assoc]; exact List.drop_left' (l₁ := "cargo:".toList) (by decide +kernel)
  have h4 : "cargo:".toList <+: "cargo:".toList ++ k ++ '=' :: v := by rw [List.append_assoc]; exact List.prefix_append _ _
  simp only [cargoLine, h1, h2, h3, (takeWhile_eq hk v).1, (takeWhile_eq hk v).2, List.drop_succ_cons, List.drop_zero, trimEnd_id hv.2]
  rw [if_pos ⟨h4, by simp⟩]

theorem cargoReads_lines {kvs : List (Text × Text)} (h : ∀ kv ∈ kvs, '\n' ∉ kv.1 ∧ '=' ∉ kv.1 ∧ OneLine kv.2) :
    cargoReads (kvs.flatMap fun kv => "cargo:".toList ++ kv.1 ++ '=' :: kv.2 ++ ['\n']) = kvs := by
  induction kvs with
  | nil => rfl
  | cons kv kvs ih =>
    obtain ⟨h1, h2, h3⟩ := h kv (List.mem_cons_self ..)
    have hn : '\n' ∉ "cargo:".toList ++ kv.1 ++ '=' :: kv.2 := by
      simp only [List.mem_append, List.mem_cons, not_or]
      exact ⟨⟨by decide +kernel, h1⟩, by decide +kernel, h3.1⟩
    have := ih fun x hx => h x (List.mem_cons_of_mem _ hx)
    unfold cargoReads at this ⊢
    rw [List.flatMap_cons, List.append_assoc, List.singleton_append, linesOf_append hn,
      List.filterMap_cons_some (cargoLine_printed h2 h3), this]

theorem digit_plain {c : Char} (h : isDigit c = true) : c ≠ '\n' ∧ c ≠ '=' := by
  constructor <;> rintro rfl <;> revert h <;> decide +kernel

/-- Cargo is told what the crate exports. -/
theorem reads_printed {c : Crate} (h : Tellable c) : cargoReads (printed c) = printToCargo c := by
  refine cargoReads_lines fun kv hk => ?_
  simp only [printToCargo, List.mem_append, List.mem_filterMap] at hk
  rcases hk with (hk | hk) | ⟨⟨d, i⟩, hd, hk⟩
  · cases hp : c.includePrefix with
    | none => rw [hp] at hk; cases hk
    | some p =>
      rw [hp] at hk; cases List.mem_singleton.1 hk
      exact ⟨(by decide +kernel : '\n' ∉ "CXXBRIDGE_PREFIX".toList), (by decide +kernel : '=' ∉ "CXXBRIDGE_PREFIX".toList), h.prefix p hp⟩
  · cases hp : c.links with
    | none => rw [hp] at hk; cases hk
    | some p =>
      rw [hp] at hk; cases List.mem_singleton.1 hk
      exact ⟨(by decide +kernel : '\n' ∉ "CXXBRIDGE_LINKS".toList), (by decide +kernel : '=' ∉ "CXXBRIDGE_LINKS".toList), h.links p hp⟩
  · have hm : d ∈ c.headerDirs := List.fst_mem_of_mem_zipIdx hd
    dsimp only at hk
    split at hk
    · next he =>
      cases hk
      refine ⟨?_, ?_, h.dirs d hm he⟩ <;> simp only [List.mem_append, not_or]
      · exact ⟨by decide +kernel, fun hc => (digit_plain (decimal_digits _ _ hc)).1 rfl⟩
      · exact ⟨by decide +kernel, fun hc => (digit_plain (decimal_digits _ _ hc)).2 rfl⟩
    · cases hk

theorem vars_eq {d : Dep} (ht : Tellable d.exports) : d.vars =
    (d.exports.includePrefix.toList.map fun p => (depName d.name ++ '_' :: "CXXBRIDGE_PREFIX".toList, p)) ++
    (d.exports.links.toList.map fun l => (depName d.name ++ '_' :: "CXXBRIDGE_LINKS".toList, l)) ++ dirVars d := by
  simp only [Dep.vars, reads_printed ht, printToCargo, dirVars, List.map_append]
  cases d.exports.includePrefix <;> cases d.exports.links <;> rfl

theorem dirVars_eq (d : Dep) : dirVars d =
    (numbered d.exports.headerDirs 0).map fun x =>
      (depName d.name ++ '_' :: ("CXXBRIDGE_DIR".toList ++ decimal x.1), x.2) := by
  unfold dirVars numbered
  generalize "CXXBRIDGE_DIR".toList = w
  generalize d.exports.headerDirs.zipIdx = l
  induction l with
  | nil => rfl
  | cons x l ih =>
    obtain ⟨dir, i⟩ := x
    simp only [List.filterMap_cons]
    cases dir.exported with
    | true => simpa using ih
    | false => simpa using ih

theorem numbered_lt {dirs : List HeaderDir} (h : dirs.length ≤ 2 ^ 64) : ∀ x ∈ numbered dirs 0, x.1 < 2 ^ 64 := by
  intro x hx
  obtain ⟨⟨d, i⟩, h1, h2⟩ := List.mem_filterMap.1 hx
  have := List.mem_zipIdx h1
  dsimp only at h2
  split at h2
  · cases h2; omega
  · cases h2

theorem classify_dirVars {d : Dep} {kv : Text × Text} (hk : kv ∈ dirVars d) :
    ∃ n, classify kv.1 = some (depName d.name, .dir n) := by
  rw [dirVars_eq] at hk
  obtain ⟨x, hx, rfl⟩ := List.mem_map.1 hk
  exact ⟨_, classify_dir d.name (decimal_ne _) (decimal_digits _)⟩

theorem filterMap_none {α β : Type} {f : α → Option β} {l : List α} (h : ∀ x ∈ l, f x = none) : l.filterMap f = [] := by
  rw [List.filterMap_eq_nil_iff]
  exact h

theorem prefixes_vars (key : Text) {d : Dep} (ht : Tellable d.exports) :
    prefixesOf key d.vars = if depName d.name = key then d.exports.includePrefix.toList else [] := by
  rw [vars_eq ht, prefixesOf, List.filterMap_append, List.filterMap_append]
  rw [filterMap_none (l := dirVars d) fun kv hk => by
    obtain ⟨n, hn⟩ := classify_dirVars hk
    simp [hn]]
  rw [filterMap_none (l := d.exports.links.toList.map _) fun kv hk => by
    obtain ⟨l, -, rfl⟩ := List.mem_map.1 hk
    simp only [classify_links]
    simp]
  rw [List.append_nil, List.append_nil]
  cases d.exports.includePrefix with
  | none => simp
  | some p =>
    simp only [Option.toList_some, List.map_cons, List.map_nil, List.filterMap_cons, List.filterMap_nil, classify_prefix]
    by_cases e : depName d.name = key <;> simp [e]

theorem links_vars (key : Text) {d : Dep} (ht : Tellable d.exports) :
    linksOf key d.vars = if depName d.name = key then d.exports.links.toList else [] := by
  rw [vars_eq ht, linksOf, List.filterMap_append, List.filterMap_append]
  rw [filterMap_none (l := dirVars d) fun kv hk => by
    obtain ⟨n, hn⟩ := classify_dirVars hk
    simp [hn]]
  rw [filterMap_none (l := d.exports.includePrefix.toList.map _) fun kv hk => by
    obtain ⟨l, -, rfl⟩ := List.mem_map.1 hk
    simp only [classify_prefix]
    simp]
  rw [List.append_nil, List.nil_append]
  cases d.exports.links with
  | none => simp
  | some p =>
    simp only [Option.toList_some, List.map_cons, List.map_nil, List.filterMap_cons, List.filterMap_nil, classify_links]
    by_cases e : depName d.name = key <;> simp [e]

theorem dirs_vars (key : Text) {d : Dep} (ht : Tellable d.exports) (h : d.exports.headerDirs.length ≤ 2 ^ 64) :
    dirsOf key d.vars = if depName d.name = key then numbered d.exports.headerDirs 0 else [] := by
  rw [vars_eq ht, dirsOf, List.filterMap_append, List.filterMap_append]
  rw [filterMap_none (l := d.exports.includePrefix.toList.map _) fun kv hk => by
    obtain ⟨l, -, rfl⟩ := List.mem_map.1 hk
    simp only [dirOf, classify_prefix]]
  rw [filterMap_none (l := d.exports.links.toList.map _) fun kv hk => by
    obtain ⟨l, -, rfl⟩ := List.mem_map.1 hk
    simp only [dirOf, classify_links]]
  rw [List.nil_append, List.nil_append, dirVars_eq]
  have hlt := numbered_lt h
  generalize numbered d.exports.headerDirs 0 = l at hlt
  by_cases e : depName d.name = key
  · rw [if_pos e]
    induction l with
    | nil => rfl
    | cons x l ih =>
      have hx := hlt x (List.mem_cons_self ..)
      rw [List.map_cons, List.filterMap_cons_some (b := x)]
      · rw [ih fun y hy => hlt y (List.mem_cons_of_mem _ hy)]
      · simp only [dirOf, classify_dir d.name (decimal_ne _) (decimal_digits _), decimal_parse hx, if_pos e]
  · rw [if_neg e]
    refine filterMap_none fun kv hk => ?_
    obtain ⟨x, -, rfl⟩ := List.mem_map.1 hk
    simp only [dirOf, classify_dir d.name (decimal_ne _) (decimal_digits _), if_neg e]

/-- Among things with different names only one has a given name. -/
theorem flatMap_one {β : Type} {deps : List Dep} (hd : deps.Pairwise fun a b => depName a.name ≠ depName b.name) {d : Dep}
    (h : d ∈ deps) (f : Dep → List β) :
    deps.flatMap (fun x => if depName x.name = depName d.name then f x else []) = f d := by
  induction deps with
  | nil => cases h
  | cons x deps ih =>
    have hc := List.pairwise_cons.1 hd
    rw [List.flatMap_cons]
    rcases List.mem_cons.1 h with rfl | h
    · rw [if_pos rfl]
      have : deps.flatMap (fun x => if depName x.name = depName d.name then f x else []) = [] := by
        rw [List.flatMap_eq_nil_iff]
        intro x hx
        rw [if_neg fun e => hc.1 x hx e.symm]
      rw [this, List.append_nil]
    · rw [if_neg (hc.1 d h), List.nil_append]
      exact ih hc.2 h

theorem flatMap_nobody {β : Type} {deps : List Dep} {key : Text} (h : ∀ d ∈ deps, depName d.name ≠ key)
    (f : Dep → List β) : deps.flatMap (fun x => if depName x.name = key then f x else []) = [] := by
  rw [List.flatMap_eq_nil_iff]
  intro x hx
  rw [if_neg (h x hx)]

theorem perm_toList {α : Type} {l : List α} {o : Option α} (h : l.Perm o.toList) : l = o.toList := by
  cases o with
  | none => exact List.Perm.eq_nil h
  | some a => exact List.perm_singleton.1 h

/-- **C43.** Whatever the direct dependencies export, however many directories they have, and in whatever order Cargo passes
the variables on, together with any others: the build script of the dependent gets for each dependency the prefix, the links
name and exactly the exported directories, in the order in which the dependency has them, with nothing of another dependency
in between.  The dependencies come in the order of their names.  Missing: texts with a new line in them or a blank at the end
(`lines_lost`), and paths that are not UTF-8 (`cfg_path_changed`). -/
theorem exports_arrive_partial (deps : List Dep) (env : List (Text × Text)) (he : EnvOf deps env)
    (hnames : deps.Pairwise fun a b => depName a.name ≠ depName b.name)
    (hpre : ∀ d ∈ deps, d.exports.includePrefix ≠ none) (htell : ∀ d ∈ deps, Tellable d.exports)
    (hlen : ∀ d ∈ deps, d.exports.headerDirs.length ≤ 2 ^ 64) :
    ∀ sorted : List Dep, sorted.Perm deps → (sorted.Pairwise fun a b => keyLt (depName a.name) (depName b.name) = true) →
      directDependencies env = sorted.map fun d => (depName d.name, received d.exports) := by
  intro sorted hs hsort
  obtain ⟨others, hun, hperm⟩ := he
  obtain ⟨hord, hval⟩ := direct_value env
  have hothers : ∀ kv ∈ others, classify kv.1 = none := fun kv hk => classify_unrelated (hun kv hk)
  have flat : ∀ {β : Type} (f : Text × Text → Option β), (∀ kv, classify kv.1 = none → f kv = none) →
      (env.filterMap f).Perm (deps.flatMap fun d => d.vars.filterMap f) := by
    intro β f hf
    have := hperm.filterMap f
    rw [List.filterMap_append, filterMap_none (l := others) fun kv hk => hf kv (hothers kv hk), List.append_nil] at this
    have hfm : ∀ l : List Dep, (l.flatMap Dep.vars).filterMap f = l.flatMap fun d => d.vars.filterMap f := by
      intro l
      induction l with
      | nil => rfl
      | cons d l ih => rw [List.flatMap_cons, List.filterMap_append, ih, List.flatMap_cons]
    rw [hfm] at this
    exact this
  have congr : ∀ {β : Type} (f g : Dep → List β), (∀ d ∈ deps, f d = g d) → deps.flatMap f = deps.flatMap g := by
    intro β f g h
    rw [List.flatMap_def, List.flatMap_def, List.map_congr_left h]
  have hp : ∀ key, (prefixesOf key env).Perm
      (deps.flatMap fun d => if depName d.name = key then d.exports.includePrefix.toList else []) := by
    intro key
    have : (prefixesOf key env).Perm (deps.flatMap fun d => prefixesOf key d.vars) :=
      flat _ fun kv h => by simp [h]
    rw [congr _ _ fun d hd => prefixes_vars key (htell d hd)] at this
    exact this
  have hl : ∀ key, (linksOf key env).Perm
      (deps.flatMap fun d => if depName d.name = key then d.exports.links.toList else []) := by
    intro key
    have : (linksOf key env).Perm (deps.flatMap fun d => linksOf key d.vars) :=
      flat _ fun kv h => by simp [h]
    rw [congr _ _ fun d hd => links_vars key (htell d hd)] at this
    exact this
  have hdirs : ∀ key, (dirsOf key env).Perm
      (deps.flatMap fun d => if depName d.name = key then numbered d.exports.headerDirs 0 else []) := by
    intro key
    have : (dirsOf key env).Perm (deps.flatMap fun d => dirsOf key d.vars) :=
      flat (dirOf key) fun kv h => by simp [dirOf, h]
    rw [congr _ _ fun d hd => dirs_vars key (htell d hd) (hlen d hd)] at this
    exact this
  have hord' : Ordered (sorted.map fun d => (depName d.name, received d.exports)) := by
    unfold Ordered
    rw [List.pairwise_map]
    exact hsort
  refine ordered_ext hord hord' fun key => ?_
  rw [hval key]
  by_cases hex : ∃ d ∈ deps, depName d.name = key
  · obtain ⟨d, hd, rfl⟩ := hex
    have e1 := perm_toList ((flatMap_one hnames hd (·.exports.includePrefix.toList)) ▸ hp (depName d.name))
    have e2 := perm_toList ((flatMap_one hnames hd (·.exports.links.toList)) ▸ hl (depName d.name))
    have e3 := sort_back (numbered_increasing _ 0)
      ((flatMap_one hnames hd (fun d => numbered d.exports.headerDirs 0)) ▸ hdirs (depName d.name))
    have hmem : (depName d.name, received d.exports) ∈ sorted.map fun d => (depName d.name, received d.exports) :=
      List.mem_map.2 ⟨d, hs.symm.subset hd, rfl⟩
    rw [mem_value hord' hmem, e1, e2, e3, numbered_paths]
    obtain ⟨p, hpp⟩ := Option.ne_none_iff_exists'.1 (hpre d hd)
    rw [if_neg (by simp [hpp])]
    simp only [received, hpp, Option.toList_some, List.getLast?_singleton]
    cases d.exports.links <;> rfl
  · have hno : ∀ d ∈ deps, depName d.name ≠ key := fun d hd e => hex ⟨d, hd, e⟩
    have e1 := (flatMap_nobody hno (·.exports.includePrefix.toList) ▸ hp key).eq_nil
    have e2 := (flatMap_nobody hno (·.exports.links.toList) ▸ hl key).eq_nil
    have e3 := (flatMap_nobody hno (fun d => numbered d.exports.headerDirs 0) ▸ hdirs key).eq_nil
    rw [if_pos ⟨e1, e2, e3⟩, value_none]
    intro kv hkv
    obtain ⟨d, hd, rfl⟩ := List.mem_map.1 hkv
    exact hno d (hs.subset hd)

/-! ### Examples -/

/-- Twelve directories, so that the order of the numbers is not the order of their texts. -/
def twelve : Dep where
  name := "my-lib".toList
  exports := ⟨some "my".toList, some "my-lib".toList,
    (List.range 12).map fun i => ⟨i != 3, Char.ofNat (97 + i) :: "/dir".toList⟩⟩

def other : Dep where
  name := "zlib".toList
  exports := ⟨some "z".toList, none, [⟨true, "/z".toList⟩]⟩

/-- The variables in the opposite order, with another one. -/
def sampleEnv : List (Text × Text) :=
  ("PATH".toList, "/bin".toList) :: (twelve.vars ++ other.vars).reverse

theorem oneLine_of {t : Text} (h : (!t.contains '\n' && (t.getLast?.map blank).getD false == false) = true) : OneLine t := by
  simp only [Bool.and_eq_true, Bool.not_eq_true', List.contains_eq_mem, decide_eq_false_iff_not, beq_iff_eq] at h
  exact ⟨h.1, fun c hc => by simpa [hc] using h.2⟩

example : EnvOf [twelve, other] sampleEnv ∧ depName twelve.name ≠ depName other.name ∧ Tellable twelve.exports ∧
    Tellable other.exports := by
  refine ⟨⟨[("PATH".toList, "/bin".toList)], ?_, ?_⟩, by decide +kernel, ⟨?_, ?_, ?_⟩, ⟨?_, ?_, ?_⟩⟩
  case refine_3 | refine_4 | refine_6 => intro p hp; cases hp; exact oneLine_of (by decide +kernel)
  case refine_7 => intro p hp; cases hp
  case refine_5 =>
    have : ∀ d ∈ twelve.exports.headerDirs, (!d.path.contains '\n' && (d.path.getLast?.map blank).getD false == false) = true := by
      decide +kernel
    exact fun d hd _ => oneLine_of (this d hd)
  case refine_8 =>
    have : ∀ d ∈ other.exports.headerDirs, (!d.path.contains '\n' && (d.path.getLast?.map blank).getD false == false) = true := by
      decide +kernel
    exact fun d hd _ => oneLine_of (this d hd)
  · intro kv hk
    cases List.mem_singleton.1 hk
    left
    decide +kernel
  · rw [List.flatMap_cons, List.flatMap_cons, List.flatMap_nil, List.append_nil]
    have h : sampleEnv.Perm (("PATH".toList, "/bin".toList) :: (twelve.vars ++ other.vars)) :=
      (List.reverse_perm _).cons _
    exact h.trans (List.perm_append_singleton _ _).symm

example : (directDependencies sampleEnv).map (fun kc => kc.2.headerDirs.map fun d => String.ofList d.path) =
    [["a/dir", "b/dir", "c/dir", "e/dir", "f/dir", "g/dir", "h/dir", "i/dir", "j/dir", "k/dir", "l/dir"], ["/z"]] := by
  decide +kernel

/-- A directory whose name ends with a blank, and one with a new line in its name, arrive as other directories. -/
theorem lines_lost :
    (directDependencies (Dep.vars ⟨"z".toList, some "p".toList, none, [⟨true, "/a ".toList⟩, ⟨true, "/b\nc".toList⟩]⟩)).map
      (fun kc => kc.2.headerDirs.map fun d => d.path) = [["/a".toList, "/b".toList]] := by decide +kernel

/-- Names of dependencies that Cargo does not tell apart are mixed up. -/
theorem confused_names : ∃ a b : Dep, a.name ≠ b.name ∧
    directDependencies (a.vars ++ b.vars) ≠
      [(depName a.name, received a.exports), (depName b.name, received b.exports)] ∧
    (directDependencies (a.vars ++ b.vars)).length = 1 :=
  ⟨⟨"a-b".toList, some "p".toList, none, [⟨true, "/x".toList⟩]⟩,
   ⟨"a_b".toList, some "q".toList, none, [⟨true, "/y".toList⟩]⟩, by decide +kernel⟩

end Verif.Build
