import Verif.Mangle.Props
import Verif.Builtins.Model
/-!
# Symbols of a bridge against those of the runtime library
-/
namespace Verif.Mangle
open Verif.Syntax Verif.Types Verif.Check

/-- The one-off and non-generic symbols: src/symbols/{exception,rust_str,rust_slice,rust_string}.rs
`export_name`, src/cxx_string.rs:18-30, src/result.rs:46. -/
def plainRuntime : List (List String) :=
  [["cxxbridge1", "exception"], ["cxxbridge1", "error"]] ++
  ["new", "ref", "from", "ptr", "len"].map (fun m => ["cxxbridge1", "str", m]) ++
  ["new", "ptr", "len"].map (fun m => ["cxxbridge1", "slice", m]) ++
  ["new", "clone", "from_utf8", "from_utf8_lossy", "from_utf16", "from_utf16_lossy", "drop", "ptr", "len", "capacity",
    "reserve_additional", "reserve_total"].map (fun m => ["cxxbridge1", "string", m]) ++
  ["init", "destroy", "data", "length", "clear", "reserve_total", "push"].map (fun m => ["cxxbridge1", "cxx_string", m])

/-- All symbols the runtime library defines, as segments: the above, and those for built-in type
arguments on either side (`Verif/Builtins`). -/
def runtime : List (List String) :=
  plainRuntime ++ Builtins.rustVecExports.map (·.1) ++ Builtins.cxxDefines.map (·.1)

/-- A runtime symbol's text. -/
def runtimeText (b : List String) : Symbol := glue (b.map String.toList)

theorem runtime_shape : ∀ b ∈ runtime, b.head? = some "cxxbridge1" ∧ (∀ x ∈ b, '$' ∉ x.toList) := by
  decide +kernel

/-- What follows a wrapper's prefix in a runtime symbol is one builtin name and a member, or the name of
`std::string`, or lies in `std::vector`. -/
theorem runtime_rest : ∀ b ∈ runtime, ∀ w ∈ [Wrapper.box, .vec, .uniquePtr, .sharedPtr, .weakPtr, .vector, .uniquePtrVector],
    (w.segs.isPrefixOf ((b.map String.toList).drop 1)) = true →
      let rest := ((b.map String.toList).drop 1).drop w.segs.length
      rest.length ≤ 2 ∨ rest.take 2 = ["std".toList, "string".toList] ∨ rest.take 2 = ["std".toList, "vector".toList] := by
  decide +kernel

/-- The namespace that decides whether an entity can clash with the runtime. -/
def Entity.ns : Entity → Namespace
  | .fn f | .trampoline f _ _ => f.name.ns
  | .op p _ | .member _ p _ => p.ns

/-- **C54**.  In an accepted bridge, an entity in a C++ namespace never has the symbol of a runtime
function, provided its type is not `std::string` and not inside `std::vector`.  Missing: the root namespace, for which
more names clash than the documented ones (`root_namespace_clashes`); `root_namespace_names` has all of them. -/
theorem runtime_disjoint_partial {g : Generator} {apis : List Api} (ha : Accepted g apis) (hl : LexicalBridge apis)
    {e : Entity} (h : e.In apis) (hn : e.ns ≠ [])
    (hm : ∀ w p m, e = .member w p m → ¬ InsideStdVector p ∧ ¬ (p.ns = ["std"] ∧ p.cxx = "string"))
    {b : List String} (hb : b ∈ runtime) : symbolOf (collect apis) e ≠ some (runtimeText b) := by
  intro hs
  rw [symbolOf_eq _ _ (named_of_in hl h)] at hs
  obtain ⟨⟨ns, r⟩, hx, he⟩ := Option.map_eq_some_iff.1 hs
  have hg := parts_good ha hl h hx
  obtain ⟨hb1, hb2⟩ := runtime_shape b hb
  obtain ⟨rest, rfl⟩ : ∃ rest, b = "cxxbridge1" :: rest := by
    cases b with
    | nil => cases hb1
    | cons x xs => exact ⟨xs, by simpa using hb1⟩
  have hsegs : nsSegs ns ++ CXXBRIDGE :: r = CXXBRIDGE :: rest.map String.toList := by
    refine glue_inj _ _ (by simp) (by simp) hg.2 ?_ he
    intro s hs
    rcases List.mem_cons.1 hs with rfl | hs
    · decide
    · obtain ⟨x, hx, rfl⟩ := List.mem_map.1 hs
      exact hb2 x (List.mem_cons_of_mem _ hx)
  obtain ⟨hns, hr⟩ : ns = [] ∧ r = rest.map String.toList := by
    have := sep_inj (a := ns) (b := []) hg.1 (by simp [nsSegs]) (by simpa [nsSegs] using hsegs)
    exact this
  cases e with
  | fn f =>
    obtain ⟨r', _, hq⟩ := Option.map_eq_some_iff.1 hx
    simp only [Prod.mk.injEq] at hq
    exact hn (hq.1.trans hns)
  | trampoline f a k =>
    obtain ⟨r', _, hq⟩ := Option.map_eq_some_iff.1 hx
    simp only [Prod.mk.injEq] at hq
    exact hn (hq.1.trans hns)
  | op p o =>
    have hq := Option.some.inj hx
    simp only [Prod.mk.injEq] at hq
    exact hn (hq.1.trans hns)
  | member w p m =>
    have hq := Option.some.inj hx
    simp only [Prod.mk.injEq] at hq
    obtain ⟨hv, hstr⟩ := hm w p m rfl
    have hr' : rest.map String.toList = w.segs ++ (nsSegs p.ns ++ [p.cxx.toList, m.toList]) := by
      rw [← hr, ← hq.2]; simp
    have := runtime_rest _ hb w (by cases w <;> simp)
    simp only [List.map_cons, List.drop_succ_cons, List.drop_zero, hr', List.drop_left] at this
    have hpre : w.segs.isPrefixOf (w.segs ++ (nsSegs p.ns ++ [p.cxx.toList, m.toList])) = true := by
      rw [List.isPrefixOf_iff_prefix]; exact List.prefix_append _ _
    have hn' : p.ns ≠ [] := hn
    rcases this hpre with h1 | h1 | h1
    · simp [nsSegs] at h1
      exact hn' h1
    · match hpn : p.ns with
      | [] => exact hn' hpn
      | [a] =>
        simp only [hpn, nsSegs, List.map_cons, List.map_nil, List.cons_append, List.nil_append, List.take_succ_cons,
          List.take_zero, List.cons.injEq, and_true] at h1
        have e1 : a = "std" := String.toList_injective h1.1
        have e2 : p.cxx = "string" := String.toList_injective h1.2
        exact hstr ⟨by rw [hpn, e1], e2⟩
      | a :: b :: c =>
        -- nothing in the runtime is below `std::string`
        have key : ∀ b ∈ runtime, ∀ w ∈ [Wrapper.box, .vec, .uniquePtr, .sharedPtr, .weakPtr, .vector, .uniquePtrVector],
            (w.segs.isPrefixOf ((b.map String.toList).drop 1)) = true →
            (((b.map String.toList).drop 1).drop w.segs.length).take 2 = ["std".toList, "string".toList] →
              (((b.map String.toList).drop 1).drop w.segs.length).length = 3 := by decide +kernel
        have k2 := key _ hb w (by cases w <;> simp)
        simp only [List.map_cons, List.drop_succ_cons, List.drop_zero, hr', List.drop_left] at k2
        have := k2 hpre h1
        simp [nsSegs, hpn] at this
    · match hpn : p.ns with
      | [] => exact hn' hpn
      | [a] =>
        have key : ∀ b ∈ runtime, ∀ w ∈ [Wrapper.box, .vec, .uniquePtr, .sharedPtr, .weakPtr, .vector, .uniquePtrVector],
            (w.segs.isPrefixOf ((b.map String.toList).drop 1)) = true →
            (((b.map String.toList).drop 1).drop w.segs.length).take 2 = ["std".toList, "vector".toList] →
              (((b.map String.toList).drop 1).drop w.segs.length).length = 4 := by decide +kernel
        have k2 := key _ hb w (by cases w <;> simp)
        simp only [List.map_cons, List.drop_succ_cons, List.drop_zero, hr', List.drop_left] at k2
        have := k2 hpre h1
        simp [nsSegs, hpn] at this
      | a :: b :: c =>
        simp only [hpn, nsSegs, List.map_cons, List.cons_append, List.take_succ_cons,
          List.take_zero, List.cons.injEq, and_true] at h1
        exact hv ⟨c, by rw [hpn, String.toList_injective h1.1, String.toList_injective h1.2]⟩

/-- The names of the root namespace that can have the symbol of a runtime function: the free functions `exception` and
`error`, a few methods of types called `str`, `slice`, `string` and `cxx_string` in C++, `Vec` of a type with the C++ name of a
built-in type, and `CxxVector` of one with the C++ name of a number or `string`. -/
def Taken (apis : List Api) : Entity → Prop
  | .fn f =>
    (f.sig.receiver = none ∧ f.name.rust ∈ ["exception", "error"]) ∨
    ∃ r p, f.sig.receiver = some r ∧ DeclaresType apis p ∧ p.rust = r.ty.rust ∧
      ((p.cxx = "str" ∧ f.name.rust ∈ ["new", "ref", "from", "ptr", "len"]) ∨
       (p.cxx = "slice" ∧ f.name.rust ∈ ["new", "ptr", "len"]) ∨
       (p.cxx = "string" ∧ f.name.rust ∈ ["new", "clone", "from_utf8", "from_utf8_lossy", "from_utf16", "from_utf16_lossy", "drop",
          "ptr", "len", "capacity", "reserve_additional", "reserve_total"]) ∨
       (p.cxx = "cxx_string" ∧ f.name.rust ∈ ["init", "destroy", "data", "length", "clear", "reserve_total", "push"]))
  | .trampoline .. | .op .. => False
  | .member w p _ =>
    (w = .vec ∧ p.cxx ∈ ["bool", "u8", "u16", "u32", "u64", "usize", "i8", "i16", "i32", "i64", "isize", "f32", "f64", "char",
      "string", "str"]) ∨
    ((w = .vector ∨ w = .uniquePtrVector) ∧
      p.cxx ∈ ["u8", "u16", "u32", "u64", "usize", "i8", "i16", "i32", "i64", "isize", "f32", "f64", "string"])

/-- The runtime symbols with two and with three segments. -/
theorem runtime_short : ∀ b ∈ runtime,
    (b.length = 2 → b[1]? = some "exception" ∨ b[1]? = some "error") ∧
    (b.length = 3 → ∃ t ms, (t, ms) ∈ [("str", ["new", "ref", "from", "ptr", "len"]), ("slice", ["new", "ptr", "len"]),
      ("string", ["new", "clone", "from_utf8", "from_utf8_lossy", "from_utf16", "from_utf16_lossy", "drop",
          "ptr", "len", "capacity", "reserve_additional", "reserve_total"]),
      ("cxx_string", ["init", "destroy", "data", "length", "clear", "reserve_total", "push"])] ∧
      b[1]? = some t ∧ ∃ m ∈ ms, b[2]? = some m) := by
  have key : ∀ b ∈ runtime, (b.length = 2 → b[1]? = some "exception" ∨ b[1]? = some "error") ∧
    (b.length = 3 → ∃ x ∈ [("str", ["new", "ref", "from", "ptr", "len"]), ("slice", ["new", "ptr", "len"]),
      ("string", ["new", "clone", "from_utf8", "from_utf8_lossy", "from_utf16", "from_utf16_lossy", "drop",
          "ptr", "len", "capacity", "reserve_additional", "reserve_total"]),
      ("cxx_string", ["init", "destroy", "data", "length", "clear", "reserve_total", "push"])],
      b[1]? = some x.1 ∧ ∃ m ∈ x.2, b[2]? = some m) := by decide +kernel
  intro b hb
  refine ⟨(key b hb).1, fun h => ?_⟩
  obtain ⟨x, hx, h1, h2⟩ := (key b hb).2 h
  exact ⟨x.1, x.2, hx, h1, h2⟩

/-- No runtime symbol ends like a trampoline or is that of an operator. -/
theorem runtime_kinds : ∀ b ∈ runtime, b.getLast? ≠ some "0" ∧ b.getLast? ≠ some "1" ∧ b[2]? ≠ some "operator" := by
  decide +kernel

/-- The built-in types for which the runtime has instantiations in the root namespace. -/
theorem runtime_builtin : ∀ b ∈ runtime, ∀ w ∈ [Wrapper.box, .vec, .uniquePtr, .sharedPtr, .weakPtr, .vector, .uniquePtrVector],
    (w.segs.isPrefixOf ((b.map String.toList).drop 1)) = true →
    (((b.map String.toList).drop 1).drop w.segs.length).length = 2 →
      (w = .vec ∧ ∃ n ∈ ["bool", "u8", "u16", "u32", "u64", "usize", "i8", "i16", "i32", "i64", "isize", "f32", "f64", "char",
        "string", "str"], (((b.map String.toList).drop 1).drop w.segs.length).head? = some n.toList) ∨
      ((w = .vector ∨ w = .uniquePtrVector) ∧
        ∃ n ∈ ["u8", "u16", "u32", "u64", "usize", "i8", "i16", "i32", "i64", "isize", "f32", "f64", "string"],
          (((b.map String.toList).drop 1).drop w.segs.length).head? = some n.toList) := by
  decide +kernel

/-- **C54**, the root namespace.  In an accepted bridge, an entity of the root namespace that has the symbol of a runtime function
has one of the names of `Taken`. -/
theorem root_namespace_names {g : Generator} {apis : List Api} (ha : Accepted g apis) (hl : LexicalBridge apis)
    {e : Entity} (h : e.In apis) (hn : e.ns = []) {b : List String} (hb : b ∈ runtime)
    (hs : symbolOf (collect apis) e = some (runtimeText b)) : Taken apis e := by
  rw [symbolOf_eq _ _ (named_of_in hl h)] at hs
  obtain ⟨⟨ns, r⟩, hx, he⟩ := Option.map_eq_some_iff.1 hs
  have hg := parts_good ha hl h hx
  obtain ⟨hb1, hb2⟩ := runtime_shape b hb
  obtain ⟨rest, rfl⟩ : ∃ rest, b = "cxxbridge1" :: rest := by
    cases b with
    | nil => cases hb1
    | cons x xs => exact ⟨xs, by simpa using hb1⟩
  have hsegs : nsSegs ns ++ CXXBRIDGE :: r = CXXBRIDGE :: rest.map String.toList := by
    refine glue_inj _ _ (by simp) (by simp) hg.2 ?_ he
    intro s hs
    rcases List.mem_cons.1 hs with rfl | hs
    · decide
    · obtain ⟨x, hx, rfl⟩ := List.mem_map.1 hs
      exact hb2 x (List.mem_cons_of_mem _ hx)
  have hr : r = rest.map String.toList :=
    (sep_inj (a := ns) (b := []) hg.1 (by simp [nsSegs]) (by simpa [nsSegs] using hsegs)).2
  have single : ∀ {x : Ident}, [x.toList] = rest.map String.toList → rest = [x] := fun {x} e =>
    ((List.map_inj_right (fun _ _ h => String.toList_injective h)).1 (show [x].map String.toList = _ from e)).symm
  have double : ∀ {x y : Ident}, [x.toList, y.toList] = rest.map String.toList → rest = [x, y] := fun {x y} e =>
    ((List.map_inj_right (fun _ _ h => String.toList_injective h)).1 (show [x, y].map String.toList = _ from e)).symm
  cases e with
  | fn f =>
    obtain ⟨r', hf, hq⟩ := Option.map_eq_some_iff.1 hx
    simp only [Prod.mk.injEq] at hq
    rw [← hq.2] at hr
    unfold fnRest at hf
    cases hrec : f.sig.receiver with
    | none =>
      rw [hrec] at hf
      rw [← Option.some.inj hf] at hr
      obtain rfl := single hr
      have := (runtime_short _ hb).1 rfl
      refine .inl ⟨hrec, ?_⟩
      rcases this with h | h <;> (have h' := Option.some.inj h; simp [h'])
    | some rc =>
      rw [hrec] at hf
      obtain ⟨p, hp, hpr⟩ := Option.map_eq_some_iff.1 hf
      rw [← hpr] at hr
      obtain rfl := double hr
      obtain ⟨t, ms, hm, h1, m, hmm, h2⟩ := (runtime_short _ hb).2 rfl
      have h1' : p.cxx = t := Option.some.inj h1
      have h2' : f.name.rust = m := Option.some.inj h2
      obtain ⟨hd, hdr⟩ := resolve_declared hp
      refine .inr ⟨rc, p, hrec, hd, hdr, ?_⟩
      rw [h1', h2']
      simp only [List.mem_cons, Prod.mk.injEq, List.not_mem_nil, or_false] at hm
      rcases hm with ⟨rfl, rfl⟩ | ⟨rfl, rfl⟩ | ⟨rfl, rfl⟩ | ⟨rfl, rfl⟩
      · exact .inl ⟨rfl, hmm⟩
      · exact .inr (.inl ⟨rfl, hmm⟩)
      · exact .inr (.inr (.inl ⟨rfl, hmm⟩))
      · exact .inr (.inr (.inr ⟨rfl, hmm⟩))
  | trampoline f a k =>
    obtain ⟨r', _, hq⟩ := Option.map_eq_some_iff.1 hx
    simp only [Prod.mk.injEq] at hq
    rw [← hq.2] at hr
    have hk := runtime_kinds _ hb
    have hlast := congrArg List.getLast? hr
    rw [List.getLast?_map] at hlast
    have hne : rest ≠ [] := by rintro rfl; simp at hr
    have hl' : ("cxxbridge1" :: rest).getLast? = rest.getLast? := by
      cases rest with
      | nil => exact absurd rfl hne
      | cons x xs => simp
    rw [hl'] at hk
    cases k with
    | c =>
      simp only [List.getLast?_append, List.getLast?_cons_cons, List.getLast?_singleton, Option.some_or] at hlast
      obtain ⟨x, hx1, hx2⟩ := Option.map_eq_some_iff.1 hlast.symm
      exact absurd (hx1.trans (congrArg some (String.toList_injective hx2))) hk.1
    | rust =>
      simp only [List.getLast?_append, List.getLast?_cons_cons, List.getLast?_singleton, Option.some_or] at hlast
      obtain ⟨x, hx1, hx2⟩ := Option.map_eq_some_iff.1 hlast.symm
      exact absurd (hx1.trans (congrArg some (String.toList_injective hx2))) hk.2.1
  | op p o =>
    have hq := Option.some.inj hx
    simp only [Prod.mk.injEq] at hq
    rw [← hq.2] at hr
    have hk := (runtime_kinds _ hb).2.2
    have : rest = [p.cxx, "operator", o.text] :=
      ((List.map_inj_right (fun _ _ h => String.toList_injective h)).1
        (show [p.cxx, "operator", o.text].map String.toList = _ from hr)).symm
    rw [this] at hk
    exact absurd rfl hk
  | member w p m =>
    have hq := Option.some.inj hx
    simp only [Prod.mk.injEq] at hq
    have hn' : p.ns = [] := hn
    have hr' : rest.map String.toList = w.segs ++ [p.cxx.toList, m.toList] := by
      rw [← hr, ← hq.2, hn']; simp [nsSegs]
    have := runtime_builtin _ hb w (by cases w <;> simp)
    simp only [List.map_cons, List.drop_succ_cons, List.drop_zero, hr', List.drop_left] at this
    have hpre : w.segs.isPrefixOf (w.segs ++ [p.cxx.toList, m.toList]) = true := by
      rw [List.isPrefixOf_iff_prefix]; exact List.prefix_append _ _
    rcases this hpre rfl with ⟨hw, n, hnn, hh⟩ | ⟨hw, n, hnn, hh⟩
    · refine .inl ⟨hw, ?_⟩
      rwa [String.toList_injective (Option.some.inj hh)]
    · refine .inr ⟨hw, ?_⟩
      rwa [String.toList_injective (Option.some.inj hh)]

/-- Each of the names of `Taken` is the name of something in the runtime: the list is not longer than needed. -/
theorem taken_needed :
    (∀ n ∈ ["exception", "error"], ["cxxbridge1", n] ∈ runtime) ∧
    (∀ x ∈ [("str", ["new", "ref", "from", "ptr", "len"]), ("slice", ["new", "ptr", "len"]),
      ("string", ["new", "clone", "from_utf8", "from_utf8_lossy", "from_utf16", "from_utf16_lossy", "drop",
          "ptr", "len", "capacity", "reserve_additional", "reserve_total"]),
      ("cxx_string", ["init", "destroy", "data", "length", "clear", "reserve_total", "push"])],
      ∀ m ∈ x.2, ["cxxbridge1", x.1, m] ∈ runtime) ∧
    (∀ n ∈ ["bool", "u8", "u16", "u32", "u64", "usize", "i8", "i16", "i32", "i64", "isize", "f32", "f64", "char", "string", "str"],
      ∀ m ∈ members .vec, ["cxxbridge1", "rust_vec", n, m] ∈ runtime) ∧
    (∀ n ∈ ["u8", "u16", "u32", "u64", "usize", "i8", "i16", "i32", "i64", "isize", "f32", "f64", "string"],
      (∃ m ∈ members .vector, ["cxxbridge1", "std", "vector", n, m] ∈ runtime) ∧
      ∀ m ∈ members .uniquePtrVector, ["cxxbridge1", "unique_ptr", "std", "vector", n, m] ∈ runtime) := by
  decide +kernel

section Witness

example : (Entity.fn (method (pr ["org"] "get") false false "T")).ns ≠ [] ∧
    (Entity.member .uniquePtr (pr ["org", "rust"] "T") "drop").ns ≠ [] ∧ 200 < runtime.length := by
  refine ⟨by decide, by decide, by decide +kernel⟩

/-- The hypotheses of `root_namespace_names` can be met, with its conclusion for one function and not for another. -/
example : let f := free (pr [] "exception") []
    let f' := free (pr [] "exceptional") []
    let apis : List Api := [.cxxFunction f, .cxxFunction f']
    Accepted .macro apis ∧ LexicalBridge apis ∧ (Entity.fn f).In apis ∧ (Entity.fn f).ns = [] ∧
      symbolOf (collect apis) (.fn f) = some (runtimeText ["cxxbridge1", "exception"]) ∧ Taken apis (.fn f) ∧ ¬ Taken apis (.fn f') := by
  refine ⟨by decide +kernel, ?_, .inl (by simp), rfl, by decide +kernel, .inl ⟨rfl, by simp [free, pr]⟩, ?_⟩
  · intro a ha p hp
    simp only [List.mem_cons, List.not_mem_nil, or_false] at ha
    rcases ha with rfl | rfl <;> simp [namesOf, free, pr] at hp <;> subst hp <;> unfold LexicalPair Lexical <;> decide +kernel
  · rintro (⟨_, h⟩ | ⟨r, p, h, _⟩)
    · simp [free, pr] at h
    · cases h

/-- Finding: in the root namespace, a function `exception`, and a type `string` with a method `len` (both
acknowledged in syntax/mangle.rs:31, 39), and, not mentioned there, `Vec` of a struct whose C++ name is
`str`, are accepted and take symbols of the runtime. -/
theorem root_namespace_clashes :
    let f := free (pr [] "exception") []
    let l := method (pr [] "len") false false "string"
    let apis := [.cxxFunction f, .cxxType ⟨.cxx, [], pr [] "string", [], [], true⟩, .cxxFunction l,
      .struct ⟨[], ⟨[], "str", "S"⟩, [], [⟨pr [] "x", .named "u8"⟩]⟩,
      .cxxFunction (free (pr [] "g") [⟨pr [] "v", .rustVec (.named "S")⟩])]
    Accepted .build apis ∧ Accepted .macro apis ∧
      externFn (collect apis) f = some (runtimeText ["cxxbridge1", "exception"]) ∧
      externFn (collect apis) l = some (runtimeText ["cxxbridge1", "string", "len"]) ∧
      (∃ k ∈ (collect apis).impls.map (·.1), ∃ s ∈ (rustInst (collect apis) k).getD [],
        s = runtimeText ["cxxbridge1", "rust_vec", "str", "new"]) ∧
      ["cxxbridge1", "exception"] ∈ runtime ∧ ["cxxbridge1", "string", "len"] ∈ runtime ∧
      ["cxxbridge1", "rust_vec", "str", "new"] ∈ runtime := by decide +kernel

end Witness

end Verif.Mangle
