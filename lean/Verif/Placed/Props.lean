import Verif.Placed.Spec
import Verif.Unit.Props
import Verif.Out.Props
/-!
# Every part of a generated C++ file is in its place
-/
namespace Verif.Placed
open Verif.Syntax Verif.Types Verif.Abi Verif.Mangle Verif.Layout Verif.Out
open Verif.Unit (Decl all dataDecl operatorProtos layoutProtos cxxShim trampoline rustProto specialization operatorDefs
  layoutDefs rustShim firstLoop secondLoop instances file forward all_mem)

theorem nested_append {S M E : List Block} {n m e : Namespace} {a b : List Call} {P Q : List Placed}
    (h1 : Nested S n a P M m) (h2 : Nested M m b Q E e) : Nested S n (a ++ b) (P ++ Q) E e := by
  induction h1 with
  | done => exact h2
  | write s hs _ ih => exact .write s hs (ih h2)
  | nothing _ ih => exact .nothing (ih h2)
  | «section» _ ih => exact .section (ih h2)
  | begin b _ ih => exact .begin b (ih h2)
  | «end» b _ ih => exact .end b (ih h2)
  | setNamespace new _ ih => exact .setNamespace new (ih h2)

/-- A part that is written in its place. -/
theorem nested_put (T : Texts) (p : Part) {S : List Block} {ns : Namespace} (h : place p = S) :
    Nested S ns (put T p) (inPlace T p) S ns := by
  unfold put inPlace
  rw [h]
  generalize T p = l
  induction l with
  | nil => exact .done S ns
  | cons x l ih =>
    cases x with
    | none => exact .section ih
    | some s =>
      by_cases hs : s = ""
      · subst hs
        simpa using Nested.nothing ih
      · simpa [hs] using Nested.write s hs ih

theorem nested_parts (T : Texts) {α : Type} (f : α → Part) {S : List Block} {ns : Namespace} (l : List α)
    (h : ∀ a ∈ l, place (f a) = S) :
    Nested S ns (l.flatMap fun a => put T (f a)) ((l.map f).flatMap (inPlace T)) S ns := by
  induction l with
  | nil => exact .done S ns
  | cons a l ih =>
    simpa using nested_append (nested_put T (f a) (h a (by simp))) (ih fun a ha => h a (by simp [ha]))

theorem nested_decls (T : Texts) {S : List Block} {ns : Namespace} {ds : List Decl} (h : ∀ d ∈ ds, home d = S) :
    Nested S ns (puts T ds) ((ds.map Part.decl).flatMap (inPlace T)) S ns :=
  nested_parts T .decl ds h

/-- Calls that can be made at any time between items. -/
def Goes (T : Texts) (cs : List Call) (ps : List Part) : Prop :=
  ∀ ns, ∃ ns', Nested (nsBlocks ns) ns cs (ps.flatMap (inPlace T)) (nsBlocks ns') ns'

theorem Goes.append {T : Texts} {a b : List Call} {p q : List Part} (h1 : Goes T a p) (h2 : Goes T b q) :
    Goes T (a ++ b) (p ++ q) := by
  intro ns
  obtain ⟨m, hm⟩ := h1 ns
  obtain ⟨e, he⟩ := h2 m
  exact ⟨e, by simpa using nested_append hm he⟩

theorem Goes.nil (T : Texts) : Goes T [] [] := fun ns => ⟨ns, .done _ _⟩

/-- Sets the namespace, and writes in it. -/
theorem goes_in (T : Texts) (ns : Namespace) {cs : List Call} {ps : List Part}
    (h : Nested (nsBlocks ns) ns cs (ps.flatMap (inPlace T)) (nsBlocks ns) ns) : Goes T (.setNamespace ns :: cs) ps := by
  intro m
  exact ⟨ns, by simpa using Nested.setNamespace (S := []) (ns := m) ns (by simpa using h)⟩

/-- The same with a block in it. -/
theorem nested_block {S : List Block} {ns : Namespace} {b : Block} {cs : List Call} {P : List Placed}
    (h : Nested (S ++ [b]) ns cs P (S ++ [b]) ns) : Nested S ns (.beginBlock b :: (cs ++ [.endBlock b])) P S ns := by
  have := nested_append h (Nested.end b (Nested.done S ns))
  exact .begin b (by simpa using this)

theorem goes_section {T : Texts} {cs : List Call} {ps : List Part} (h : Goes T cs ps) : Goes T (.nextSection :: cs) ps :=
  fun ns => (h ns).imp fun _ h => .section h

/-- These parts are these declarations. -/
structure Only (ps : List Part) (ds : List Decl) : Prop where
  decls : ps.filterMap Part.decl? = ds
  imported : ps.filterMap Part.imported? = []
  members : ps.filterMap Part.members? = []
  early : Part.macros ∉ ps ∧ Part.forwards ∉ ps
  later : ∀ d ∈ ds, ¬ Forward d

theorem Only.append {p q : List Part} {a b : List Decl} (h1 : Only p a) (h2 : Only q b) : Only (p ++ q) (a ++ b) where
  decls := by simp [h1.decls, h2.decls]
  imported := by simp [h1.imported, h2.imported]
  members := by simp [h1.members, h2.members]
  early := by simp [h1.early, h2.early]
  later := by
    intro d hd
    rcases List.mem_append.1 hd with h | h
    · exact h1.later d h
    · exact h2.later d h

theorem Only.nil : Only [] [] := ⟨rfl, rfl, rfl, by simp, by simp⟩

theorem only_decls {ds : List Decl} (h : ∀ d ∈ ds, ¬ Forward d) : Only (ds.map Part.decl) ds where
  decls := by induction ds with
    | nil => rfl
    | cons d ds ih => simpa [Part.decl?] using ih fun d hd => h d (by simp [hd])
  imported := by simp [List.filterMap_map, Function.comp_def, Part.imported?]
  members := by simp [List.filterMap_map, Function.comp_def, Part.members?]
  early := by simp
  later := h

theorem only_callbacks {ds : List Decl} (h : ∀ d ∈ ds, ¬ Forward d) : Only (ds.map Part.callback) ds where
  decls := by induction ds with
    | nil => rfl
    | cons d ds ih => simpa [Part.decl?] using ih fun d hd => h d (by simp [hd])
  imported := by simp [List.filterMap_map, Function.comp_def, Part.imported?]
  members := by simp [List.filterMap_map, Function.comp_def, Part.members?]
  early := by simp
  later := h

/-- A loop. -/
theorem loop {T : Texts} {α : Type} {f : α → Option (List Decl)} {g : α → Option (List Call)}
    (hfg : ∀ a ds, f a = some ds → ∃ cs ps, g a = some cs ∧ Goes T cs ps ∧ Only ps ds) :
    ∀ {as : List α} {dss : List (List Decl)}, all f as = some dss →
      ∃ css ps, all g as = some css ∧ Goes T css.flatten ps ∧ Only ps dss.flatten := by
  intro as
  induction as with
  | nil => intro dss h; cases h; exact ⟨[], [], rfl, Goes.nil T, Only.nil⟩
  | cons a as ih =>
    intro dss h
    unfold all at h
    cases hf : f a with
    | none => rw [hf] at h; cases h
    | some ds =>
      cases hr : all f as with
      | none => rw [hf, hr] at h; cases h
      | some rest =>
        rw [hf, hr] at h; cases h
        obtain ⟨cs, ps, h1, h2, h3⟩ := hfg a ds hf
        obtain ⟨css, qs, h4, h5, h6⟩ := ih hr
        refine ⟨cs :: css, ps ++ qs, ?_, by simpa using h2.append h5, by simpa using h3.append h6⟩
        unfold all
        rw [h1, h4]

/-- Single declarations. -/
theorem all_single {α : Type} {f : α → Option Decl} : ∀ {as : List α} {ds : List Decl}, all f as = some ds →
    ∃ dss, all (fun a => (f a).map ([·])) as = some dss ∧ dss.flatten = ds := by
  intro as
  induction as with
  | nil => intro ds h; cases h; exact ⟨[], rfl, rfl⟩
  | cons a as ih =>
    intro ds h
    unfold all at h
    cases hf : f a with
    | none => rw [hf] at h; cases h
    | some d =>
      cases hr : all f as with
      | none => rw [hf, hr] at h; cases h
      | some rest =>
        rw [hf, hr] at h; cases h
        obtain ⟨dss, h1, h2⟩ := ih hr
        refine ⟨[d] :: dss, ?_, by simp [h2]⟩
        unfold all
        rw [hf, h1]
        rfl

/-! ### The writers -/

theorem data_home {ts : Types} {i : Item} {d : Decl} (h : dataDecl ts i = some d) :
    home d = nsBlocks (namespaceOf i) ∧ ¬ Forward d := by
  cases i with
  | struct s ms =>
    unfold dataDecl at h
    dsimp only at h
    split at h
    · cases h; exact ⟨rfl, id⟩
    · cases h
  | «opaque» t ms =>
    obtain ⟨m, _, rfl⟩ := Option.map_eq_some_iff.1 h
    exact ⟨rfl, id⟩
  | enum e => cases h; exact ⟨rfl, id⟩
  | checkEnum e => cases h; exact ⟨rfl, id⟩

theorem data_goes (T : Texts) (ts : Types) (i : Item) (ds : List Decl) (h : ((dataDecl ts i).map ([·])) = some ds) :
    ∃ cs ps, dataCalls T ts i = some cs ∧ Goes T cs ps ∧ Only ps ds := by
  obtain ⟨d, hd, rfl⟩ := Option.map_eq_some_iff.1 h
  obtain ⟨h1, h2⟩ := data_home hd
  refine ⟨_, [.decl d], by unfold dataCalls; rw [hd]; rfl, ?_, only_decls (ds := [d]) (by simpa using h2)⟩
  exact goes_section (goes_in T _ (by simpa using nested_put T (.decl d) h1))

theorem protos_home {s : Struct} {ds : List Decl} (h : operatorProtos s = some ds) :
    ∀ d ∈ ds, home d = nsBlocks s.name.ns ++ [.externC] ∧ ¬ Forward d := by
  intro d hd
  obtain ⟨x, _, hx⟩ := all_mem h hd
  obtain ⟨sym, _, rfl⟩ := Option.map_eq_some_iff.1 hx
  exact ⟨rfl, id⟩

theorem layoutProtos_home {t : ExternType} {ds : List Decl} (h : layoutProtos t = some ds) :
    ∀ d ∈ ds, home d = nsBlocks t.name.ns ++ [.externC] ∧ ¬ Forward d := by
  intro d hd
  obtain ⟨x, _, hx⟩ := all_mem h hd
  obtain ⟨sym, _, rfl⟩ := Option.map_eq_some_iff.1 hx
  exact ⟨rfl, id⟩

theorem operatorDefs_home {s : Struct} {ds : List Decl} (h : operatorDefs s = some ds) :
    ∀ d ∈ ds, home d = nsBlocks s.name.ns ∧ ¬ Forward d := by
  intro d hd
  obtain ⟨x, _, hx⟩ := all_mem h hd
  obtain ⟨sym, _, rfl⟩ := Option.map_eq_some_iff.1 hx
  exact ⟨rfl, id⟩

theorem layoutDefs_home {t : ExternType} {ds : List Decl} (h : layoutDefs t = some ds) :
    ∀ d ∈ ds, home d = nsBlocks t.name.ns ∧ ¬ Forward d := by
  intro d hd
  obtain ⟨x, _, hx⟩ := all_mem h hd
  obtain ⟨sym, _, rfl⟩ := Option.map_eq_some_iff.1 hx
  exact ⟨rfl, id⟩

theorem shim_home {cx : Ctx} {f : ExternFn} {d : Decl} (h : cxxShim cx f = some d) :
    home d = nsBlocks f.name.ns ++ [.externC] ∧ ¬ Forward d := by
  unfold cxxShim at h
  split at h
  · cases h; exact ⟨rfl, id⟩
  · cases h

theorem trampoline_home {cx : Ctx} {f : ExternFn} {a : Var} {ds : List Decl} (h : trampoline cx f a = some ds) :
    ∀ d ∈ ds, place (.callback d) = nsBlocks f.name.ns ++ [.externC] ∧ ¬ Forward d := by
  unfold trampoline at h
  split at h
  · split at h
    · cases h
      intro d hd
      rcases List.mem_cons.1 hd with rfl | hd
      · exact ⟨rfl, id⟩
      · rcases List.mem_cons.1 hd with rfl | hd
        · exact ⟨rfl, id⟩
        · cases hd
    · cases h
  · cases h; simp

theorem rustProto_home {cx : Ctx} {f : ExternFn} {d : Decl} (h : rustProto cx f = some d) :
    home d = nsBlocks f.name.ns ++ [.externC] ∧ ¬ Forward d := by
  unfold rustProto at h
  split at h
  · cases h; exact ⟨rfl, id⟩
  · cases h

theorem rustShim_home {header : Bool} {cx : Ctx} {f : ExternFn} {ds : List Decl} (h : rustShim header cx f = some ds) :
    ∀ d ∈ ds, home d = nsBlocks f.name.ns ∧ ¬ Forward d := by
  unfold rustShim at h
  split at h
  · split at h
    · cases h
      intro d hd
      obtain rfl := List.mem_singleton.1 hd
      exact ⟨rfl, id⟩
    · obtain ⟨p, _, rfl⟩ := Option.map_eq_some_iff.1 h
      cases header with
      | true => simp
      | false =>
        intro d hd
        obtain rfl := List.mem_singleton.1 hd
        exact ⟨rfl, id⟩
  · cases h

/-- The namespace, `extern "C"`, and declarations in them. -/
theorem goes_externC (T : Texts) (ns : Namespace) {ds : List Decl}
    (h : ∀ d ∈ ds, home d = nsBlocks ns ++ [.externC] ∧ ¬ Forward d) :
    Goes T ([.setNamespace ns, .beginBlock .externC] ++ puts T ds ++ [.endBlock .externC]) (ds.map .decl) :=
  goes_in T ns (nested_block (nested_decls T fun d hd => (h d hd).1))

theorem first_goes (T : Texts) (cx : Ctx) (a : Api) (ds : List Decl) (h : firstLoop cx a = some ds) :
    ∃ cs ps, firstCalls T cx a = some cs ∧ Goes T cs ps ∧ Only ps ds := by
  cases a with
  | struct s =>
    have hh := protos_home h
    have h : operatorProtos s = some ds := h
    refine ⟨_, _, by unfold firstCalls; dsimp only; rw [h]; rfl, goes_externC T _ hh, only_decls fun d hd => (hh d hd).2⟩
  | rustType t =>
    have hh := layoutProtos_home h
    have h : layoutProtos t = some ds := h
    refine ⟨_, _, by unfold firstCalls; dsimp only; rw [h]; rfl, goes_externC T _ hh, only_decls fun d hd => (hh d hd).2⟩
  | rustFunction f =>
    obtain ⟨d, hd, rfl⟩ := Option.map_eq_some_iff.1 h
    have hh := rustProto_home hd
    refine ⟨_, _, by unfold firstCalls; dsimp only; rw [hd]; rfl, ?_, only_decls (ds := [d]) (by simpa using hh.2)⟩
    simpa [puts] using goes_externC T f.name.ns (ds := [d]) (by simpa using hh)
  | cxxFunction f =>
    unfold firstLoop at h
    dsimp only at h
    cases hs : cxxShim cx f with
    | none => rw [hs] at h; cases h
    | some d =>
      cases ht : all (trampoline cx f) f.sig.args with
      | none => rw [hs, ht] at h; cases h
      | some ts =>
        rw [hs, ht] at h
        cases h
        have hh := shim_home hs
        have hc : ∀ d ∈ ts.flatten, place (.callback d) = nsBlocks f.name.ns ++ [.externC] ∧ ¬ Forward d := by
          intro d hd
          obtain ⟨l, hl, hd⟩ := List.mem_flatten.1 hd
          obtain ⟨a, _, ha⟩ := all_mem ht hl
          exact trampoline_home ha d hd
        refine ⟨_, [.decl d] ++ ts.flatten.map .callback, by unfold firstCalls; dsimp only; rw [hs, ht], ?_, ?_⟩
        · have hn := nested_append (nested_put T (.decl d) (ns := f.name.ns) hh.1)
            (nested_parts T Part.callback ts.flatten fun d hd => (hc d hd).1)
          have := goes_section (goes_in T f.name.ns (ps := [.decl d] ++ ts.flatten.map .callback)
            (nested_block (b := .externC) (by simpa using hn)))
          simpa using this
        · exact (only_decls (ds := [d]) (by simpa using hh.2)).append (only_callbacks fun d hd => (hc d hd).2)
  | _ => cases h; exact ⟨[], [], rfl, Goes.nil T, Only.nil⟩

theorem second_goes (T : Texts) (header : Bool) (cx : Ctx) (a : Api) (ds : List Decl)
    (h : secondLoop header cx a = some ds) :
    ∃ cs ps, secondCalls T header cx a = some cs ∧ Goes T cs ps ∧ Only ps ds := by
  cases a with
  | struct s =>
    cases header with
    | true => cases h; exact ⟨[], [], rfl, Goes.nil T, Only.nil⟩
    | false =>
      have h : operatorDefs s = some ds := h
      have hh := operatorDefs_home h
      refine ⟨_, _, by unfold secondCalls; dsimp only; rw [if_neg (by simp), h]; rfl, goes_in T _ (nested_decls T fun d hd => (hh d hd).1),
        only_decls fun d hd => (hh d hd).2⟩
  | rustType t =>
    cases header with
    | true => cases h; exact ⟨[], [], rfl, Goes.nil T, Only.nil⟩
    | false =>
      have h : layoutDefs t = some ds := h
      have hh := layoutDefs_home h
      refine ⟨_, _, by unfold secondCalls; dsimp only; rw [if_neg (by simp), h]; rfl, goes_in T _ (nested_decls T fun d hd => (hh d hd).1),
        only_decls fun d hd => (hh d hd).2⟩
  | rustFunction f =>
    have h : rustShim header cx f = some ds := h
    have hh := rustShim_home h
    refine ⟨_, _, by unfold secondCalls; dsimp only; rw [h]; rfl,
      goes_section (goes_in T _ (nested_decls T fun d hd => (hh d hd).1)), only_decls fun d hd => (hh d hd).2⟩
  | _ => cases h; exact ⟨[], [], rfl, Goes.nil T, Only.nil⟩

theorem specialization_home {apis : List Api} {dss : List (List Decl)} (h : all specialization apis = some dss) :
    ∀ d ∈ dss.flatten, home d = [.builtinNamespace "std"] ∧ ¬ Forward d := by
  intro d hd
  obtain ⟨l, hl, hd⟩ := List.mem_flatten.1 hd
  obtain ⟨a, _, ha⟩ := all_mem h hl
  unfold specialization at ha
  split at ha
  · split at ha
    · obtain ⟨sym, _, rfl⟩ := Option.map_eq_some_iff.1 ha
      obtain rfl := List.mem_singleton.1 hd
      exact ⟨rfl, id⟩
    · cases ha; cases hd
  · cases ha; cases hd

theorem specialization_goes (T : Texts) {apis : List Api} {dss : List (List Decl)}
    (h : all specialization apis = some dss) :
    ∃ cs ps, specializationCalls T apis = some cs ∧ Goes T cs ps ∧ Only ps dss.flatten := by
  have hh := specialization_home h
  refine ⟨_, dss.flatten.map .decl, by unfold specializationCalls; rw [h]; rfl, ?_, only_decls fun d hd => (hh d hd).2⟩
  exact goes_in T [] (nested_block (b := .builtinNamespace "std") (nested_decls T fun d hd => (hh d hd).1))

theorem instances_home {cx : Ctx} {ds : List Decl} (h : instances cx = some ds) :
    ∀ d ∈ ds, home d = [.externC] ∧ ¬ Forward d := by
  intro d hd
  obtain ⟨x, _, hx⟩ := all_mem h hd
  obtain ⟨p, _, rfl⟩ := Option.map_eq_some_iff.1 hx
  exact ⟨rfl, id⟩

/-- The types of which `instanceCalls` specialises members. -/
theorem members_nested (T : Texts) (l : List (ImplKey × Bool)) {ns : Namespace} :
    Nested [.builtinNamespace "rust", .inlineNamespace "cxxbridge1"] ns
      (l.flatMap fun e => if hasMembers e.1 then put T (.members e.1) else [])
      ((((l.map (·.1)).filter hasMembers).map Part.members).flatMap (inPlace T))
      [.builtinNamespace "rust", .inlineNamespace "cxxbridge1"] ns := by
  induction l with
  | nil => exact .done _ _
  | cons e l ih =>
    cases he : hasMembers e.1 with
    | true => simpa [he] using nested_append (nested_put T (.members e.1)
        (S := [.builtinNamespace "rust", .inlineNamespace "cxxbridge1"]) rfl) ih
    | false => simpa [he] using ih

theorem instances_goes (T : Texts) {cx : Ctx} {ds : List Decl} (h : instances cx = some ds) :
    ∃ cs, instanceCalls T cx = some cs ∧
      Goes T cs (ds.map .decl ++ ((cx.types.impls.map (·.1)).filter hasMembers).map .members) := by
  have hh := instances_home h
  refine ⟨_, by unfold instanceCalls; rw [h]; rfl, ?_⟩
  have h1 : Nested (nsBlocks []) [] (Call.beginBlock .externC :: (puts T ds ++ [.endBlock .externC]))
      ((ds.map Part.decl).flatMap (inPlace T)) (nsBlocks []) [] :=
    nested_block (nested_decls T fun d hd => (hh d hd).1)
  have h2 := nested_block (S := nsBlocks []) (b := .builtinNamespace "rust")
    (nested_block (b := .inlineNamespace "cxxbridge1") (members_nested T cx.types.impls (ns := [])))
  have := goes_section (goes_in T [] (ps := ds.map .decl ++ ((cx.types.impls.map (·.1)).filter hasMembers).map .members)
    (by simpa using nested_append h1 h2))
  simpa using this

/-- The imported types that are asserted to be relocatable. -/
def asserted (trivial : Ident → Bool) (apis : List Api) : List TypeAlias :=
  apis.filterMap fun
    | .typeAlias a => if trivial a.name.rust then some a else none
    | _ => none

theorem imported_goes (T : Texts) (trivial : Ident → Bool) (apis : List Api) :
    Goes T (importedCalls T trivial apis) ((asserted trivial apis).map .imported) := by
  refine goes_in T [] (.section ?_)
  unfold asserted
  induction apis with
  | nil => exact .done _ _
  | cons a apis ih =>
    cases a with
    | typeAlias a =>
      by_cases ha : trivial a.name.rust = true
      · simpa [ha] using nested_append (nested_put T (.imported a) (S := nsBlocks []) rfl) ih
      · simpa [ha] using ih
    | _ => exact ih

theorem forward_forward {ts : Types} {apis : List Api} : ∀ d ∈ apis.flatMap (forward ts), Forward d := by
  intro d hd
  obtain ⟨a, _, hd⟩ := List.mem_flatMap.1 hd
  unfold forward at hd
  split at hd
  · obtain rfl := List.mem_singleton.1 hd; trivial
  · obtain rfl := List.mem_singleton.1 hd; trivial
  · obtain rfl := List.mem_singleton.1 hd; trivial
  · split at hd
    · cases hd
    · obtain rfl := List.mem_singleton.1 hd; trivial
  · cases hd

/-! ### The property -/

/-- A loop that is left out in a header. -/
theorem unless_header {T : Texts} {α : Type} {f : α → Option (List Decl)} {g : α → Option (List Call)} (header : Bool)
    (hfg : ∀ a ds, f a = some ds → ∃ cs ps, g a = some cs ∧ Goes T cs ps ∧ Only ps ds) {as : List α}
    {dss : List (List Decl)} (h : (if header then some [] else all f as) = some dss) :
    ∃ css ps, (if header then some [] else all g as) = some css ∧ Goes T css.flatten ps ∧ Only ps dss.flatten := by
  cases header with
  | true => cases h; exact ⟨[], [], rfl, Goes.nil T, Only.nil⟩
  | false => exact loop hfg h

/-- **C103.** The declarations of a generated file, after the forward declarations, are written in their order, each in
the blocks it belongs in; and the assertions about imported types and the specialised members are where they belong. -/
theorem declarations_in_place (T : Texts) (header defaults : Bool) (trivial : Ident → Bool) (cx : Ctx)
    (sorted : List Struct) (apis : List Api) {ds : List Decl} (h : file header cx sorted apis = some ds) :
    ∃ (cs : List Call) (out : List Piece) (parts : List Part) (fwd rest : List Decl),
      calls T header defaults trivial cx sorted apis = some cs ∧ output cs = some out ∧ NoEmptyBlock out ∧
      Reads [] out (((if defaults then [Part.macros] else []) ++ Part.forwards :: parts).flatMap (inPlace T)) [] ∧
      ds = fwd ++ rest ∧ (∀ d ∈ fwd, Forward d) ∧ (∀ d ∈ rest, ¬ Forward d) ∧
      (∀ p ∈ parts, p ≠ .macros ∧ p ≠ .forwards) ∧ parts.filterMap Part.decl? = rest ∧
      parts.filterMap Part.imported? = (if header then [] else apis.filterMap fun
        | .typeAlias a => if trivial a.name.rust then some a else none
        | _ => none) ∧
      parts.filterMap Part.members? = (if header then [] else (cx.types.impls.map (·.1)).filter fun
        | .rustBox _ | .rustVec _ => true
        | _ => false) := by
  unfold file at h
  cases h1 : all (dataDecl cx.types) (dataStructures cx.types sorted apis) with
  | none => rw [h1] at h; cases h
  | some data =>
  cases h2 : (if header then some [] else all (firstLoop cx) apis) with
  | none => rw [h1, h2] at h; cases h
  | some fst =>
  cases h3 : (if header then some [] else all specialization apis) with
  | none => rw [h1, h2, h3] at h; cases h
  | some spec =>
  cases h4 : all (secondLoop header cx) apis with
  | none => rw [h1, h2, h3, h4] at h; cases h
  | some snd =>
  cases h5 : (if header then some [] else instances cx) with
  | none => rw [h1, h2, h3, h4, h5] at h; cases h
  | some inst =>
  rw [h1, h2, h3, h4, h5] at h
  cases h
  obtain ⟨dss, hd1, rfl⟩ := all_single h1
  obtain ⟨c1, p1, g1, w1, o1⟩ := loop (data_goes T cx.types) hd1
  obtain ⟨c2, p2, g2, w2, o2⟩ := unless_header header (first_goes T cx) h2
  obtain ⟨c3, p3, g3, w3, o3⟩ : ∃ cs ps, (if header then some [] else specializationCalls T apis) = some cs ∧
      Goes T cs ps ∧ Only ps spec.flatten := by
    cases header with
    | true => cases h3; exact ⟨[], [], rfl, Goes.nil T, Only.nil⟩
    | false => exact specialization_goes T h3
  obtain ⟨c4, p4, g4, w4, o4⟩ := loop (second_goes T header cx) h4
  obtain ⟨c5, p5, g5, w5, o5⟩ : ∃ cs ps, (if header then some [] else instanceCalls T cx) = some cs ∧
      Goes T cs (ps ++ (if header then [] else ((cx.types.impls.map (·.1)).filter hasMembers).map .members)) ∧
      Only ps inst := by
    cases header with
    | true => cases h5; exact ⟨[], [], rfl, Goes.nil T, Only.nil⟩
    | false =>
      obtain ⟨cs, hc, hg⟩ := instances_goes T (cx := cx) (ds := inst) h5
      exact ⟨cs, _, hc, hg, only_decls fun d hd => (instances_home h5 d hd).2⟩
  have w0 : Nested (nsBlocks []) [] (if defaults then Call.nextSection :: put T .macros else [])
      ((if defaults then [Part.macros] else []).flatMap (inPlace T)) (nsBlocks []) [] := by
    cases defaults with
    | false => exact .done _ _
    | true => exact .section (by simpa using nested_put T .macros (S := nsBlocks []) (ns := []) rfl)
  have w0' : Nested (nsBlocks []) [] (Call.nextSection :: put T .forwards) ([Part.forwards].flatMap (inPlace T))
      (nsBlocks []) [] := .section (by simpa using nested_put T .forwards (S := nsBlocks []) (ns := []) rfl)
  have w1' : Goes T (if header then [] else importedCalls T trivial apis)
      (if header then [] else (asserted trivial apis).map .imported) := by
    cases header with
    | true => exact Goes.nil T
    | false => exact imported_goes T trivial apis
  obtain ⟨ns, hn⟩ := ((((w1.append w1').append w2).append w3).append w4 |>.append w5) []
  have hall := nested_append (nested_append w0 w0') hn
  obtain ⟨out, ho, hr, he⟩ := blocks_balance (by simpa [nsBlocks] using hall)
  refine ⟨_, out, p1 ++ (if header then [] else (asserted trivial apis).map .imported) ++ p2 ++ p3 ++ p4 ++ (p5 ++
      (if header then [] else ((cx.types.impls.map (·.1)).filter hasMembers).map .members)),
    apis.flatMap (forward cx.types), dss.flatten ++ fst.flatten ++ spec.flatten ++ snd.flatten ++ inst,
    by unfold calls; rw [g1, g2, g3, g4, g5], by simpa using ho, he, by simpa using hr, by simp,
    forward_forward, ?_, ?_, ?_, ?_, ?_⟩
  · exact (((o1.append o2).append o3).append o4 |>.append o5).later
  · have hi : ∀ p ∈ (if header then [] else (asserted trivial apis).map Part.imported), p ≠ .macros ∧ p ≠ .forwards := by
      cases header <;> simp
    have hk : ∀ p ∈ (if header then [] else ((cx.types.impls.map (·.1)).filter hasMembers).map Part.members),
        p ≠ .macros ∧ p ≠ .forwards := by
      cases header with
      | true => simp
      | false =>
        intro p hp
        obtain ⟨k, _, rfl⟩ := List.mem_map.1 hp
        simp
    have ho : ∀ {ps ds}, Only ps ds → ∀ p ∈ ps, p ≠ .macros ∧ p ≠ .forwards := by
      rintro ps ds h p hp
      exact ⟨fun e => h.early.1 (e ▸ hp), fun e => h.early.2 (e ▸ hp)⟩
    intro p hp
    simp only [List.mem_append] at hp
    rcases hp with ((((hp | hp) | hp) | hp) | hp) | hp | hp
    · exact ho o1 p hp
    · exact hi p hp
    · exact ho o2 p hp
    · exact ho o3 p hp
    · exact ho o4 p hp
    · exact ho o5 p hp
    · exact hk p hp
  · have hi : (if header then [] else (asserted trivial apis).map Part.imported).filterMap Part.decl? = [] := by
      cases header <;> simp [Part.decl?, List.filterMap_map, Function.comp_def]
    have hk : (if header then [] else ((cx.types.impls.map (·.1)).filter hasMembers).map Part.members).filterMap
        Part.decl? = [] := by
      cases header <;> simp [Part.decl?, List.filterMap_map, Function.comp_def]
    simp only [List.filterMap_append, hi, hk, o1.decls, o2.decls, o3.decls, o4.decls, o5.decls]
    simp
  · have hi : (if header then [] else (asserted trivial apis).map Part.imported).filterMap Part.imported? =
        (if header then [] else asserted trivial apis) := by
      cases header <;> simp [Part.imported?, List.filterMap_map, Function.comp_def]
    have hk : (if header then [] else ((cx.types.impls.map (·.1)).filter hasMembers).map Part.members).filterMap
        Part.imported? = [] := by
      cases header <;> simp [Part.imported?, List.filterMap_map, Function.comp_def]
    simp only [List.filterMap_append, hi, hk, o1.imported, o2.imported, o3.imported, o4.imported, o5.imported,
      List.nil_append, List.append_nil]
    rfl
  · have hi : (if header then [] else (asserted trivial apis).map Part.imported).filterMap Part.members? = [] := by
      cases header <;> simp [Part.members?, List.filterMap_map, Function.comp_def]
    have hk : (if header then [] else ((cx.types.impls.map (·.1)).filter hasMembers).map Part.members).filterMap
        Part.members? = (if header then [] else (cx.types.impls.map (·.1)).filter hasMembers) := by
      cases header <;> simp [Part.members?, List.filterMap_map, Function.comp_def]
    simp only [List.filterMap_append, hi, hk, o1.members, o2.members, o3.members, o4.members, o5.members,
      List.nil_append, List.append_nil]
    rfl

/-- A short text for each part. -/
private def tag : Part → String
  | .macros => "macros"
  | .forwards => "forwards"
  | .imported _ => "imported"
  | .members _ => "members"
  | .callback _ => "callback"
  | .decl (.classDef p ..) => "class " ++ p.cxx
  | .decl (.enumDef p _) => "enum " ++ p.cxx
  | .decl (.proto ..) => "proto"
  | .decl (.shim ..) => "shim"
  | .decl (.function _ name ..) => "function " ++ name
  | .decl (.member _ cls m _) => cls ++ "::" ++ m.name
  | .decl (.layout _ cls f _) => cls ++ "::layout::" ++ f
  | .decl (.hash ..) => "hash"
  | .decl _ => "other"

/-- The output for the source file of the bridge of `Verif/Unit`. -/
example : ((calls (fun p => [some (tag p)]) false true (fun _ => false) Verif.Unit.shownCtx
    [Verif.Unit.inner, Verif.Unit.outer] Verif.Unit.shown).bind output) = some
    [.text "macros", .newline, .text "forwards", .newline, .open (.userDefinedNamespace "org"),
     .text "class Inner", .newline, .text "class Outer", .newline, .text "enum Kind", .newline,
     .text "class R", .newline, .open (.externC), .text "proto", .text "proto", .text "proto", .text "proto",
     .text "proto", .newline, .text "shim", .newline, .text "shim", .newline, .text "shim", .text "callback",
     .text "callback", .text "proto", .text "proto", .text "proto", .close (.externC),
     .close (.userDefinedNamespace "org"), .newline, .open (.builtinNamespace "std"), .text "hash",
     .close (.builtinNamespace "std"), .newline, .open (.userDefinedNamespace "org"),
     .text "Outer::operator==", .text "Outer::operator!=", .text "R::layout::size", .text "R::layout::align",
     .newline, .text "R::get", .newline, .text "R::get", .newline, .text "Inner::sum",
     .close (.userDefinedNamespace "org"), .newline, .open (.externC), .text "other", .text "other",
     .close (.externC), .newline, .open (.builtinNamespace "rust"), .open (.inlineNamespace "cxxbridge1"),
     .text "members", .close (.inlineNamespace "cxxbridge1"), .close (.builtinNamespace "rust")] := by decide +kernel

end Verif.Placed
