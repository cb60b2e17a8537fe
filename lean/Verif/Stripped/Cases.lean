import Verif.Stripped.Closed
/-!
# C88: bridges with conditions
-/
namespace Verif.Stripped
open Verif.Syntax Verif.Types Verif.Parse Verif.Cfg Verif.Check Verif.Abi Verif.RustSig Verif.CxxText Verif.Mangle
  Verif.Prototype

/-- Readers for the examples: `cfg` is always `cfg(a)`. -/
def readers : Readers := ⟨fun _ => none, fun _ => some (.eq "a" none), some, some⟩

/-- The configuration in which nothing holds. -/
def nothing : Config := fun _ _ => false

/-- `#[cfg(a)]` -/
def ifA : Attr := ⟨false, ["cfg"], .list []⟩

/-- `fn name(..) -> ..;` -/
def fnSrc (attrs : List Attr) (name : Ident) (inputs : List (PatSrc × RTy)) (output : Option RTy) : ForeignSrc :=
  .fn ⟨attrs, name, noGenerics, false, false, false, false, false, none, inputs, output⟩

/-- What `parse_items` makes of the items. -/
def outsOf (items : List ItemSrc) : List Out := (parseItems readers true false [] items).2

/-- What the C++ generator goes on with. -/
def onOf (items : List ItemSrc) : List Api := (stripped (full nothing) (outsOf items)).1

/-! ### Conditions that do no harm -/

/-- ```
struct S { x: u8 }
enum E { A, #[cfg(a)] B }
unsafe extern "C++" { #[cfg(a)] include!("a.h"); type T; fn f(s: S) -> u8; #[cfg(a)] fn g(s: S); }
extern "Rust" { fn h(s: S) -> u8; #[cfg(a)] fn k(); }
```
(attributes of `include!` are not read) -/
def fine : List ItemSrc := [
  .struct ⟨[], "S", noGenerics, .named [⟨[], "x", named "u8"⟩]⟩,
  .enum ⟨[], "E", noGenerics, [⟨[], "A", ⟨true, none⟩⟩, ⟨[ifA], "B", ⟨true, none⟩⟩]⟩,
  .foreignMod ⟨[], true, some "C++", [
    .include (some "a.h"),
    .type ⟨[], "T", noGenerics⟩,
    fnSrc [] "f" [(.ident "s", named "S")] (some (named "u8")),
    fnSrc [ifA] "g" [(.ident "s", named "S")] none]⟩,
  .foreignMod ⟨[], false, some "Rust", [
    fnSrc [] "h" [(.ident "s", named "S")] (some (named "u8")),
    fnSrc [ifA] "k" [] none]⟩]

/-- Whether the types and fields are on. -/
def typesOn (f : Config) (outs : List Out) : Bool :=
  outs.all fun o => (defines o.api).isNone || (holds f o.extra.cfg && match o.api with
    | .struct _ => o.members.all fun m => holds f m.1.cfg
    | _ => true)

theorem typesOn_iff {f : Config} {outs : List Out} (h : typesOn f outs = true) : TypesOn f outs := by
  simp only [typesOn, List.all_eq_true] at h
  intro o ho ⟨d, hd⟩
  have := h o ho
  rw [hd] at this
  simp only [Option.isNone_some, Bool.false_or, Bool.and_eq_true] at this
  refine ⟨this.1, ?_⟩
  intro s hs
  have := this.2
  rw [hs] at this
  simpa using this

theorem fine_parsed : (parseItems readers true false [] fine).1 = [] ∧ (stripped (full nothing) (outsOf fine)).2 = [] ∧
    typesOn nothing (outsOf fine) = true ∧ Accepted .macro ((outsOf fine).map (·.api)) ∧ Accepted .build (onOf fine) ∧
    (outsOf fine).length = 8 ∧ (onOf fine).length = 6 := by
  decide +kernel

/-- Whether the names of the functions are legal. -/
def legalFns (apis : List Api) : Bool := apis.all fun
  | .cxxFunction f | .rustFunction f =>
    (pathOf f.name).all isName && isWord f.name.rust.toList && f.sig.args.all fun a => isName a.name.cxx.toList
  | _ => true

theorem legalFns_iff {apis : List Api} (h : legalFns apis = true) {f : ExternFn} (hf : HasFn apis f) : LegalFn f := by
  rw [legalFns, List.all_eq_true] at h
  have : ((pathOf f.name).all isName && isWord f.name.rust.toList && f.sig.args.all fun a => isName a.name.cxx.toList) = true := by
    rcases hf with hf | hf <;> exact h _ hf
  simp only [Bool.and_eq_true, List.all_eq_true] at this
  exact ⟨List.all_eq_true.2 this.1.1, this.1.2, this.2⟩

/-- The hypotheses of the theorems are met: all types are on, two functions and a variant are off. -/
example : parseItems readers true false [] fine = ([], outsOf fine) ∧ Extends nothing (full nothing) ∧
    stripped (full nothing) (outsOf fine) = (onOf fine, []) ∧ TypesOn nothing (outsOf fine) ∧
    Accepted .macro ((outsOf fine).map (·.api)) ∧ Accepted .build (onOf fine) ∧
    LexicalBridge ((outsOf fine).map (·.api)) ∧ StrWritten ((outsOf fine).map (·.api)) ∧ NoUnit ((outsOf fine).map (·.api)) ∧
    CtxFor ((outsOf fine).map (·.api)) (context ((outsOf fine).map (·.api)) 3) ∧
    CtxFor (onOf fine) (context (onOf fine) 3) ∧ LegalNames ((outsOf fine).map (·.api)) ∧
    ∀ fn, HasFn (onOf fine) fn → LegalFn fn :=
  ⟨Prod.ext fine_parsed.1 rfl, full_extends _, Prod.ext rfl fine_parsed.2.1, typesOn_iff fine_parsed.2.2.1,
    fine_parsed.2.2.2.1, fine_parsed.2.2.2.2.1, by decide +kernel, (written_of (by decide +kernel)).1,
    (written_of (by decide +kernel)).2, context_for (by decide +kernel), context_for (by decide +kernel),
    legal_of (by decide +kernel), fun _ => legalFns_iff (by decide +kernel)⟩

/-- What is left: `f` and `h`, and one variant of `E`. -/
example : (onOf fine).filterMap (fun
    | .cxxFunction f | .rustFunction f => some (f.name.rust, 0)
    | .enum e => some (e.name.rust, e.variants.length)
    | _ => none) = [("E", 1), ("f", 0), ("h", 0)] := by decide +kernel

/-! ### A conditional type -/

/-- ```
extern "Rust" { #[cfg(a)] type R; }
``` -/
def offType : List ItemSrc := [.foreignMod ⟨[], false, some "Rust", [.type ⟨[ifA], "R", noGenerics⟩]⟩]

/-- The hypotheses of `off_type_breaks` are met: an accepted bridge whose only type is off.  The module that is left imports
`super::R`, which is not there. -/
theorem conditional_type : Accepted .macro ((outsOf offType).map (·.api)) ∧ Accepted .build (onOf offType) ∧
    ¬ Closed readers nothing (outsOf offType) := by
  refine ⟨by decide +kernel, by decide +kernel, ?_⟩
  have hp : parseItems readers true false [] offType = ([], outsOf offType) := Prod.ext (by decide +kernel) rfl
  have hlen : (outsOf offType).length = 1 := by decide +kernel
  have hdef : (outsOf offType).map (fun o => (defines o.api, holds nothing o.extra.cfg)) = [(some ("R", .rust), false)] := by
    decide +kernel
  have hall : ∀ o ∈ outsOf offType, holds nothing o.extra.cfg = false := by
    intro o ho
    have : (defines o.api, holds nothing o.extra.cfg) ∈ [(some ("R", Kind.rust), false)] := hdef ▸ List.mem_map.2 ⟨o, ho, rfl⟩
    rw [List.mem_singleton] at this
    exact congrArg Prod.snd this
  have h0 : (some ("R", Kind.rust), false) ∈ (outsOf offType).map (fun o => (defines o.api, holds nothing o.extra.cfg)) := by
    rw [hdef]; exact .head _
  obtain ⟨o, ho, he⟩ := List.mem_map.1 h0
  refine off_type_breaks hp (n := "R") (by decide) ho (congrArg Prod.fst he) (by simp) ?_
  intro o ho _ _ hon
  rw [On, hall o ho] at hon
  cases hon

/-! ### A conditional field -/

/-- ```
enum E { A }
struct S { x: E, #[cfg(a)] y: String }
unsafe extern "C++" { fn f(s: S); }
``` -/
def offField : List ItemSrc := [
  .enum ⟨[], "E", noGenerics, [⟨[], "A", ⟨true, none⟩⟩]⟩,
  .struct ⟨[], "S", noGenerics, .named [⟨[], "x", named "E"⟩, ⟨[ifA], "y", named "String"⟩]⟩,
  .foreignMod ⟨[], true, some "C++", [fnSrc [] "f" [(.ident "s", named "S")] none]⟩]

/-- `fn f(s: S)` -/
def takesS : ExternFn :=
  ⟨.cxx, nm "f", ⟨false, [], none, [⟨nm "s", .ident ⟨"S", []⟩⟩], none, false⟩, true⟩

/-- Whether the first parameter is a pointer. -/
def firstIsPtr (d : Decl) : Bool :=
  match d.params with
  | (_, .ptr ..) :: _ => true
  | _ => false

/-- Whether the first parameter is of a type with a name of one part. -/
def firstIsNamed (d : FnDecl) : Bool :=
  match d.params with
  | (.path [_] [], _) :: _ => true
  | _ => false

/-- **C88** fails for conditional fields.  Both generators accept the bridge.  The macro sees a struct with a `String` and
hands over a pointer; the C++ generator sees a struct of one enum and takes it by value. -/
theorem field_changes_abi : parseItems readers true false [] offField = ([], outsOf offField) ∧
    stripped (full nothing) (outsOf offField) = (onOf offField, []) ∧
    Accepted .macro ((outsOf offField).map (·.api)) ∧ Accepted .build (onOf offField) ∧
    ∃ p fn, Left readers nothing (outsOf offField) p ∧ p.what = .calls fn ∧
      ∃ line c d, cxxLine (context (onOf offField) 3) fn = some line ∧ declOf line = some c ∧
        reads (meaningRet false) [] none (cxxDecl (context ((outsOf offField).map (·.api)) 3) fn) = some d ∧
        ∀ link, ¬ SameFunction (onOf offField) link d c := by
  have hp : parseItems readers true false [] offField = ([], outsOf offField) := Prod.ext (by decide +kernel) rfl
  have hs : stripped (full nothing) (outsOf offField) = (onOf offField, []) := Prod.ext rfl (by decide +kernel)
  refine ⟨hp, hs, by decide +kernel, by decide +kernel, ?_⟩
  have hf : Api.cxxFunction takesS ∈ onOf offField := .tail _ (.tail _ (.head _))
  obtain ⟨p, hl, hw⟩ := (calls_in_step hp (full_extends _) hs takesS).2 hf
  refine ⟨p, takesS, hl, hw, ?_⟩
  have h1 : ((cxxLine (context (onOf offField) 3) takesS).bind declOf).any firstIsNamed = true := by decide +kernel
  have h2 : (reads (meaningRet false) [] none (cxxDecl (context ((outsOf offField).map (·.api)) 3) takesS)).any firstIsPtr =
      true := by decide +kernel
  obtain ⟨c, hc, hn⟩ := Option.any_eq_true _ _ |>.1 h1
  obtain ⟨line, hl, hc⟩ := Option.bind_eq_some_iff.1 hc
  obtain ⟨d, hd, hq⟩ := Option.any_eq_true _ _ |>.1 h2
  refine ⟨line, c, d, hl, hc, hd, fun link h => ?_⟩
  unfold firstIsNamed at hn
  unfold firstIsPtr at hq
  split at hn
  · next e1 =>
    split at hq
    · next e2 =>
      have := (h.params 0 _ _ (by rw [e2]; rfl) (by rw [e1]; rfl)).1
      dsimp only at this
      cases this with
      | address _ _ hc => cases hc
      | erased hc => cases hc
      | fat hd => cases hd
    · cases hq
  · cases hn

/-! ### A container that only a conditional function needs -/

/-- ```
unsafe extern "C++" { type T; #[cfg(a)] fn f() -> UniquePtr<T>; }
``` -/
def offUse : List ItemSrc := [
  .foreignMod ⟨[], true, some "C++", [.type ⟨[], "T", noGenerics⟩,
    fnSrc [ifA] "f" [] (some (.path false false [] "UniquePtr" (.angle [.type (named "T")])))]⟩]

/-- **C88** fails for the support of containers.  The function that returns the `UniquePtr` is off.  The expanded module still
has the impl, with the declarations of C functions, that the C++ generator does not define. -/
theorem instance_left_over : parseItems readers true false [] offUse = ([], outsOf offUse) ∧
    stripped (full nothing) (outsOf offUse) = (onOf offUse, []) ∧ TypesOn nothing (outsOf offUse) ∧
    Accepted .macro ((outsOf offUse).map (·.api)) ∧ Accepted .build (onOf offUse) ∧
    .uniquePtr "T" ∈ (collect ((outsOf offUse).map (·.api))).impls.map (·.1) ∧
    .uniquePtr "T" ∉ (collect (onOf offUse)).impls.map (·.1) :=
  ⟨Prod.ext (by decide +kernel) rfl, Prod.ext rfl (by decide +kernel), typesOn_iff (by decide +kernel), by decide +kernel,
    by decide +kernel, by decide +kernel, by decide +kernel⟩

end Verif.Stripped
