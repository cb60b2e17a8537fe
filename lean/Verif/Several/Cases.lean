import Verif.Several.Accept
import Verif.Prototype.Cases
/-!
# Files with two bridges
-/
namespace Verif.Several
open Verif.Syntax Verif.Types Verif.Check Verif.Abi Verif.CxxText Verif.Mangle Verif.Prototype

/-- A second bridge, beside `tour`: a struct with a string in it, of which there are boxes, and functions in both directions. -/
def side : List Api :=
  [.struct ⟨[], ⟨["a"], "Q", "Q"⟩, [], [⟨nm "x", .named "String"⟩]⟩,
   .cxxFunction ⟨.cxx, ⟨[], "h", "h"⟩, ⟨false, [], none, [⟨nm "q", .ref false none false (.named "Q")⟩,
     ⟨nm "k", .fn false [.named "Q"] none false⟩], some (.rustBox (.named "Q")), false⟩, true⟩,
   .rustFunction ⟨.rust, ⟨[], "k", "k"⟩, ⟨false, [], some ⟨false, none, true, ⟨"Q", []⟩, false⟩, [⟨nm "q", .named "Q"⟩], none, true⟩, true⟩]

theorem apart_of {b c : List Api} (h : ∀ d ∈ b.filterMap defines, ∀ e ∈ c.filterMap defines, d.1 ≠ e.1) : Apart [b, c] := by
  refine List.Pairwise.cons (fun c' hc n => ?_) (List.pairwise_singleton _ _)
  obtain rfl := List.mem_singleton.1 hc
  refine Classical.byContradiction fun hno => ?_
  simp only [not_or] at hno
  obtain ⟨a, ha, k, hk⟩ := mem_of_definitions hno.1
  obtain ⟨a', ha', k', hk'⟩ := mem_of_definitions hno.2
  exact h _ (List.mem_filterMap.2 ⟨a, ha, hk⟩) _ (List.mem_filterMap.2 ⟨a', ha', hk'⟩) rfl

theorem fns_of {apis : List Api} (h : ∀ a ∈ apis, (match a with
      | .cxxFunction f | .rustFunction f =>
        (pathOf f.name).all isName && isWord f.name.rust.toList && f.sig.args.all fun a => isName a.name.cxx.toList
      | _ => true) = true) : ∀ f, HasFn apis f → LegalFn f := by
  intro f hf
  have : ((pathOf f.name).all isName && isWord f.name.rust.toList && f.sig.args.all fun a => isName a.name.cxx.toList) = true := by
    rcases hf with hf | hf
    · exact h _ hf
    · exact h _ hf
  simp only [Bool.and_eq_true] at this
  exact ⟨this.1.1, this.1.2, fun a ha => List.all_eq_true.1 this.2 a ha⟩

theorem two_accepted : Accepted .build (file [tour, side]) := by decide +kernel

/-- The hypotheses of the theorems are met by a file with the bridges `tour` and `side`. -/
example : Apart [tour, side] ∧ Accepted .build (file [tour, side]) ∧ (∀ b ∈ [tour, side], Accepted .macro b) ∧
    (∀ b ∈ [tour, side], Accepted .build b) ∧ ((file [tour, side]).filterMap signatureOf).Nodup ∧
    LexicalBridge (file [tour, side]) ∧ LegalNames (file [tour, side]) ∧ StrWritten (file [tour, side]) ∧
    NoUnit (file [tour, side]) ∧ CtxFor side (context side 3) ∧ CtxFor (file [tour, side]) (context (file [tour, side]) 3) ∧
    ∀ f, HasFn (file [tour, side]) f → LegalFn f :=
  ⟨apart_of (by decide +kernel), two_accepted, by decide +kernel, by decide +kernel,
    ((duplicates_exact _).1 two_accepted.1).2, by decide +kernel,
    legal_of (by decide +kernel), (written_of (by decide +kernel)).1, (written_of (by decide +kernel)).2,
    context_for (by decide +kernel), context_for (by decide +kernel), fns_of (by decide +kernel)⟩

/-! ### Bridges that disturb each other -/

/-- `fn f(self: &S)` -/
def method : ExternFn := ⟨.rust, nm "f", ⟨false, [], some ⟨false, none, false, ⟨"S", []⟩, false⟩, [], none, false⟩, true⟩

/-- `struct S { x: u8 }` and `extern "Rust" { fn f(self: &S); }` -/
def first : List Api := [.struct ⟨[], nm "S", [], [⟨nm "x", .named "u8"⟩]⟩, .rustFunction method]

/-- `unsafe extern "C++" { #[cxx_name = "T"] type S; }` -/
def second : List Api := [.cxxType ⟨.cxx, [], ⟨[], "T", "S"⟩, [], [], true⟩]

/-- **C109** fails for names that two bridges share: each bridge is accepted by the macro and the file by the C++ generator, but
the method that the macro exports for the first bridge is not the one that the C++ code calls. -/
theorem halved_disagrees :
    (∀ b ∈ [first, second], Accepted .macro b) ∧ Accepted .build (file [first, second]) ∧ Halved [first, second] "S" ∧
      (rustFunctionR (context first 3) method).symbol = some "cxxbridge1$S$f".toList ∧
      (rustFunctionC (context (file [first, second]) 3) method).map (·.symbol) = some (some "cxxbridge1$T$f".toList) := by
  refine ⟨by decide +kernel, by decide +kernel, ?_, ?_, ?_⟩
  · show definitions (file [first, second]) "S" ∈ _; decide +kernel
  · decide +kernel
  · decide +kernel

/-- `type u8 = ...;` -/
def hides : List Api := [.typeAlias ⟨[], nm "u8", []⟩]

/-- `struct S { x: [u8; 4] }` -/
def bytes : List Api := [.struct ⟨[], nm "S", [], [⟨nm "x", .array (.named "u8") 4⟩]⟩]

/-- An alias with the name of a builtin type is accepted, and the other bridges of the file are then rejected. -/
theorem alias_disturbs :
    Accepted .build hides ∧ Accepted .build bytes ∧ Apart [hides, bytes] ∧ ¬ Accepted .build (file [hides, bytes]) :=
  ⟨by decide +kernel, by decide +kernel, apart_of (by decide +kernel), by decide +kernel⟩

end Verif.Several
