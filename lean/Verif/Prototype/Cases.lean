import Verif.Prototype.Parsed
import Verif.CxxText.Cases
/-!
# The two texts of a bridge, and a function pointer for which they differ
-/
namespace Verif.Prototype
open Verif.Syntax Verif.Types Verif.Check Verif.Parse Verif.Abi Verif.RustSig Verif.CxxText Verif.Mangle

/-- Whether the type is `&str` written with another name. -/
def otherStr : Ty → Bool
  | .str p _ _ t => p || (match t with | .ident n => n.rust != "str" | _ => true)
  | _ => false

theorem written_of {apis : List Api} (h : ∀ t ∈ (collect apis).all.vec, otherStr t = false ∧ takesUnit t = false) :
    StrWritten apis ∧ NoUnit apis := by
  constructor
  · intro p l m t ho
    have := (h _ (((gathers apis).all _).2 ho)).1
    simp only [otherStr, Bool.or_eq_false_iff] at this
    refine ⟨this.1, ?_⟩
    cases t <;> simp at this
    next n => exact ⟨n.generics, by rw [← this.2]⟩
  · intro u as r th ho
    have := (h _ (((gathers apis).all _).2 ho)).2
    simp only [takesUnit, Bool.or_eq_false_iff, List.any_eq_false] at this
    refine ⟨fun h => absurd rfl (this.1 _ h), ?_⟩
    rintro rfl; exact absurd this.2 (by simp)

/-- The hypotheses of the theorems are met by `tour`: a method with a `&P`, a `&mut [P]`, a `fn(P, UniquePtr<T>)` and a
`Vec<P>` that is returned, and a fallible Rust function. -/
example : Accepted .build tour ∧ LexicalBridge tour ∧ LegalNames tour ∧ StrWritten tour ∧ NoUnit tour ∧
    CtxFor tour (context tour 3) ∧ ∀ f, HasFn tour f → LegalFn f :=
  ⟨tour_accepted, by decide +kernel, tour_legal, (written_of (by decide +kernel)).1, (written_of (by decide +kernel)).2,
    context_for (by decide +kernel), tour_fns⟩

/-- What a reader of the Rust text sees of the C++ function `delete` and of the Rust function `g` of `tour` has five and three
parameters. -/
example : (tour.filterMap fun
    | .cxxFunction f => some ((reads (meaningRet false) [] none (cxxDecl (context tour 3) f)).map (·.params.length))
    | .rustFunction f => some ((reads (meaningRet false) [] none (rustExport (context tour 3) f)).map (·.params.length))
    | _ => none) = [some 5, some 3] := by decide +kernel

/-- `fn f(a: fn(fn()))` -/
def takesFn : ExternFn :=
  ⟨.cxx, nm "f", ⟨false, [], none, [⟨nm "a", .fn false [.fn false [] none false] none false⟩], none, false⟩, true⟩

/-- Whether the first parameter is a function. -/
def firstIsFn (d : Decl) : Bool :=
  match d.params with
  | (_, .fn ..) :: _ => true
  | _ => false

/-- **C87** fails for function pointers that take function pointers: the bridge is accepted, the first parameter of the
trampoline is a `fn()` in Rust and a `::rust::Fn<void()>` in C++, and these are not the same data. -/
theorem nested_fn_pointer_texts :
    Accepted .build nested ∧ Accepted .macro nested ∧
    ∃ f var args line c r, Api.cxxFunction f ∈ nested ∧ var ∈ f.sig.args ∧ var.ty = .fn false (args.map (·.2)) none false ∧
      trampolineLine (context nested 3) f var.name args none false = some line ∧ declOf line = some c ∧
      reads (meaningRet false) [] none (trampolineFn (context nested 3) f args none false) = some r ∧
      ∀ link, ¬ SameFunction nested link r c := by
  refine ⟨by decide +kernel, by decide +kernel, takesFn, ⟨nm "a", .fn false [.fn false [] none false] none false⟩,
    [("arg0", .fn false [] none false)], ?_⟩
  have h1 : ((trampolineLine (context nested 3) takesFn (nm "a") [("arg0", .fn false [] none false)] none false).bind declOf).isSome =
      true := by decide +kernel
  have h2 : (reads (meaningRet false) [] none (trampolineFn (context nested 3) takesFn [("arg0", .fn false [] none false)] none
      false)).any firstIsFn = true := by decide +kernel
  obtain ⟨c, hc⟩ := Option.isSome_iff_exists.1 h1
  obtain ⟨line, hl, hc⟩ := Option.bind_eq_some_iff.1 hc
  obtain ⟨r, hr, hf⟩ := Option.any_eq_true _ _ |>.1 h2
  refine ⟨line, c, r, .head _, .head _, rfl, hl, hc, hr, fun link h => ?_⟩
  unfold firstIsFn at hf
  split at hf
  · next heq =>
    have hlen : 0 < c.params.length := by rw [← h.count, heq]; exact Nat.succ_pos _
    have := (h.params 0 _ _ (by rw [heq]; rfl) (List.getElem?_eq_getElem hlen)).1
    dsimp only at this
    generalize c.params[0].1 = q at this
    cases this with
    | address _ hd => cases hd
    | fat hd => cases hd
  · cases hf

end Verif.Prototype
