import Verif.CxxText.Claims
/-!
# The lines of a bridge, and accepted bridges whose text C++ does not take
-/
namespace Verif.CxxText
open Verif.Syntax Verif.Types Verif.Check Verif.Abi

/-- A bridge with names of every kind: a namespace, a renamed class, a method that is a keyword of C++ in Rust, references,
slices, arrays and a function pointer. -/
def tour : List Api :=
  [.cxxType ⟨.cxx, [], ⟨["a", "b"], "Class", "T"⟩, [], [], true⟩,
   .struct ⟨[], ⟨["a"], "P", "P"⟩, [], [⟨nm "x", .array (.named "u8") 4⟩, ⟨nm "y", .ptr false (.named "P")⟩]⟩,
   .cxxFunction ⟨.cxx, ⟨["a"], "remove", "delete"⟩, ⟨false, [], some ⟨false, none, false, ⟨"T", []⟩, false⟩,
     [⟨nm "p", .ref false none false (.named "P")⟩, ⟨nm "q", .sliceRef none true (.named "P")⟩,
      ⟨nm "r", .fn false [.named "P", .uniquePtr (.named "T")] none false⟩], some (.rustVec (.named "P")), false⟩, true⟩,
   .rustFunction ⟨.rust, ⟨[], "g", "g"⟩, ⟨false, [], none,
     [⟨nm "s", .str false none false (.named "str")⟩, ⟨nm "t", .ref true none true (.named "T")⟩], some (.named "isize"), true⟩, true⟩]

/-- The lines that the generator writes for the functions of a bridge. -/
def linesOf (apis : List Api) : List (Option String) :=
  apis.flatMap fun
    | .cxxFunction f => [(cxxLine (context apis 3) f).map String.ofList, (pointerLineOf (context apis 3) f).map String.ofList]
    | .rustFunction f => [(rustLine (context apis 3) f).map String.ofList, (shimLine (collect apis) false f).map String.ofList]
    | _ => []

example : linesOf tour =
    [some ("void a$cxxbridge1$Class$delete(::a::b::Class const &self, ::a::P const &p, ::rust::Slice<::a::P > q, " ++
        "::rust::Fn<void(::a::P, ::std::unique_ptr<::a::b::Class>)> r, ::rust::Vec<::a::P> *return$) noexcept"),
     some ("::rust::Vec<::a::P> (::a::b::Class::*delete$)(::a::P const &, ::rust::Slice<::a::P >, " ++
        "::rust::Fn<void(::a::P, ::std::unique_ptr<::a::b::Class>)>) const = &::a::b::Class::remove;"),
     some "::rust::repr::PtrLen cxxbridge1$g(::rust::Str s, ::a::b::Class &t, ::rust::isize *return$) noexcept",
     some "::rust::isize g(::rust::Str s, ::a::b::Class &t)"] := by decide +kernel

theorem tour_accepted : Accepted .build tour := by decide +kernel

/-- It is enough to look at the items. -/
theorem legal_of {apis : List Api} (h : ∀ a ∈ apis, ((Types.resolves a).all fun x => (pathOf x.1).all isName) = true) :
    LegalNames apis := by
  rintro n p ⟨_, a, ha, g, hr⟩
  have := h a ha
  rw [hr] at this
  exact this

theorem tour_legal : LegalNames tour := legal_of (by decide +kernel)

theorem tour_fns : ∀ f, HasFn tour f → LegalFn f := by
  have key : ∀ a ∈ tour, ∀ f, (a = .cxxFunction f ∨ a = .rustFunction f) →
      ((pathOf f.name).all isName && isWord f.name.rust.toList && f.sig.args.all fun a => isName a.name.cxx.toList) = true := by
    intro a ha
    simp only [tour, List.mem_cons, List.not_mem_nil, or_false] at ha
    rcases ha with rfl | rfl | rfl | rfl <;> rintro f (h | h) <;> cases h <;> decide +kernel
  intro f hf
  have : ((pathOf f.name).all isName && isWord f.name.rust.toList && f.sig.args.all fun a => isName a.name.cxx.toList) = true := by
    rcases hf with h | h
    · exact key _ h f (.inl rfl)
    · exact key _ h f (.inr rfl)
  simp only [Bool.and_eq_true, List.all_eq_true] at this
  exact ⟨List.all_eq_true.2 this.1.1, this.1.2, this.2⟩

/-- The hypotheses of the theorems are met by `tour`, whose functions all have their lines. -/
example : Accepted .build tour ∧ LegalNames tour ∧ (context tour 3).types = collect tour ∧
    (∀ f, HasFn tour f → LegalFn f) ∧ (linesOf tour).all Option.isSome = true :=
  ⟨tour_accepted, tour_legal, rfl, tour_fns, by decide +kernel⟩

/-! ### What is not read, or not well-formed -/

/-- The types of an item that the generator writes. -/
def typeLines (apis : List Api) (ty : Ty) : Option (List Char) := (writeType (collect apis) ty).map text

/-- `fn f(a: &[&u8])`: accepted. -/
def sliced : List Api := [cfn [.sliceRef none false (.ref false none false (.named "u8"))] none]

/-- **C83** fails: an accepted bridge whose slice of references is written as `const` applied to a reference, and as an argument of
a template that is a reference. -/
theorem slice_of_references : Accepted .build sliced ∧ Accepted .macro sliced ∧ ∃ ty c, Occurs sliced ty ∧
    writeType (collect sliced) ty = some c ∧ String.ofList (text c) = "::rust::Slice<::std::uint8_t const &const>" ∧
    (denote c).wf = false := by
  refine ⟨by decide +kernel, by decide +kernel, .sliceRef none false (.ref false none false (.named "u8")), _, ?_, rfl,
    by decide +kernel, by decide +kernel⟩
  exact arg_occurs (f := ⟨.cxx, nm "f", ⟨false, [], none, [⟨nm "a", .sliceRef none false (.ref false none false (.named "u8"))⟩], none, false⟩, true⟩)
    (.inl (.head _)) (.head _)

/-- `fn f(a: [&u8; 2])`: accepted. -/
def arrayed : List Api := [cfn [.array (.ref false none false (.named "u8")) 2] none]

/-- **C83** fails: an accepted bridge with an array of references. -/
theorem array_of_references : Accepted .build arrayed ∧ Accepted .macro arrayed ∧ ∃ ty c, Occurs arrayed ty ∧
    writeType (collect arrayed) ty = some c ∧ String.ofList (text c) = "::std::array<::std::uint8_t const &, 2>" ∧
    (denote c).wf = false := by
  refine ⟨by decide +kernel, by decide +kernel, .array (.ref false none false (.named "u8")) 2, _, ?_, rfl,
    by decide +kernel, by decide +kernel⟩
  exact arg_occurs (f := ⟨.cxx, nm "f", ⟨false, [], none, [⟨nm "a", .array (.ref false none false (.named "u8")) 2⟩], none, false⟩, true⟩)
    (.inl (.head _)) (.head _)

/-- `struct class { x: u8 }` and `fn f(a: class)`: accepted, since no keyword of C++ is reserved. -/
def keyworded : List Api := [.struct ⟨[], nm "class", [], [⟨nm "x", .named "u8"⟩]⟩, cfn [.named "class"] none]

/-- **C83** fails: an accepted bridge with a name that is a keyword of C++, whose lines C++ does not read. -/
theorem keyword_as_name : Accepted .build keyworded ∧ Accepted .macro keyworded ∧
    ∃ f s, Api.cxxFunction f ∈ keyworded ∧ pointerLineOf (context keyworded 3) f = some s ∧
      String.ofList s = "void (*f$)(::class) = ::f;" ∧ pointerOf s = none ∧ typeOf "::class".toList = none := by
  refine ⟨by decide +kernel, by decide +kernel, _, _, .tail _ (.head _), rfl, by decide +kernel, ?_, ?_⟩
  · have : (pointerOf "void (*f$)(::class) = ::f;".toList).isNone = true := by decide +kernel
    exact Option.isNone_iff_eq_none.1 this
  · have : (typeOf "::class".toList).isNone = true := by decide +kernel
    exact Option.isNone_iff_eq_none.1 this

/-- The hypothesis of `types_well_formed_partial` is met by the slice of `tour`. -/
example : NoRefElements (.sliceRef none true (.named "P")) := by
  intro p l m t
  constructor
  · rintro ⟨l', m', h⟩
    cases h with
    | part hp h => cases hp; cases h with | part hp _ => cases hp
  · rintro ⟨n, h⟩
    cases h with
    | part hp h => cases hp; cases h with | part hp _ => cases hp

end Verif.CxxText
