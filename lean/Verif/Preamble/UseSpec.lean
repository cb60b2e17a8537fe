import Verif.Preamble.UseModel
import Verif.Preamble.BuiltinSpec
/-!
# Which helpers and headers a run of format strings needs

Read off the text, as in `BuiltinSpec`.
-/
namespace Verif.Preamble

/-- The tokens begin with these. -/
def begins : List Tok → List Tok → Bool
  | [], _ => true
  | _ :: _, [] => false
  | p :: ps, t :: ts => Nat.beq p t && begins ps ts

/-- The tokens contain these in a row. -/
def contains (pat : List Tok) : List Tok → Bool
  | [] => begins pat []
  | t :: ts => begins pat (t :: ts) || contains pat ts

/-- `rust::repr::Fat` and the like. -/
def Helper.spelled (h : Helper) : List Tok := h.name.1.flatMap (fun s => [s, w!"::"]) ++ [h.name.2]

/-- The helper is a member of a class template: `new_unchecked`, `slice`, `repr`, `error`. -/
def Helper.member : Helper → Bool
  | .newUnchecked | .sliceFrom | .reprOf | .errorFrom => true
  | _ => false

/-- The text refers to the helper: by its full name, in namespace `rust` by its name alone, and to a member by
`>::name`. -/
def Refers (f : Frag) (h : Helper) : Prop :=
  if h.member then contains [w!">", w!"::", h.name.2] (tokensOf f.lines) = true
  else contains h.spelled (tokensOf f.lines) = true ∨
    f.scope = .rust ∧ contains [h.name.2] (tokensOf f.lines) = true

/-- The text takes the name from the standard library. -/
def Takes (f : Frag) (t : Tok) : Prop :=
  t ∈ stdNames (tokensOf f.lines) ∨
    f.scope = .std ∧ t ∈ tokensOf f.lines ∧ providers t ≠ []

/-- The text constructs an object in a given place: `new (place) T(..)`. -/
def Constructs (f : Frag) : Prop := contains [w!"new", w!"("] (tokensOf f.lines) = true

end Verif.Preamble
