import Verif.Check.Spec
/-!
# Several bridges in one file

The macro expands each `mod` by itself.  The C++ generator reads the items of all of them as if they were in one.
-/
namespace Verif.Several
open Verif.Syntax Verif.Types

/-- gen/src/mod.rs:148-172: the items that the C++ generator works on, given those of each bridge of the file in order.  The
macro works on the items of one bridge (macro/src/expand.rs:34-41).  Left out: `cfg` (`Verif/Stripped`). -/
def file (bridges : List (List Api)) : List Api := bridges.flatten

/-- No name is given to a type in two of the bridges. -/
def Apart (bridges : List (List Api)) : Prop :=
  bridges.Pairwise fun b c => ∀ n, definitions b n = [] ∨ definitions c n = []

/-- What one bridge calls a struct or an enum, and another one a type of C++. -/
def Halved (bridges : List (List Api)) (n : Ident) : Prop :=
  definitions (file bridges) n ∈
    [[Kind.shared, .cxx], [.cxx, .shared], [.alias, .shared], [.cxx, .headerEnum], [.alias, .headerEnum]]

end Verif.Several
