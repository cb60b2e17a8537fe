import Verif.Assert.Model
import Verif.Ordered.Model
import Verif.CxxText.Model
/-!
# The explanation why a type has to be trivial

`as_what` in syntax/trivial.rs and the two messages that contain it.  Texts are lists of characters.
-/
namespace Verif.Reasons
open Verif.Syntax Verif.Types Verif.Check Verif.Ordered

/-- syntax/trivial.rs:135-142: what the first loop collects. -/
structure Found where
  fieldOf : OSet Ident
  argumentOf : OSet Ident
  returnOf : OSet Ident
  boxTarget : Bool
  vecElement : Bool
  sliceSharedElement : Bool
  sliceMutElement : Bool
  unpinnedMut : OSet Ident

/-- syntax/trivial.rs:135-142: at the start. -/
def Found.new : Found := ⟨.new, .new, .new, false, false, false, false, .new⟩

/-- syntax/trivial.rs:145-167: one round of the loop. -/
def Found.add (s : Found) : Reason → Found
  | .structField x => { s with fieldOf := (s.fieldOf.insert x).1 }
  | .functionArgument x => { s with argumentOf := (s.argumentOf.insert x).1 }
  | .functionReturn x => { s with returnOf := (s.returnOf.insert x).1 }
  | .boxTarget => { s with boxTarget := true }
  | .vecElement => { s with vecElement := true }
  | .sliceElement mutable =>
    if mutable then { s with sliceMutElement := true } else { s with sliceSharedElement := true }
  | .unpinnedMut x => { s with unpinnedMut := (s.unpinnedMut.insert x).1 }

/-- syntax/trivial.rs:144-168: the loop. -/
def found (reasons : List Reason) : Found := reasons.foldl Found.add .new

/-- syntax/trivial.rs:238-256 `enum Clause`. -/
inductive Clause
  | set (article desc : String) (set : OSet Ident)
  | ty1 (article desc : String) (param : Ident)
  | slice (article desc : String) (shared mutable : Bool) (param : Ident)

/-- syntax/trivial.rs:259-265 `Clause::article`. -/
def Clause.article : Clause → String
  | .set a .. | .ty1 a .. | .slice a .. => a

/-- syntax/trivial.rs:275-280: the names of a set, from the `i`-th on. -/
def names : Nat → List Ident → List Char
  | _, [] => []
  | i, x :: xs => (if i > 0 then ", ".toList else []) ++ "`".toList ++ x.toList ++ "`".toList ++ names (i + 1) xs

/-- syntax/trivial.rs:267-308 `Clause::fmt`. -/
def Clause.fmt : Clause → List Char
  | .set _ desc xs => desc.toList ++ " ".toList ++ names 0 (xs.iter.take 3)
  | .ty1 _ desc param => desc.toList ++ "<".toList ++ param.toList ++ ">".toList
  | .slice _ desc shared mutable param =>
    desc.toList ++ " ".toList ++
      (if shared then "&[".toList ++ param.toList ++ "]".toList else []) ++
      (if shared && mutable then " and ".toList else []) ++
      (if mutable then "&mut [".toList ++ param.toList ++ "]".toList else [])

/-- syntax/trivial.rs:170-221: the clauses. -/
def clauses (name : Ident) (s : Found) : List Clause :=
  (if !s.fieldOf.isEmpty then [.set "a" "field of" s.fieldOf] else []) ++
  (if !s.argumentOf.isEmpty then [.set "an" "argument of" s.argumentOf] else []) ++
  (if !s.returnOf.isEmpty then [.set "a" "return value of" s.returnOf] else []) ++
  (if s.boxTarget then [.ty1 "type" "Box" name] else []) ++
  (if s.vecElement then [.ty1 "a" "vector element in Vec" name] else []) ++
  (if s.sliceSharedElement || s.sliceMutElement then
    [.slice "a" "slice element in" s.sliceSharedElement s.sliceMutElement name] else []) ++
  (if !s.unpinnedMut.isEmpty then
    [.set "a" "non-pinned mutable reference in signature of" s.unpinnedMut] else [])

/-- syntax/trivial.rs:223-232: the loop that writes them, from the `i`-th on; `n` is `clauses.len()`. -/
def write (n : Nat) : Nat → List Clause → List Char
  | _, [] => []
  | i, c :: cs =>
    (if i = 0 then c.article.toList ++ " ".toList
     else if i + 1 < n then ", ".toList
     else " or ".toList) ++ c.fmt ++ write n (i + 1) cs

/-- syntax/trivial.rs:127-312 `as_what`; of `name` only the Rust name is used (287, 297, 303). -/
def asWhat (name : Ident) (reasons : List Reason) : List Char :=
  let cs := clauses name (found reasons)
  write cs.length 0 cs

/-- syntax/check.rs:401-407: the error at a declaration `type T;`, if there is one. -/
def checkMessage (cx : Cx) (t : ExternType) : Option (List Char) :=
  if cx.requiresTrivial t.name.rust then
    some ("needs a cxx::ExternType impl in order to be used as ".toList ++
      asWhat t.name.rust (Assert.reasonsFor cx t.name.rust))
  else none

/-- `trim_start_matches("::")`. -/
def trimColons : List Char → List Char
  | ':' :: ':' :: cs => trimColons cs
  | cs => cs

/-- gen/src/write.rs:529-534: the message in the static assertion, a string literal. -/
def assertMessage (a : TypeAlias) (reasons : List Reason) : List Char :=
  "\"type ".toList ++ trimColons (CxxText.qualified a.name) ++
    " should be trivially move constructible and trivially destructible in C++ to be used as ".toList ++
    asWhat a.name.rust reasons ++ " in Rust\"".toList

end Verif.Reasons
