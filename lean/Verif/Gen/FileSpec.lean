import Verif.Gen.FileModel
/-!
# Where the bridges of a file are
-/
namespace Verif.Gen

/-- One item on its own. -/
inductive Entry
  | item (attrs : List Attr)
  | modFile (attrs : List Attr) (name : String)
  | mod (attrs : List Attr) (name : String) (inner : List Attr) (body : Src)

def Entry.attrs : Entry → List Attr
  | .item a | .modFile a _ | .mod a _ _ _ => a

/-- The items of a file or module as a list. -/
def Src.entries : Src → List Entry
  | .nil => []
  | .item a rest => .item a :: rest.entries
  | .modFile a n rest => .modFile a n :: rest.entries
  | .mod a n i b rest => .mod a n i b :: rest.entries

/-- The item has the attribute `#[cxx::bridge]`. -/
def IsBridge (e : Entry) : Prop := ∃ a ∈ e.attrs, a.path = ["cxx", "bridge"]

/-- The first attribute `#[cxx::bridge]` of an item. -/
def FirstAttr (attrs : List Attr) (a : Attr) : Prop :=
  ∃ pre post, attrs = pre ++ a :: post ∧ a.path = ["cxx", "bridge"] ∧ ∀ b ∈ pre, b.path ≠ ["cxx", "bridge"]

/-- Each item of a file, however deep in inline modules that are not bridges themselves, with its position: its number
in the innermost module, after the numbers of the modules around it.  Earlier items have smaller positions in
lexicographic order. -/
inductive At : Src → List Nat → Entry → Prop
  | here {s i e} : s.entries[i]? = some e → At s [i] e
  | within {s i a n inner body pos e} : s.entries[i]? = some (.mod a n inner body) → ¬ IsBridge (.mod a n inner body) →
      At body pos e → At s (i :: pos) e

/-- The bridge is as it should be, and `m` is what is made of it. -/
inductive Good : Entry → Module → Prop
  | root {attrs a name inner body} : FirstAttr attrs a → a.args = none →
      Good (.mod attrs name inner body) ⟨[], attrs ++ inner, name, body⟩
  | args {attrs a name inner body ns} : FirstAttr attrs a → a.args = some (.ok ns) →
      Good (.mod attrs name inner body) ⟨ns, attrs ++ inner, name, body⟩

/-- The bridge is not as it should be. -/
inductive Bad : Entry → FileError → Prop
  | args {e a msg} : FirstAttr e.attrs a → a.args = some (.error msg) → Bad e (.args msg)
  | notModule {attrs a} : FirstAttr attrs a → (∀ msg, a.args ≠ some (.error msg)) → Bad (.item attrs) .notModule
  | noContents {attrs name a} : FirstAttr attrs a → (∀ msg, a.args ≠ some (.error msg)) →
      Bad (.modFile attrs name) .noContents

end Verif.Gen
