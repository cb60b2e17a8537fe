import Verif.Build.CrateModel
/-!
# Which header directories a crate has and passes on
-/
namespace Verif.Build

/-- Two texts for the same path. -/
def SamePath (a b : Text) : Prop := components a = components b

instance (a b : Text) : Decidable (SamePath a b) := inferInstanceAs (Decidable (_ = _))

/-- The path `p` lies at or below the listed prefix, name by name. -/
def UnderPrefix (p listed : Text) : Prop := ∃ rest, components p = components listed ++ rest

/-- The dependency is listed by its links name. -/
def ByLink (cfg : Exports) (d : Crate) : Prop := ∃ l ∈ cfg.links, d.links = some l

/-- The dependency is listed by a prefix of its include prefix. -/
def ByPrefix (cfg : Exports) (d : Crate) : Prop :=
  ∃ p, d.includePrefix = some p ∧ ∃ listed ∈ cfg.prefixes, UnderPrefix p listed

/-- The dependency is to be passed on to dependents. -/
def Reexported (cfg : Exports) (d : Crate) : Prop := ByLink cfg d ∨ ByPrefix cfg d

/-- Of several texts for one path only the first is kept. -/
def firsts : List Text → List Text
  | [] => []
  | p :: ps => p :: (firsts ps).filter fun q => !decide (SamePath p q)

/-- All directories of the dependencies, one after the other. -/
def depDirs (deps : List Crate) : List Text := deps.flatMap fun d => d.headerDirs.map (·.path)

end Verif.Build
