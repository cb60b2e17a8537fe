import Verif.Build.TargetModel
/-!
# Which directory is the target directory
-/
namespace Verif.Build

/-- `d` is the path `p`, or one above it: some names at the end of `p` are left out. -/
def Up (p d : List Comp) : Prop :=
  ∃ rest, p = d ++ rest ∧ ∀ c ∈ rest, c ≠ .root ∧ ∀ v, c ≠ .volume v

/-- What a target directory is known by: one of the two files that Cargo writes, or its name next to a manifest. -/
def IsTarget (found : List Comp → Bool) (d : List Comp) : Prop :=
  found (d ++ [.normal ".rustc_info.json".toList]) ∨ found (d ++ [.normal "CACHEDIR.TAG".toList]) ∨
    ∃ p, d = p ++ [.normal "target".toList] ∧ found (p ++ [.normal "Cargo.toml".toList])

/-- The nearest target directory above a path. -/
def Nearest (found : List Comp → Bool) (p d : List Comp) : Prop :=
  Up p d ∧ IsTarget found d ∧ ∀ d', Up p d' → IsTarget found d' → Up d d'

/-- The path of a place. -/
def Place.path (p : Place) : List Comp := .root :: p.map .normal

/-- The names of the files that a target directory is known by. -/
def tagNames : List Name := [".rustc_info.json".toList, "CACHEDIR.TAG".toList, "Cargo.toml".toList]

/-- A directory given without links, in which the files that are looked for are not links. -/
def Straight (fs : Fs) (p : Place) : Prop :=
  ∀ q, q <+: p → fs.node q = some .dir ∧ ∀ m ∈ tagNames, ∀ t, fs.node (q ++ [m]) ≠ some (.link t)

end Verif.Build
