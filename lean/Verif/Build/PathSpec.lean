import Verif.Build.PathModel
/-!
# What a path denotes
-/
namespace Verif.Build

/-- The place that a path denotes, followed from the directory `dir` (the names from the root down) where nothing is a
symbolic link: `..` leads to the parent directory, and from the root to the root. -/
def follow (dir : List Name) : List Comp → List Name
  | [] => dir
  | .volume _ :: cs | .cur :: cs => follow dir cs
  | .root :: cs => follow [] cs
  | .parent :: cs => follow dir.dropLast cs
  | .normal n :: cs => follow (dir ++ [n]) cs

/-- A name that the file system allows. -/
def IsName (n : Name) : Prop := n ≠ [] ∧ '/' ∉ n ∧ n ≠ ['.'] ∧ n ≠ ['.', '.']

/-- The path leads nowhere but down: neither a root, nor a volume, nor `..`. -/
def Downward (path : List Comp) : Prop := ∀ c ∈ path, ∃ n, c = .normal n

/-- `path` is at or below `dir`. -/
def Below (dir path : List Name) : Prop := ∃ rest, path = dir ++ rest

/-- A relative path that on no stretch of its way leaves the directory where it starts: going along it from a directory
`dir`, one is never above `dir`. -/
def Inside (path : List Comp) : Prop :=
  ∀ dir way rest, path = way ++ rest → Below dir (follow dir way)

/-- A path that neither starts with a root nor names a volume. -/
def Plainly (p : List Comp) : Prop := ∀ c, p.head? = some c → c ≠ .root ∧ ∀ v, c ≠ .volume v

/-- The components of an absolute path, on Unix or on a volume of Windows, that has no `..`. -/
def absolute (v : Option Name) (ns : List Name) : List Comp :=
  (match v with
    | none => []
    | some v => [.volume v]) ++ .root :: ns.map .normal

end Verif.Build
