import Verif.Build.CopyModel
import Verif.Build.IncludeSpec
/-!
# The headers that are found without symbolic links
-/
namespace Verif.Build

/-- There is something at a place, or where the link there leads. -/
def Fs.Has (fs : Fs) (p : Place) : Prop := ∃ q, fs.target 40 p = some q ∧ fs.node q ≠ none

/-- The file name of a header: it ends in `.h`, `.hh` or `.hpp`. -/
def HeaderName (name : Name) : Prop :=
  ∃ stem ext, name = stem ++ '.' :: ext ∧ stem ≠ [] ∧ (ext = "h".toList ∨ ext = "hh".toList ∨ ext = "hpp".toList)

/-- A directory that is a crate of its own, or marked as a cache. -/
def Fs.Closed (fs : Fs) (p : Place) : Prop := fs.Has (p ++ ["Cargo.toml".toList]) ∨ fs.Has (p ++ ["CACHEDIR.TAG".toList])

/-- A header of a crate: a file with the name of a header, at most some directories deep, on whose path below the crate's
directory nothing is hidden, a crate, or a cache. -/
structure Fs.OwnHeader (fs : Fs) (src : Place) (depth : Nat) (rel : List Name) : Prop where
  file : ∃ i, fs.node (src ++ rel) = some (.file i)
  header : ∃ dir name, rel = dir ++ [name] ∧ HeaderName name
  visible : ∀ n ∈ rel, n.head? ≠ some '.'
  shallow : rel.length ≤ depth + 1
  own : ∀ d, d <+: rel → d ≠ [] → d ≠ rel → ¬ fs.Closed (src ++ d)

/-- A directory has finitely many entries. -/
def Fs.Finite (fs : Fs) (p : Place) : Prop := ∃ l : List Name, ∀ n, fs.node (p ++ [n]) ≠ none → n ∈ l

/-- No call fails, and directories are listed as they are. -/
structure Copying.Smooth (o : Copying) (fs : Fs) : Prop where
  ls : ∀ f p, f.node p = some .dir → f.Finite p → ∀ n, n ∈ o.ls f p ↔ f.node (p ++ [n]) ≠ none
  found : ∀ p, o.found p = true ↔ fs.Has p
  mkdir : ∀ p, o.mkdir p = true
  remove : ∀ p, o.remove p = true
  opens : ∀ p, o.opens p = true
  bytes : ∀ p, o.bytes p = none

/-- The state in which a crate's headers are copied: nothing is at the place of the copies, which lies in a directory; and if
that lies in the crate, then in one that is marked. -/
structure Ready (fs : Fs) (src dst : Place) : Prop where
  sound : Sound fs
  finite : ∀ p, fs.Finite p
  source : fs.node src = some .dir
  fresh : ∀ q, dst <+: q → fs.node q = none
  parent : fs.node dst.dropLast = some .dir
  nonempty : dst ≠ []
  guarded : ∀ a, dst = src ++ a → ∃ d, d <+: a ∧ d ≠ [] ∧ fs.Closed (src ++ d)

end Verif.Build
