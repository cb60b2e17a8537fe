import Verif.Build.Fs
/-!
# Copies of the headers of a crate: `best_effort_copy_headers` in `gen/build/src/lib.rs`

Where no symbolic link to the crate can be made, its headers are copied.
-/
namespace Verif.Build

/-- What the calls of `best_effort_copy_headers` into the operating system give. -/
structure Copying where
  /-- the entries of a directory that `read_dir` gives before it ends or fails, in the state in which it is opened -/
  ls : Fs → Place → List Name
  /-- `Path::exists`, before anything is copied: no file with one of the names that are asked for is copied -/
  found : Place → Bool
  /-- whether `create_dir_all` is not stopped by an error of the system -/
  mkdir : Place → Bool
  /-- the same for `remove_file` -/
  remove : Place → Bool
  /-- whether `fs::copy` can open its files -/
  opens : Place → Bool
  /-- how many bytes `fs::copy` copies until an error; `none` if there is no error -/
  bytes : Place → Option Nat

/-- `Path::extension` of a file name: what follows the last dot, unless that is the first character. -/
def extension (name : Name) : Option Name :=
  match name.reverse.dropWhile (· ≠ '.') with
  | _ :: _ :: _ => some (name.reverse.takeWhile (· ≠ '.')).reverse
  | _ => none

/-- gen/build/src/lib.rs:450-453. -/
def isHeader (name : Name) : Bool := extension name ∈ [some "h".toList, some "hh".toList, some "hpp".toList]

/-- `std::fs::copy` of a file with a number. -/
def Copying.copyFile (o : Copying) (fs : Fs) (i : Nat) (dst : Place) : Fs :=
  if o.opens dst then
    match fs.openTrunc dst with
    | none => fs
    | some (fs', j) => fs'.writeAt j 0 ((fs'.data i).take ((o.bytes dst).getD (fs'.data i).length))
  else fs

/-- gen/build/src/lib.rs:454-456: `create_dir_all` for the directory of the copies; `none` if it fails. -/
def Copying.createDir (o : Copying) (fs : Fs) (dst : Place) (name : Name) : Option Fs :=
  if o.mkdir dst && ((fs.mkdirs (dst ++ [name])).node dst == some .dir) then some (fs.mkdirs (dst ++ [name])) else none

/-- gen/build/src/lib.rs:458-460: an old copy is removed and a new one made. -/
def Copying.replace (o : Copying) (fs : Fs) (i : Nat) (dst : Place) : Fs :=
  o.copyFile (if o.remove dst then fs.unlink dst else fs) i dst

/-- gen/build/src/lib.rs:436-466: the loop over the entries of a directory; `sub` copies from a directory in it, if the
depth allows. -/
def Copying.entries (o : Copying) (sub : Option (Fs → Place → Place → Fs)) (src dst : Place) : Bool → Fs → List Name → Fs
  | _, fs, [] => fs
  | created, fs, name :: names =>
    if name.head? = some '.' then o.entries sub src dst created fs names
    else match fs.node (src ++ [name]), sub with
      | some .dir, some sub =>
        if o.found (src ++ [name] ++ ["Cargo.toml".toList]) || o.found (src ++ [name] ++ ["CACHEDIR.TAG".toList]) then
          o.entries (some sub) src dst created fs names
        else o.entries (some sub) src dst created (sub fs (src ++ [name]) (dst ++ [name])) names
      | some (.file i), sub =>
        if isHeader name then
          if created then o.entries sub src dst true (o.replace fs i (dst ++ [name])) names
          else match o.createDir fs dst name with
            | none => fs
            | some fs => o.entries sub src dst true (o.replace fs i (dst ++ [name])) names
        else o.entries sub src dst created fs names
      | _, sub => o.entries sub src dst created fs names

/-- gen/build/src/lib.rs:427-467 `best_effort_copy_headers`. -/
def Copying.copyHeaders (o : Copying) : Nat → Fs → Place → Place → Fs
  | 0, fs, src, dst => o.entries none src dst false fs (o.ls fs src)
  | depth + 1, fs, src, dst => o.entries (some (o.copyHeaders depth)) src dst false fs (o.ls fs src)

/-- gen/build/src/lib.rs:374: how deep the copy goes. -/
def maxDepth : Nat := 6

end Verif.Build
