import Verif.Build.DepsModel
import Verif.Common.Runs
import Verif.Utf8.Model
/-!
# The variable `cxx_build::CFG`: `gen/build/src/cfg.rs`

`CFG` names a variant of an enum, so every mention of it makes a new value of that enum, here called a handle.
Handles do not leave the thread that made them.  Every method of a handle takes the lock on the settings at most once,
so that the methods of several threads can be taken to run one after the other.
-/
namespace Verif.Build

/-- gen/build/src/cfg.rs:353-359 `CurrentCfg` and :14-300 `Cfg`: the settings.  Texts are interned when stored, which
keeps their contents (`Verif.Build.interned_text`).  Directories are paths, given by their bytes as on Unix. -/
structure Settings where
  includePrefix : Text
  dirs : List (List Nat)
  prefixes : List Text
  links : List Text
  doxygen : Bool
  deriving DecidableEq

/-- gen/build/src/cfg.rs:362-377 `CurrentCfg::default`, for the name of the package. -/
def Settings.initial (pkg : Text) : Settings := ⟨pkg, [], [], [], false⟩

/-- A handle, by its thread and its address there; also the key of `CONST_DEREFS`. -/
structure Handle where
  thread : Nat
  addr : Nat
  deriving DecidableEq

/-- A table of handles with one entry changed. -/
def put {α : Type} (f : Handle → α) (h : Handle) (v : α) : Handle → α := fun k => if k = h then v else f k

/-- gen/build/src/cfg.rs:429-432 `enum Cfg`. -/
inductive HandleState
  | mut_ (cfg : Settings)
  | cfg
  deriving DecidableEq

structure CfgState where
  current : Settings
  handles : Handle → Option HandleState
  /-- `CONST_DEREFS` of all threads -/
  derefs : Handle → Option Settings

inductive CfgOp
  /-- mention of `CFG` -/
  | mention (h : Handle)
  /-- use through `Deref` -/
  | read (h : Handle)
  /-- use through `DerefMut` -/
  | write (h : Handle) (change : Settings → Settings)
  /-- the handle goes out of scope -/
  | drop (h : Handle)
  /-- the handle is moved to another address of the same thread -/
  | move (h : Handle) (addr : Nat)

/-- gen/build/src/cfg.rs:405-420 `Cfg::current`: a copy of all settings. -/
def snapshot (s : CfgState) : Settings :=
  ⟨s.current.includePrefix, s.current.dirs, s.current.prefixes, s.current.links, s.current.doxygen⟩

/-- gen/build/src/cfg.rs:447-459 `Deref::deref`. -/
def deref (s : CfgState) (h : Handle) : HandleState → CfgState × Settings
  | .mut_ c => (s, c)
  | .cfg => match s.derefs h with
    | some c => (s, c)
    | none => ({ s with derefs := put s.derefs h (some (snapshot s)) }, snapshot s)

/-- gen/build/src/cfg.rs:463-472 `DerefMut::deref_mut`, followed by the change. -/
def derefMut (s : CfgState) (h : Handle) (change : Settings → Settings) : HandleState → CfgState
  | .mut_ c => { s with handles := put s.handles h (some (.mut_ (change c))) }
  | .cfg => { s with
      derefs := put s.derefs h none
      handles := put s.handles h (some (.mut_ (change (snapshot s)))) }

/-- gen/build/src/vec.rs:20-25 `vec::intern` with :43-45 `Element::intern` for paths, then :15-17 `vec` with :47-49
`unintern`: what is left of paths that are stored. -/
def interned (dirs : List (List Nat)) : List (List Nat) := dirs.map Utf8.fromUtf8Lossy

/-- gen/build/src/cfg.rs:476-495 `Drop::drop`. -/
def dropHandle (s : CfgState) (h : Handle) : HandleState → CfgState
  | .mut_ c => { s with
      current := { includePrefix := c.includePrefix, dirs := interned c.dirs, prefixes := c.prefixes, links := c.links, doxygen := c.doxygen }
      handles := put s.handles h none }
  | .cfg => { s with derefs := put s.derefs h none, handles := put s.handles h none }

/-- One use of `CFG`. -/
def cfgStep (s : CfgState) : CfgOp → Except Fault (CfgState × Option Settings)
  | .mention h => match s.handles h with
    | some _ => .error .illegal
    | none => .ok ({ s with handles := put s.handles h (some .cfg) }, none)
  | .read h => match s.handles h with
    | none => .error .illegal
    | some st => .ok ((deref s h st).1, some (deref s h st).2)
  | .write h change => match s.handles h with
    | none => .error .illegal
    | some st => .ok (derefMut s h change st, none)
  | .drop h => match s.handles h with
    | none => .error .illegal
    | some st => .ok (dropHandle s h st, none)
  | .move h addr => match s.handles h, s.handles ⟨h.thread, addr⟩ with
    | some st, none => .ok ({ s with handles := put (put s.handles h none) ⟨h.thread, addr⟩ (some st) }, none)
    | _, _ => .error .illegal

def CfgState.init (settings : Settings) : CfgState := ⟨settings, fun _ => none, fun _ => none⟩

end Verif.Build
