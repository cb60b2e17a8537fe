import Verif.Build.WriteModel
/-!
# What writing a file is to achieve
-/
namespace Verif.Build

/-- No system call fails. -/
def Smooth (evs : List Ev) : Prop := ∀ e ∈ evs, e ≠ .fail

/-- Every script has either not begun or succeeded, and one has. -/
def AllOk (s : Sys Proc) : Prop :=
  (∀ pid, s.proc pid = .start ∨ s.proc pid = .done true) ∧ ∃ pid, s.proc pid = .done true

/-- The file system numbers its files in order. -/
def Numbered (fs : Fs) : Prop := ∀ p i, fs.node p = some (.file i) → i < fs.next

/-- In no schedule step does looking at the link, or removing what is there, fail. -/
def Careful (p content : Place) : Sys LinkProc → List (Nat × Ev) → Prop
  | _, [] => True
  | s, e :: sched =>
    (e.2 = .fail → s.proc e.1 = .mkdirs ∨ s.proc e.1 = .linking ∨ ∃ ok, s.proc e.1 = .done ok) ∧
    Careful p content (sysStep (linkStep p content) s e) sched

/-- Every script has either not begun or succeeded, and one has. -/
def LinksOk (s : Sys LinkProc) : Prop :=
  (∀ pid, s.proc pid = .start ∨ s.proc pid = .done true) ∧ ∃ pid, s.proc pid = .done true

end Verif.Build
