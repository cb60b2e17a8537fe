import Verif.Build.CfgVarModel
import Verif.Utf8.Spec
/-!
# One variable

What a user may expect of `CFG`: it is one variable.  The rule says how mentions of `CFG` have to be used for that.
-/
namespace Verif.Build

/-- How a mention of `CFG` has been used so far. -/
inductive Use
  | gone | unused | reading | writing
  deriving DecidableEq

structure World where
  value : Settings
  use : Handle → Use

def World.init (settings : Settings) : World := ⟨settings, fun _ => .gone⟩

def World.set (w : World) (h : Handle) (u : Use) : Handle → Use := fun k => if k = h then u else w.use k

/-- One variable.  While something that was changed through one mention is still in scope, no other mention is used;
while something that was read through one is still in scope, nothing is changed through another one; and a mention is
not moved once it has been read through.  The directories are in UTF-8. -/
inductive CfgRule : World → CfgOp → World → Option Settings → Prop
  | mention {w : World} {h : Handle} : w.use h = .gone → CfgRule w (.mention h) ⟨w.value, w.set h .unused⟩ none
  | read {w : World} {h : Handle} : w.use h ≠ .gone → (∀ k, k ≠ h → w.use k ≠ .writing) →
      CfgRule w (.read h) ⟨w.value, w.set h (if w.use h = .writing then .writing else .reading)⟩ (some w.value)
  | write {w : World} {h : Handle} {change : Settings → Settings} : w.use h ≠ .gone →
      (∀ k, k ≠ h → w.use k ≠ .writing ∧ w.use k ≠ .reading) →
      (∀ d ∈ (change w.value).dirs, Utf8.Spec.WellFormed8 d) →
      CfgRule w (.write h change) ⟨change w.value, w.set h .writing⟩ none
  | drop {w : World} {h : Handle} : w.use h ≠ .gone → CfgRule w (.drop h) ⟨w.value, w.set h .gone⟩ none
  | move {w : World} {h : Handle} {addr : Nat} : w.use h ≠ .gone → w.use h ≠ .reading →
      w.use ⟨h.thread, addr⟩ = .gone →
      CfgRule w (.move h addr) ⟨w.value, fun k => if k = ⟨h.thread, addr⟩ then w.use h else w.set h .gone k⟩ none

end Verif.Build
