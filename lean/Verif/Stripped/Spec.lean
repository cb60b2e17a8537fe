import Verif.Stripped.Model
import Verif.Parse.AttrSpec
import Verif.Types.Spec
/-!
# What rustc keeps, and when the rest makes sense
-/
namespace Verif.Stripped
open Verif.Syntax Verif.Types Verif.Parse Verif.Cfg

/-- A configuration: the predicates that hold. -/
abbrev Config := String → Option String → Bool

/-- rustc keeps what has these attributes in front: all the conditions among them hold. -/
def Kept (r : Readers) (f : Config) (attrs : List Attr) : Prop :=
  ∀ a ∈ attrs, ∀ e, IsCfg r a e → holds f e = true

/-- The piece is in the module after rustc has removed what is switched off. -/
def Left (r : Readers) (f : Config) (outs : List Out) (p : Piece) : Prop := p ∈ pieces outs ∧ Kept r f p.attrs

/-- The item is switched on. -/
def On (f : Config) (o : Out) : Prop := holds f o.extra.cfg = true

/-- The item with the fields or variants that are switched on. -/
def onItem (f : Config) (o : Out) : Api :=
  match o.api with
  | .struct s => .struct { s with fields := ((o.members.zip s.fields).filter (fun m => holds f m.1.1.cfg)).map (·.2) }
  | .enum e => .enum { e with variants := ((o.members.zip e.variants).filter (fun m => holds f m.1.1.cfg)).map (·.2) }
  | a => a

/-- What is switched on of a bridge. -/
def switchedOn (f : Config) (outs : List Out) : List Api :=
  (outs.filter (fun o => holds f o.extra.cfg)).map (onItem f)

/-- Each type that is left in the module is defined in what is left, and what is imported is there: the module around the
bridge has the opaque Rust types that are switched on, and no others that the bridge names. -/
structure Closed (r : Readers) (f : Config) (outs : List Out) : Prop where
  defined : ∀ p, Left r f outs p → ∀ ty ∈ p.mentions, ∀ t, Within (.ident t) ty → Atom.fromStr t.rust = none →
    ∃ q, Left r f outs q ∧ (q.what = .defines t.rust ∨ q.what = .imports t.rust)
  imported : ∀ p n, Left r f outs p → p.what = .imports n →
    ∃ o ∈ outs, On f o ∧ defines o.api = some (n, .rust)

/-- All types of the bridge are switched on, and all fields of its structs.  Functions, includes, impls and variants of
enums may be switched off. -/
def TypesOn (f : Config) (outs : List Out) : Prop :=
  ∀ o ∈ outs, (∃ d, defines o.api = some d) → On f o ∧
    ∀ s, o.api = .struct s → ∀ m ∈ o.members, holds f m.1.cfg = true

end Verif.Stripped
