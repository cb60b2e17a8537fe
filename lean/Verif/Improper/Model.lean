import Verif.Types.Model
/-!
# `syntax/improper.rs` and the fixpoint of `Types::collect`
-/
namespace Verif.Improper
open Verif.Syntax Verif.Types

/-- syntax/improper.rs:6-9 `enum ImproperCtype`. -/
inductive ImproperCtype
  | definite (improper : Bool)
  | depends (struct : Ident)
  deriving DecidableEq, Repr

/-- syntax/improper.rs:13-38 `determine_improper_ctype`. -/
def determine (ts : Types) : Ty → ImproperCtype
  | .ident t =>
    match Atom.fromStr t.rust with
    | some atom => .definite (decide (atom = .rustString))
    | none =>
      match mapGet ts.structs t.rust with
      | some s => .depends s.name.rust
      | none => .definite (decide (t.rust ∈ ts.rust) || mapHas ts.aliases t.rust)
  | .rustBox _ | .rustVec _ | .str .. | .fn .. | .void | .sliceRef .. => .definite true
  | .uniquePtr _ | .sharedPtr _ | .weakPtr _ | .cxxVector _ => .definite false
  | .ref _ _ _ t => determine ts t
  | .ptr _ t => determine ts t
  | .array t _ => determine ts t

/-- The fields of a struct: `&types.structs[ident].fields`.  (Indexing panics for a missing key; the loop
only indexes keys.) -/
def fieldTypes (ts : Types) (n : Ident) : List Ty :=
  match mapGet ts.structs n with
  | some s => s.fields.map (·.ty)
  | none => []

/-- syntax/types.rs:221-235: the loop over the fields, returning whether the struct was found improper,
and otherwise the value of `retain`. -/
def scanFields (ts : Types) (improper : List Ident) : List Ty → Bool → Bool × Bool
  | [], retain => (false, retain)
  | ty :: tys, retain =>
    match determine ts ty with
    | .depends inner => if inner ∈ improper then (true, retain) else scanFields ts improper tys true
    | .definite b => if b then (true, retain) else scanFields ts improper tys retain

/-- syntax/types.rs:219-236: one call of `retain` over the unresolved structs in some order.  The result is
the retained structs, the set of improper structs and `new_information`. -/
def pass (ts : Types) : List Ident → List Ident → List Ident × List Ident × Bool
  | [], improper => ([], improper, false)
  | n :: ns, improper =>
    match scanFields ts improper (fieldTypes ts n) false with
    | (true, _) =>
      let (kept, imp, _) := pass ts ns (setInsert improper n)
      (kept, imp, true)
    | (false, retain) =>
      let (kept, imp, new) := pass ts ns improper
      (if retain then n :: kept else kept, imp, new)

theorem pass_length (ts : Types) (ns improper : List Ident) :
    (pass ts ns improper).1.length ≤ ns.length ∧
      ((pass ts ns improper).2.2 = true → (pass ts ns improper).1.length < ns.length) := by
  induction ns generalizing improper with
  | nil => simp [pass]
  | cons n ns ih =>
    unfold pass
    split
    · have := (ih (setInsert improper n)).1
      simp only [List.length_cons]
      exact ⟨by omega, fun _ => by omega⟩
    · next retain _ =>
      have := ih improper
      cases retain <;> simp only [List.length_cons, Bool.false_eq_true, ↓reduceIte]
      · exact ⟨by omega, fun _ => by omega⟩
      · exact ⟨by omega, fun h => by have := this.2 h; omega⟩

/-- syntax/types.rs:214-237: the loop.  The set of unresolved structs is a hash set, so each pass may visit
it in any order: `order k` is the order of the `k`-th pass. -/
def loop (ts : Types) (order : Nat → List Ident → List Ident)
    (hlen : ∀ k l, (order k l).length = l.length) (k : Nat) (unresolved improper : List Ident) : List Ident :=
  match h : pass ts (order k unresolved) improper with
  | (kept, imp, true) => loop ts order hlen (k + 1) kept imp
  | (_, imp, false) => imp
termination_by unresolved.length
decreasing_by
  have := (pass_length ts (order k unresolved) improper).2 (by rw [h])
  rw [h, hlen] at this
  exact this

/-- The keys of the map of structs. -/
def structNames (ts : Types) : List Ident := ts.structs.map (·.1)

/-- syntax/types.rs:214-237: `struct_improper_ctypes`. -/
def improperStructs (ts : Types) (order : Nat → List Ident → List Ident)
    (hlen : ∀ k l, (order k l).length = l.length) : List Ident :=
  loop ts order hlen 0 (structNames ts) []

/-- syntax/types.rs:264-269 `is_considered_improper_ctype`. -/
def isImproper (ts : Types) (improper : List Ident) (ty : Ty) : Bool :=
  match determine ts ty with
  | .definite b => b
  | .depends n => decide (n ∈ improper)

end Verif.Improper
