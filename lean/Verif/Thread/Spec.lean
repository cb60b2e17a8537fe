import Verif.Thread.Model
/-!
# Vocabulary for threads
-/
namespace Verif.Thread

/-- In state `s` the next step of thread `k` can be one that does `a` to the object `o`. -/
def Can (s : State) (k : ThreadId) (a : Access) (o : Nat) : Prop :=
  ∃ op s' es, step s k op = some (s', es) ∧ ⟨k, a, o⟩ ∈ es

/-- A value of the type has, or has behind pointers that no other value has, an object of a type with the traits `b`. -/
inductive Has : RTy → Traits → Prop
  | base (b : Traits) : Has (.base b) b
  | fst {a c : RTy} {b : Traits} (h : Has a b) : Has (.pair a c) b
  | snd {a c : RTy} {b : Traits} (h : Has c b) : Has (.pair a c) b
  | vector {t : RTy} {b : Traits} (h : Has t b) : Has (.vector t) b
  | uniq {t : RTy} {b : Traits} (h : Has t b) : Has (.uniq t) b

/-- A value of the type leads to an object that other values lead to as well, of a type with the traits `b`. -/
inductive Shares : RTy → Traits → Prop
  | shared {t : RTy} {b : Traits} (h : Has t b) : Shares (.shared t) b
  | sharedDeep {t : RTy} {b : Traits} (h : Shares t b) : Shares (.shared t) b
  | weak {t : RTy} {b : Traits} (h : Has t b) : Shares (.weak t) b
  | weakDeep {t : RTy} {b : Traits} (h : Shares t b) : Shares (.weak t) b
  | fst {a c : RTy} {b : Traits} (h : Shares a b) : Shares (.pair a c) b
  | snd {a c : RTy} {b : Traits} (h : Shares c b) : Shares (.pair a c) b
  | vector {t : RTy} {b : Traits} (h : Shares t b) : Shares (.vector t) b
  | uniq {t : RTy} {b : Traits} (h : Shares t b) : Shares (.uniq t) b

end Verif.Thread
