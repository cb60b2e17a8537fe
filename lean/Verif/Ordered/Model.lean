/-!
# `syntax/set.rs` and `syntax/map.rs`: insertion-ordered set and map

`std::collections::HashSet`/`HashMap` are modelled by lists searched with the element type's `==`
(`BEq`), which is what they compute when equal keys hash equally.
-/
namespace Verif.Ordered

/-- syntax/set.rs:11-14 `struct OrderedSet`. -/
structure OSet (α : Type) where
  set : List α
  vec : List α

/-- syntax/set.rs:20-25 `OrderedSet::new`. -/
def OSet.new {α : Type} : OSet α := ⟨[], []⟩

/-- syntax/set.rs:27-33 `OrderedSet::insert`: `set.insert(value)`, then push if new. -/
def OSet.insert {α : Type} [BEq α] (s : OSet α) (x : α) : OSet α × Bool :=
  let isNew := !s.set.contains x
  let set := if isNew then x :: s.set else s.set
  (⟨set, if isNew then s.vec ++ [x] else s.vec⟩, isNew)

/-- syntax/set.rs:41-43 `OrderedSet::iter`. -/
def OSet.iter {α : Type} (s : OSet α) : List α := s.vec

/-- syntax/set.rs:37-39 `OrderedSet::is_empty`. -/
def OSet.isEmpty {α : Type} (s : OSet α) : Bool := s.vec.isEmpty

/-- A history of insertions: the final set and the returned flags. -/
def OSet.insertAll {α : Type} [BEq α] : OSet α → List α → OSet α × List Bool
  | s, [] => (s, [])
  | s, x :: xs =>
    let r := s.insert x
    let r' := r.1.insertAll xs
    (r'.1, r.2 :: r'.2)

/-- syntax/map.rs:16-19 `struct OrderedMap`: key → index, and the entries. -/
structure OMap (κ ν : Type) where
  map : List (κ × Nat)
  vec : List (κ × ν)

/-- syntax/map.rs:22-27 `OrderedMap::new`. -/
def OMap.new {κ ν : Type} : OMap κ ν := ⟨[], []⟩

/-- syntax/map.rs:43-55 `OrderedMap::insert`; `none` stands for the out-of-bounds panic of
`self.vec[*entry.get()]`.  Returns the new map and the replaced value. -/
def OMap.insert {κ ν : Type} [BEq κ] (m : OMap κ ν) (k : κ) (v : ν) :
    Option (OMap κ ν × Option ν) :=
  match m.map.lookup k with
  | some i =>
    match m.vec[i]? with
    | some e => some (⟨m.map, m.vec.set i (e.1, v)⟩, some e.2)
    | none => none
  | none => some (⟨(k, m.vec.length) :: m.map, m.vec ++ [(k, v)]⟩, none)

/-- syntax/map.rs:57-63 `OrderedMap::contains_key`. -/
def OMap.containsKey {κ ν : Type} [BEq κ] (m : OMap κ ν) (k : κ) : Bool :=
  (m.map.lookup k).isSome

/-- syntax/map.rs:34-36 `OrderedMap::keys`. -/
def OMap.keys {κ ν : Type} (m : OMap κ ν) : List κ := m.vec.map (·.1)

/-- syntax/map.rs:29-31 `OrderedMap::iter`. -/
def OMap.iter {κ ν : Type} (m : OMap κ ν) : List (κ × ν) := m.vec

/-- A history of insertions: final map and returned values, `none` if one panicked. -/
def OMap.insertAll {κ ν : Type} [BEq κ] : OMap κ ν → List (κ × ν) → Option (OMap κ ν × List (Option ν))
  | m, [] => some (m, [])
  | m, kv :: kvs =>
    match m.insert kv.1 kv.2 with
    | none => none
    | some (m', o) =>
      match m'.insertAll kvs with
      | none => none
      | some (m'', os) => some (m'', o :: os)

end Verif.Ordered
