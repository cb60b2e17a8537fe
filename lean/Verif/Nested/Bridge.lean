import Verif.Nested.Props
/-!
# The forward declarations of a bridge (C29)

`Verif/Nested/Props.lean` is about items with any function for their namespace; here it is that of the code.
-/
namespace Verif.Nested
open Verif.Syntax Verif.Types Verif.Out

/-! ### Model -/

/-- gen/src/write.rs:60-64 `needs_forward_declaration`. -/
def needsForward (ts : Types) : Api → Bool
  | .struct _ | .cxxType _ | .rustType _ => true
  | .enum e => !ts.cxx.contains e.name.rust
  | _ => false

/-- gen/src/names.rs:4-13 `Pair::to_fully_qualified`. -/
def fullyQualified (p : Pair) : String := p.ns.foldr (fun s rest => "::" ++ s ++ rest) ("::" ++ p.cxx)

/-- gen/src/write.rs:77-83, 361-378: the match in `write`, `write_struct_decl`, `write_enum_decl` and `write_struct_using`.
`atom` is `write_atom`.  For other items this is `unreachable!()`; here it is the empty text. -/
def forwardText (atom : Atom → String) : Api → String
  | .struct s => "struct " ++ s.name.cxx ++ ";\n"
  | .enum e => "enum class " ++ e.name.cxx ++ " : " ++ atom e.repr ++ ";\n"
  | .cxxType t => "using " ++ t.name.cxx ++ " = " ++ fullyQualified t.name ++ ";\n"
  | .rustType t => "struct " ++ t.name.cxx ++ ";\n"
  | _ => ""

/-- gen/src/write.rs:66-70. -/
def writeForwardDeclarations (ts : Types) (atom : Atom → String) (fuel : Nat) (apis : List Api) : Option (List Piece) :=
  (entries apiNamespace fuel (apis.filter (needsForward ts))).map (writeForward (forwardText atom))

/-! ### Specification -/

/-- What is declared ahead for an item: its name, and the text. -/
inductive Ahead (ts : Types) (atom : Atom → String) : Api → Pair → String → Prop
  | struct (s) : Ahead ts atom (.struct s) s.name ("struct " ++ s.name.cxx ++ ";\n")
  | enum (e : Enum) : e.name.rust ∉ ts.cxx → Ahead ts atom (.enum e) e.name ("enum class " ++ e.name.cxx ++ " : " ++ atom e.repr ++ ";\n")
  | cxxType (t : ExternType) :
    Ahead ts atom (.cxxType t) t.name ("using " ++ t.name.cxx ++ " = " ++ String.join (t.name.ns.map ("::" ++ ·)) ++ "::" ++ t.name.cxx ++ ";\n")
  | rustType (t : ExternType) : Ahead ts atom (.rustType t) t.name ("struct " ++ t.name.cxx ++ ";\n")

/-- The declarations for the items of a list whose name is in the namespace `path`, in order. -/
inductive AllAhead (ts : Types) (atom : Atom → String) (path : Namespace) : List Api → List String → Prop
  | nil : AllAhead ts atom path [] []
  | here {a n text as l} : Ahead ts atom a n text → n.ns = path → AllAhead ts atom path as l → AllAhead ts atom path (a :: as) (text :: l)
  | elsewhere {a n text as l} : Ahead ts atom a n text → n.ns ≠ path → AllAhead ts atom path as l → AllAhead ts atom path (a :: as) l
  | other {a as l} : (∀ n text, ¬Ahead ts atom a n text) → AllAhead ts atom path as l → AllAhead ts atom path (a :: as) l

/-! ### Theorems -/

theorem join_foldl (l : List String) : ∀ s : String, l.foldl (· ++ ·) s = s ++ l.foldl (· ++ ·) "" := by
  induction l with
  | nil => intro s; simp
  | cons a l ih => intro s; simp only [List.foldl_cons]; rw [ih (s ++ a), ih ("" ++ a)]; simp [String.append_assoc]

theorem qualified_eq (p : Pair) : fullyQualified p = String.join (p.ns.map ("::" ++ ·)) ++ "::" ++ p.cxx := by
  unfold fullyQualified String.join
  generalize p.ns = ns
  induction ns with
  | nil => simp
  | cons s ns ih =>
    simp only [List.foldr_cons, ih, List.map_cons, List.foldl_cons]
    rw [join_foldl _ ("" ++ _)]
    simp [String.append_assoc]

theorem ahead_of (ts : Types) (atom : Atom → String) (a : Api) (h : needsForward ts a = true) :
    ∃ n, Ahead ts atom a n (forwardText atom a) ∧ n.ns = apiNamespace a := by
  cases a with
  | struct s => exact ⟨_, .struct s, rfl⟩
  | cxxType t =>
    refine ⟨t.name, ?_, rfl⟩
    have := Ahead.cxxType (ts := ts) (atom := atom) t
    rw [forwardText, qualified_eq]
    simpa [String.append_assoc] using this
  | rustType t => exact ⟨_, .rustType t, rfl⟩
  | enum e => exact ⟨_, .enum e (by simpa [needsForward] using h), rfl⟩
  | _ => simp [needsForward] at h

theorem not_ahead (ts : Types) (atom : Atom → String) (a : Api) (h : needsForward ts a = false) :
    ∀ n text, ¬Ahead ts atom a n text := by
  intro n text hn
  cases hn with
  | enum e he => simp [needsForward, he] at h
  | _ => simp [needsForward] at h

theorem allAhead (ts : Types) (atom : Atom → String) (path : Namespace) (apis : List Api) :
    AllAhead ts atom path apis
      (((apis.filter (needsForward ts)).filter fun a => decide (apiNamespace a = path)).map (forwardText atom)) := by
  induction apis with
  | nil => exact .nil
  | cons a as ih =>
    cases h : needsForward ts a with
    | false =>
      rw [List.filter_cons_of_neg (by simp [h])]
      exact .other (not_ahead ts atom a h) ih
    | true =>
      obtain ⟨n, hn, he⟩ := ahead_of ts atom a h
      rw [List.filter_cons_of_pos h]
      by_cases hp : apiNamespace a = path
      · rw [List.filter_cons_of_pos (by simpa using hp), List.map_cons]
        exact .here hn (he.trans hp) ih
      · rw [List.filter_cons_of_neg (by simpa using hp)]
        exact .elsewhere hn (by rwa [he]) ih

/-- **C29**, for bridges.  The forward declarations are written, their blocks balance, and inside the blocks of a namespace are
the declarations of the types whose names are in it, in source order; for every namespace. -/
theorem bridge_declarations_exact (ts : Types) (atom : Atom → String) (apis : List Api) :
    ∃ fuel out P, writeForwardDeclarations ts atom fuel apis = some out ∧ Reads [] out P [] ∧
      ∀ path, ∃ l, AllAhead ts atom path apis l ∧
        P.filter (fun p => decide (p.2 = nsBlocks path)) = l.map fun text => (text, nsBlocks path) := by
  obtain ⟨fuel, e, P, he, hr, hp⟩ := forward_declarations_exact apiNamespace (forwardText atom) (apis.filter (needsForward ts))
  refine ⟨fuel, _, P, by rw [writeForwardDeclarations, he]; rfl, hr, fun path => ⟨_, allAhead ts atom path apis, ?_⟩⟩
  rw [hp path, List.map_map]
  rfl

/-- Two structs, a C++ type and an enum, in two namespaces. -/
def someTypes : List Api :=
  [.struct ⟨[], ⟨["a"], "S", "S"⟩, [], []⟩, .include "x.h", .cxxType ⟨.cxx, [], ⟨["a", "b"], "U", "T"⟩, [], [], false⟩,
   .enum ⟨[], ⟨["a"], "E", "E"⟩, [], [], false, .u8, false⟩, .rustType ⟨.rust, [], ⟨[], "R", "R"⟩, [], [], false⟩]

example : writeForwardDeclarations (collect someTypes) (fun _ => "::std::uint8_t") 3 someTypes = some
    [.text "struct R;\n", .open (.userDefinedNamespace "a"), .text "struct S;\n", .text "enum class E : ::std::uint8_t;\n",
     .open (.userDefinedNamespace "b"), .text "using U = ::a::b::U;\n", .close (.userDefinedNamespace "b"),
     .close (.userDefinedNamespace "a")] := by decide +kernel

end Verif.Nested
