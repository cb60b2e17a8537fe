import Verif.Parse.TypeModel
/-!
# What a type in a bridge means, and which types can be written there
-/
namespace Verif.Parse
open Verif.Syntax

/-! ### Meaning -/

/-- A Rust type.  A name is a path: from a crate's root if it begins with the crate's name, else in scope of the bridge. -/
inductive Den
  | named (path : List Ident) (lifetimes : List Ident)
  | apply (path : List Ident) (arg : Den)
  | reference (lifetime : Option Ident) (mutable : Bool) (d : Den)
  | ptr (mutable : Bool) (d : Den)
  | slice (d : Den)
  | array (d : Den) (len : Nat)
  | fn (unsafety : Bool) (abi : Option (Option String)) (args : List Den) (ret : Den)
  | unit

/-- What the well-known names stand for inside a bridge, when no type argument follows. -/
def knownType : Ident → List Ident
  | "String" => ["cxx", "alloc", "string", "String"]
  | "CxxString" => ["cxx", "CxxString"]
  | "c_char" => ["cxx", "core", "ffi", "c_char"]
  | name => [name]

/-- What the well-known names stand for inside a bridge, in front of a type argument. -/
def knownGeneric : Ident → List Ident
  | "Pin" => ["cxx", "core", "pin", "Pin"]
  | "Box" => ["cxx", "alloc", "boxed", "Box"]
  | "Vec" => ["cxx", "alloc", "vec", "Vec"]
  | "CxxVector" => ["cxx", "CxxVector"]
  | "UniquePtr" => ["cxx", "UniquePtr"]
  | "SharedPtr" => ["cxx", "SharedPtr"]
  | "WeakPtr" => ["cxx", "WeakPtr"]
  | name => [name]

/-- What a path stands for: with `inBridge`, in the text of a bridge, otherwise in ordinary code. -/
def pathMeans (inBridge : Bool) (known : Ident → List Ident) (leadingColon : Bool) (before : List Ident) (last : Ident) :
    List Ident :=
  if inBridge ∧ !leadingColon ∧ before = [] then known last else before ++ [last]

/-- All lifetimes. -/
def lifetimesOf {τ : Type} : List (GArg τ) → Option (List Ident)
  | [] => some []
  | .lifetime l :: rest => (lifetimesOf rest).map (l :: ·)
  | _ => none

mutual
/-- The type that a text means; nothing for forms of types that no bridge can have. -/
def meaning (inBridge : Bool) : RTy → Option Den
  | .reference l m t => (meaning inBridge t).map (.reference l m)
  | .ptr m t => (meaning inBridge t).map (.ptr m)
  | .slice t => (meaning inBridge t).map .slice
  | .array t (.int n) => (meaning inBridge t).map (.array · n)
  | .path false c before last .none => some (.named (pathMeans inBridge knownType c before last) [])
  | .path false c before last (.angle [.type t]) =>
    (meaning inBridge t).map (.apply (pathMeans inBridge knownGeneric c before last))
  | .path false c before last (.angle args) =>
    (lifetimesOf args).map (.named (pathMeans inBridge knownType c before last))
  | .bareFn false u abi args false output =>
    match meanings inBridge args, meaningRet inBridge output with
    | some args, some ret => some (.fn u abi args ret)
    | _, _ => none
  | .tuple [] => some .unit
  | _ => none
def meanings (inBridge : Bool) : List (Option Ident × RTy) → Option (List Den)
  | [] => some []
  | (_, t) :: rest =>
    match meaning inBridge t, meanings inBridge rest with
    | some d, some ds => some (d :: ds)
    | _, _ => none
def meaningRet (inBridge : Bool) : Option RTy → Option Den
  | none => some .unit
  | some t => meaning inBridge t
end

mutual
/-- What the expansion does not keep: that a function pointer is unsafe, its ABI, and a `Pin` around a `Pin`. -/
def Den.erase : Den → Den
  | .named p ls => .named p ls
  | .apply p d =>
    match p, d.erase with
    | ["cxx", "core", "pin", "Pin"], .apply ["cxx", "core", "pin", "Pin"] d => .apply ["cxx", "core", "pin", "Pin"] d
    | p, d => .apply p d
  | .reference l m d => .reference l m d.erase
  | .ptr m d => .ptr m d.erase
  | .slice d => .slice d.erase
  | .array d n => .array d.erase n
  | .fn _ _ args ret => .fn false none (Den.erases args) ret.erase
  | .unit => .unit
def Den.erases : List Den → List Den
  | [] => []
  | d :: ds => d.erase :: Den.erases ds
end

/-! ### The types that can be written -/

/-- The text `name` or `name<'a, ..>`. -/
inductive Named : RTy → Ident → Prop
  | plain (n) : Named (.path false false [] n .none) n
  | lifetimes (n) (ls : List Ident) : Named (.path false false [] n (.angle (ls.map .lifetime))) n

/-- The generic types with one argument. -/
def Generic1 (n : Ident) : Prop := n ∈ ["Box", "Vec", "UniquePtr", "SharedPtr", "WeakPtr", "CxxVector"]

mutual
inductive Supported : RTy → Prop
  | name (n) : Supported (.path false false [] n .none)
  /-- not exactly one lifetime on a generic type -/
  | lifetimes (n) (ls : List Ident) : (ls.length = 1 → ¬ Generic1 n ∧ n ≠ "Pin") →
      Supported (.path false false [] n (.angle (ls.map .lifetime)))
  | generic (n t) : Generic1 n → Supported t → Supported (.path false false [] n (.angle [.type t]))
  | pin (t) : Reference t → Supported (.path false false [] "Pin" (.angle [.type t]))
  | str (l t) : Named t "str" → Supported t → Supported (.reference l false t)
  | reference (l m t) : ¬ Named t "str" → Supported t → Supported (.reference l m t)
  | slice (l m t) : Supported t → Supported (.reference l m (.slice t))
  | ptr (m t) : Supported t → Supported (.ptr m t)
  | array (t n) : Supported t → 0 < n → n < 2 ^ 64 → Supported (.array t (.int n))
  | unit : Supported (.tuple [])
  | fn (u abi args output) : (∀ a ∈ args, Supported a.2) → (∀ t, output = some t → Return t) →
      Supported (.bareFn false u abi args false output)
/-- What `Pin` can hold: a reference, not to a slice or a `str`, or another `Pin`. -/
inductive Reference : RTy → Prop
  | reference (l m t) : ¬ Named t "str" → Supported t → Reference (.reference l m t)
  | pin (t) : Reference t → Reference (.path false false [] "Pin" (.angle [.type t]))
/-- A return type: with or without `Result`. -/
inductive Return : RTy → Prop
  | plain (t) : Supported t → Return t
  | result (t) : Supported t → Return (.path false false [] "Result" (.angle [.type t]))
end

end Verif.Parse
