import Verif.Check.Spec
/-!
# What an explanation of the uses of a type says
-/
namespace Verif.Reasons
open Verif.Syntax Verif.Check

/-! ### Uses of the type `n` in a bridge -/

/-- The struct `s` has a field of the type. -/
def FieldOf (apis : List Api) (n s : Ident) : Prop :=
  ∃ st f g, Api.struct st ∈ apis ∧ st.name.rust = s ∧ f ∈ st.fields ∧ f.ty = .ident ⟨n, g⟩

/-- The function `f` takes the type by value. -/
def ArgumentOf (apis : List Api) (n f : Ident) : Prop :=
  ∃ fn a g, HasFn apis fn ∧ fn.name.rust = f ∧ a ∈ fn.sig.args ∧ a.ty = .ident ⟨n, g⟩

/-- The function `f` returns the type by value. -/
def ReturnOf (apis : List Api) (n f : Ident) : Prop :=
  ∃ fn g, HasFn apis fn ∧ fn.name.rust = f ∧ fn.sig.ret = some (.ident ⟨n, g⟩)

/-- The function `f` takes or returns `&mut T` (without `Pin`), or has the receiver `&mut self`. -/
def MutIn (apis : List Api) (n f : Ident) : Prop :=
  ∃ fn, HasFn apis fn ∧ fn.name.rust = f ∧
    ((∃ a l g, a ∈ fn.sig.args ∧ a.ty = .ref false l true (.ident ⟨n, g⟩)) ∨
     (∃ l g, fn.sig.ret = some (.ref false l true (.ident ⟨n, g⟩))) ∨
     (∃ r, fn.sig.receiver = some r ∧ r.ty.rust = n ∧ r.mutable = true ∧ r.pinned = false))

/-- `Box<T>`, `Vec<T>`, `&[T]` and `&mut [T]` are written somewhere. -/
def Boxed (apis : List Api) (n : Ident) : Prop := ∃ g, Occurs apis (.rustBox (.ident ⟨n, g⟩))
def InVec (apis : List Api) (n : Ident) : Prop := ∃ g, Occurs apis (.rustVec (.ident ⟨n, g⟩))
def InSlice (apis : List Api) (n : Ident) (mutable : Bool) : Prop :=
  ∃ l g, Occurs apis (.sliceRef l mutable (.ident ⟨n, g⟩))

/-! ### Phrases -/

/-- A part of the explanation, with the names in it. -/
inductive Phrase
  | field (structs : List Ident)
  | argument (fns : List Ident)
  | result (fns : List Ident)
  | box
  | vec
  | slice
  | sliceMut
  | slices
  | mutRef (fns : List Ident)

/-- Names between backticks. -/
def quoted (names : List Ident) : List Char :=
  (names.map fun n => "`".toList ++ n.toList ++ "`".toList).intersperse ", ".toList |>.flatten

/-- The text. -/
def Phrase.text (n : Ident) : Phrase → List Char
  | .field ss => "field of ".toList ++ quoted ss
  | .argument fs => "argument of ".toList ++ quoted fs
  | .result fs => "return value of ".toList ++ quoted fs
  | .box => "Box<".toList ++ n.toList ++ ">".toList
  | .vec => "vector element in Vec<".toList ++ n.toList ++ ">".toList
  | .slice => "slice element in &[".toList ++ n.toList ++ "]".toList
  | .sliceMut => "slice element in &mut [".toList ++ n.toList ++ "]".toList
  | .slices => "slice element in &[".toList ++ n.toList ++ "] and &mut [".toList ++ n.toList ++ "]".toList
  | .mutRef fs => "non-pinned mutable reference in signature of ".toList ++ quoted fs

/-- The word in front of it, if it comes first. -/
def Phrase.article : Phrase → List Char
  | .argument _ => "an ".toList
  | .box => "type ".toList
  | _ => "a ".toList

/-- Some of those whom it concerns, and all if they are fewer than three. -/
structure Some3 (whom : Ident → Prop) (names : List Ident) : Prop where
  some : names ≠ []
  most : names.length ≤ 3
  once : names.Nodup
  right : ∀ x ∈ names, whom x
  all : names.length < 3 → ∀ x, whom x → x ∈ names

/-- What it says is so. -/
def Phrase.Right (apis : List Api) (n : Ident) : Phrase → Prop
  | .field ss => Some3 (FieldOf apis n) ss
  | .argument fs => Some3 (ArgumentOf apis n) fs
  | .result fs => Some3 (ReturnOf apis n) fs
  | .box => Boxed apis n
  | .vec => InVec apis n
  | .slice => InSlice apis n false ∧ ¬ InSlice apis n true
  | .sliceMut => InSlice apis n true ∧ ¬ InSlice apis n false
  | .slices => InSlice apis n false ∧ InSlice apis n true
  | .mutRef fs => Some3 (MutIn apis n) fs

/-- The kinds of phrases, in the order in which they are written. -/
def Phrase.rank : Phrase → Nat
  | .field _ => 0
  | .argument _ => 1
  | .result _ => 2
  | .box => 3
  | .vec => 4
  | .slice | .sliceMut | .slices => 5
  | .mutRef _ => 6

/-- The phrases are right, no kind comes twice, and no kind of use is left out. -/
structure Says (apis : List Api) (n : Ident) (ps : List Phrase) : Prop where
  right : ∀ p ∈ ps, p.Right apis n
  order : ps.Pairwise (fun p q => p.rank < q.rank)
  field : ∀ s, FieldOf apis n s → ∃ p ∈ ps, p.rank = 0
  argument : ∀ f, ArgumentOf apis n f → ∃ p ∈ ps, p.rank = 1
  result : ∀ f, ReturnOf apis n f → ∃ p ∈ ps, p.rank = 2
  box : Boxed apis n → ∃ p ∈ ps, p.rank = 3
  vec : InVec apis n → ∃ p ∈ ps, p.rank = 4
  slice : ∀ m, InSlice apis n m → ∃ p ∈ ps, p.rank = 5
  mutRef : ∀ f, MutIn apis n f → ∃ p ∈ ps, p.rank = 6

/-- `x`, `x or y`, `x, y or z`, and so on. -/
def listed : List (List Char) → List Char
  | [] => []
  | [x] => x
  | [x, y] => x ++ " or ".toList ++ y
  | x :: rest => x ++ ", ".toList ++ listed rest

/-- The explanation as a text. -/
def sentence (n : Ident) (ps : List Phrase) : List Char :=
  (ps.head?.elim [] Phrase.article) ++ listed (ps.map (Phrase.text n))

/-- The type has one of these uses. -/
def Used (apis : List Api) (n : Ident) : Prop :=
  (∃ x, FieldOf apis n x ∨ ArgumentOf apis n x ∨ ReturnOf apis n x ∨ MutIn apis n x) ∨
  Boxed apis n ∨ InVec apis n ∨ ∃ m, InSlice apis n m

/-- A C++ name as a reader would write it: `a::b::T`. -/
def pathText (p : Pair) : List Char :=
  ((p.ns ++ [p.cxx]).map String.toList).intersperse "::".toList |>.flatten

/-- A C++ string literal: between quotes, without quotes, backslashes and ends of lines. -/
def Literal (cs : List Char) : Prop :=
  ∃ body, cs = '"' :: body ++ ['"'] ∧ ∀ c ∈ body, c ≠ '"' ∧ c ≠ '\\' ∧ c ≠ '\n'

end Verif.Reasons
