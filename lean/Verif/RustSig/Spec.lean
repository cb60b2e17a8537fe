import Verif.RustSig.Model
import Verif.Parse.TypeSpec
import Verif.Parse.ItemSpec
/-!
# What a function's signature says

A signature in the bridge and one in ordinary Rust code are both read as a `Decl`.  A returned reference without a lifetime
borrows from an argument according to Rust's rules (Reference, "Lifetime elision").
-/
namespace Verif.RustSig
open Verif.Syntax Verif.Parse

/-- A function: how it is called and what it takes and gives.  For a method the receiver's type comes first. -/
structure Decl where
  name : Ident
  unsafety : Bool
  lifetimes : List Ident
  receiver : Option Den
  params : List (Option Ident × Den)
  ret : Den

mutual
/-- The same type with a lifetime everywhere, `'_` where there is none; `arity` says how many lifetimes a type has. -/
def Den.full (arity : List Ident → Nat) : Den → Den
  | .named p ls => .named p (if ls = [] then List.replicate (arity p) "_" else ls)
  | .apply p d => .apply p (Den.full arity d)
  | .reference l m d => .reference (some (l.getD "_")) m (Den.full arity d)
  | .ptr m d => .ptr m (Den.full arity d)
  | .slice d => .slice (Den.full arity d)
  | .array d n => .array (Den.full arity d) n
  | .fn u abi args ret => .fn u abi (Den.fulls arity args) (Den.full arity ret)
  | .unit => .unit
def Den.fulls (arity : List Ident → Nat) : List Den → List Den
  | [] => []
  | d :: ds => Den.full arity d :: Den.fulls arity ds
end

def Decl.full (arity : List Ident → Nat) (d : Decl) : Decl :=
  { d with
    receiver := d.receiver.map (Den.full arity)
    params := d.params.map (fun p => (p.1, Den.full arity p.2))
    ret := Den.full arity d.ret }

/-- Without what no expansion keeps (C64). -/
def Decl.erase (d : Decl) : Decl :=
  { d with receiver := d.receiver.map Den.erase, params := d.params.map (fun p => (p.1, p.2.erase)), ret := d.ret.erase }

/-- The values, if all are there. -/
def all {α : Type} : List (Option α) → Option (List α)
  | [] => some []
  | some a :: rest => (all rest).map (a :: ·)
  | none :: _ => none

/-! ### A declaration in a bridge -/

/-- The names of arguments; one that has none is `arg` with its number. -/
def argNames : Nat → List PatSrc → List (Option Ident)
  | _, [] => []
  | i, .ident n :: rest => some n :: argNames (i + 1) rest
  | i, _ :: rest => some ("arg" ++ Nat.repr i) :: argNames (i + 1) rest

/-- `Self` stands for the type `own`. -/
def Den.ofType (own : Ident) : Den → Den
  | .named ["Self"] ls => .named [own] ls
  | .apply p d => .apply p (Den.ofType own d)
  | .reference l m d => .reference l m (Den.ofType own d)
  | d => d

/-- The type of a receiver; `self` alone stands for the type `own`. -/
def receiverMeans (own : Ident) : SelfSrc → Option Den
  | .ref l m => some (.reference l m (.named [own] []))
  | .typed ty => (meaning true ty).map (Den.ofType own)
  | .value => none

/-- All lifetime parameters. -/
def lifetimeParams : List Param → Option (List Ident)
  | [] => some []
  | .lifetime l _ :: rest => (lifetimeParams rest).map (l :: ·)
  | _ :: _ => none

/-- What a declaration in a bridge says, under the given Rust name; the result of a function that can fail is `Result<T>`. -/
def declared (name own : Ident) (src : FnSrc) : Option Decl := do
  let lifetimes ← lifetimeParams src.generics.params
  let receiver ← match src.receiver with
    | none => some none
    | some r => (receiverMeans own r).map some
  let params ← all (src.inputs.map (fun i => meaning true i.2))
  let ret ← meaningRet true src.output
  return ⟨name, src.unsafety, lifetimes, receiver, (argNames 0 (src.inputs.map (·.1))).zip params, ret⟩

/-- The names of a function; `found` are its attributes. -/
def HasName (r : Readers) (a : Around) (src : FnSrc) (found : Found) (name : Pair) : Prop :=
  ∃ conditions others, Reads r onFunction (.nothing a.ns) src.attrs conditions found others ∧
    Named' found found.namespace src.name name

/-- The items of a block declare one type only, and it is called `own` in Rust. -/
def OnlyTypeOf (r : Readers) (a : Around) (items : List ForeignSrc) (own : Ident) : Prop :=
  ∃ before type after o, items = before ++ type :: after ∧ ForeignIs r a type o ∧ Declares o.api own ∧
    ∀ t ∈ before ++ after, ¬ DeclaresType t

/-! ### A function in ordinary code -/

/-- `Self` stands for another type. -/
def Den.withSelf (self : Den) : Den → Den
  | .named ["Self"] [] => self
  | .apply p d => .apply p (Den.withSelf self d)
  | .reference l m d => .reference l m (Den.withSelf self d)
  | d => d

/-- A return type; `Result<T, ::cxx::Exception>` is what `Result<T>` means in a bridge. -/
def resultMeans : Option RTy → Option Den
  | some (.path false true ["cxx", "core", "result"] "Result" (.angle [.type ok, .type error])) =>
    match meaning false error with
    | some (.named ["cxx", "Exception"] []) => (meaning false ok).map (.apply ["Result"])
    | _ => none
  | ret => meaningRet false ret

/-- The type of a receiver. -/
def receiverReads (self : Den) : SelfSrc → Option Den
  | .ref l m => some (.reference l m self)
  | .typed ty => (meaning false ty).map (Den.withSelf self)
  | .value => none

/-- What a function says; `result` reads the return type. -/
def reads (result : Option RTy → Option Den) (lifetimes : List Ident) (self : Option Den) (f : RFn) : Option Decl := do
  let receiver ← match f.receiver, self with
    | none, _ => some none
    | some r, some self => (receiverReads self r).map some
    | some _, none => none
  let params ← all (f.inputs.map (fun i => meaning false i.2))
  let ret ← result f.output
  return ⟨f.name, f.unsafety, lifetimes ++ f.generics, receiver, (f.inputs.map (·.1)).zip params, ret⟩

/-- What the user of a module finds: a function, or a method of the type that its receiver names. -/
def offers : RItem → Option Decl
  | .fn f => reads resultMeans [] none f
  | .method lifetimes ty f =>
    match meaning false ty with
    | some self => if f.receiver.isSome then reads resultMeans lifetimes (some self) f else none
    | none => none

/-- The result of a function that calls the user's function; the error can be anything. -/
def insideMeans : Option RTy → Option Den
  | some (.path false true ["cxx", "core", "result"] "Result" (.angle [.type ok, .type _])) =>
    (meaning false ok).map (.apply ["Result"])
  | ret => meaningRet false ret

/-- A method as a function that takes the receiver as its first argument. -/
def Decl.asFunction (d : Decl) : Decl :=
  { d with receiver := none, params := d.receiver.toList.map (fun r => (some "__self", r)) ++ d.params }

/-- The type that a receiver refers to. -/
def pointee : Den → Option (List Ident)
  | .named p _ => some p
  | .apply _ d | .reference _ _ d => pointee d
  | _ => none

/-- The call is one of the declared function: the function of this name outside of the module, or that of the receiver's
type; the arguments are those of the caller, in order. -/
def Calls (f : Forward) (d : Decl) : Prop :=
  (match d.receiver with
    | none => f.callee = ["super", d.name]
    | some r => ∃ path, pointee r = some path ∧ f.callee = path ++ [d.name]) ∧
  f.passed.map some = f.sig.inputs.map (·.1)

/-- An unsafe function can only be called in an `unsafe` block or an unsafe function. -/
def Compiles (f : Forward) (unsafeCallee : Bool) : Prop :=
  unsafeCallee = true → f.unsafeBlock = true ∨ f.sig.unsafety = true

/-! ### Borrowing -/

/-- What a returned reference borrows from: a named lifetime, or the argument at a position (the receiver is at 0). -/
inductive Source
  | lifetime (name : Ident)
  | argument (i : Nat)

/-- The types of this crate and of the standard library have no lifetimes. -/
def NoLifetimes (arity : List Ident → Nat) : Prop := ∀ n p, arity ("cxx" :: n :: p) = 0

/-- The lifetimes in a type, in the order of the text; what is inside a function pointer is its own affair. -/
def lifetimesIn' (arity : List Ident → Nat) : Den → List Ident
  | .named p ls => if ls = [] then List.replicate (arity p) "_" else ls
  | .apply _ d | .ptr _ d | .slice d | .array d _ => lifetimesIn' arity d
  | .reference l _ d => l.getD "_" :: lifetimesIn' arity d
  | .fn .. | .unit => []

/-- The lifetime written at some place in the argument `i`. -/
def Source.of (i : Nat) (l : Ident) : Source := if l = "_" then .argument i else .lifetime l

/-- The lifetimes in the arguments. -/
def sources (arity : List Ident → Nat) : Nat → List Den → List Source
  | _, [] => []
  | i, d :: ds => (lifetimesIn' arity d).map (Source.of i) ++ sources arity (i + 1) ds

/-- The arguments, the receiver first. -/
def Decl.arguments (d : Decl) : List Den := d.receiver.toList ++ d.params.map (·.2)

/-- The lifetime of the receiver, which is a reference or `Pin` of one. -/
def receiverLifetime : Den → Option Ident
  | .reference l _ _ => some (l.getD "_")
  | .apply _ d => receiverLifetime d
  | _ => none

/-- A place for a lifetime in the result that is left empty is filled with `s`: for a method, the lifetime of `self`;
otherwise the lifetime of the arguments, if there is just one. -/
inductive Borrows (arity : List Ident → Nat) (d : Decl) : Source → Prop
  | method {r l} : d.receiver = some r → receiverLifetime r = some l → Borrows arity d (.of 0 l)
  | only {before s after} : d.receiver = none → sources arity 0 d.arguments = before ++ s :: after →
      (∀ l, s = .lifetime l → ∀ s' ∈ before ++ after, s' = s) → (∀ i, s = .argument i → before = [] ∧ after = []) →
      Borrows arity d s

/-- The result has a lifetime that is not written. -/
def Decl.Elided (arity : List Ident → Nat) (d : Decl) : Prop := "_" ∈ lifetimesIn' arity d.ret

/-- The compiler knows all lifetimes of the result. -/
def Decl.Clear (arity : List Ident → Nat) (d : Decl) : Prop := d.Elided arity → ∃ s, Borrows arity d s

end Verif.RustSig
