import Verif.Parse.ItemModel
import Verif.Parse.AttrSpec
/-!
# What the items of a bridge stand for

The relations say which element of the syntax tree an item of the source becomes.  Attributes are read as in
`AttrSpec.lean`, types as in `TypeSpec.lean`.
-/
namespace Verif.Parse
open Verif.Syntax Verif.Cfg Verif.Discriminant

/-- Two lists, element by element. -/
inductive Each {α β : Type} (R : α → β → Prop) : List α → List β → Prop
  | nil : Each R [] []
  | cons {a b as bs} : R a b → Each R as bs → Each R (a :: as) (b :: bs)

/-- `cfg` holds exactly if all of `conditions` do. -/
def AllOf (cfg : CfgExpr) (conditions : List CfgExpr) : Prop :=
  ∀ σ, (Possible σ cfg true ↔ ∀ e ∈ conditions, Possible σ e true) ∧
    (Possible σ cfg false ↔ ∃ e ∈ conditions, Possible σ e false)

/-- Nothing said yet, in the namespace `ns`. -/
def Found.nothing (ns : Namespace) : Found := ⟨.unconditional, [], false, [], none, ns, none, none⟩

/-- What is attached to an item: `f` is what its attributes say, `others` what they pass on, besides the conditions and
attributes of what is around it. -/
def Attached (x : Extra) (outerConditions conditions : List CfgExpr) (outer : List Attr) (f : Found) (others : List Attr) :
    Prop :=
  AllOf x.cfg (outerConditions ++ conditions) ∧ x.doc = f.doc ∧ x.hidden = f.hidden ∧ x.others = outer ++ others

/-- The name: as written unless attributes say otherwise. -/
def Named' (f : Found) (ns : Namespace) (written : Ident) (name : Pair) : Prop :=
  name.ns = ns ∧ name.cxx = f.cxxName.getD written ∧ name.rust = f.rustName.getD written

/-- `<'a, 'b>` without bounds. -/
def Lifetimes (g : Generics) (ls : List Ident) : Prop := g.params = ls.map (.lifetime · false)

/-- The places for attributes. -/
def onType : Wants := ⟨true, true, true, false, true, true, true, false⟩
def onEnum : Wants := ⟨true, true, true, true, true, true, true, false⟩
def onFunction : Wants := ⟨true, true, false, false, true, true, true, false⟩
def onMember : Wants := ⟨true, true, false, false, false, true, true, false⟩
def onBlock : Wants := ⟨true, false, false, false, true, false, false, false⟩
def onImpl : Wants := ⟨true, false, false, false, false, false, false, false⟩

/-! ### Structs and enums -/

def FieldIs (r : Readers) (src : FieldSrc) (out : (Extra × Option Disc) × Var) : Prop :=
  ∃ conditions f others, Reads r onMember (.nothing []) src.attrs conditions f others ∧
    Attached out.1.1 [] conditions [] f others ∧ out.1.2 = none ∧
    Named' f [] src.name out.2.name ∧ parseType src.ty = .ok out.2.ty

def StructIs (r : Readers) (ns : Namespace) (src : StructSrc) (out : Out) : Prop :=
  ∃ conditions f others fields vars s, Reads r onType (.nothing ns) src.attrs conditions f others ∧
    src.fields = .named fields ∧ src.generics.whereClause = false ∧
    Attached out.extra [] conditions [] f others ∧
    Each (FieldIs r) fields vars ∧ out.members = vars.map (·.1) ∧
    out.api = .struct s ∧ s.derives = f.derives ∧ Named' f f.namespace src.name s.name ∧ Lifetimes src.generics s.generics ∧
    s.fields = vars.map (·.2)

def VariantIs (r : Readers) (src : VariantItem) (out : (Extra × Option Disc) × Pair) : Prop :=
  ∃ conditions f others, Reads r onMember (.nothing []) src.attrs conditions f others ∧
    Attached out.1.1 [] conditions [] f others ∧ Named' f [] src.name out.2

/-- The values are those of `Verif/Discriminant` for all variants, whatever their conditions. -/
def EnumIs (r : Readers) (checks : Bool) (ns : Namespace) (src : EnumSrc) (out : Out) : Prop :=
  ∃ conditions f others vars e values, Reads r onEnum (.nothing ns) src.attrs conditions f others ∧
    src.generics.params = [] ∧ src.generics.whereClause = false ∧
    Attached out.extra [] conditions [] f others ∧
    Each (VariantIs r) src.variants vars ∧ out.members = vars.map (·.1) ∧
    parseEnum checks f.repr (src.variants.map (·.src)) = ⟨[], e.repr, values⟩ ∧ vars.map (·.1.2) = values.map some ∧
    out.api = .enum e ∧ e.derives = f.derives ∧ Named' f f.namespace src.name e.name ∧ e.generics = [] ∧
    e.variants = vars.map (·.2) ∧ e.variantsFromHeader = false ∧ e.explicitRepr = f.repr.isSome

/-! ### Blocks -/

/-- What is around an item in a block. -/
structure Around where
  lang : Lang
  /-- the block or the module is `unsafe` -/
  unsafety : Bool
  conditions : List CfgExpr
  ns : Namespace
  others : List Attr

def ExternTypeIs (r : Readers) (b : Around) (src : TypeSrc) (bounds : List Trait) (out : Out) : Prop :=
  ∃ conditions f others t, Reads r onType (.nothing b.ns) src.attrs conditions f others ∧
    Attached out.extra b.conditions conditions b.others f others ∧ out.members = [] ∧
    (b.lang = .cxx ∧ out.api = .cxxType t ∨ b.lang = .rust ∧ out.api = .rustType t) ∧
    t.lang = b.lang ∧ t.derives = f.derives ∧ Named' f f.namespace src.name t.name ∧ Lifetimes src.generics t.generics ∧
    t.bounds = bounds ∧ t.trusted = b.unsafety

def AliasIs (r : Readers) (b : Around) (src : TypeSrc) (out : Out) : Prop :=
  ∃ conditions f others t, Reads r onType (.nothing b.ns) src.attrs conditions f others ∧
    Attached out.extra b.conditions conditions b.others f others ∧ out.members = [] ∧
    b.lang = .cxx ∧ out.api = .typeAlias t ∧
    t.derives = f.derives ∧ Named' f f.namespace src.name t.name ∧ Lifetimes src.generics t.generics

/-- A receiver is `&self`, `&mut self`, or a reference to a named type, pinned or not. -/
inductive ReceiverIs : Option SelfSrc → Option Receiver → Prop
  | none : ReceiverIs none none
  | ref (l m) : ReceiverIs (some (.ref l m)) (some ⟨false, l, m, ⟨"Self", []⟩, true⟩)
  | typed {ty pinned l m n} : parseType ty = .ok (.ref pinned l m (.ident n)) →
      ReceiverIs (some (.typed ty)) (some ⟨pinned, l, m, n, false⟩)

/-- The argument at position `i`. -/
inductive ArgumentIs (i : Nat) : PatSrc × RTy → Var → Prop
  | named {name ty t} : parseType ty = .ok t → ArgumentIs i (.ident name, ty) ⟨⟨[], name, name⟩, t⟩
  | unnamed {ty t} : parseType ty = .ok t →
      ArgumentIs i (.wild, ty) ⟨⟨[], "arg" ++ Nat.repr i, "arg" ++ Nat.repr i⟩, t⟩

structure SigIs (src : FnSrc) (sig : Sig) : Prop where
  plain : src.variadic = false ∧ src.asyncness = false ∧ src.constness = false ∧ src.abi = false ∧
    src.generics.whereClause = false
  unsafety : sig.unsafety = src.unsafety
  generics : Lifetimes src.generics sig.generics
  receiver : ReceiverIs src.receiver sig.receiver
  arity : sig.args.length = src.inputs.length
  arguments : ∀ i a v, src.inputs[i]? = some a → sig.args[i]? = some v → ArgumentIs i a v
  result : parseReturn src.output = .ok (sig.ret, sig.throws)

def FunctionIs (r : Readers) (b : Around) (src : FnSrc) (out : Out) : Prop :=
  ∃ conditions f others fn, Reads r onFunction (.nothing b.ns) src.attrs conditions f others ∧
    Attached out.extra b.conditions conditions b.others f others ∧ out.members = [] ∧
    (b.lang = .cxx ∧ out.api = .cxxFunction fn ∨ b.lang = .rust ∧ out.api = .rustFunction fn) ∧
    fn.lang = b.lang ∧ Named' f f.namespace src.name fn.name ∧ SigIs src fn.sig ∧ fn.trusted = b.unsafety

/-- One item of a block. -/
inductive ForeignIs (r : Readers) (b : Around) : ForeignSrc → Out → Prop
  | type {t out} : ExternTypeIs r b t [] out → ForeignIs r b (.type t) out
  | fn {f out} : FunctionIs r b f out → ForeignIs r b (.fn f) out
  | «include» {path out} : AllOf out.extra.cfg b.conditions → out.extra.doc = [] → out.extra.hidden = false →
      out.extra.others = [] → out.members = [] → out.api = .include path → ForeignIs r b (.include (some path)) out
  | alias {t out} : AliasIs r b t out → ForeignIs r b (.alias t) out
  | bounded {t bounds traits out} : Each (fun b t => ∃ n, b = some n ∧ (n, t) ∈ Derivable) bounds traits →
      ExternTypeIs r b t traits out → ForeignIs r b (.bounded t bounds) out

/-- The Rust name of the type that an item declares. -/
def Declares : Api → Ident → Prop
  | .cxxType t, n | .rustType t, n => n = t.name.rust
  | .typeAlias a, n => n = a.name.rust
  | _, _ => False

/-- The items of a block that declare a type. -/
def DeclaresType : ForeignSrc → Prop
  | .type _ | .alias _ | .bounded _ _ => True
  | _ => False

/-- `T` is the only type that the block declares. -/
def OnlyType (outs : List Out) (n : Ident) : Prop :=
  ∃ before o after, outs = before ++ o :: after ∧ Declares o.api n ∧ ∀ o' ∈ before ++ after, ∀ n, ¬ Declares o'.api n

/-- `self` on functions stands for the only type of the block, if there is just one. -/
inductive SelfIs (outs : List Out) : Api → Api → Prop
  | cxx {f receiver n} : f.sig.receiver = some receiver → receiver.ty.rust = "Self" → OnlyType outs n →
      SelfIs outs (.cxxFunction f) (.cxxFunction { f with sig := { f.sig with
        receiver := some { receiver with ty := { receiver.ty with rust := n } } } })
  | rust {f receiver n} : f.sig.receiver = some receiver → receiver.ty.rust = "Self" → OnlyType outs n →
      SelfIs outs (.rustFunction f) (.rustFunction { f with sig := { f.sig with
        receiver := some { receiver with ty := { receiver.ty with rust := n } } } })
  | same {api} : (∀ f receiver, api = .cxxFunction f ∨ api = .rustFunction f → f.sig.receiver = some receiver →
      receiver.ty.rust = "Self" → ∀ n, ¬ OnlyType outs n) → SelfIs outs api api

/-- The function as a method of the type `n`, with the receiver `&'l mut self`. -/
def methodOf (f : ExternFn) (n : Ident) (lifetime : Option Ident) (mutable : Bool) : ExternFn :=
  { f with sig := { f.sig with receiver := some ⟨false, lifetime, mutable, ⟨n, []⟩, true⟩ } }

def SelfResolved (outs : List Out) (before after : Out) : Prop :=
  after.extra = before.extra ∧ after.members = before.members ∧ SelfIs outs before.api after.api

def BlockIs (r : Readers) (unsafeModule : Bool) (ns : Namespace) (src : ForeignModSrc) (outs : List Out) : Prop :=
  ∃ conditions f others lang before, Reads r onBlock (.nothing ns) src.attrs conditions f others ∧
    (src.abi = some "C++" ∧ lang = .cxx ∨ src.abi = some "Rust" ∧ lang = .rust ∧ src.unsafety = false) ∧
    /- no function can be called safely that is only declared in safe code -/
    (lang = .cxx → ∀ fn, .fn fn ∈ src.items → fn.unsafety = true ∨ src.unsafety = true ∨ unsafeModule = true) ∧
    Each (ForeignIs r ⟨lang, unsafeModule || src.unsafety, conditions, f.namespace, others⟩) src.items before ∧
    Each (SelfResolved before) before outs

/-! ### All items -/

def ImplIs (r : Readers) (src : ImplSrc) (out : Out) : Prop :=
  ∃ conditions f others i, Reads r onImpl (.nothing []) src.attrs conditions f others ∧
    src.empty = true ∧ src.hasTrait = false ∧ src.generics.whereClause = false ∧
    Attached out.extra [] conditions [] f [] ∧ out.members = [] ∧
    out.api = .impl i ∧ Lifetimes src.generics i.implGenerics ∧ i.negative = src.negative ∧ parseType src.ty = .ok i.ty

/-- What an item of a bridge becomes. -/
inductive ItemIs (r : Readers) (checks unsafeModule : Bool) (ns : Namespace) : ItemSrc → List Out → Prop
  | struct {s out} : StructIs r ns s out → ItemIs r checks unsafeModule ns (.struct s) [out]
  | enum {e out} : EnumIs r checks ns e out → ItemIs r checks unsafeModule ns (.enum e) [out]
  | block {m outs} : BlockIs r unsafeModule ns m outs → ItemIs r checks unsafeModule ns (.foreignMod m) outs
  | impl {i out} : ImplIs r i out → ItemIs r checks unsafeModule ns (.impl i) [out]

end Verif.Parse
