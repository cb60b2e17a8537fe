import Verif.Parse.AttrModel
import Verif.Parse.TypeModel
import Verif.Discriminant.Model
/-!
# From the items of a bridge to its syntax tree: `syntax/parse.rs`

The starting point is what syn has parsed, including the items that syn hands over as tokens (`ForeignItem::Verbatim`).
Spans and tokens are left out.  Visibility is left out: everything becomes `pub` (syntax/parse.rs:1468-1474).  The features
`experimental-async-fn` and `experimental-enum-variants-from-header` are off.
-/
namespace Verif.Parse
open Verif.Syntax Verif.Cfg Verif.Discriminant

/-! ### The input -/

/-- `syn::GenericParam`. -/
inductive Param
  | lifetime (name : Ident) (bounds : Bool)
  | type
  | const

/-- `syn::Generics`. -/
structure Generics where
  params : List Param
  whereClause : Bool

/-- `syn::Field` with a name. -/
structure FieldSrc where
  attrs : List Attr
  name : Ident
  ty : RTy

/-- `syn::Fields`. -/
inductive FieldsSrc
  | named (fields : List FieldSrc)
  | unit
  | unnamed

/-- `syn::ItemStruct`. -/
structure StructSrc where
  attrs : List Attr
  name : Ident
  generics : Generics
  fields : FieldsSrc

/-- `syn::Variant`. -/
structure VariantItem where
  attrs : List Attr
  name : Ident
  src : VariantSrc

/-- `syn::ItemEnum`. -/
structure EnumSrc where
  attrs : List Attr
  name : Ident
  generics : Generics
  variants : List VariantItem

/-- `syn::Pat`, the pattern of an argument. -/
inductive PatSrc
  | ident (name : Ident)
  | wild
  | other

/-- `FnArg::Receiver`. -/
inductive SelfSrc
  /-- `&'a mut self` -/
  | ref (lifetime : Option Ident) (mutable : Bool)
  /-- `self: T` -/
  | typed (ty : RTy)
  /-- `self` -/
  | value

/-- `syn::ForeignItemFn`.  A receiver can only come first; attributes of arguments are left out because nothing reads
them. -/
structure FnSrc where
  attrs : List Attr
  name : Ident
  generics : Generics
  variadic : Bool
  asyncness : Bool
  constness : Bool
  abi : Bool
  unsafety : Bool
  receiver : Option SelfSrc
  inputs : List (PatSrc × RTy)
  output : Option RTy

/-- `syn::ForeignItemType`. -/
structure TypeSrc where
  attrs : List Attr
  name : Ident
  generics : Generics

/-- `syn::ForeignItem`. -/
inductive ForeignSrc
  | type (t : TypeSrc)
  | fn (f : FnSrc)
  /-- `include!(..)` with the path if the contents are well-formed; attributes are left out because nothing reads them -/
  | include (path : Option String)
  /-- tokens that are `type A<..> = T;` -/
  | alias (t : TypeSrc)
  /-- tokens that are `type A<..>: Bound + Bound;`; of a bound the identifier is kept if it is no more than one -/
  | bounded (t : TypeSrc) (bounds : List (Option Ident))
  /-- other tokens, other items -/
  | other

/-- syntax/file.rs:36-43 `ItemForeignMod`; `abi` is the text of the literal. -/
structure ForeignModSrc where
  attrs : List Attr
  unsafety : Bool
  abi : Option String
  items : List ForeignSrc

/-- `syn::ItemImpl`; `ty` is the type, and `negative` whether it is written behind `!`. -/
structure ImplSrc where
  attrs : List Attr
  generics : Generics
  hasTrait : Bool
  empty : Bool
  negative : Bool
  ty : RTy

/-- syntax/file.rs:27-34 `enum Item`. -/
inductive ItemSrc
  | struct (s : StructSrc)
  | enum (e : EnumSrc)
  | foreignMod (m : ForeignModSrc)
  | use
  | impl (i : ImplSrc)
  | other

/-! ### The output -/

/-- What goes with each item, field and variant besides what `Verif/Syntax/Ast` has. -/
structure Extra where
  cfg : CfgExpr
  doc : List String
  hidden : Bool
  others : List Attr

/-- An element of the result of `parse_items`; `members` are the fields or the variants, these with their value. -/
structure Out where
  extra : Extra
  members : List (Extra × Option Disc)
  api : Api

/-- The errors of syntax/parse.rs. -/
inductive ItemErr
  | attr (e : AttrErr)
  | type (e : TypeErr)
  | disc (e : Err)
  | useNotAllowed
  | unsupportedItem
  | unitStruct
  | tupleStruct
  | boundedLifetime
  | genericParam
  | whereClause
  | rustUnsafe
  | unsafeRequired
  | abiRequired
  | unknownAbi
  | variadic
  | async
  | constFn
  | explicitAbi
  | receiver
  | pattern
  | include
  | foreignItem
  | rustAlias
  | unsupportedTrait
  | implNotEmpty
  | implTrait

/-! ### Names, attributes, generics -/

/-- syntax/parse.rs:1476-1488 `pair`.  `ForeignName::parse` of the text of an identifier is that text. -/
def pair (ns : Namespace) (default : Ident) (cxx rust : Option Ident) : Pair := ⟨ns, cxx.getD default, rust.getD default⟩

/-- The variables that `struct Parser` points to, before parsing. -/
def fresh (cfg : CfgExpr) (ns : Namespace) : Found :=
  { cfg := cfg, doc := [], hidden := false, derives := [], repr := none, «namespace» := ns, cxxName := none, rustName := none }

def Found.extra (f : Found) (others : List Attr) : Extra := ⟨f.cfg, f.doc, f.hidden, others⟩

/-- syntax/parse.rs:87-118 and 789-827 (`extern_type_lifetimes`): lifetimes, with one error at most.  `seen` is
`has_unsupported_generic_param`. -/
def lifetimes (seen : Bool) : List Param → List ItemErr × List Ident
  | [] => ([], [])
  | .lifetime name bounds :: rest =>
    if bounds && !seen then
      match lifetimes true rest with
      | (es, ls) => (.boundedLifetime :: es, name :: ls)
    else
      match lifetimes seen rest with
      | (es, ls) => (es, name :: ls)
  | _ :: rest =>
    match lifetimes true rest with
    | (es, ls) => (if seen then es else .genericParam :: es, ls)

/-! ### Structs -/

/-- syntax/parse.rs:65-77: what a struct looks for. -/
def structWants : Wants :=
  { cfg := true, doc := true, derives := true, «namespace» := true, cxxName := true, rustName := true }

/-- syntax/parse.rs:134-144 and 292-302: what a field or a variant looks for. -/
def memberWants : Wants := { cfg := true, doc := true, cxxName := true, rustName := true }

/-- syntax/parse.rs:127-164: the loop over the fields. -/
def parseFields (r : Readers) : List FieldSrc → List ItemErr × List ((Extra × Option Disc) × Var)
  | [] => ([], [])
  | field :: rest =>
    match parseAttrs r memberWants (fresh .unconditional []) field.attrs, parseFields r rest with
    | (es, f, others), (es', fields) =>
      match parseType field.ty with
      | .error e => (es.map .attr ++ [.type e] ++ es', fields)
      | .ok ty =>
        (es.map .attr ++ es', ((f.extra others, none), ⟨pair [] field.name f.cxxName f.rustName, ty⟩) :: fields)

/-- syntax/parse.rs:58-188 `parse_struct`. -/
def parseStruct (r : Readers) (ns : Namespace) (s : StructSrc) : List ItemErr × Option Out :=
  match parseAttrs r structWants (fresh .unconditional ns) s.attrs with
  | (es, f, others) =>
    match s.fields with
    | .unit => (es.map .attr ++ [.unitStruct], none)
    | .unnamed => (es.map .attr ++ [.tupleStruct], none)
    | .named fields =>
      match lifetimes false s.generics.params, parseFields r fields with
      | (es1, ls), (es2, fields) =>
        (es.map .attr ++ es1 ++ (if s.generics.whereClause then [.whereClause] else []) ++ es2,
          some ⟨f.extra others, fields.map (·.1),
            .struct ⟨f.derives, pair f.namespace s.name f.cxxName f.rustName, ls, fields.map (·.2)⟩⟩)

/-! ### Enums -/

/-- syntax/parse.rs:199-213: what an enum looks for. -/
def enumWants : Wants := { structWants with repr := true }

/-- syntax/parse.rs:226-233 with `parse_variant` (283-333). -/
def parseVariantItems (r : Readers) (checks : Bool) : List VariantItem → DSet →
    List ItemErr × DSet × List ((Extra × Option Disc) × Pair)
  | [], s => ([], s, [])
  | v :: rest, s =>
    match parseAttrs r memberWants (fresh .unconditional []) v.attrs with
    | (es, f, others) =>
      match parseVariant checks v.src s with
      | .error e =>
        match parseVariantItems r checks rest s with
        | (es', s, vs) => (es.map .attr ++ [.disc e] ++ es', s, vs)
      | .ok (s, d) =>
        match parseVariantItems r checks rest s with
        | (es', s, vs) =>
          (es.map .attr ++ es', s, ((f.extra others, some d), pair [] v.name f.cxxName f.rustName) :: vs)

/-- syntax/parse.rs:190-281 `parse_enum`. -/
def parseEnumItem (r : Readers) (checks : Bool) (ns : Namespace) (e : EnumSrc) : List ItemErr × Out :=
  match parseAttrs r enumWants (fresh .unconditional ns) e.attrs with
  | (es, f, others) =>
    let es1 := if !e.generics.params.isEmpty then [.genericParam]
      else if e.generics.whereClause then [.whereClause] else []
    match parseVariantItems r checks e.variants (DSet.new f.repr) with
    | (es2, s, vs) =>
      match s.inferredRepr with
      | .ok repr =>
        (es.map .attr ++ es1 ++ es2, ⟨f.extra others, vs.map (·.1), .enum ⟨f.derives,
          pair f.namespace e.name f.cxxName f.rustName, [], vs.map (·.2), false, repr, f.repr.isSome⟩⟩)
      | .error err =>
        (es.map .attr ++ es1 ++ es2 ++ [.disc err], ⟨f.extra others, [], .enum ⟨f.derives,
          pair f.namespace e.name f.cxxName f.rustName, [], [], false, .u8, f.repr.isSome⟩⟩)

/-! ### Foreign items -/

/-- syntax/parse.rs:438-454 `parse_lang`. -/
def parseLang : Option String → Except ItemErr Lang
  | none => .error .abiRequired
  | some name =>
    if name = "C++" then .ok .cxx
    else if name = "Rust" then .ok .rust
    else .error .unknownAbi

/-- What all items in a block get from it. -/
structure Block where
  lang : Lang
  trusted : Bool
  cfg : CfgExpr
  ns : Namespace
  others : List Attr

/-- syntax/parse.rs:494-497 and 966-969. -/
def typeApi (b : Block) (t : ExternType) : Api := match b.lang with | .cxx => .cxxType t | .rust => .rustType t

/-- syntax/parse.rs:456-512 `parse_extern_type`. -/
def parseExternType (r : Readers) (b : Block) (t : TypeSrc) : List ItemErr × Out :=
  match parseAttrs r structWants (fresh b.cfg b.ns) t.attrs, lifetimes false t.generics.params with
  | (es, f, others), (es', ls) =>
    (es.map .attr ++ es', ⟨f.extra (b.others ++ others), [],
      typeApi b ⟨b.lang, f.derives, pair f.namespace t.name f.cxxName f.rustName, ls, [], b.trusted⟩⟩)

/-- syntax/parse.rs:529-540: what a function looks for. -/
def fnWants : Wants := { cfg := true, doc := true, «namespace» := true, cxxName := true, rustName := true }

/-- syntax/parse.rs:543-553: the generic parameters of a function if they are lifetimes without bounds. -/
def plainLifetimes : List Param → Option (List Ident)
  | [] => some []
  | .lifetime name false :: rest => (plainLifetimes rest).map (name :: ·)
  | _ :: _ => none

/-- syntax/parse.rs:591-629: the receiver. -/
def parseSelf : SelfSrc → Except ItemErr Receiver
  | .ref lifetime mutable => .ok ⟨false, lifetime, mutable, ⟨"Self", []⟩, true⟩
  | .typed ty =>
    match parseType ty with
    | .error e => .error (.type e)
    | .ok (.ref pinned lifetime mutable (.ident n)) => .ok ⟨pinned, lifetime, mutable, n, false⟩
    | .ok _ => .error .receiver
  | .value => .error .receiver

/-- syntax/parse.rs:588-658: the loop over the arguments after the receiver, with `args` as accumulator. -/
def parseInputs (args : List Var) : List (PatSrc × RTy) → Except ItemErr (List Var)
  | [] => .ok args
  | (.other, _) :: _ => .error .pattern
  | (.ident name, ty) :: rest =>
    match parseType ty with
    | .error e => .error (.type e)
    | .ok ty => parseInputs (args ++ [⟨pair [] name none none, ty⟩]) rest
  | (.wild, ty) :: rest =>
    match parseType ty with
    | .error e => .error (.type e)
    | .ok ty => parseInputs (args ++ [⟨pair [] ("arg" ++ Nat.repr args.length) none none, ty⟩]) rest

/-- syntax/parse.rs:586-658: the receiver and the arguments. -/
def parseArguments (receiver : Option SelfSrc) (inputs : List (PatSrc × RTy)) : Except ItemErr (Option Receiver × List Var) :=
  match receiver with
  | none => match parseInputs [] inputs with | .error e => .error e | .ok args => .ok (none, args)
  | some receiver =>
    match parseSelf receiver with
    | .error e => .error e
    | .ok receiver => match parseInputs [] inputs with | .error e => .error e | .ok args => .ok (some receiver, args)

/-- syntax/parse.rs:542-694: the function without its attributes. -/
def parseSig (f : FnSrc) : Except ItemErr Sig :=
  if f.generics.whereClause then .error .genericParam
  else
    match plainLifetimes f.generics.params with
    | none => .error .genericParam
    | some ls =>
      if f.variadic then .error .variadic
      else if f.asyncness then .error .async
      else if f.constness then .error .constFn
      else if f.abi then .error .explicitAbi
      else
        match parseArguments f.receiver f.inputs with
        | .error e => .error e
        | .ok (receiver, args) =>
          match parseReturn f.output with
          | .error e => .error (.type e)
          | .ok (ret, throws) => .ok ⟨f.unsafety, ls, receiver, args, ret, throws⟩

/-- syntax/parse.rs:514-698 `parse_extern_fn`. -/
def parseExternFn (r : Readers) (b : Block) (f : FnSrc) : List ItemErr × Option Out :=
  match parseAttrs r fnWants (fresh b.cfg b.ns) f.attrs with
  | (es, found, others) =>
    match parseSig f with
    | .error e => (es.map .attr ++ [e], none)
    | .ok sig =>
      let efn : ExternFn := ⟨b.lang, pair found.namespace f.name found.cxxName found.rustName, sig, b.trusted⟩
      (es.map .attr, some ⟨found.extra (b.others ++ others), [],
        match b.lang with | .cxx => .cxxFunction efn | .rust => .rustFunction efn⟩)

/-- syntax/parse.rs:835-895 `parse_type_alias`, after `extern_type_lifetimes` (750). -/
def parseAlias (r : Readers) (b : Block) (t : TypeSrc) : List ItemErr × Option Out :=
  match lifetimes false t.generics.params, parseAttrs r structWants (fresh b.cfg b.ns) t.attrs with
  | (es, ls), (es', f, others) =>
    if b.lang = .rust then (es ++ es'.map .attr ++ [.rustAlias], none)
    else
      (es ++ es'.map .attr, some ⟨f.extra (b.others ++ others), [],
        .typeAlias ⟨f.derives, pair f.namespace t.name f.cxxName f.rustName, ls⟩⟩)

/-- syntax/parse.rs:911-937: the bounds. -/
def parseBounds : List (Option Ident) → List ItemErr × List Trait
  | [] => ([], [])
  | bound :: rest =>
    match parseBounds rest with
    | (es, ts) =>
      match bound.bind traitOf with
      | some t => (es, t :: ts)
      | none => (.unsupportedTrait :: es, ts)

/-- syntax/parse.rs:897-984 `parse_extern_type_bounded`, after `extern_type_lifetimes` (750). -/
def parseBounded (r : Readers) (b : Block) (t : TypeSrc) (bounds : List (Option Ident)) : List ItemErr × Out :=
  match lifetimes false t.generics.params, parseBounds bounds, parseAttrs r structWants (fresh b.cfg b.ns) t.attrs with
  | (es, ls), (es1, ts), (es2, f, others) =>
    (es ++ es1 ++ es2.map .attr, ⟨f.extra (b.others ++ others), [],
      typeApi b ⟨b.lang, f.derives, pair f.namespace t.name f.cxxName f.rustName, ls, ts, b.trusted⟩⟩)

/-- syntax/parse.rs:374-403: one item of a block. -/
def parseForeign (r : Readers) (b : Block) : ForeignSrc → List ItemErr × Option Out
  | .type t => match parseExternType r b t with | (es, out) => (es, some out)
  | .fn f => parseExternFn r b f
  | .include (some path) => ([], some ⟨⟨b.cfg, [], false, []⟩, [], .include path⟩)
  | .include none => ([.include], none)
  | .alias t => parseAlias r b t
  | .bounded t bounds => match parseBounded r b t bounds with | (es, out) => (es, some out)
  | .other => ([.foreignItem], none)

/-- syntax/parse.rs:373-404: the loop. -/
def parseForeigns (r : Readers) (b : Block) : List ForeignSrc → List ItemErr × List Out
  | [] => ([], [])
  | item :: rest =>
    match parseForeign r b item, parseForeigns r b rest with
    | (es, out), (es', outs) => (es ++ es', out.toList ++ outs)

/-- syntax/parse.rs:406-409. -/
def safeCxxFunction : Api → Bool
  | .cxxFunction f => !f.sig.unsafety
  | _ => false

/-- syntax/parse.rs:417-421. -/
def typeName : Api → Option Pair
  | .cxxType t | .rustType t => some t.name
  | .typeAlias a => some a.name
  | _ => none

/-- syntax/parse.rs:426-430. -/
def resolveReceiver (single : Ident) (f : ExternFn) : ExternFn :=
  match f.sig.receiver with
  | some receiver =>
    if receiver.ty.rust = "Self" then
      { f with sig := { f.sig with receiver := some { receiver with ty := { receiver.ty with rust := single } } } }
    else f
  | none => f

/-- syntax/parse.rs:424-433. -/
def resolveSelf (single : Ident) : Api → Api
  | .cxxFunction f => .cxxFunction (resolveReceiver single f)
  | .rustFunction f => .rustFunction (resolveReceiver single f)
  | api => api

/-- syntax/parse.rs:366-370: what a block looks for. -/
def blockWants : Wants := { cfg := true, «namespace» := true }

/-- syntax/parse.rs:335-436 `parse_foreign_mod`. -/
def parseForeignMod (r : Readers) (trusted : Bool) (ns : Namespace) (m : ForeignModSrc) : List ItemErr × List Out :=
  match parseLang m.abi with
  | .error e => ([e], [])
  | .ok lang =>
    let es := if lang = .rust ∧ m.unsafety then [.rustUnsafe] else []
    let trusted := trusted || m.unsafety
    match parseAttrs r blockWants (fresh .unconditional ns) m.attrs with
    | (es1, f, others) =>
      match parseForeigns r ⟨lang, trusted, f.cfg, f.namespace, others⟩ m.items with
      | (es2, items) =>
        let es3 := if !trusted && items.any (fun o => safeCxxFunction o.api) then [.unsafeRequired] else []
        let items := match items.filterMap (fun o => typeName o.api) with
          | [single] => items.map fun o => { o with api := resolveSelf single.rust o.api }
          | _ => items
        (es ++ es1.map .attr ++ es2 ++ es3, items)

/-! ### Impls, all items -/

/-- syntax/parse.rs:986-1093 `parse_impl`. -/
def parseImpl (r : Readers) (i : ImplSrc) : List ItemErr × Option Out :=
  match parseAttrs r { cfg := true } (fresh .unconditional []) i.attrs with
  | (es, f, _) =>
    if !i.empty then (es.map .attr ++ [.implNotEmpty], none)
    else if i.hasTrait then (es.map .attr ++ [.implTrait], none)
    else if i.generics.whereClause then (es.map .attr ++ [.whereClause], none)
    else
      match plainLifetimes i.generics.params with
      | none => (es.map .attr ++ [.genericParam], none)
      | some ls =>
        match parseType i.ty with
        | .error e => (es.map .attr ++ [.type e], none)
        | .ok ty => (es.map .attr, some ⟨f.extra [], [], .impl ⟨ls, i.negative, ty⟩⟩)

/-- syntax/parse.rs:38-53: one item. -/
def parseItem (r : Readers) (checks trusted : Bool) (ns : Namespace) : ItemSrc → List ItemErr × List Out
  | .struct s => match parseStruct r ns s with | (es, out) => (es, out.toList)
  | .enum e => match parseEnumItem r checks ns e with | (es, out) => (es, [out])
  | .foreignMod m => parseForeignMod r trusted ns m
  | .impl i => match parseImpl r i with | (es, out) => (es, out.toList)
  | .use => ([.useNotAllowed], [])
  | .other => ([.unsupportedItem], [])

/-- syntax/parse.rs:30-56 `parse_items`. -/
def parseItems (r : Readers) (checks trusted : Bool) (ns : Namespace) : List ItemSrc → List ItemErr × List Out
  | [] => ([], [])
  | item :: rest =>
    match parseItem r checks trusted ns item, parseItems r checks trusted ns rest with
    | (es, outs), (es', outs') => (es ++ es', outs ++ outs')

end Verif.Parse
