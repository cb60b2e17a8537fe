import Verif.Parse.AttrModel
import Verif.Cfg.Spec
/-!
# What attributes mean
-/
namespace Verif.Parse
open Verif.Syntax Verif.Cfg

/-- The traits that can be derived, by name. -/
def Derivable : List (Ident × Trait) := [
  ("Clone", .clone), ("Copy", .copy), ("Debug", .debug), ("Default", .default), ("Eq", .eq), ("Hash", .hash),
  ("ExternType", .externType), ("Ord", .ord), ("PartialEq", .partialEq), ("PartialOrd", .partialOrd),
  ("Serialize", .serialize), ("Deserialize", .deserialize)]

/-- `Name, Name, ..`, with or without a comma at the end. -/
inductive TraitList : List ArgTok → List Trait → Prop
  | nil : TraitList [] []
  | last {n t} : (n, t) ∈ Derivable → TraitList [.ident n] [t]
  | cons {n t rest ts} : (n, t) ∈ Derivable → TraitList rest ts → TraitList (.ident n :: .comma :: rest) (t :: ts)

/-- The integer types that can be given as `repr`, by name. -/
def Reprs : List (Ident × Atom) := [
  ("u8", .u8), ("u16", .u16), ("u32", .u32), ("u64", .u64), ("usize", .usize),
  ("i8", .i8), ("i16", .i16), ("i32", .i32), ("i64", .i64), ("isize", .isize)]

/-- The attribute `#[name ..]`. -/
def Is (a : Attr) (name : Ident) : Prop := a.leadingColon = false ∧ a.path = [name]

/-- An attribute that says something to cxx. -/
inductive Says (r : Readers)
    /- to which field of `Wants` it belongs, what it says -/
    : Attr → (Wants → Bool) → (Found → Found) → Prop
  | doc {a s} : Is a "doc" → a.content = .nameValue (.str s) → Says r a (·.doc) fun f => { f with doc := f.doc ++ [s] }
  | hidden {a} : Is a "doc" → a.content = .list [.ident "hidden"] → Says r a (·.doc) fun f => { f with hidden := true }
  | derive {a args ts} : Is a "derive" → a.content = .list args → TraitList args ts →
      Says r a (·.derives) fun f => { f with derives := f.derives ++ ts }
  | repr {a n t} : Is a "repr" → a.content = .list [.ident n] → (n, t) ∈ Reprs →
      Says r a (·.repr) fun f => { f with repr := some t }
  | ns {a ns} : Is a "namespace" → r.readNamespace a.content = some ns →
      Says r a (·.namespace) fun f => { f with «namespace» := ns }
  | cxxStr {a s n} : Is a "cxx_name" → a.content = .nameValue (.str s) → r.foreignName s = some n →
      Says r a (·.cxxName) fun f => { f with cxxName := some n }
  | cxxIdent {a i n} : Is a "cxx_name" → a.content = .nameValue (.ident i) → r.foreignName i = some n →
      Says r a (·.cxxName) fun f => { f with cxxName := some n }
  | rustStr {a s n} : Is a "rust_name" → a.content = .nameValue (.str s) → r.identifier s = some n →
      Says r a (·.rustName) fun f => { f with rustName := some n }
  | rustIdent {a i} : Is a "rust_name" → a.content = .nameValue (.ident i) →
      Says r a (·.rustName) fun f => { f with rustName := some i }

/-- `#[cfg(..)]`, which is for both cxx and rustc. -/
def IsCfg (r : Readers) (a : Attr) (e : CfgExpr) : Prop := Is a "cfg" ∧ r.readCfg a.content = some e

/-- An attribute for rustc, serde or clippy. -/
def ForRust (a : Attr) : Prop :=
  (∃ n ∈ ["allow", "warn", "deny", "forbid", "deprecated", "must_use", "serde"], Is a n) ∨
  (∃ x xs, a.path = "clippy" :: x :: xs)

/-- An attribute that only rustfmt looks at. -/
def ForRustfmt (a : Attr) : Prop := ∃ x xs, a.path = "rustfmt" :: x :: xs

/-- An attribute whose name cxx knows. -/
def Reserved (a : Attr) : Prop :=
  ∃ n ∈ ["doc", "derive", "repr", "namespace", "cxx_name", "rust_name", "cfg"], Is a n

/-- An attribute that has no business here but is well-formed. -/
def Stray (r : Readers) (w : Wants) (a : Attr) : Prop :=
  (∃ wanted change, Says r a wanted change ∧ wanted w = false) ∨ (∃ e, IsCfg r a e ∧ w.cfg = false) ∨
  (¬ Reserved a ∧ ¬ ForRust a ∧ ¬ ForRustfmt a)

/-- Reading the attributes in order, where all of them are in their place: `conditions` are those of the `cfg`s, what the
others say turns `f` into `f'`, and `others` is what rustc will see of the attributes. -/
inductive Reads (r : Readers) (w : Wants) :
    Found → List Attr → (conditions : List CfgExpr) → Found → (others : List Attr) → Prop
  | nil {f} : Reads r w f [] [] f []
  | says {a wanted change f rest es f' others} : Says r a wanted change → wanted w = true →
      Reads r w (change f) rest es f' others → Reads r w f (a :: rest) es f' others
  | cfg {a e f rest es f' others} : IsCfg r a e → w.cfg = true →
      Reads r w f rest es f' others → Reads r w f (a :: rest) (e :: es) f' (a :: others)
  | forRust {a f rest es f' others} : ForRust a →
      Reads r w f rest es f' others → Reads r w f (a :: rest) es f' (a :: others)
  | forRustfmt {a f rest es f' others} : ForRustfmt a →
      Reads r w f rest es f' others → Reads r w f (a :: rest) es f' others
  /-- on the module of a bridge, which may have other attribute macros -/
  | stray {a f rest es f' others} : w.ignoreUnrecognized = true → Stray r w a →
      Reads r w f rest es f' others → Reads r w f (a :: rest) es f' others

end Verif.Parse
