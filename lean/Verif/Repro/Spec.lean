import Verif.Placed.Model
import Verif.Preamble.UseModel
import Verif.Prototype.Model
import Verif.Call.Model
import Verif.Conv.Model
import Verif.Lifetimes.Model
/-!
# Two runs over the same bridge

Rust's hash tables are walked in an order that differs from one run of the program to the next.
-/
namespace Verif.Repro
open Verif.Syntax Verif.Types Verif.Abi

/-- A run of a generator, as far as chance has a say in it: the order in which its `k`-th walk through a hash table visits the
names that are in it. -/
structure Run where
  order : Nat → List Ident → List Ident
  visits : ∀ k l, (order k l).Perm l

/-- What the run knows about the bridge, after syntax/types.rs:31-240 `Types::collect`.  The only walk is that over the structs in
219-236.  `depth` bounds the recursion of `is_guaranteed_pod` in the model. -/
def Run.knows (r : Run) (depth : Nat) (apis : List Api) : Ctx :=
  ⟨collect apis, Improper.improperStructs (collect apis) r.order (fun k l => (r.visits k l).length_eq), depth⟩

/-- The functions of both languages. -/
def functionsOf (apis : List Api) : List ExternFn :=
  apis.filterMap fun
    | .cxxFunction f | .rustFunction f => some f
    | _ => none

/-- The types of the arguments and of the results. -/
def typesOf (f : ExternFn) : List Ty := f.sig.args.map (·.ty) ++ f.sig.ret.toList

/-- What the C++ generator makes of a bridge. -/
structure Cxx where
  /-- the declarations, in order, each with the types it has (`Verif/Unit`) -/
  declarations : Option (List Unit.Decl)
  /-- the text with its blocks (`Verif/Placed`, `Verif/Out`), for given texts of the declarations -/
  output : Option (List Out.Piece)
  /-- the includes and the built-in definitions in front (`Verif/Preamble`) -/
  preamble : Preamble.Includes × List Preamble.Ev
  /-- the texts of the signatures and of the pointers to functions (`Verif/CxxText`) -/
  lines : List (List (Option (List Char)))
  /-- what the bodies do with the arguments and the results (`Verif/Conv`) -/
  bodies : List (List (Option (List Conv.COp)))

/-- gen/src/write.rs:18-35 `gen`. -/
def cxx (T : Placed.Texts) (custom : List Preamble.Include) (header defaults : Bool) (trivial : Ident → Bool) (sorted : List Struct)
    (apis : List Api) (cx : Ctx) : Cxx where
  declarations := Unit.file header cx sorted apis
  output := (Placed.calls T header defaults trivial cx sorted apis).bind Out.output
  preamble := Preamble.generated ⟨cx, apis, sorted, header⟩ custom
  lines := (functionsOf apis).map fun f =>
    [CxxText.cxxLine cx f, CxxText.rustLine cx f, CxxText.pointerLineOf cx f, CxxText.shimLine cx.types header f]
  bodies := (functionsOf apis).map fun f => (typesOf f).flatMap fun t =>
    [Conv.cxxReceiveC cx t, Conv.cxxRetC cx f.sig.throws t, Conv.rustPassC cx t, Conv.rustRetC cx t]

/-- What the macro makes of a bridge. -/
structure Rust where
  /-- all generated items with the types they mention (`Verif/Lifetimes`) -/
  items : Option (List Lifetimes.Item)
  /-- the declarations of C++ functions and the exported functions (`Verif/RustSig`) -/
  signatures : List (List RustSig.RFn)
  /-- what the bodies call and pass on (`Verif/Call`, which has the bodies of both languages) -/
  calls : Option (List (Mangle.Symbol × Call.Def)) × List (Option Call.Front)
  /-- what the bodies do with the arguments and the results (`Verif/Conv`) -/
  bodies : List (List (List Conv.ROp))

/-- macro/src/expand.rs:51-154 `expand`. -/
def rust (names : Call.CallbackNames) (apis : List Api) (cx : Ctx) : Rust where
  items := Lifetimes.expand cx apis
  signatures := (functionsOf apis).map fun f => [RustSig.cxxDecl cx f, RustSig.rustExport cx f]
  calls := (Call.defs cx names apis, apis.map (Call.apiFront cx))
  bodies := (functionsOf apis).map fun f => (typesOf f).flatMap fun t =>
    [Conv.cxxSetupR cx t, Conv.cxxPassR cx t, Conv.cxxRetR cx f.sig.throws t, Conv.rustReceiveR cx t]

end Verif.Repro
