import Verif.CxxText.Model
import Verif.RustSig.Model
/-!
# The declarations of the trampolines of function pointers

The other `extern "C"` declarations are in `Verif/RustSig/Model.lean` (`cxxDecl`, `rustExport`) and in
`Verif/CxxText/Model.lean` (`cxxLine`, `rustLine`).  The name under which a Rust declaration is linked is in
`Verif/Abi/Model.lean`.
-/
namespace Verif.Prototype
open Verif.Syntax Verif.Parse Verif.Abi Verif.RustSig Verif.CxxText

/-- macro/src/expand.rs:787-824 `expand_function_pointer_trampoline`, with 966-1179: the signature of the exported function.
The arguments are named as in the type of the function pointer. -/
def trampolineFn (cx : Ctx) (f : ExternFn) (args : List (Ident × Ty)) (ret : Option Ty) (throws : Bool) : RFn :=
  { unsafety := true
    name := "__"
    generics := f.sig.generics
    receiver := none
    inputs := args.map (fun a => (some a.1, rustArgTy cx a.2)) ++ outArg cx false ret throws ++
      [(some "__extern", .ptr false (.tuple []))]
    output := externReturn cx false ret throws }

/-- gen/src/write.rs:907-910 `write_function_pointer_trampoline`, with 927-985: the declaration of the Rust half. -/
def trampolineLine (cx : Ctx) (f : ExternFn) (var : Pair) (args : List (Ident × Ty)) (ret : Option Ty) (throws : Bool) :
    Option (List Char) := do
  let params ← args.mapM fun a => (externArg cx a.2).map (·, a.1)
  let slot ← rustSlot cx ret throws
  let r ← returnC cx ret throws
  let link ← Mangle.rTrampoline cx.types f var
  some (externDecl link none params r slot true)

end Verif.Prototype
