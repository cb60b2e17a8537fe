import Verif.Syntax.Ast
/-!
# The lifetimes that items declare
-/
namespace Verif.Check
open Verif.Syntax

/-- The lifetimes that an item introduces, as in `struct S<'a>`, `type T<'a>;`, `fn f<'a>()` and `impl<'a> UniquePtr<T<'a>> {}`. -/
def introduced : Api → List Ident
  | .include _ => []
  | .struct s => s.generics
  | .enum e => e.generics
  | .cxxType t | .rustType t => t.generics
  | .cxxFunction f | .rustFunction f => f.sig.generics
  | .typeAlias a => a.generics
  | .impl i => i.implGenerics

end Verif.Check
