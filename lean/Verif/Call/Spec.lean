import Verif.Call.Model
import Verif.Mangle.Spec
import Verif.Abi.Spec
/-!
# Running generated functions

How Rust and C++ bind parameters and local variables, how the linker resolves symbols, and what it means for a call to
reach the function that was meant.
-/
namespace Verif.Call
open Verif.Syntax Verif.Types Verif.Abi Verif.Mangle

/-- How a function of the user comes to an end.  `throw` is an exception in C++ and `Err` in Rust; `panic` is anything
that must not cross the boundary. -/
inductive Outcome
  | ret (v : V)
  | throw (message : Nat)
  | panic
  deriving DecidableEq, Repr

/-- The functions of the user. -/
abbrev World := FnName → List V → Outcome

/-- Values of variables, the latest first. -/
abbrev Env := List (Name × V)

/-- The parameters of a function are bound to the arguments by position.  There must be as many, and in both
languages it is an error if two of them have the same name. -/
def bind (params : List Name) (vs : List V) : Option Env :=
  if params.Nodup ∧ params.length = vs.length then some (params.zip vs) else none

/-- The value of a variable: that of the latest declaration. -/
def Env.get (env : Env) (x : Name) : Option V := env.lookup x

/-- The values of several variables. -/
def Env.getAll (env : Env) : List Name → Option (List V)
  | [] => some []
  | x :: xs =>
    match env.get x, env.getAll xs with
    | some v, some vs => some (v :: vs)
    | _, _ => none

/-- The value of an initialiser. -/
def evalRhs (env : Env) (x : Name) : Rhs → Option V
  | .var y => env.get y
  | .uninit => some (.slot x)
  | .fat t y =>
    match env.get y with
    | some (.code f) => some (.fat t f)
    | _ => none
  | .fn f => some (.code f)

/-- Local variables.  In Rust a variable shadows an earlier one of the same name; in C++ that is an error. -/
def declare (lang : Lang) : Env → List (Name × Rhs) → Option Env
  | env, [] => some env
  | env, (x, e) :: rest =>
    if lang = .cxx ∧ x ∈ env.map (·.1) then none
    else match evalRhs env x e with
      | some v => declare lang ((x, v) :: env) rest
      | none => none

/-- What comes back from a back: a value or an error flag, and what it has written through the out-pointer. -/
inductive Wire
  | plain (v : V) (out : Option (Name × V))
  | flag (error : Option Nat) (out : Option (Name × V))

/-- A call that was made, and with which arguments. -/
abbrev Event := FnName × List V

/-- Which function a back calls, and with which arguments. -/
def invoked (env : Env) (c : Callee) (vs : List V) : Option Event :=
  match c with
  | .var x =>
    match env.get x with
    | some (.code f) => some (f, vs)
    | _ => none
  | .wrapper params target passes =>
    match bind params vs with
    | some env => (env.getAll passes).map (target, ·)
    | none => none

/-- What a back returns.  `some none`: the process is aborted. -/
def answer (env : Env) : BackResult → Outcome → Option (Option Wire)
  | _, .panic => some none
  | .direct, .ret v => some (some (.plain v none))
  | .direct, .throw _ => some none
  | .store x, .ret v =>
    match env.get x with
    | some (.slot y) => some (some (.plain .unit (some (y, v))))
    | _ => none
  | .store _, .throw _ => some none
  | .caught none, .ret _ => some (some (.flag none none))
  | .caught (some x), .ret v =>
    match env.get x with
    | some (.slot y) => some (some (.flag none (some (y, v))))
    | _ => none
  | .caught _, .throw m => some (some (.flag (some m) none))

/-- A back runs.  `none` if it does not compile or reads something wrong. -/
def runBack (w : World) (b : Back) (vs : List V) : Option (List Event × Option Wire) :=
  match bind b.params vs with
  | none => none
  | some env =>
    match declare b.lang env b.lets with
    | none => none
    | some env =>
      match env.getAll b.passes with
      | none => none
      | some vs =>
        match invoked env b.callee vs with
        | none => none
        | some (f, vs) => (answer env b.result (w f vs)).map ([(f, vs)], ·)

/-- What a front makes of the answer. -/
def conclude : FrontResult → Wire → Option Outcome
  | .direct, .plain v none => some (.ret v)
  | .out x, .plain _ (some (y, v)) => if x = y then some (.ret v) else none
  | .checked none, .flag none none => some (.ret .unit)
  | .checked (some x), .flag none (some (y, v)) => if x = y then some (.ret v) else none
  | .checked _, .flag (some m) none => some (.throw m)
  | _, _ => none

/-- The linker: there must be exactly one definition. -/
def link (ds : List (Symbol × Def)) (s : Symbol) : Option Def :=
  match ds.filter (fun d => d.1 = s) with
  | [d] => some d.2
  | _ => none

/-- A front runs: the calls of functions of the user, and the result for the caller, `none` if the process is
aborted. -/
def runFront (w : World) (ds : List (Symbol × Def)) (f : Front) (vs : List V) :
    Option (List Event × Option Outcome) :=
  match bind f.params vs with
  | none => none
  | some env =>
    match declare f.lang env f.lets with
    | none => none
    | some env =>
      match env.getAll f.passes, link ds f.symbol with
      | some vs, some (.back b) =>
        match runBack w b vs with
        | none => none
        | some (events, none) => some (events, none)
        | some (events, some wire) => (conclude f.result wire).map (fun o => (events, some o))
      | _, _ => none

/-- include/cxx.h:532-535 `Fn::operator()`: `(*this->trampoline)(args..., this->fn)`. -/
def callFat (w : World) (ds : List (Symbol × Def)) (t : Symbol) (f : FnName) (vs : List V) :
    Option (List Event × Option Outcome) :=
  match link ds t with
  | some (.front front) => runFront w ds front (vs ++ [.code f])
  | _ => none

/-! ### What is meant -/

/-- The result for the caller of a function: as it is if the function is declared to return a `Result`; otherwise a
failure is the end of the process. -/
def delivered (throws hasResult : Bool) : Outcome → Option Outcome
  | .ret v => some (.ret (if throws && !hasResult then .unit else v))
  | .throw m => if throws then some (.throw m) else none
  | .panic => none

/-- The name the caller uses for an item. -/
inductive CallerName (apis : List Api) : Api → FnName → Prop
  | cxxFree (f : ExternFn) (h : f.sig.receiver = none) : CallerName apis (.cxxFunction f) (.rust none f.name.rust)
  | cxxMethod (f : ExternFn) (r : Receiver) (h : f.sig.receiver = some r) :
      CallerName apis (.cxxFunction f) (.rust (some r.ty.rust) f.name.rust)
  | rustFree (f : ExternFn) (h : f.sig.receiver = none) : CallerName apis (.rustFunction f) (.cxx f.name.ns f.name.cxx)
  | rustMethod (f : ExternFn) (r : Receiver) (p : Pair) (h : f.sig.receiver = some r) (hp : Names apis r.ty.rust p) :
      CallerName apis (.rustFunction f) (.member p.ns p.cxx f.name.cxx)

/-- The function of the user an item stands for. -/
inductive Meant (apis : List Api) : Api → FnName → Prop
  | cxxFree (f : ExternFn) (h : f.sig.receiver = none) : Meant apis (.cxxFunction f) (.cxx f.name.ns f.name.cxx)
  | cxxMethod (f : ExternFn) (r : Receiver) (p : Pair) (h : f.sig.receiver = some r) (hp : Names apis r.ty.rust p) :
      Meant apis (.cxxFunction f) (.member p.ns p.cxx f.name.cxx)
  | rustFree (f : ExternFn) (h : f.sig.receiver = none) : Meant apis (.rustFunction f) (.rust none f.name.rust)
  | rustMethod (f : ExternFn) (r : Receiver) (h : f.sig.receiver = some r) :
      Meant apis (.rustFunction f) (.rust (some r.ty.rust) f.name.rust)

/-- How the callee sees an argument: as it is; and a function pointer as something that, called with any arguments,
calls the function with these arguments and hands back its result. -/
inductive Seen (w : World) (ds : List (Symbol × Def)) : Ty → V → V → Prop
  | same (ty : Ty) (v : V) (h : ∀ u as r th, ty ≠ .fn u as r th) : Seen w ds ty v v
  | callback (u : Bool) (as : List Ty) (r : Option Ty) (th : Bool) (f : FnName) (t : Symbol)
      (h : ∀ vs, vs.length = as.length →
        callFat w ds t f vs = some ([(f, vs)], delivered false r.isSome (w f vs))) :
      Seen w ds (.fn u as r th) (.code f) (.fat t f)

/-- Position by position. -/
inductive SeenAll (w : World) (ds : List (Symbol × Def)) : List Ty → List V → List V → Prop
  | nil : SeenAll w ds [] [] []
  | cons {ty : Ty} {v v' : V} {tys : List Ty} {vs vs' : List V} (h : Seen w ds ty v v')
      (t : SeenAll w ds tys vs vs') : SeenAll w ds (ty :: tys) (v :: vs) (v' :: vs')

/-! ### What is assumed of names -/

/-- The arguments of a function are called differently, as both compilers demand, and none has the name of a keyword
that the generated code makes use of.  The parser gives an argument one name for both languages. -/
structure ArgNames (f : ExternFn) : Prop where
  same : ∀ a ∈ f.sig.args, a.name.cxx = a.name.rust
  nodup : (f.sig.args.map (·.name.rust)).Nodup
  keywords : ∀ a ∈ f.sig.args, a.name.rust ∉ ["self", "this", "return"]
  name : f.name.rust ≠ "return"

/-- The same for the arguments of a function pointer; names with two underscores are not checked by anybody there. -/
structure CallbackArgs (names : List Name) (arity : Nat) : Prop where
  length : names.length = arity
  nodup : names.Nodup
  keywords : ∀ x ∈ names, x ∉ ["extern", "return", "__return", "__extern"]
  lexical : ∀ x ∈ names, Lexical x

/-- The names that clash: an argument `error` of a fallible Rust function that is passed by address, and a fallible
C++ function that is called `throw` in Rust. -/
def NoClash (cx : Ctx) : Api → Prop
  | .rustFunction f => f.sig.throws = true → ∀ a ∈ f.sig.args, cx.needsIndirect a.ty = true → a.name.cxx ≠ "error"
  | .cxxFunction f => f.sig.throws = true → f.name.rust ≠ "throw"
  | _ => True

/-- No two methods of the bridge have the same Rust name and namespace, and receivers with types of the same
unqualified C++ name (`functions_distinct_partial`). -/
def NoTwinMethods (apis : List Api) : Prop :=
  ∀ (i j : Nat) (x y : Api) (f f' : ExternFn), i ≠ j → apis[i]? = some x → apis[j]? = some y →
    (x = .cxxFunction f ∨ x = .rustFunction f) → (y = .cxxFunction f' ∨ y = .rustFunction f') →
    f.sig.receiver.isSome = true → ¬ SameFn apis f f'

/-- A Rust method is in the same C++ namespace as the type it belongs to. -/
def InNamespaceOfType (apis : List Api) : Api → Prop
  | .rustFunction f => ∀ r p, f.sig.receiver = some r → Names apis r.ty.rust p → f.name.ns = p.ns
  | _ => True

end Verif.Call
