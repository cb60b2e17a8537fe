import Verif.Abi.Model
/-!
# Which function runs when a function of the bridge is called, and with which arguments

A call runs through two generated functions.  The front is what the caller calls; it declares local variables and
calls a symbol.  The linker finds the back with this symbol, which calls the function of the user.  Both are modelled
with the names of their parameters and local variables, and run on values.  How values are converted is in `Verif/Abi`
(types) and `Verif/Shim` (ownership), and not repeated here.
-/
namespace Verif.Call
open Verif.Syntax Verif.Types Verif.Abi Verif.Mangle

/-- The name of a variable. -/
abbrev Name := String

/-- A function that the user has written. -/
inductive FnName
  /-- `super::name`, or `owner::name` -/
  | rust (owner : Option Ident) (name : Ident)
  /-- `::ns::name` -/
  | cxx (ns : Namespace) (name : Ident)
  /-- `&::ns::owner::name` -/
  | member (ns : Namespace) (owner : Ident) (name : Ident)
  /-- a Rust function that is known by its address only -/
  | pointer (p : Nat)
  deriving DecidableEq, Repr

/-- A value at run time. -/
inductive V
  | unit
  | data (n : Nat)
  /-- a bare function -/
  | code (f : FnName)
  /-- `rust::Fn`, `FatFunction`: the symbol of the trampoline, and the function -/
  | fat (trampoline : Symbol) (fn : FnName)
  /-- the address of an uninitialised local variable -/
  | slot (x : Name)
  deriving DecidableEq, Repr

/-- What a local variable is initialised with. -/
inductive Rhs
  | var (y : Name)
  | uninit
  | fat (trampoline : Symbol) (y : Name)
  | fn (f : FnName)

/-- How the front gets at the result of the call. -/
inductive FrontResult
  /-- it is the value of the call -/
  | direct
  /-- it is in the local variable `x` -/
  | out (x : Name)
  /-- the value of the call says whether it failed; if not the result is in `x`, if there is one -/
  | checked (x : Option Name)

/-- A generated function for the caller.  `lang` is the language of its text. -/
structure Front where
  lang : Lang
  name : FnName
  params : List Name
  lets : List (Name × Rhs)
  symbol : Symbol
  passes : List Name
  result : FrontResult

/-- What a back calls. -/
inductive Callee
  /-- the function that the variable holds -/
  | var (x : Name)
  /-- a local function with these parameters, that calls `target` with these variables -/
  | wrapper (params : List Name) (target : FnName) (passes : List Name)

/-- What a back does with the result. -/
inductive BackResult
  | direct
  /-- writes it to where `x` points -/
  | store (x : Name)
  /-- returns whether it failed; if not writes the result to where `x` points, if there is one -/
  | caught (x : Option Name)

/-- A generated function with a symbol, that calls the user's. -/
structure Back where
  lang : Lang
  params : List Name
  lets : List (Name × Rhs)
  callee : Callee
  passes : List Name
  result : BackResult

/-- What a symbol stands for.  A trampoline is both: C++ calls it through its symbol, and it calls another one. -/
inductive Def
  | back (b : Back)
  | front (f : Front)

/-! ### C++ functions that Rust calls -/

/-- The name of the out-pointer, if there is one. -/
def outName (indirect : Bool) (x : Name) : List Name := if indirect then [x] else []

/-- An argument that is a function pointer. -/
def isFn : Ty → Bool
  | .fn .. => true
  | _ => false

/-- macro/src/expand.rs:600-611 and 787-824 `expand_function_pointer_trampoline`: the arguments that are function
pointers become `FatFunction`s. -/
def fatLets (cx : Ctx) (f : ExternFn) : List Var → Option (List (Name × Rhs))
  | [] => some []
  | a :: as =>
    if isFn a.ty then
      match cTrampoline cx.types f a.name, fatLets cx f as with
      | some t, some ls => some ((a.name.rust, .fat t a.name.rust) :: ls)
      | _, _ => none
    else fatLets cx f as

/-- macro/src/expand.rs:612-625: `let mut x = MaybeUninit::new(x);`. -/
def uninitLets (cx : Ctx) (args : List Var) : List (Name × Rhs) :=
  (args.filter (fun a => cx.needsIndirect a.ty)).map (fun a => (a.name.rust, .var a.name.rust))

/-- macro/src/expand.rs:501-785 `expand_cxx_function_shim`. -/
def cxxFront (cx : Ctx) (f : ExternFn) : Option Front :=
  match externFn cx.types f, fatLets cx f f.sig.args with
  | some s, some fats =>
    let indirect := indirectReturnR cx f.sig.ret f.sig.throws
    some
      { lang := .rust
        name := .rust (f.sig.receiver.map (·.ty.rust)) f.name.rust
        params := (f.sig.receiver.map (fun _ => "self")).toList ++ f.sig.args.map (·.name.rust)
        lets := fats ++ uninitLets cx f.sig.args ++ (outName indirect "__return").map (·, .uninit)
        symbol := s
        passes := (f.sig.receiver.map (fun _ => "self")).toList ++ f.sig.args.map (·.name.rust) ++
          outName indirect "__return"
        result :=
          if indirect then
            if f.sig.throws then .checked (some "__return") else .out "__return"
          else if f.sig.throws then .checked none else .direct }
  | _, _ => none

/-- gen/src/write.rs:806-814: the C++ function that a shim calls. -/
def cxxTarget (cx : Ctx) (f : ExternFn) : Option FnName :=
  match f.sig.receiver with
  | none => some (.cxx f.name.ns f.name.cxx)
  | some r => (resolve cx.types r.ty.rust).map (fun p => .member p.ns p.cxx f.name.cxx)

/-- gen/src/write.rs:736-905 `write_cxx_function_shim`.  The pointer to the function is the local variable `f$`; `throw$`
holds the error. -/
def cxxBack (cx : Ctx) (f : ExternFn) : Option Back :=
  (cxxTarget cx f).map fun t =>
    let indirect := indirectReturnC cx f.sig.ret f.sig.throws
    { lang := .cxx
      params := (f.sig.receiver.map (fun _ => "self")).toList ++ f.sig.args.map (·.name.cxx) ++
        outName indirect "return$"
      lets := (f.name.rust ++ "$", .fn t) :: (if f.sig.throws then [("throw$", .uninit)] else [])
      callee := .var (f.name.rust ++ "$")
      passes := (f.sig.receiver.map (fun _ => "self")).toList ++ f.sig.args.map (·.name.cxx)
      result :=
        if f.sig.throws then .caught (if indirect then some "return$" else none)
        else if indirect then .store "return$" else .direct }

/-! ### Rust functions that C++ calls -/

/-- gen/src/write.rs:1058-1066: `ManuallyDrop<T> x$(std::move(x));`. -/
def dropLets (cx : Ctx) (args : List (Name × Ty)) : List (Name × Rhs) :=
  (args.filter (fun a => !isRustString a.2 && cx.needsIndirect a.2)).map (fun a => (a.1 ++ "$", .var a.1))

/-- gen/src/write.rs:1118-1133: how an argument is passed on. -/
def passArg (cx : Ctx) (a : Name × Ty) : Name :=
  match a.2 with
  | .rustBox _ | .uniquePtr _ => a.1
  | t => if !isRustString t && cx.needsIndirect t then a.1 ++ "$" else a.1

/-- gen/src/write.rs:1036-1175 `write_rust_function_shim_impl`, with the parameters from 1003-1034
`write_rust_function_shim_decl`.  `pointer` is `indirect_call`. -/
def rustFrontImpl (cx : Ctx) (name : FnName) (symbol : Symbol) (receiver : Bool) (args : List (Name × Ty))
    (ret : Option Ty) (throws pointer : Bool) : Front :=
  let indirect := indirectReturnC cx ret throws
  { lang := .cxx
    name
    params := (if receiver then ["this"] else []) ++ args.map (·.1) ++ (if pointer then ["extern$"] else [])
    lets := dropLets cx args ++ (outName indirect "return$").map (·, .uninit) ++
      (if throws then [("error$", .uninit)] else [])
    symbol
    passes := (if receiver then ["this"] else []) ++ args.map (passArg cx) ++ outName indirect "return$" ++
      (if pointer then ["extern$"] else [])
    result :=
      if throws then .checked (if indirect then some "return$" else none)
      else if indirect then .out "return$" else .direct }

/-- gen/src/write.rs:987-1001 `write_rust_function_shim`.  The name of a method is that of the type and its own, in the
namespace of the function. -/
def rustFront (cx : Ctx) (f : ExternFn) : Option Front :=
  match externFn cx.types f with
  | none => none
  | some s =>
    match f.sig.receiver with
    | none => some (rustFrontImpl cx (.cxx f.name.ns f.name.cxx) s false (f.sig.args.map (fun a => (a.name.cxx, a.ty)))
        f.sig.ret f.sig.throws false)
    | some r => (resolve cx.types r.ty.rust).map fun p =>
        rustFrontImpl cx (.member f.name.ns p.cxx f.name.cxx) s true (f.sig.args.map (fun a => (a.name.cxx, a.ty)))
          f.sig.ret f.sig.throws false

/-- macro/src/expand.rs:1060-1073: the local function, or the argument `__extern`. -/
def rustCallee (vars : List Name) : Option FnName → Callee
  | some t => .wrapper vars t vars
  | none => .var "__extern"

/-- macro/src/expand.rs:966-1179 `expand_rust_function_shim_impl`; `target` is what
`expand_rust_function_shim_super` (1183-1246) calls, and `none` for a trampoline, which calls the function behind
`__extern`. -/
def rustBackImpl (cx : Ctx) (target : Option FnName) (receiver : Bool) (args : List (Name × Ty)) (ret : Option Ty)
    (throws : Bool) : Back :=
  let indirect := indirectReturnR cx ret throws
  let vars := (if receiver then ["__self"] else []) ++ args.map (·.1)
  { lang := .rust
    params := vars ++ outName indirect "__return" ++ (if target.isNone then ["__extern"] else [])
    lets := []
    callee := rustCallee vars target
    passes := vars
    result :=
      if throws then .caught (if ret.isSome then some "__return" else none)
      else if indirect then .store "__return" else .direct }

/-- macro/src/expand.rs:941-964 `expand_rust_function_shim`. -/
def rustBack (cx : Ctx) (f : ExternFn) : Back :=
  rustBackImpl cx (some (.rust (f.sig.receiver.map (·.ty.rust)) f.name.rust)) f.sig.receiver.isSome
    (f.sig.args.map (fun a => (a.name.rust, a.ty))) f.sig.ret f.sig.throws

/-! ### Function pointers -/

/-- The names of the arguments of a function pointer type, as parse.rs:1379-1409 gives them; the syntax tree of the
model does not have them.  The function, and which of its arguments. -/
abbrev CallbackNames := ExternFn → Pair → List Name

/-- gen/src/write.rs:907-916 `write_function_pointer_trampoline` and macro/src/expand.rs:787-824
`expand_function_pointer_trampoline`: both halves of the trampoline for one argument. -/
def trampolines (cx : Ctx) (names : CallbackNames) (f : ExternFn) (a : Var) : Option (List (Symbol × Def)) :=
  match a.ty with
  | .fn _ args ret throws =>
    match cTrampoline cx.types f a.name, rTrampoline cx.types f a.name with
    | some c, some r =>
      let vars := (names f a.name).zip args
      some
        [(r, .back (rustBackImpl cx none false vars ret throws)),
         (c, .front (rustFrontImpl cx (.cxx f.name.ns "") r false vars ret throws true))]
    | _, _ => none
  | _ => some []

/-- The trampolines for all arguments. -/
def allTrampolines (cx : Ctx) (names : CallbackNames) (f : ExternFn) : List Var → Option (List (Symbol × Def))
  | [] => some []
  | a :: as =>
    match trampolines cx names f a, allTrampolines cx names f as with
    | some x, some y => some (x ++ y)
    | _, _ => none

/-! ### The whole bridge -/

/-- macro/src/expand.rs:63-147 and gen/src/write.rs:163-189: what the generated code of both languages defines for one
item. -/
def apiDefs (cx : Ctx) (names : CallbackNames) : Api → Option (List (Symbol × Def))
  | .cxxFunction f =>
    match externFn cx.types f, cxxBack cx f, allTrampolines cx names f f.sig.args with
    | some s, some b, some ts => some ((s, .back b) :: ts)
    | _, _, _ => none
  | .rustFunction f => (externFn cx.types f).map (fun s => [(s, .back (rustBack cx f))])
  | _ => some []

/-- The same for all items. -/
def defs (cx : Ctx) (names : CallbackNames) : List Api → Option (List (Symbol × Def))
  | [] => some []
  | a :: as =>
    match apiDefs cx names a, defs cx names as with
    | some x, some y => some (x ++ y)
    | _, _ => none

/-- The functions for callers. -/
def apiFront (cx : Ctx) : Api → Option Front
  | .cxxFunction f => cxxFront cx f
  | .rustFunction f => rustFront cx f
  | _ => none

end Verif.Call
