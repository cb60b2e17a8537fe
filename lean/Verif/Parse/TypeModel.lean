import Verif.Syntax.Ast
/-!
# Types as written and as expanded: `syntax/parse.rs` (`parse_type` and below), `syntax/tokens.rs`

The starting point is the type that syn has parsed.  Spans, commas and the spelling of integer literals are left out.
-/
namespace Verif.Parse
open Verif.Syntax

/-- `syn::GenericArgument`. -/
inductive GArg (τ : Type)
  | lifetime (l : Ident)
  | type (t : τ)
  /-- a constant, a binding, a constraint -/
  | other

/-- `syn::PathArguments`. -/
inductive PathArgs (τ : Type)
  | none
  | angle (args : List (GArg τ))
  | paren

/-- The length of an array, `syn::Expr`. -/
inductive Len
  | int (n : Nat)
  /-- a literal that is not an integer -/
  | lit
  | expr

/-- `syn::Type`.  Of a path the segments before the last one are reduced to their identifiers; attributes of the
arguments of a function pointer are left out. -/
inductive RTy
  | reference (lifetime : Option Ident) (mutable : Bool) (elem : RTy)
  | ptr (mutable : Bool) (elem : RTy)
  | path (qself leadingColon : Bool) (before : List Ident) (last : Ident) (args : PathArgs RTy)
  | array (elem : RTy) (len : Len)
  /-- `binder`: `for<..>`; `abi`: `extern` with the text of the literal, if there is one -/
  | bareFn (binder unsafety : Bool) (abi : Option (Option String)) (args : List (Option Ident × RTy)) (variadic : Bool)
      (output : Option RTy)
  | tuple (elems : List RTy)
  | slice (elem : RTy)
  | other

/-- The errors of these functions. -/
inductive TypeErr
  | unsupported
  | cxxQualifier
  | lengthNotLiteral
  | lengthNotInteger
  | lengthTooLarge
  | zeroLength
  | fnLifetimes
  | fnVariadic
  deriving DecidableEq, Repr

/-- The number of values of `usize` where the generator runs (64 bit). -/
def usizeSize : Nat := 18446744073709551616

/-- syntax/parse.rs:1336-1350: the length of an array. -/
def parseLen : Len → Except TypeErr Nat
  | .expr => .error .lengthNotLiteral
  | .lit => .error .lengthNotInteger
  | .int n =>
    if usizeSize ≤ n then .error .lengthTooLarge
    else if n = 0 then .error .zeroLength
    else .ok n

/-- syntax/parse.rs:1293-1316: all generic arguments, if they are lifetimes only. -/
def onlyLifetimes {τ : Type} : List (GArg τ) → Option (List Ident)
  | [] => some []
  | .lifetime l :: rest => (onlyLifetimes rest).map (l :: ·)
  | _ :: _ => none

/-- syntax/parse.rs:1323-1330: how `parse_type_path` fails. -/
def pathError {α : Type} (qself : Bool) (before : List Ident) : Except TypeErr α :=
  if !qself ∧ before = ["cxx"] then .error .cxxQualifier else .error .unsupported

/-- The six generic types of syntax/parse.rs:1221-1280. -/
def generic (name : Ident) : Option (Ty → Ty) :=
  if name = "UniquePtr" then some .uniquePtr
  else if name = "SharedPtr" then some .sharedPtr
  else if name = "WeakPtr" then some .weakPtr
  else if name = "CxxVector" then some .cxxVector
  else if name = "Box" then some .rustBox
  else if name = "Vec" then some .rustVec
  else none

/-- syntax/parse.rs:1172-1193: a reference to something that is not a slice. -/
def refTo (lifetime : Option Ident) (mutable : Bool) (inner : Ty) : Except TypeErr Ty :=
  match inner with
  | .ident n =>
    if n.rust = "str" then
      if mutable then .error .unsupported else .ok (.str false lifetime mutable inner)
    else .ok (.ref false lifetime mutable inner)
  | _ => .ok (.ref false lifetime mutable inner)

mutual
/-- syntax/parse.rs:1141-1151 `parse_type`, with `parse_type_reference` (1153-1194), `parse_type_ptr` (1196-1211),
`parse_type_path` (1213-1331), `parse_type_array` (1333-1362) and `parse_type_fn` (1364-1434). -/
def parseType : RTy → Except TypeErr Ty
  | .reference lifetime mutable (.slice elem) =>
    match parseType elem with
    | .error e => .error e
    | .ok inner => .ok (.sliceRef lifetime mutable inner)
  | .reference lifetime mutable elem =>
    match parseType elem with
    | .error e => .error e
    | .ok inner => refTo lifetime mutable inner
  | .ptr mutable elem =>
    match parseType elem with
    | .error e => .error e
    | .ok inner => .ok (.ptr mutable inner)
  | .path qself leadingColon before last args =>
    if !qself ∧ !leadingColon ∧ before = [] then
      match args with
      | .none => .ok (.ident ⟨last, []⟩)
      | .angle [.type arg] =>
        match generic last with
        | some make =>
          match parseType arg with
          | .error e => .error e
          | .ok inner => .ok (make inner)
        | none =>
          if last = "Pin" then
            match parseType arg with
            | .error e => .error e
            | .ok (.ref _ lifetime mutable inner) => .ok (.ref true lifetime mutable inner)
            | .ok _ => pathError qself before
          else pathError qself before
      | .angle args =>
        if args.length = 1 ∧ ((generic last).isSome ∨ last = "Pin") then pathError qself before
        else
          match onlyLifetimes args with
          | some lifetimes => .ok (.ident ⟨last, lifetimes⟩)
          | none => pathError qself before
      | .paren => pathError qself before
    else pathError qself before
  | .array elem len =>
    match parseType elem with
    | .error e => .error e
    | .ok inner =>
      match parseLen len with
      | .error e => .error e
      | .ok n => .ok (.array inner n)
  | .bareFn binder unsafety _ args variadic output =>
    if binder then .error .fnLifetimes
    else if variadic then .error .fnVariadic
    else
      match parseArgs args with
      | .error e => .error e
      | .ok args =>
        match parseReturn output with
        | .error e => .error e
        | .ok (ret, throws) => .ok (.fn unsafety args ret throws)
  | .tuple [] => .ok .void
  | .tuple (_ :: _) => .error .unsupported
  | .slice _ => .error .unsupported
  | .other => .error .unsupported
/-- syntax/parse.rs:1379-1409: the arguments of a function pointer. -/
def parseArgs : List (Option Ident × RTy) → Except TypeErr (List Ty)
  | [] => .ok []
  | (_, arg) :: rest =>
    match parseType arg with
    | .error e => .error e
    | .ok ty =>
      match parseArgs rest with
      | .error e => .error e
      | .ok tys => .ok (ty :: tys)
/-- syntax/parse.rs:1436-1466 `parse_return_type`; the result says whether there was a `Result`. -/
def parseReturn : Option RTy → Except TypeErr (Option Ty × Bool)
  | none => .ok (none, false)
  | some (.path false false [] last (.angle [.type arg])) =>
    if last = "Result" then
      match parseType arg with
      | .error e => .error e
      | .ok .void => .ok (none, true)
      | .ok ty => .ok (some ty, true)
    else
      match parseType (.path false false [] last (.angle [.type arg])) with
      | .error e => .error e
      | .ok .void => .ok (none, false)
      | .ok ty => .ok (some ty, false)
  | some ret =>
    match parseType ret with
    | .error e => .error e
    | .ok .void => .ok (none, false)
    | .ok ty => .ok (some ty, false)
end

/-! ### Expansion -/

/-- A path `::cxx::..::name`. -/
def cxxPath (before : List Ident) (name : Ident) (args : PathArgs RTy) : RTy := .path false true ("cxx" :: before) name args

/-- syntax/tokens.rs:235-246 and 300-306 `ToTokens for Lifetimes`, `ToTokens for NamedType`: what stands behind the name.
An empty `<>` is left out. -/
def lifetimeArgs : List Ident → PathArgs RTy
  | [] => .none
  | ls => .angle (ls.map .lifetime)

/-- syntax/tokens.rs:10-24: `Type::Ident`. -/
def printNamed (n : NamedType) : RTy :=
  if n.rust = "c_char" then cxxPath ["core", "ffi"] n.rust (lifetimeArgs n.generics)
  else if n.rust = "CxxString" then cxxPath [] n.rust (lifetimeArgs n.generics)
  else if n.rust = "String" then cxxPath ["alloc", "string"] n.rust (lifetimeArgs n.generics)
  else .path false false [] n.rust (lifetimeArgs n.generics)

mutual
/-- syntax/tokens.rs:10-40 `ToTokens for Type`, with `Ty1` (59-84), `Ref` (86-110), `Ptr` (112-125), `SliceRef` (127-145),
`Array` (147-163) and `Signature` (248-287), read back as a type.  The token `pin_tokens` is there exactly if `pinned`
is set (syntax/parse.rs:1281-1291), likewise `mutability` and `mutable`.  The names of a function pointer's arguments are
left out. -/
def printType : Ty → RTy
  | .ident n => printNamed n
  | .uniquePtr inner => cxxPath [] "UniquePtr" (.angle [.type (printType inner)])
  | .sharedPtr inner => cxxPath [] "SharedPtr" (.angle [.type (printType inner)])
  | .weakPtr inner => cxxPath [] "WeakPtr" (.angle [.type (printType inner)])
  | .cxxVector inner => cxxPath [] "CxxVector" (.angle [.type (printType inner)])
  | .rustBox inner => cxxPath ["alloc", "boxed"] "Box" (.angle [.type (printType inner)])
  | .rustVec inner => cxxPath ["alloc", "vec"] "Vec" (.angle [.type (printType inner)])
  | .ref pinned lifetime mutable inner | .str pinned lifetime mutable inner =>
    if pinned then cxxPath ["core", "pin"] "Pin" (.angle [.type (.reference lifetime mutable (printType inner))])
    else .reference lifetime mutable (printType inner)
  | .ptr mutable inner => .ptr mutable (printType inner)
  | .sliceRef lifetime mutable inner => .reference lifetime mutable (.slice (printType inner))
  | .array inner len => .array (printType inner) (.int len)
  | .void => .tuple []
  | .fn _ args ret throws =>
    .bareFn false false none (printArgs args) false (printReturn ret throws)
/-- syntax/tokens.rs:262-264: the arguments. -/
def printArgs : List Ty → List (Option Ident × RTy)
  | [] => []
  | a :: as => (none, printType a) :: printArgs as
/-- syntax/tokens.rs:265-285: the return type. -/
def printReturn : Option Ty → Bool → Option RTy
  | some ret, true => some (.path false false [] "Result" (.angle [.type (printType ret)]))
  | some ret, false => some (printType ret)
  | none, true => some (.path false false [] "Result" (.angle [.type (.tuple [])]))
  | none, false => none
end

end Verif.Parse
