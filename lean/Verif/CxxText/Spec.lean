import Verif.Abi.Spec
import Verif.Check.Spec
/-!
# Reading C++

A reader for the part of C++ in which types and function declarations are written: the tokens, with longest match and the
rule for `<::`, and the grammar.  It knows nothing of the generator.  `Means` says which C++ type stands for which Rust
type, as in the table of the book; `WellFormed` is what C++ demands of a type beyond its grammar.
-/
namespace Verif.CxxText
open Verif.Syntax Verif.Abi

/-! ### Tokens -/

/-- A token of C++; `bad` is one that no declaration read here has: `&&`, `[` (also spelled `<:`), a lone `:`. -/
inductive Tok
  | word (w : List Char)
  | colons
  | lt
  | gt
  | comma
  | lparen
  | rparen
  | star
  | amp
  | eq
  | semi
  | bad
  deriving DecidableEq, Repr

/-- What identifiers, keywords and numbers are made of.  All characters outside ASCII are taken for letters, and `$`, as the
compilers do. -/
def isWordChar (c : Char) : Bool :=
  (decide ('a' ≤ c) && decide (c ≤ 'z')) || (decide ('A' ≤ c) && decide (c ≤ 'Z')) || (decide ('0' ≤ c) && decide (c ≤ '9')) ||
    c == '_' || c == '$' || decide (128 ≤ c.toNat)

/-- Is what follows a `<` such that the two characters `<:` are the token `[`?  [lex.pptoken]: not if they begin `<::` and
the next character is neither `:` nor `>`. -/
def bracket : List Char → Bool
  | ':' :: ':' :: c :: _ => c == ':' || c == '>'
  | ':' :: _ => true
  | _ => false

/-- The word read so far. -/
def flush (w : List Char) : List Tok := if w = [] then [] else [.word w]

/-- The tokens of a line, with the word that has been begun. -/
def lex : List Char → List Char → List Tok
  | w, [] => flush w
  | w, ':' :: ':' :: r => flush w ++ .colons :: lex [] r
  | w, '&' :: '&' :: r => flush w ++ .bad :: lex [] r
  | w, c :: r =>
    if isWordChar c then lex (w ++ [c]) r
    else flush w ++
      (if c = ' ' then lex [] r
       else if c = '<' then (if bracket r then .bad else .lt) :: lex [] r
       else if c = '>' then .gt :: lex [] r
       else if c = ',' then .comma :: lex [] r
       else if c = '(' then .lparen :: lex [] r
       else if c = ')' then .rparen :: lex [] r
       else if c = '*' then .star :: lex [] r
       else if c = '&' then .amp :: lex [] r
       else if c = '=' then .eq :: lex [] r
       else if c = ';' then .semi :: lex [] r
       else .bad :: lex [] r)

/-- The words that are not names: the keywords of C++20, [lex.key], and the alternative tokens. -/
def keywords : List String :=
  ["alignas", "alignof", "asm", "auto", "bool", "break", "case", "catch", "char", "char8_t", "char16_t", "char32_t", "class",
   "concept", "const", "consteval", "constexpr", "constinit", "const_cast", "continue", "co_await", "co_return", "co_yield",
   "decltype", "default", "delete", "do", "double", "dynamic_cast", "else", "enum", "explicit", "export", "extern", "false",
   "float", "for", "friend", "goto", "if", "inline", "int", "long", "mutable", "namespace", "new", "noexcept", "nullptr",
   "operator", "private", "protected", "public", "register", "reinterpret_cast", "requires", "return", "short", "signed",
   "sizeof", "static", "static_assert", "static_cast", "struct", "switch", "template", "this", "thread_local", "throw", "true",
   "try", "typedef", "typeid", "typename", "union", "unsigned", "using", "virtual", "void", "volatile", "wchar_t", "while",
   "and", "and_eq", "bitand", "bitor", "compl", "not", "not_eq", "or", "or_eq", "xor", "xor_eq"]

/-- The keywords that are types by themselves. -/
def primitives : List String := ["bool", "char", "float", "double", "void"]

/-- Does the word begin with a digit? -/
def isNumber : List Char → Bool
  | [] => false
  | c :: _ => decide ('0' ≤ c) && decide (c ≤ '9')

/-- A name of C++. -/
def isName (w : List Char) : Bool :=
  w != [] && w.all isWordChar && !isNumber w && !keywords.any (fun k => k.toList == w)

/-- A name, or a keyword. -/
def isWord (w : List Char) : Bool := w != [] && w.all isWordChar && !isNumber w

/-! ### Types -/

/-- A type of C++; `number` is for the template arguments that are not types. -/
inductive CType
  | prim (w : List Char)
  /-- `::a::b`, or `::a::b<args>` -/
  | path (p : List (List Char)) (args : List CType)
  | number (digits : List Char)
  | const (t : CType)
  | ptr (t : CType)
  | ref (t : CType)
  /-- `ret(params)` -/
  | fn (ret : CType) (params : List CType)
  deriving Repr

/-- What may follow a type: `const`, `*` and `&`, applied from left to right. -/
def suffix : CType → List Tok → CType × List Tok
  | t, .star :: r => suffix (.ptr t) r
  | t, .amp :: r => suffix (.ref t) r
  | t, .word w :: r => if w = "const".toList then suffix (.const t) r else (t, .word w :: r)
  | t, r => (t, r)

/-- `::a::b…` -/
def readPath : List Tok → List (List Char) × List Tok
  | .colons :: .word w :: r => let (p, r) := readPath r; (w :: p, r)
  | r => ([], r)

mutual
/-- A type: a primitive or a path with its arguments, and what follows it.  The number bounds the depth. -/
def readType : Nat → List Tok → Option (CType × List Tok)
  | 0, _ => none
  | n + 1, .word w :: r => if primitives.any (fun k => k.toList == w) then some (suffix (.prim w) r) else none
  | n + 1, .colons :: r =>
    let (p, r) := readPath (.colons :: r)
    if p ≠ [] ∧ p.all isName then
      match r with
      | .lt :: r => (readArgs n r).map fun (args, r) => suffix (.path p args) r
      | r => some (suffix (.path p []) r)
    else none
  | _ + 1, _ => none
/-- Template arguments, up to the `>`: numbers, types, and types of functions. -/
def readArgs : Nat → List Tok → Option (List CType × List Tok)
  | 0, _ => none
  | n + 1, ts =>
    match readArg n ts with
    | some (a, .comma :: r) => (readArgs n r).map fun (as, r) => (a :: as, r)
    | some (a, .gt :: r) => some ([a], r)
    | _ => none
/-- One template argument. -/
def readArg : Nat → List Tok → Option (CType × List Tok)
  | 0, _ => none
  | n + 1, .word w :: r =>
    if isNumber w then some (.number w, r)
    else
      match readType n (.word w :: r) with
      | some (t, .lparen :: r) => (readParams n r).map fun (ps, r) => (.fn t (ps.map (·.1)), r)
      | o => o
  | n + 1, ts =>
    match readType n ts with
    | some (t, .lparen :: r) => (readParams n r).map fun (ps, r) => (.fn t (ps.map (·.1)), r)
    | o => o
/-- Parameters, up to the `)`. -/
def readParams : Nat → List Tok → Option (List (CType × Option (List Char)) × List Tok)
  | 0, _ => none
  | _ + 1, .rparen :: r => some ([], r)
  | n + 1, ts => readParams1 n ts
/-- At least one parameter, with its name if it has one. -/
def readParams1 : Nat → List Tok → Option (List (CType × Option (List Char)) × List Tok)
  | 0, _ => none
  | n + 1, ts =>
    match readType n ts with
    | some (t, .word w :: .comma :: r) =>
      if isName w then (readParams1 n r).map fun (ps, r) => ((t, some w) :: ps, r) else none
    | some (t, .word w :: .rparen :: r) => if isName w then some ([(t, some w)], r) else none
    | some (t, .comma :: r) => (readParams1 n r).map fun (ps, r) => ((t, none) :: ps, r)
    | some (t, .rparen :: r) => some ([(t, none)], r)
    | _ => none
end

/-- The type that a text says, if all of it is one type. -/
def typeOf (s : List Char) : Option CType :=
  match readType (s.length + 1) (lex [] s) with
  | some (t, []) => some t
  | _ => none

/-! ### Declarations -/

/-- A declared function. -/
structure FnDecl where
  ret : CType
  name : List (List Char)
  params : List (CType × Option (List Char))
  isConst : Bool
  isNoexcept : Bool
  deriving Repr

/-- `a`, or `a::b` -/
def readName : List Tok → List (List Char) × List Tok
  | .word w :: r => let (p, r) := readPath r; (w :: p, r)
  | r => ([], r)

/-- `const` and `noexcept` behind the parameters. -/
def readQualifiers : List Tok → Option (Bool × Bool)
  | [] => some (false, false)
  | [.word w] =>
    if w = "const".toList then some (true, false) else if w = "noexcept".toList then some (false, true) else none
  | [.word v, .word w] => if v = "const".toList ∧ w = "noexcept".toList then some (true, true) else none
  | _ => none

/-- The function that a text declares. -/
def declOf (s : List Char) : Option FnDecl :=
  match readType (s.length + 1) (lex [] s) with
  | some (t, r) =>
    let (n, r) := readName r
    if n ≠ [] ∧ n.all isName then
      match r with
      | .lparen :: r =>
        match readParams (s.length + 1) r with
        | some (ps, r) => (readQualifiers r).map fun q => ⟨t, n, ps, q.1, q.2⟩
        | none => none
      | _ => none
    else none
  | none => none

/-- `T name`, as for a field. -/
def fieldOf (s : List Char) : Option (CType × List Char) :=
  match readType (s.length + 1) (lex [] s) with
  | some (t, [.word w]) => if isName w then some (t, w) else none
  | _ => none

/-- A pointer to a function, or to a member function of a class, and what it points to. -/
structure FnPtr where
  ret : CType
  /-- the class, for a pointer to a member function -/
  cls : Option (List (List Char))
  name : List Char
  params : List CType
  isConst : Bool
  /-- is there a `&` in front of the target? -/
  amp : Bool
  target : List (List Char)
  deriving Repr

/-- `*name`, or `::a::b::*name`, up to `)(`. -/
def readPtrName : List Tok → Option (Option (List (List Char)) × List Char × List Tok)
  | .star :: .word w :: .rparen :: .lparen :: r => if isName w then some (none, w, r) else none
  | ts =>
    match readPath ts with
    | (p, .colons :: .star :: .word w :: .rparen :: .lparen :: r) =>
      if p ≠ [] ∧ p.all isName ∧ isName w then some (some p, w, r) else none
    | _ => none

/-- `= ::a::f;`, or `= &::a::C::f;`, which may come after a `const`. -/
def readInit : List Tok → Option (Bool × Bool × List (List Char))
  | .word w :: .eq :: .amp :: r =>
    match readPath r with
    | (p, [.semi]) => if w = "const".toList ∧ p ≠ [] ∧ p.all isName then some (true, true, p) else none
    | _ => none
  | .word w :: .eq :: r =>
    match readPath r with
    | (p, [.semi]) => if w = "const".toList ∧ p ≠ [] ∧ p.all isName then some (true, false, p) else none
    | _ => none
  | .eq :: .amp :: r =>
    match readPath r with
    | (p, [.semi]) => if p ≠ [] ∧ p.all isName then some (false, true, p) else none
    | _ => none
  | .eq :: r =>
    match readPath r with
    | (p, [.semi]) => if p ≠ [] ∧ p.all isName then some (false, false, p) else none
    | _ => none
  | _ => none

/-- The pointer that a line declares and initializes. -/
def pointerOf (s : List Char) : Option FnPtr :=
  match readType (s.length + 1) (lex [] s) with
  | some (t, .lparen :: r) =>
    match readPtrName r with
    | some (c, w, r) =>
      match readParams (s.length + 1) r with
      | some (ps, r) => (readInit r).map fun i => ⟨t, c, w, ps.map (·.1), i.1, i.2.1, i.2.2⟩
      | none => none
    | none => none
  | _ => none

/-! ### Which C++ type stands for which Rust type -/

/-- `::rust::name`. -/
def inRust (name : String) (args : List CType) : CType := .path ["rust".toList, name.toList] args

/-- `::std::name`. -/
def inStd (name : String) (args : List CType) : CType := .path ["std".toList, name.toList] args

/-- `const`, unless mutable. -/
def CType.unless (t : CType) (mutable : Bool) : CType := if mutable then t else .const t

/-- book/src/bindings.md: the primitive types and the strings. -/
def atomType : Atom → CType
  | .bool => .prim "bool".toList
  | .char => .prim "char".toList
  | .u8 => inStd "uint8_t" []
  | .u16 => inStd "uint16_t" []
  | .u32 => inStd "uint32_t" []
  | .u64 => inStd "uint64_t" []
  | .usize => inStd "size_t" []
  | .i8 => inStd "int8_t" []
  | .i16 => inStd "int16_t" []
  | .i32 => inStd "int32_t" []
  | .i64 => inStd "int64_t" []
  | .isize => inRust "isize" []
  | .f32 => .prim "float".toList
  | .f64 => .prim "double".toList
  | .cxxString => inStd "string" []
  | .rustString => inRust "String" []

/-- The path of a C++ name. -/
def pathOf (p : Pair) : List (List Char) := p.ns.map String.toList ++ [p.cxx.toList]

/-- book/src/bindings.md: the C++ type of a Rust type.  A name stands for the C++ name that the bridge gives it. -/
inductive Means (apis : List Api) : Ty → CType → Prop
  | atom (t : NamedType) (a : Atom) (h : Atom.fromStr t.rust = some a) : Means apis (.ident t) (atomType a)
  | named (t : NamedType) (p : Pair) (ha : Atom.fromStr t.rust = none) (h : Names apis t.rust p) :
      Means apis (.ident t) (.path (pathOf p) [])
  | box {t : Ty} {c : CType} (h : Means apis t c) : Means apis (.rustBox t) (inRust "Box" [c])
  | vec {t : Ty} {c : CType} (h : Means apis t c) : Means apis (.rustVec t) (inRust "Vec" [c])
  | uniquePtr {t : Ty} {c : CType} (h : Means apis t c) : Means apis (.uniquePtr t) (inStd "unique_ptr" [c])
  | sharedPtr {t : Ty} {c : CType} (h : Means apis t c) : Means apis (.sharedPtr t) (inStd "shared_ptr" [c])
  | weakPtr {t : Ty} {c : CType} (h : Means apis t c) : Means apis (.weakPtr t) (inStd "weak_ptr" [c])
  | cxxVector {t : Ty} {c : CType} (h : Means apis t c) : Means apis (.cxxVector t) (inStd "vector" [c])
  | ref (pinned : Bool) (l : Option Ident) (mutable : Bool) {t : Ty} {c : CType} (h : Means apis t c) :
      Means apis (.ref pinned l mutable t) (.ref (c.unless mutable))
  | ptr (mutable : Bool) {t : Ty} {c : CType} (h : Means apis t c) :
      Means apis (.ptr mutable t) (.ptr (c.unless mutable))
  | str (pinned : Bool) (l : Option Ident) (mutable : Bool) (t : Ty) :
      Means apis (.str pinned l mutable t) (inRust "Str" [])
  | slice (l : Option Ident) (mutable : Bool) {t : Ty} {c : CType} (h : Means apis t c) :
      Means apis (.sliceRef l mutable t) (inRust "Slice" [c.unless mutable])
  | array {t : Ty} {c : CType} (n : Nat) (h : Means apis t c) :
      Means apis (.array t n) (inStd "array" [c, .number (Nat.repr n).toList])
  | fn (u : Bool) (args : List Ty) (ret : Option Ty) (throws : Bool) (ps : List CType) (r : CType)
      (hl : ps.length = args.length)
      (ha : ∀ (i : Nat) t c, args[i]? = some t → ps[i]? = some c → Means apis t c)
      (hn : ret = none → r = .prim "void".toList) (hr : ∀ t, ret = some t → Means apis t r) :
      Means apis (.fn u args ret throws) (inRust "Fn" [.fn r ps])

/-! ### The trees of `Verif.Abi.Model`

The same table for the types of the `extern "C"` functions, which are not all types of the bridge. -/

mutual
/-- The C++ type that a tree of the generator stands for. -/
def denote : CTok → CType
  | .atom a => atomType a
  | .named p => .path (pathOf p) []
  | .box t => inRust "Box" [denote t]
  | .vec t => inRust "Vec" [denote t]
  | .uniquePtr t => inStd "unique_ptr" [denote t]
  | .sharedPtr t => inStd "shared_ptr" [denote t]
  | .weakPtr t => inStd "weak_ptr" [denote t]
  | .vector t => inStd "vector" [denote t]
  | .lref m t => .ref ((denote t).unless m)
  | .star m t => .ptr ((denote t).unless m)
  | .str => inRust "Str" []
  | .slice m t => inRust "Slice" [(denote t).unless m]
  | .fn as r => inRust "Fn" [.fn (denoteRet r) (denoteArgs as)]
  | .array t n => inStd "array" [denote t, .number (Nat.repr n).toList]
  | .fat => .path ["rust".toList, "repr".toList, "Fat".toList] []
  | .ptrLen => .path ["rust".toList, "repr".toList, "PtrLen".toList] []
  | .voidPtr => .ptr (.prim "void".toList)
/-- For a return type. -/
def denoteRet : Option CTok → CType
  | none => .prim "void".toList
  | some t => denote t
/-- For the parameters. -/
def denoteArgs : List CTok → List CType
  | [] => []
  | t :: rest => denote t :: denoteArgs rest
end

/-! ### Well-formed types -/

/-- `const` and `*` and `&` may be applied to it, and it may be the type of an object: not a reference, not `void`, not a
function. -/
def CType.object : CType → Bool
  | .ref _ | .fn .. | .number _ => false
  | .prim w => w != "void".toList
  | _ => true

mutual
/-- [dcl.ref], [dcl.ptr], [dcl.type.cv], [dcl.fct]: `const` is written once, and not on a reference; there is no pointer and no
reference to a reference; an argument of a template is an object type, or a number, or for `::rust::Fn` a function; no
parameter is `void`. -/
def CType.wf : CType → Bool
  | .prim _ => true
  | .path p args => CType.wfArgs (p == ["rust".toList, "Fn".toList]) args
  | .number _ => true
  | .const (.const _) => false
  | .const t => t.object && t.wf
  | .ptr t => (t.object || t.isVoid) && t.wf
  | .ref t => t.object && t.wf
  | .fn r ps => r.wf && CType.wfParams ps
/-- `void` -/
def CType.isVoid : CType → Bool
  | .prim w => w == "void".toList
  | _ => false
/-- The arguments of a template. -/
def CType.wfArgs (function : Bool) : List CType → Bool
  | [] => true
  | .number _ :: rest => CType.wfArgs function rest
  | .fn r ps :: rest => function && CType.wf (.fn r ps) && CType.wfArgs function rest
  | t :: rest => t.object && t.wf && CType.wfArgs function rest
/-- The parameters of a function. -/
def CType.wfParams : List CType → Bool
  | [] => true
  | t :: rest => (match t with | .ref _ => true | _ => t.object) && t.wf && CType.wfParams rest
end

/-- The type has no slice and no array of references in it. -/
def NoRefElements (ty : Ty) : Prop :=
  ∀ p l m t, ¬ (∃ l' m', Types.Within (.sliceRef l' m' (.ref p l m t)) ty) ∧ ¬ (∃ n, Types.Within (.array (.ref p l m t) n) ty)

/-- The C++ names of the bridge are names of C++. -/
def LegalNames (apis : List Api) : Prop := ∀ n p, Names apis n p → (pathOf p).all isName = true

/-- The C++ names of the function and of its arguments are names of C++.  The Rust name is a word, and may be a keyword of
C++. -/
structure LegalFn (f : ExternFn) : Prop where
  name : (pathOf f.name).all isName = true
  rust : isWord f.name.rust.toList = true
  args : ∀ a ∈ f.sig.args, isName a.name.cxx.toList = true

/-- The declaration is the one of the function: its arguments with their names, its result, `const` for a method whose
receiver is not mutable, `noexcept` unless it returns a `Result`. -/
structure DeclaredAs (apis : List Api) (d : FnDecl) (f : ExternFn) : Prop where
  count : d.params.length = f.sig.args.length
  params : ∀ (i : Nat) a p, f.sig.args[i]? = some a → d.params[i]? = some p →
    Means apis a.ty p.1 ∧ p.2 = some a.name.cxx.toList
  void : f.sig.ret = none → d.ret = .prim "void".toList
  ret : ∀ t, f.sig.ret = some t → Means apis t d.ret
  const : d.isConst = true ↔ ∃ r, f.sig.receiver = some r ∧ r.mutable = false
  noexcept : d.isNoexcept = true ↔ f.sig.throws = false

/-- The pointer is to the C++ function: to the member of the class of the receiver, or to the function of that name, and of
the type that the bridge says. -/
structure PointsTo (apis : List Api) (d : FnPtr) (f : ExternFn) : Prop where
  count : d.params.length = f.sig.args.length
  params : ∀ (i : Nat) a p, f.sig.args[i]? = some a → d.params[i]? = some p → Means apis a.ty p
  void : f.sig.ret = none → d.ret = .prim "void".toList
  ret : ∀ t, f.sig.ret = some t → Means apis t d.ret
  function : f.sig.receiver = none → d.cls = none ∧ d.isConst = false ∧ d.amp = false ∧ d.target = pathOf f.name
  method : ∀ r, f.sig.receiver = some r → ∃ p, Names apis r.ty.rust p ∧ d.cls = some (pathOf p) ∧
    (d.isConst = true ↔ r.mutable = false) ∧ d.amp = true ∧ d.target = pathOf p ++ [f.name.cxx.toList]

end Verif.CxxText
