import Verif.Abi.Model
/-!
# `gen/src/write.rs`: the text of C++ types and declarations

`Verif.Abi.Model` stops at a tree for each C++ type that the generator writes.  Here are the characters.
-/
namespace Verif.CxxText
open Verif.Syntax Verif.Types Verif.Abi Verif.Mangle

/-- gen/src/names.rs:4-13 `Pair::to_fully_qualified`. -/
def qualified (p : Pair) : List Char :=
  (p.ns.flatMap fun s => "::".toList ++ s.toList) ++ "::".toList ++ p.cxx.toList

/-- gen/src/write.rs:1341-1360 `write_atom`. -/
def atomText : Atom → List Char
  | .bool => "bool".toList
  | .char => "char".toList
  | .u8 => "::std::uint8_t".toList
  | .u16 => "::std::uint16_t".toList
  | .u32 => "::std::uint32_t".toList
  | .u64 => "::std::uint64_t".toList
  | .usize => "::std::size_t".toList
  | .i8 => "::std::int8_t".toList
  | .i16 => "::std::int16_t".toList
  | .i32 => "::std::int32_t".toList
  | .i64 => "::std::int64_t".toList
  | .isize => "::rust::isize".toList
  | .f32 => "float".toList
  | .f64 => "double".toList
  | .cxxString => "::std::string".toList
  | .rustString => "::rust::String".toList

/-- gen/src/write.rs:1367-1383 `write_space_after_type`.  The three types that are written as literal text
(`voidPtr`, `fat`, `ptrLen`: gen/src/write.rs:741-742, 934-936, 1021-1026, 1229-1232) have their spacing there. -/
def spaceAfter : CTok → List Char
  | .lref .. | .star .. | .voidPtr => []
  | _ => [' ']

/-- gen/src/write.rs:1281-1283, 1288-1290: `const ` in front of `&` and `*`. -/
def constSpace (mutable : Bool) : List Char := if mutable then [] else "const ".toList

/-- gen/src/write.rs:1013-1019, 764-777, 1324-1327: what is written for each of the parameters, with `, ` between them. -/
def commaSep : List (List Char) → List Char
  | [] => []
  | [p] => p
  | p :: q :: rest => p ++ ", ".toList ++ commaSep (q :: rest)

mutual
/-- gen/src/write.rs:1252-1339 `write_type`.  `fat`, `ptrLen` and `voidPtr` are the types that are written as literal text
(gen/src/write.rs:742, 935, 982, 1231). -/
def text : CTok → List Char
  | .atom a => atomText a
  | .named p => qualified p
  | .box t => "::rust::Box<".toList ++ text t ++ ">".toList
  | .vec t => "::rust::Vec<".toList ++ text t ++ ">".toList
  | .uniquePtr t => "::std::unique_ptr<".toList ++ text t ++ ">".toList
  | .sharedPtr t => "::std::shared_ptr<".toList ++ text t ++ ">".toList
  | .weakPtr t => "::std::weak_ptr<".toList ++ text t ++ ">".toList
  | .vector t => "::std::vector<".toList ++ text t ++ ">".toList
  | .lref m t => text t ++ spaceAfter t ++ constSpace m ++ "&".toList
  | .star m t => text t ++ spaceAfter t ++ constSpace m ++ "*".toList
  | .str => "::rust::Str".toList
  | .slice m t =>
    "::rust::Slice<".toList ++ text t ++ spaceAfter t ++ (if m then [] else "const".toList) ++ ">".toList
  | .fn as r => "::rust::Fn<".toList ++ textRet r ++ "(".toList ++ commaSep (textArgs as) ++ ")>".toList
  | .array t n => "::std::array<".toList ++ text t ++ ", ".toList ++ (Nat.repr n).toList ++ ">".toList
  | .fat => "::rust::repr::Fat".toList
  | .ptrLen => "::rust::repr::PtrLen".toList
  | .voidPtr => "void *".toList
/-- gen/src/write.rs:1319-1322. -/
def textRet : Option CTok → List Char
  | none => "void".toList
  | some t => text t
/-- gen/src/write.rs:1324-1329. -/
def textArgs : List CTok → List (List Char)
  | [] => []
  | t :: rest => text t :: textArgs rest
end

/-- gen/src/write.rs:1362-1365 `write_type_space`. -/
def typeSpace (t : CTok) : List Char := text t ++ spaceAfter t

/-- gen/src/write.rs:1177-1182 `write_return_type`. -/
def returnType : Option CTok → List Char
  | none => "void ".toList
  | some t => typeSpace t

/-- gen/src/write.rs:1017-1018: one parameter; also :286-287 (a field, up to its default value). -/
def paramText (t : CTok) (name : Ident) : List Char := typeSpace t ++ name.toList

/-- gen/src/write.rs:988-998: the name of a function, or of a method behind that of its class. -/
def localName : List Ident → List Char
  | [] => []
  | [n] => n.toList
  | n :: m :: rest => n.toList ++ "::".toList ++ localName (m :: rest)

/-- gen/src/write.rs:1003-1034 `write_rust_function_shim_decl`, without the annotation that the options may put in front
of a function (`begin_function_definition`). -/
def shimDecl (name : List Ident) (params : List (CTok × Ident)) (ret : Option CTok) (indirectCall isConst isNoexcept : Bool) :
    List Char :=
  returnType ret ++ localName name ++ "(".toList ++
  commaSep (params.map fun p => paramText p.1 p.2) ++
  (if indirectCall then (if params = [] then [] else ", ".toList) ++ "void *extern$".toList else []) ++
  ")".toList ++ (if isConst then " const".toList else []) ++ (if isNoexcept then " noexcept".toList else [])

/-- gen/src/write.rs:749-759, 943-953: the receiver of the `extern "C"` function. -/
def selfText (p : Pair) (mutable : Bool) : List Char :=
  qualified p ++ (if mutable then [] else " const".toList) ++ " &self".toList

/-- gen/src/write.rs:927-985 `write_rust_function_decl_impl`, up to the semicolon, and :740-781, the head of
`write_cxx_function_shim`.  `slot` is the type in front of `*return$`; `indirectCall` adds the nameless `void *`. -/
def externDecl (link : Mangle.Symbol) (self : Option (Pair × Bool)) (params : List (CTok × Ident)) (ret : Option CTok)
    (slot : Option CTok) (indirectCall : Bool) : List Char :=
  returnType ret ++ link ++ "(".toList ++
  commaSep ((self.map fun s => selfText s.1 s.2).toList ++ (params.map fun p => paramText p.1 p.2) ++
    (slot.map fun t => typeSpace t ++ "*return$".toList).toList ++
    (if indirectCall then ["void *".toList] else [])) ++
  ") noexcept".toList

/-- gen/src/write.rs:783-816: the pointer to the C++ function, through which the shim calls it. -/
def pointerLine (rust : Ident) (cxx : Pair) (self : Option (Pair × Bool)) (params : List CTok) (ret : Option CTok) :
    List Char :=
  returnType ret ++
  (match self with
   | none => "(*".toList ++ rust.toList ++ "$)(".toList
   | some s => "(".toList ++ qualified s.1 ++ "::*".toList ++ rust.toList ++ "$)(".toList) ++
  commaSep (params.map text) ++ ")".toList ++
  (match self with
   | some s => if s.2 then [] else " const".toList
   | none => []) ++
  " = ".toList ++
  (match self with
   | none => qualified cxx
   | some s => "&".toList ++ qualified s.1 ++ "::".toList ++ cxx.cxx.toList) ++ ";".toList

/-- gen/src/write.rs:749-752, 943-946: the class of the receiver. -/
def selfOf (cx : Ctx) (r : Option Receiver) : Option (Option (Pair × Bool)) :=
  match r with
  | none => some none
  | some r => (resolve cx.types r.ty.rust).map fun p => some (p, r.mutable)

/-- gen/src/write.rs:775-781: the type in front of `*return$` for a C++ function. -/
def cxxSlot (cx : Ctx) (ret : Option Ty) (throws : Bool) : Option (Option CTok) :=
  match ret with
  | some ty => if indirectReturnC cx ret throws then (indirectReturnType cx ty).map some else some none
  | none => some none

/-- gen/src/write.rs:961-974: the type in front of `*return$` for a Rust function. -/
def rustSlot (cx : Ctx) (ret : Option Ty) (throws : Bool) : Option (Option CTok) :=
  match ret with
  | some ty => if indirectReturnC cx ret throws then (rustReturnPointee cx ty).map some else some none
  | none => some none

/-- gen/src/write.rs:735-782: the head of the shim of a C++ function. -/
def cxxLine (cx : Ctx) (f : ExternFn) : Option (List Char) := do
  let self ← selfOf cx f.sig.receiver
  let params ← f.sig.args.mapM fun a => (cxxParamC cx a.ty).map (·, a.name.cxx)
  let slot ← cxxSlot cx f.sig.ret f.sig.throws
  let ret ← returnC cx f.sig.ret f.sig.throws
  let link ← Mangle.externFn cx.types f
  some (externDecl link self params ret slot false)

/-- gen/src/write.rs:918-985: the declaration of a Rust function. -/
def rustLine (cx : Ctx) (f : ExternFn) : Option (List Char) := do
  let self ← selfOf cx f.sig.receiver
  let params ← f.sig.args.mapM fun a => (externArg cx a.ty).map (·, a.name.cxx)
  let slot ← rustSlot cx f.sig.ret f.sig.throws
  let ret ← returnC cx f.sig.ret f.sig.throws
  let link ← Mangle.externFn cx.types f
  some (externDecl link self params ret slot false)

/-- gen/src/write.rs:989-996: the name in the declaration.  In the class (`inClass`, gen/src/write.rs:309-311, 401-403) a method is
declared without the name of the class. -/
def declName (ts : Types) (inClass : Bool) (f : ExternFn) : Option (List Ident) :=
  match f.sig.receiver with
  | none => some [f.name.cxx]
  | some r => if inClass then some [f.name.cxx] else (resolve ts r.ty.rust).map fun p => [p.cxx, f.name.cxx]

/-- gen/src/write.rs:987-1000 with :1003-1034: the head of the C++ function that calls Rust. -/
def shimLine (ts : Types) (inClass : Bool) (f : ExternFn) : Option (List Char) := do
  let params ← f.sig.args.mapM fun a => (writeType ts a.ty).map (·, a.name.cxx)
  let ret ← writeOpt ts f.sig.ret
  let name ← declName ts inClass f
  some (shimDecl name params ret false
    (match f.sig.receiver with | some r => !r.mutable | none => false) (!f.sig.throws))

/-- gen/src/write.rs:783-816: the line of the pointer to the C++ function. -/
def pointerLineOf (cx : Ctx) (f : ExternFn) : Option (List Char) := do
  let self ← selfOf cx f.sig.receiver
  let params ← writeTypes cx.types (f.sig.args.map (·.ty))
  let ret ← writeOpt cx.types f.sig.ret
  some (pointerLine f.name.rust f.name self params ret)

end Verif.CxxText
