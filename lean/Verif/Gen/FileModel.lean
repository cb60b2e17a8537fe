/-!
# Finding the bridges in a source file: `gen/src/file.rs`

Tokens and the parser of Rust are not modelled: a source file is given as its tree of items.
-/
namespace Verif.Gen

/-- An attribute: the identifiers of its path (syn's `Path::segments`), and its arguments if it is not just a path, as
`Namespace::parse_bridge_attr_namespace` reads them. -/
structure Attr where
  path : List String
  args : Option (Except String (List String))

/-- The items of a file or of a module, in order. -/
inductive Src
  | nil
  /-- an item that is not a module -/
  | item (attrs : List Attr) (rest : Src)
  /-- `mod name;` -/
  | modFile (attrs : List Attr) (name : String) (rest : Src)
  /-- `mod name { .. }`, with its inner attributes -/
  | mod (attrs : List Attr) (name : String) (inner : List Attr) (body : Src) (rest : Src)

/-- syntax/file.rs:10-25 `Module`: what the generator uses of it. -/
structure Module where
  «namespace» : List String
  attrs : List Attr
  name : String
  content : Src

inductive FileError
  /-- an error in the arguments of the attribute -/
  | args (msg : String)
  /-- "expected a module" -/
  | notModule
  /-- "#[cxx::bridge] module must have inline contents" -/
  | noContents

/-- gen/src/file.rs:68-74 `parse_args`. -/
def parseArgs (a : Attr) : Except FileError (List String) :=
  match a.args with
  | none => .ok []
  | some (.ok ns) => .ok ns
  | some (.error msg) => .error (.args msg)

/-- gen/src/file.rs:23-33: the loop over the attributes; `cxx_bridge` and `namespace` as one `Option`. -/
def bridgeAttr : List Attr → Except FileError (Option (List String))
  | [] => .ok none
  | a :: as =>
    if a.path = ["cxx", "bridge"] then
      match parseArgs a with
      | .ok ns => .ok (some ns)
      | .error e => .error e
    else bridgeAttr as

/-- gen/src/file.rs:19-66 `parse`, with syntax/file.rs:46-84 `Module::parse` for the modules that are bridges. -/
def discover : Src → List Module → Except FileError (List Module)
  | .nil, modules => .ok modules
  | .item attrs rest, modules =>
    match bridgeAttr attrs with
    | .error e => .error e
    | .ok (some _) => .error .notModule
    | .ok none => discover rest modules
  | .modFile attrs _ rest, modules =>
    match bridgeAttr attrs with
    | .error e => .error e
    | .ok (some _) => .error .noContents
    | .ok none => discover rest modules
  | .mod attrs name inner body rest, modules =>
    match bridgeAttr attrs with
    | .error e => .error e
    | .ok (some ns) => discover rest (modules ++ [⟨ns, attrs ++ inner, name, body⟩])
    | .ok none =>
      match discover body modules with
      | .error e => .error e
      | .ok modules => discover rest modules

/-- gen/src/mod.rs:133-138: the part of a source file that is parsed. -/
def afterShebang (source : List Char) : List Char :=
  if ['#', '!'].isPrefixOf source && !['#', '!', '['].isPrefixOf source then source.dropWhile (· ≠ '\n') else source

end Verif.Gen
