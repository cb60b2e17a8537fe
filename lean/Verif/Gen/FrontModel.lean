import Verif.Gen.CommandModel
import Verif.Cfg.Lookup
/-!
# The programs around the generator: `gen/lib/src/lib.rs`, `gen/cmd/src/main.rs`, `gen/build/src/lib.rs`

All three read the bridges of a file and call `generate`; they differ in the options they call it with.
-/
namespace Verif.Gen
open Verif.Syntax Verif.Cfg

/-- gen/src/mod.rs:45-64 `Opt`: the options that only the writer looks at (gen/src/write.rs:23, 257, 731).  A header
comes with whether it is in angle brackets. -/
structure Style where
  headers : List (List Char × Bool)
  annotations : Option (List Char)
  doxygen : Bool

/-- gen/src/mod.rs:45-64 `Opt`. -/
structure Opt where
  style : Style
  options : Options

/-- gen/src/mod.rs:96-108 `Opt::default`. -/
def Opt.default : Opt := ⟨⟨[], none, false⟩, ⟨unsupported, true, true, true⟩⟩

/-- gen/src/mod.rs:143-199 `generate`, with the options that the writer gets. -/
def run {α μ : Type} (assemble : Item α μ → Api) (write : Style → List Api → Bool → List Char) (opt : Opt)
    (bridges : List (Bridge α μ)) : Except Failure Code :=
  generate assemble (write opt.style) opt.options bridges

/-- gen/src/mod.rs:45-64: what a user of cxx-gen can set, the public fields; the others keep their defaults. -/
def libraryOpt (headers : List (List Char × Bool)) (annotations : Option (List Char)) (σ : Evaluator) : Opt :=
  { Opt.default with
    style := { Opt.default.style with headers, annotations }
    options := { Opt.default.options with evaluator := σ } }

/-- gen/lib/src/lib.rs:53-58 `generate_header_and_cc`, after the tokens have been read. -/
def library {α μ : Type} (assemble : Item α μ → Api) (write : Style → List Api → Bool → List Char) (opt : Opt)
    (bridges : List (Bridge α μ)) : Except Failure Code :=
  run assemble write opt bridges

/-- gen/cmd/src/main.rs:90-97: the options of the command. -/
def commandOpt (headers : List (List Char × Bool)) (annotations : Option (List Char)) (σ : Evaluator)
    (genHeader genImplementation : Bool) : Opt :=
  { Opt.default with
    style := { Opt.default.style with headers, annotations }
    options := { Opt.default.options with evaluator := σ, genHeader, genImplementation } }

/-- gen/cmd/src/main.rs:67-118 `try_main` with a file to read. -/
def runCommand {α μ : Type} (assemble : Item α μ → Api) (write : Style → List Api → Bool → List Char)
    (headers : List (List Char × Bool)) (annotations : Option (List Char)) (σ : Evaluator) (header : Bool)
    (cxxHeader : List Char) (canWrite : List Char → Bool) (outputs : List Output) (bridges : List (Bridge α μ)) : Outcome :=
  command (some fun genHeader genImplementation =>
      (run assemble write (commandOpt headers annotations σ genHeader genImplementation) bridges).toOption)
    header cxxHeader canWrite outputs

/-- gen/build/src/cargo.rs:15-44 `CargoEnvCfgEvaluator`. -/
def cargo (vars : List (List Char × List Char)) (debug : Bool) : Evaluator := fun name value =>
  cargoEvaluator vars debug name.toList (value.map String.toList)

/-- gen/build/src/lib.rs:395-400: the options of cxx-build. -/
def buildOpt (vars : List (List Char × List Char)) (debug doxygen : Bool) : Opt :=
  { Opt.default with
    style := { Opt.default.style with doxygen }
    options := { Opt.default.options with allowDotIncludes := false, evaluator := cargo vars debug } }

/-- gen/build/src/lib.rs:394-425 `generate_bridge`: what goes into the `.h` and the `.cc` file. -/
def build {α μ : Type} (assemble : Item α μ → Api) (write : Style → List Api → Bool → List Char)
    (vars : List (List Char × List Char)) (debug doxygen : Bool) (bridges : List (Bridge α μ)) : Except Failure Code :=
  run assemble write (buildOpt vars debug doxygen) bridges

/-- gen/lib/src/error.rs:45-75 `impl IntoIterator for Error`: the errors in an error.  `syn::Error` gives its messages
one by one. -/
def Failure.iter : Failure → List Failure
  | .reports es => es.map fun e => .reports [e]
  | f => [f]

end Verif.Gen
