import Verif.Gen.PipelineModel
/-!
# The `cxxbridge` command: `gen/cmd/src/main.rs`, `gen/cmd/src/app.rs`, `gen/cmd/src/output.rs`
-/
namespace Verif.Gen

/-- gen/cmd/src/output.rs:3-7 `Output`. -/
inductive Output
  | stdout
  | file (path : List Char)
  deriving DecidableEq

/-- gen/cmd/src/app.rs:94-104: the outputs that the arguments of `-o` stand for. -/
def outputsOf (args : List (List Char)) : List Output :=
  let outputs := args.map fun path => if path = ['-'] then .stdout else .file path
  if outputs.isEmpty then [.stdout] else outputs

/-- gen/cmd/src/app.rs:76-92: the header that an argument of `-i` stands for, and whether it is in angle brackets. -/
def includeOf (arg : List Char) : List Char × Bool :=
  if ['<'].isPrefixOf arg && ['>'].isSuffixOf arg then ((arg.take (arg.length - 1)).drop 1, true) else (arg, false)

/-- gen/cmd/src/output.rs:10-15 `Output::ends_with`. -/
def Output.endsWith (o : Output) (suffix : List Char) : Bool :=
  match o with
  | .stdout => false
  | .file path => suffix.isSuffixOf path

/-- gen/cmd/src/main.rs:61-65 `Kind`. -/
inductive Kind
  | generatedHeader
  | generatedImplementation
  | header
  deriving DecidableEq

/-- gen/cmd/src/main.rs:74-86: what goes to an output. -/
def kindOf (hasInput header : Bool) (o : Output) : Kind :=
  if !hasInput then .header
  else if header || o.endsWith ".h".toList || o.endsWith ".hh".toList || o.endsWith ".hpp".toList then .generatedHeader
  else .generatedImplementation

/-- gen/cmd/src/main.rs:70-88: the loop over the outputs, with `gen_header` and `gen_implementation`. -/
def planOutputs (hasInput header : Bool) : List Output → List (Output × Kind) × Bool × Bool
  | [] => ([], false, false)
  | o :: os =>
    match planOutputs hasInput header os with
    | (rest, genHeader, genImplementation) =>
      match kindOf hasInput header o with
      | .header => ((o, .header) :: rest, genHeader, genImplementation)
      | .generatedHeader => ((o, .generatedHeader) :: rest, true, genImplementation)
      | .generatedImplementation => ((o, .generatedImplementation) :: rest, genHeader, true)

/-- What the command has done when it ends: what was written where, in order, and whether it succeeded. -/
structure Outcome where
  written : List (Output × List Char)
  success : Bool
  deriving DecidableEq

/-- gen/cmd/src/main.rs:105-115: the loop that writes.  `canWrite` says whether `fs::write` succeeds; what happens at
standard output is ignored. -/
def writeOutputs (canWrite : List Char → Bool) (content : Kind → List Char) : List (Output × Kind) → Outcome
  | [] => ⟨[], true⟩
  | (.stdout, k) :: rest =>
    match writeOutputs canWrite content rest with
    | ⟨w, s⟩ => ⟨(.stdout, content k) :: w, s⟩
  | (.file path, k) :: rest =>
    if canWrite path then
      match writeOutputs canWrite content rest with
      | ⟨w, s⟩ => ⟨(.file path, content k) :: w, s⟩
    else ⟨[], false⟩

/-- gen/cmd/src/main.rs:67-118 `try_main` and :54-59 `main`.  `gen` stands for `generate_from_path` on the input, if
there is one, given `gen_header` and `gen_implementation`; when it fails the process exits.  `cxxHeader` is the text of
`rust/cxx.h`. -/
def command (input : Option (Bool → Bool → Option Code)) (header : Bool) (cxxHeader : List Char)
    (canWrite : List Char → Bool) (outputs : List Output) : Outcome :=
  match planOutputs input.isSome header outputs with
  | (plan, genHeader, genImplementation) =>
    match (match input with
      | some gen => gen genHeader genImplementation
      | none => some ⟨[], []⟩) with
    | none => ⟨[], false⟩
    | some code => writeOutputs canWrite (fun
      | .generatedHeader => code.header
      | .generatedImplementation => code.implementation
      | .header => cxxHeader) plan

end Verif.Gen
