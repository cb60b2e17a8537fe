import Verif.Preamble.UseModel
/-!
# The helpers as lines of text

A translation unit includes rust/cxx.h and generated headers, and may be a generated source file itself.  Of the
generated files only the helpers written by gen/src/builtin.rs are rendered here; what stands between them is that of
`Verif.Unit`.
-/
namespace Verif.Together
open Verif.Preamble
open Verif.Header (Chunk Chunk.lines Cxx.layout)

/-- gen/src/block.rs:13-19 `write_begin`, 27-44 `write_common`. -/
noncomputable def begins : Blk → Text
  | .rust => b!"namespace rust {"
  | .cxxbridge1 => b!"inline namespace cxxbridge1 {"
  | .repr => b!"namespace repr {"
  | .detail => b!"namespace detail {"
  | .behavior => b!"namespace behavior {"
  | .anonymous => b!"namespace {"

/-- gen/src/block.rs:21-25 `write_end`. -/
noncomputable def ends : Blk → Text
  | .rust => b!"} // namespace rust"
  | .cxxbridge1 => b!"} // namespace cxxbridge1"
  | .repr => b!"} // namespace repr"
  | .detail => b!"} // namespace detail"
  | .behavior => b!"} // namespace behavior"
  | .anonymous => b!"} // namespace"

/-- gen/src/builtin.rs:142-420, gen/src/out.rs:35-84: the lines of the output.  A block without contents is left out
there; here it stays, as two lines. -/
noncomputable def evLines : Ev → List Text
  | .begin b => [begins b]
  | .piece p => p.lines
  | .end b => [ends b]

/-- A file that is part of a translation unit. -/
inductive File
  /-- include/cxx.h -/
  | cxx
  /-- what the generator writes, gen/src/write.rs:18-35; `custom` are the includes of the user -/
  | generated (o : Out) (custom : List Include)

/-- The text of the file: include/cxx.h:1-1149, or the helpers in the generated file (gen/src/write.rs:32, 34). -/
noncomputable def File.lines : File → List Text
  | .cxx => Cxx.layout.flatMap Chunk.lines
  | .generated o custom => (Verif.Preamble.generated o custom).2.flatMap evLines

end Verif.Together
