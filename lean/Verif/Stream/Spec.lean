import Verif.Stream.Model
/-!
# What a stream behind a pointer should do
-/
namespace Verif.Stream.Spec
open Verif.Stream

/-- A history of calls on a stream: where it ends up and what was seen. -/
inductive Run (t : Target σ) : σ → List Call → σ → List Reply → Prop
  | done : Run t s [] s []
  | call : t c s = (s1, r) → Run t s1 cs s2 rs → Run t s (c :: cs) s2 (r :: rs)

/-- Whether the compiler's standard library has the method called: `seek_relative` came with Rust 1.80. -/
def Exists (rustc : Nat) : Call → Prop
  | .seekRelative _ => 80 ≤ rustc
  | _ => True

/-- The one method that is not passed on. -/
def NotVectoredRead : Call → Prop
  | .readVectored _ => False
  | _ => True

/-- The calls that write. -/
def Writes : Call → Prop
  | .write _ | .writeVectored _ | .flush | .writeAll _ | .writeFmt _ => True
  | _ => False

/-- The bytes a writer says it has taken: as many as it reports, all of them if the method takes all or nothing. -/
def taken : Call → Result → List Nat
  | .write buf, .ok n => buf.take n
  | .writeVectored bufs, .ok n => bufs.flatten.take n
  | .writeAll buf, .ok _ => buf
  | .writeFmt pieces, .ok _ => pieces.flatten
  | _, _ => []

end Verif.Stream.Spec
