/-!
# Documentation in the generated C++: `Doc` and `write_doc`

A string is a list of characters.
-/
namespace Verif.Doc

/-- syntax/doc.rs:28-35 `Doc::to_string`: the fragments, one per `#[doc = ".."]`, each followed by a line feed. -/
def text : List (List Char) → List Char
  | [] => []
  | f :: rest => f ++ '\n' :: text rest

/-- The end of a line of `str::lines`: one `\r` in front of the line feed is dropped.  `l` is the line in reverse. -/
def endLine : List Char → List Char
  | '\r' :: l => l.reverse
  | l => l.reverse

/-- `str::lines` of Rust: `l` is the line so far, in reverse.  A last line without line feed counts unless it is empty, and
keeps its `\r`. -/
def lines (l : List Char) : List Char → List (List Char)
  | [] => if l = [] then [] else [l.reverse]
  | '\n' :: rest => endLine l :: lines [] rest
  | c :: rest => lines (c :: l) rest

/-- gen/src/write.rs:255-263: the loop in `write_doc`. -/
def writeLines (doxygen : Bool) (indent : List Char) : List (List Char) → List Char
  | [] => []
  | l :: rest =>
    indent ++ (if doxygen then ['/', '/', '/'] else ['/', '/']) ++ l ++ '\n' :: writeLines doxygen indent rest

/-- gen/src/write.rs:253-271 `write_doc`. -/
def writeDoc (doxygen : Bool) (indent : List Char) (doc : List (List Char)) : List Char :=
  writeLines doxygen indent (lines [] (text doc)) ++
    if doxygen && (lines [] (text doc)).length == 1 then indent ++ ['/', '/', '/', '\n'] else []

end Verif.Doc
