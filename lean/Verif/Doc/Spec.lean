/-!
# What a C++ compiler makes of comments

The phases 1 to 3 of translation ([lex.phases] in the C++ standard) as far as comments go.  Compilers differ in three ways,
so there is a parameter for each.
-/
namespace Verif.Doc

/-- How a compiler reads a file. -/
structure Reading where
  /-- a `\r` ends a line (clang) -/
  cr : Bool
  /-- blanks may stand between a backslash and the end of its line (GCC, clang) -/
  blanks : Bool
  /-- `??/` is a backslash (before C++17) -/
  trigraphs : Bool

/-- Where in the file we are. -/
inductive Mode
  | code
  /-- after `/` -/
  | slash
  /-- in `// ..` -/
  | line
  /-- there, after `?`, after `??` -/
  | line1
  | line2
  /-- there, after a backslash that may join the next line -/
  | lineJoin
  /-- in a block comment, and there after `*` -/
  | block
  | blockStar
  /-- in a literal that ends with the character, and there after a backslash -/
  | literal (quote : Char)
  | literalEscape (quote : Char)
  deriving DecidableEq, Repr

/-- The end of a line. -/
def Reading.isEnd (r : Reading) (c : Char) : Bool := c = '\n' || (r.cr && c = '\r')

def isBlank (c : Char) : Bool := c = ' ' || c = '\t'

/-- In a `//` comment. -/
def inLine (r : Reading) (c : Char) : Mode × List Char :=
  if r.isEnd c then (.code, [c])
  else if c = '\\' then (.lineJoin, [])
  else if c = '?' then (.line1, [])
  else (.line, [])

/-- In code.  A `/` is held back as it may begin a comment. -/
def inCode (c : Char) : Mode × List Char :=
  if c = '/' then (.slash, [])
  else if c = '"' ∨ c = '\'' then (.literal c, [c])
  else (.code, [c])

/-- One character: where we are then, and what remains of the code.  A comment becomes a space. -/
def step (r : Reading) : Mode → Char → Mode × List Char
  | .code, c => inCode c
  | .slash, c =>
    if c = '/' then (.line, [' '])
    else if c = '*' then (.block, [' '])
    else ((inCode c).1, '/' :: (inCode c).2)
  | .line, c => inLine r c
  | .line1, c => if c = '?' then (.line2, []) else inLine r c
  | .line2, c =>
    if r.trigraphs && c = '/' then (.lineJoin, []) else if c = '?' then (.line2, []) else inLine r c
  | .lineJoin, c =>
    if r.isEnd c then (.line, []) else if r.blanks && isBlank c then (.lineJoin, []) else inLine r c
  | .block, c => if c = '*' then (.blockStar, []) else (.block, [])
  | .blockStar, c => if c = '/' then (.code, []) else if c = '*' then (.blockStar, []) else (.block, [])
  | .literal q, c => if c = q then (.code, [c]) else if c = '\\' then (.literalEscape q, [c]) else (.literal q, [c])
  | .literalEscape q, c => (.literal q, [c])

/-- What remains of a text when the comments are gone. -/
def code (r : Reading) : Mode → List Char → List Char
  | m, [] => if m = .slash then ['/'] else []
  | m, c :: rest => (step r m c).2 ++ code r (step r m c).1 rest

/-- White space. -/
def isSpace (c : Char) : Bool := c = ' ' || c = '\t' || c = '\n'

/-- The line ends in a backslash that joins the next line to it. -/
def JoinsNext (r : Reading) (l : List Char) : Prop :=
  ∃ before blanks, (l = before ++ '\\' :: blanks ∨ r.trigraphs = true ∧ l = before ++ '?' :: '?' :: '/' :: blanks) ∧
    (∀ c ∈ blanks, isBlank c = true) ∧ (r.blanks = true ∨ blanks = [])

/-- The last line of documentation.  A line ends with a line feed, or with `\r` and a line feed. -/
def LastLine (doc : List (List Char)) (l : List Char) : Prop :=
  '\n' ∉ l ∧ ∃ earlier f before, doc = earlier ++ [f] ∧ (before = [] ∨ ∃ b, before = b ++ ['\n']) ∧
    (f = before ++ l ++ ['\r'] ∨ f = before ++ l ∧ ∀ b, l ≠ b ++ ['\r'])

/-- The documentation is one line. -/
def OneLine (doc : List (List Char)) : Prop := ∃ f, doc = [f] ∧ '\n' ∉ f

/-- Where `text` stands in a file, at the start of a line outside of comments and literals, it means nothing: whatever follows
is read as if it were not there. -/
def MeansNothing (r : Reading) (text : List Char) : Prop :=
  ∃ blank, (∀ c ∈ blank, isSpace c = true) ∧ ∀ rest, code r .code (text ++ rest) = blank ++ code r .code rest

end Verif.Doc
