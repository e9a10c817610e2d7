/-! What comments and variable references are. -/

namespace Textual.Source

/-- The characters `a`, `b` occur next to each other in `s`. -/
def HasPair (a b : Char) (s : List Char) : Prop := ∃ u v, s = u ++ a :: b :: v

/-- No comment starts in `s`. -/
def NoOpener (s : List Char) : Prop := ¬ HasPair '/' '*' s ∧ ¬ HasPair '/' '/' s

/-- The pieces of a source text. -/
inductive Piece where
  /-- program text -/
  | code (s : List Char)
  /-- `/* s */` -/
  | block (s : List Char)
  /-- `// s` and the line end -/
  | line (s : List Char)
  /-- `/* s` up to the end of the text -/
  | openBlock (s : List Char)
  /-- `// s` up to the end of the text, without line end -/
  | openLine (s : List Char)

/-- How a piece is written. -/
def Piece.text : Piece → List Char
  | .code s => s
  | .block s => '/' :: '*' :: s ++ ['*', '/']
  | .line s => '/' :: '/' :: s ++ ['\n']
  | .openBlock s => '/' :: '*' :: s
  | .openLine s => '/' :: '/' :: s

/-- What remains of a piece: code as it is, a space for a block comment, the line end of a line comment. -/
def Piece.kept : Piece → List Char
  | .code s => s
  | .block _ => [' ']
  | .line _ => ['\n']
  | .openBlock _ => []
  | .openLine _ => []

/-- The text written by a list of pieces. -/
def text (ps : List Piece) : List Char := ps.flatMap Piece.text

/-- The pieces are what they look like: no comment starts in code (nor where code meets the next piece), a
block comment ends at its first `*/`, a line comment at its first line end, an open comment is the last piece. -/
def Proper : List Piece → Prop
  | [] => True
  | .code s :: ps => NoOpener (s ++ (text ps).take 1) ∧ Proper ps
  | .block s :: ps => ¬ HasPair '*' '/' (s ++ ['*']) ∧ Proper ps
  | .line s :: ps => '\n' ∉ s ∧ Proper ps
  | .openBlock s :: ps => ¬ HasPair '*' '/' s ∧ ps = []
  | .openLine s :: ps => '\n' ∉ s ∧ ps = []

/-- The parts of a line: literal text and variable references. -/
inductive Part where
  | lit (s : List Char)
  | ref (name : List Char)

/-- How a part is written. -/
def Part.text : Part → List Char
  | .lit s => s
  | .ref n => '$' :: n

/-- The parts are what they look like: no `$` in literal text, references consist of name characters and
extend as far as possible. -/
def ProperParts (name : Char → Bool) : List Part → Prop
  | [] => True
  | .lit s :: ps => '$' ∉ s ∧ ProperParts name ps
  | .ref n :: ps => (∀ c ∈ n, name c = true) ∧ (∀ c, (ps.flatMap Part.text).head? = some c → name c = false) ∧
      ProperParts name ps

/-- What a part means given the values of the variables: an undefined reference stays as written. -/
def Part.value (vars : List Char → Option (List Char)) : Part → List Char
  | .lit s => s
  | .ref n => (vars n).getD ('$' :: n)

end Textual.Source
