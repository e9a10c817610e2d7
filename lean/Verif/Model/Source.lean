/-! Model of the text passes of the stylesheet parser: `strip_comments`
(`crates/tcss/src/parser/mod.rs:70-105`) and `crates/tcss/src/parser/variables.rs`.
A text is a list of characters. -/

namespace Textual.Source

/-- Skip to after the next `*/`; `none` when there is none: the inner loop at mod.rs:80-86. -/
def skipBlock : List Char → Option (List Char)
  | '*' :: '/' :: cs => some cs
  | _ :: cs => skipBlock cs
  | [] => none

/-- Skip to after the next line end; `none` when there is none: the inner loop at mod.rs:91-96. -/
def skipLine : List Char → Option (List Char)
  | '\n' :: cs => some cs
  | _ :: cs => skipLine cs
  | [] => none

theorem skipBlock_length : ∀ {cs r : List Char}, skipBlock cs = some r → r.length < cs.length := by
  intro cs
  induction cs using skipBlock.induct <;> intro r h
  · simp only [skipBlock, Option.some.injEq] at h; subst h; simp; omega
  · rename_i ih; rw [skipBlock] at h
    · have := ih h; simp; omega
    · assumption
  · simp [skipBlock] at h

theorem skipLine_length : ∀ {cs r : List Char}, skipLine cs = some r → r.length < cs.length := by
  intro cs
  induction cs using skipLine.induct <;> intro r h
  · simp only [skipLine, Option.some.injEq] at h; subst h; simp
  · rename_i ih; rw [skipLine] at h
    · have := ih h; simp; omega
    · assumption
  · simp [skipLine] at h

/-- `strip_comments` (mod.rs:70-105). -/
def stripComments : List Char → List Char
  | '/' :: '*' :: cs =>
    match h : skipBlock cs with
    | some r => ' ' :: stripComments r
    | none => []
  | '/' :: '/' :: cs =>
    match h : skipLine cs with
    | some r => '\n' :: stripComments r
    | none => []
  | c :: cs => c :: stripComments cs
  | [] => []
termination_by cs => cs.length
decreasing_by
  · have := skipBlock_length h; simp; omega
  · have := skipLine_length h; simp; omega
  · simp

/-- `str::lines`: pieces between `\n`, without a final empty piece; a `\r` before a `\n` belongs to the line end.
Used at variables.rs:79, 118. -/
def lines : List Char → List (List Char)
  | [] => []
  | cs =>
    let line := cs.takeWhile (· ≠ '\n')
    match h : cs.dropWhile (· ≠ '\n') with
    | [] => [line]
    | _ :: rest => (if line.getLast? = some '\r' then line.dropLast else line) :: lines rest
termination_by cs => cs.length
decreasing_by
  have := (List.dropWhile_suffix (l := cs) (· ≠ '\n')).length_le
  rw [h] at this
  simp at this
  omega

/-- `str::trim`; `ws` is Unicode `White_Space` (a parameter). Used at variables.rs:80, 119, 133-134. -/
def trim (ws : Char → Bool) (s : List Char) : List Char :=
  ((s.dropWhile ws).reverse.dropWhile ws).reverse

/-- First block comment pass of `resolve_variables` (variables.rs:62-75). -/
def dropBlocks : List Char → List Char
  | '/' :: '*' :: cs =>
    match h : skipBlock cs with
    | some r => dropBlocks r
    | none => []
  | c :: cs => c :: dropBlocks cs
  | [] => []
termination_by cs => cs.length
decreasing_by
  · have := skipBlock_length h; simp; omega
  · simp

/-- The characters of a variable name (variables.rs:93): `alnum` is Unicode alphanumeric (a parameter). -/
def isName (alnum : Char → Bool) (c : Char) : Bool := alnum c || c == '-' || c == '_'

/-- The inner loop of `resolve_variables` (variables.rs:86-108); `vars` is the variable table. -/
def resolveLine (alnum : Char → Bool) (vars : List Char → Option (List Char)) : List Char → List Char
  | '$' :: cs =>
    let name := cs.takeWhile (isName alnum)
    (match vars name with
      | some val => val
      | none => '$' :: name) ++ resolveLine alnum vars (cs.dropWhile (isName alnum))
  | c :: cs => c :: resolveLine alnum vars cs
  | [] => []
termination_by cs => cs.length
decreasing_by
  · have := (List.dropWhile_suffix (l := cs) (isName alnum)).length_le
    simp; omega
  · simp

/-- `resolve_variables` (variables.rs:58-113). -/
def resolveVariables (ws alnum : Char → Bool) (vars : List Char → Option (List Char)) (src : List Char) :
    List Char :=
  (lines (dropBlocks src)).flatMap fun line =>
    if (trim ws line).head? = some '$' then [] else resolveLine alnum vars line ++ ['\n']

/-- `str::contains` for a two-character pattern. Used at variables.rs:120, 123. -/
def contains2 (a b : Char) : List Char → Bool
  | x :: y :: cs => (x == a && y == b) || contains2 a b (y :: cs)
  | _ => false

/-- The name and value defined by a trimmed line, if any (variables.rs:131-139). -/
def definition (ws : Char → Bool) (trimmed : List Char) : Option (List Char × List Char) :=
  match trimmed with
  | '$' :: cs =>
    match cs.dropWhile (· ≠ ':') with
    | ':' :: rest =>
      let value := trim ws rest
      some (trim ws (cs.takeWhile (· ≠ ':')), if value.getLast? = some ';' then value.dropLast else value)
    | _ => none
  | _ => none

/-- One step of the loop of `extract_variables` (variables.rs:118-141): the comment flag and the definitions so
far, in order of definition. -/
def extractStep (ws : Char → Bool) (st : Bool × List (List Char × List Char)) (line : List Char) :
    Bool × List (List Char × List Char) :=
  let trimmed := trim ws line
  let inComment := st.1 || contains2 '/' '*' trimmed
  if contains2 '*' '/' trimmed then (false, st.2)
  else if inComment then (inComment, st.2)
  else (inComment, st.2 ++ (definition ws trimmed).toList)

/-- `extract_variables` (variables.rs:115-143). -/
def extractDefs (ws : Char → Bool) (src : List Char) : List (List Char × List Char) :=
  ((lines src).foldl (extractStep ws) (false, [])).2

/-- `StylesheetVariables::resolve` (variables.rs:53-55) after `define`-ing in order: the last definition of a
name counts (`HashMap::insert` replaces). -/
def lookupDefs (defs : List (List Char × List Char)) (name : List Char) : Option (List Char) :=
  (defs.reverse.find? (fun d => d.1 == name)).map Prod.snd

/-- The text passes of `parse_stylesheet` (mod.rs:108-114). -/
def preprocess (ws alnum : Char → Bool) (src : List Char) : List Char :=
  let s := stripComments src
  resolveVariables ws alnum (lookupDefs (extractDefs ws s)) s

end Textual.Source
