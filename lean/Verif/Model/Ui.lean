/-!
# The macros `ui!` and `widget!`

Model of the crate `/repo/crates/textual-macros/src`: from the tokens between the braces of a macro to the code it
stands for, and what that code does when it runs.

Simplifications: an expression of Rust is the list of its tokens, and reading one is a parameter (`syn`'s parser of
`Expr`): it takes tokens from the front or fails. Identifiers that are keywords count as `other`. Types, spans and the
texts of error messages are not modelled; `none` is a compile error.
-/

namespace Textual.Ui

/-- Token trees of Rust: `paren` and `brace` are groups with their content. What parse.rs:44-112 reads. -/
inductive Tok where
  | ident (s : String)
  | dotdot
  | colon
  | pathSep
  | comma
  | other (s : String)
  | paren (ts : List Tok)
  | brace (ts : List Tok)
deriving Repr

/-- An expression. Read at parse.rs:112. -/
abbrev Expr := List Tok

/-- parse.rs:15-41 `ChildItem`, `WidgetNode` and `NamedAttr`. -/
inductive Item where
  | widget (name : String) (positional : List Expr) (named : List (String × Expr)) (children : Option (List Item))
  | splat (e : Expr)

/-- The parser of expressions: the expression and the tokens after it. Used by parse.rs:44-112. -/
abbrev Reader := List Tok → Option (Expr × List Tok)

/-- parse.rs:140-143: an optional comma. -/
def dropComma : List Tok → List Tok
  | .comma :: ts => ts
  | ts => ts

/-- parse.rs:112-147 `parse_args`; `fuel` bounds the number of arguments (the code loops while there are tokens). -/
def parseArgs (read : Reader) : Nat → Bool → List Tok → Option (List Expr × List (String × Expr))
  | _, _, [] => some ([], [])
  | 0, _, _ => none
  | fuel + 1, seen, ts =>
    match ts with
    -- an identifier and a colon that is not the first of two
    | .ident name :: .colon :: ts => do
      let (e, rest) ← read ts
      let (pos, named) ← parseArgs read fuel true (dropComma rest)
      return (pos, (name, e) :: named)
    | ts =>
      if seen then none
      else do
        let (e, rest) ← read ts
        let (pos, named) ← parseArgs read fuel seen (dropComma rest)
        return (e :: pos, named)

/-- parse.rs:82-87: the arguments in parentheses, if there are any. -/
def parseHead (read : Reader) : List Tok → Option (List Expr × List (String × Expr) × List Tok)
  | .paren content :: ts => do
    let (pos, named) ← parseArgs read content.length false content
    return (pos, named, ts)
  | ts => some ([], [], ts)

mutual
/-- parse.rs:60-63, 94-97: items until the tokens are used up. -/
def parseItems (read : Reader) : Nat → List Tok → Option (List Item)
  | _, [] => some []
  | 0, _ => none
  | fuel + 1, t :: ts => do
    let (i, rest) ← parseItem read fuel (t :: ts)
    let is ← parseItems read fuel rest
    return i :: is
/-- parse.rs:44-54 `parse_child_item`. -/
def parseItem (read : Reader) : Nat → List Tok → Option (Item × List Tok)
  | 0, _ => none
  | fuel + 1, ts =>
    match ts with
    | .dotdot :: ts => do
      let (e, rest) ← read ts
      return (.splat e, rest)
    | ts => parseWidget read fuel ts
/-- parse.rs:73-107 `WidgetNode::parse`. -/
def parseWidget (read : Reader) : Nat → List Tok → Option (Item × List Tok)
  | 0, _ => none
  | fuel + 1, ts =>
    match ts with
    | .ident name :: ts => do
      let (pos, named, ts) ← parseHead read ts
      match ts with
      | .brace content :: ts => do
        let children ← parseItems read fuel content
        return (.widget name pos named (some children), ts)
      | ts => return (.widget name pos named none, ts)
    | _ => none
end

/-- The number of tokens, those in groups included. -/
def Tok.count : Tok → Nat
  | .paren ts => 1 + go ts
  | .brace ts => 1 + go ts
  | _ => 1
where
  /-- The same for a list. -/
  go : List Tok → Nat
    | [] => 0
    | t :: ts => t.count + go ts

/-- Enough steps for any list of tokens. -/
def steps (ts : List Tok) : Nat := 3 * Tok.count.go ts + 3

/-- parse.rs:56-71 `UiRoot::parse`. -/
def parseRoot (read : Reader) (ts : List Tok) : Option (List Item) := do
  let items ← parseItems read (steps ts) ts
  if items.isEmpty then none else return items

mutual
/-- The generated code for one widget (codegen.rs:19-56): `Box::new(Name::new(args…, children) .with_a(v)…)`. -/
inductive Code where
  | make (name : String) (args : List Expr) (children : Option VecCode) (calls : List (String × Expr))
/-- The generated code for a list of widgets (codegen.rs:59-97). -/
inductive VecCode where
  /-- `vec![…]` -/
  | literal (cs : List Code)
  /-- `{ let mut __children = Vec::new(); …; __children }` -/
  | block (ss : List Stmt)
/-- codegen.rs:81, 84. -/
inductive Stmt where
  | push (c : Code)
  | extend (e : Expr)
end

/-- codegen.rs:100-111 `generate_attr_calls`. -/
def attrCalls (named : List (String × Expr)) : List (String × Expr) := named.map fun a => ("with_" ++ a.1, a.2)

/-- codegen.rs:61: whether an item is a splat. -/
def Item.isSplat : Item → Bool
  | .splat _ => true
  | _ => false

mutual
/-- codegen.rs:19-56 `generate_widget`; a splat does not get here (codegen.rs:69 `unreachable!`), `none` for it. -/
def generateWidget : Item → Option Code
  | .splat _ => none
  | .widget name pos named none => some (.make name pos none (attrCalls named))
  | .widget name pos named (some children) => do
    let v ← generateVec children
    if pos.isEmpty ∧ named.isEmpty then return .make name [] (some v) []
    else if pos.isEmpty then return .make name [] (some v) (attrCalls named)
    else return .make name pos (some v) (attrCalls named)
/-- codegen.rs:59-97 `generate_children_vec`. -/
def generateVec (items : List Item) : Option VecCode := do
  if !items.any Item.isSplat then return .literal (← generateAll items)
  else return .block (← generateStmts items)
/-- codegen.rs:65-71. -/
def generateAll : List Item → Option (List Code)
  | [] => some []
  | i :: is => do return (← generateWidget i) :: (← generateAll is)
/-- codegen.rs:77-87. -/
def generateStmts : List Item → Option (List Stmt)
  | [] => some []
  | .splat e :: is => do return .extend e :: (← generateStmts is)
  | i :: is => do return .push (← generateWidget i) :: (← generateStmts is)
end

/-- lib.rs:65-68 `ui`. -/
def ui (read : Reader) (ts : List Tok) : Option VecCode := do
  let items ← parseRoot read ts
  generateVec items

/-- lib.rs:90-93 `widget`; `parse_macro_input!` fails if tokens are left. -/
def widget (read : Reader) (ts : List Tok) : Option Code := do
  let (i, rest) ← parseWidget read (steps ts) ts
  if rest.isEmpty then generateWidget i else none

/-- What the program around the macro gives: the values of expressions, which may change the state `σ`, the widgets
that `new` and the builder methods make of values, and the widgets of a value that is spread.
The generated code is codegen.rs:19-100. -/
structure Program (σ V W : Type) where
  value : Expr → σ → V × σ
  make : String → List V → Option (List W) → W
  call : String → V → W → W
  spread : V → List W

variable {σ V W : Type} (p : Program σ V W)

/-- Arguments are evaluated from left to right. The generated code is codegen.rs:19. -/
def values : List Expr → σ → List V × σ
  | [], s => ([], s)
  | e :: es, s =>
    let (v, s) := p.value e s
    let (vs, s) := values es s
    (v :: vs, s)

/-- Method calls one after the other. The code is that of codegen.rs:100. -/
def calls : List (String × Expr) → W → σ → W × σ
  | [], w, s => (w, s)
  | (m, e) :: cs, w, s =>
    let (v, s) := p.value e s
    calls cs (p.call m v w) s

mutual
/-- Running the generated code of a widget. The code is that of codegen.rs:19. -/
def runCode : Code → σ → W × σ
  | .make name args none cs, s =>
    let (vs, s) := values p args s
    calls p cs (p.make name vs none) s
  | .make name args (some v) cs, s =>
    let (vs, s) := values p args s
    let (ws, s) := runVec v s
    calls p cs (p.make name vs (some ws)) s
/-- Running the generated code of a list. The code is that of codegen.rs:59. -/
def runVec : VecCode → σ → List W × σ
  | .literal cs, s => runAll cs s
  | .block ss, s => runStmts ss [] s
/-- `vec![…]`. The generated code is codegen.rs:59. -/
def runAll : List Code → σ → List W × σ
  | [], s => ([], s)
  | c :: cs, s =>
    let (w, s) := runCode c s
    let (ws, s) := runAll cs s
    (w :: ws, s)
/-- The statements of a block, with the vector so far. The code is that of codegen.rs:59. -/
def runStmts : List Stmt → List W → σ → List W × σ
  | [], acc, s => (acc, s)
  | .push c :: ss, acc, s =>
    let (w, s) := runCode c s
    runStmts ss (acc ++ [w]) s
  | .extend e :: ss, acc, s =>
    let (v, s) := p.value e s
    runStmts ss (acc ++ p.spread v) s
end

end Textual.Ui
