import Verif.Model.Canvas

/-!
Model of `crates/textual/src/svg.rs` (screenshots) and of the coloured snapshots of `crates/textual/src/canvas.rs:632-713`.

Simplifications: positions and lengths are in cells (the code multiplies them by the size of a cell,
svg.rs:231-232, 253, 281-282); of the text of the document only the parts that depend on the canvas are modelled: the
rules for the colours, the rectangles and the texts. The text of an element is the list of its symbols; the code writes
them one after the other, escaped (`escape`). -/

namespace Textual.Svg

/-- The cells of row `y`: svg.rs:222-223, 265-266 `canvas.cell_at(y * width + x)` for all `x`. -/
def row (c : Canvas) (y : Nat) : List Cell := (c.cells.drop (y * c.w)).take c.w

/-- svg.rs:341-361 `StyleCollector`: the colours with their class names, in the order of insertion. -/
abbrev Classes := List (Rgb × String)

/-- svg.rs:354-360 `add_fg`; the counter starts at 1 (svg.rs:350) and counts the entries. -/
def addFg (s : Classes) (c : Rgb) : Classes :=
  if s.any (·.1 == c) then s else s ++ [(c, "terminal-r" ++ toString (s.length + 1))]

/-- svg.rs:77-89 `collect_styles`. -/
def collect (cells : List Cell) : Classes :=
  cells.foldl (fun s c => match c.fg with | some f => addFg s f | none => s) []

/-- svg.rs:139-151: the rules for the colours. `entries` is the hash map in the order of its iteration; it is sorted by
class name. -/
def cssRules (entries : Classes) : List (String × Rgb) :=
  (entries.mergeSort fun a b => decide (a.2 ≤ b.2)).map fun e => (e.2, e.1)

/-- A rectangle (svg.rs:234-238). -/
structure Rect where
  row : Nat
  start : Nat
  width : Nat
  fill : Rgb
deriving DecidableEq, Repr

/-- svg.rs:228-243: what is written when the background changes to `now` at column `x`. -/
def flushRect (y x start : Nat) (bg now : Option Rgb) : List Rect :=
  if now ≠ bg then
    match bg with
    | some b => [⟨y, start, x - start, b⟩]
    | none => []
  else []

/-- svg.rs:213-245: the loop over one row; the run begins at `start` and has the background `bg`. -/
def rowRects (y : Nat) : Nat → Nat → Option Rgb → List Cell → List Rect
  | x, start, bg, [] => flushRect y x start bg none
  | x, start, bg, c :: r =>
    flushRect y x start bg c.bg ++
      (if c.bg ≠ bg then rowRects y (x + 1) x c.bg r else rowRects y (x + 1) start bg r)

/-- A text (svg.rs:310-314). `cells` is its length; `bold` to `strike` are what the style attribute says
(svg.rs:291-308, 388-398 `build_text_decoration`). -/
structure Text where
  row : Nat
  start : Nat
  cells : Nat
  symbols : List String
  cls : String
  bold : Bool
  italic : Bool
  underline : Bool
  strike : Bool
deriving DecidableEq, Repr

/-- svg.rs:255-260: the run of cells of the same style. -/
structure Run where
  start : Nat := 0
  symbols : List String := []
  cells : Nat := 0
  fg : Option Rgb := none
  attrs : Attrs := {}
deriving DecidableEq, Repr

/-- `run_text.is_empty()`. See svg.rs:280. -/
def Run.isEmpty (r : Run) : Bool := r.symbols.all (·.isEmpty)

/-- svg.rs:283-286: the class of a run. -/
def className (s : Classes) (fg : Option Rgb) : String :=
  match fg.bind fun f => (s.find? (·.1 == f)).map (·.2) with
  | some n => n
  | none => "terminal-default"

/-- svg.rs:281-315: the text element of a run. -/
def Run.text (s : Classes) (y : Nat) (r : Run) : Text :=
  { row := y, start := r.start, cells := r.cells, symbols := r.symbols, cls := className s r.fg, bold := r.attrs.bold,
    italic := r.attrs.italic, underline := r.attrs.underline, strike := r.attrs.strike }

/-- svg.rs:278-319: whether the style changes, and what is then written. -/
def flushText (s : Classes) (y : Nat) (run : Run) (fg : Option Rgb) (attrs : Attrs) : List Text :=
  if (fg ≠ run.fg ∨ attrs ≠ run.attrs) ∧ run.isEmpty = false then [run.text s y] else []

/-- svg.rs:317-325: the run after the change, before the cell is added. -/
def Run.next (run : Run) (x : Nat) (fg : Option Rgb) (attrs : Attrs) : Run :=
  if fg ≠ run.fg ∨ attrs ≠ run.attrs then
    if run.isEmpty = false then ⟨x, [], 0, fg, attrs⟩ else { run with start := x, fg := fg, attrs := attrs }
  else run

/-- svg.rs:327-330. -/
def Run.add (run : Run) (c : Cell) : Run :=
  if c.continuation then run else { run with symbols := run.symbols ++ [c.symbol], cells := run.cells + c.width }

/-- svg.rs:251-331: the loop over one row. At the end of the row the style is that of an unstyled cell. -/
def rowTexts (s : Classes) (y : Nat) : Nat → Run → List Cell → List Text
  | _, run, [] => flushText s y run none {}
  | x, run, c :: r =>
    flushText s y run c.fg c.attrs ++ rowTexts s y (x + 1) ((run.next x c.fg c.attrs).add c) r

/-- What a screenshot holds. Written by svg.rs:60 `render`. -/
structure Doc where
  width : Nat
  height : Nat
  css : List (String × Rgb)
  rects : List Rect
  texts : List Text
deriving DecidableEq, Repr

/-- svg.rs:59-75 `render`, canvas.rs:722-731 `to_svg`. `order` is the order in which the hash map is iterated; `title` is
`SvgConfig::title`. -/
def render (_title : Option String) (order : Classes → Classes) (c : Canvas) : Doc :=
  let s := collect c.cells
  { width := c.w
    height := c.h
    css := cssRules (order s)
    rects := (List.range c.h).flatMap fun y => rowRects y 0 0 none (row c y)
    texts := (List.range c.h).flatMap fun y => rowTexts s y 0 {} (row c y) }

/-- svg.rs:375-383: one character. -/
def escapeChar (c : Char) : List Char :=
  match c with
  | '<' => "&lt;".toList
  | '>' => "&gt;".toList
  | '&' => "&amp;".toList
  | '"' => "&quot;".toList
  | '\'' => "&apos;".toList
  | ' ' => "&#160;".toList
  | c => [c]

/-- svg.rs:371-386 `escape_xml`. -/
def escape (t : List Char) : List Char := t.flatMap escapeChar

/-! ### Snapshots -/

/-- What `to_ansi_snapshot` writes: control sequences, texts and line ends. See canvas.rs:632. -/
inductive Tok where
  | reset
  | bold
  | dim
  | italic
  | underline
  | strike
  | reverse
  | fg (c : Rgb)
  | fgDefault
  | bg (c : Rgb)
  | bgDefault
  | text (s : String)
  | newline
deriving DecidableEq, Repr

/-- canvas.rs:646-671: the change of attributes. -/
def attrToks (a : Attrs) : List Tok :=
  [.reset] ++ (if a.bold then [.bold] else []) ++ (if a.dim then [.dim] else []) ++
    (if a.italic then [.italic] else []) ++ (if a.underline then [.underline] else []) ++
    (if a.strike then [.strike] else []) ++ (if a.reverse then [.reverse] else [])

/-- canvas.rs:673-681: the change of the text colour. -/
def fgToks (now last : Option Rgb) : List Tok :=
  if now ≠ last then
    match now with
    | some c => [.fg c]
    | none => if last.isSome then [.fgDefault] else []
  else []

/-- canvas.rs:683-691: the change of the background. -/
def bgToks (now last : Option Rgb) : List Tok :=
  if now ≠ last then
    match now with
    | some c => [.bg c]
    | none => if last.isSome then [.bgDefault] else []
  else []

/-- canvas.rs:693-697: what a cell shows. -/
def shownText (c : Cell) : String := if c.continuation then " " else c.symbol

/-- canvas.rs:641-698: the loop over one row. -/
def ansiRow : Option Rgb → Option Rgb → Attrs → List Cell → List Tok
  | _, _, _, [] => []
  | f, b, a, c :: r =>
    let changed := c.attrs ≠ a
    let f := if changed then none else f
    let b := if changed then none else b
    (if changed then attrToks c.attrs else []) ++ fgToks c.fg f ++ bgToks c.bg b ++ [.text (shownText c)] ++
      ansiRow c.fg c.bg c.attrs r

/-- canvas.rs:632-709 `to_ansi_snapshot`. -/
def ansi (c : Canvas) : List Tok :=
  (List.range c.h).flatMap fun y =>
    ansiRow none none {} (row c y) ++ [.reset] ++ (if y + 1 < c.h then [.newline] else [])

end Textual.Svg
