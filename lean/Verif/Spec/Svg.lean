import Verif.Model.Svg

/-!
What a viewer shows of a screenshot, and what a terminal shows of a snapshot. -/

namespace Textual.Svg

/-- A character drawn at a cell. -/
structure Ink where
  row : Nat
  col : Nat
  symbol : String
  fill : Option Rgb
  bold : Bool
  italic : Bool
  underline : Bool
  strike : Bool
deriving DecidableEq, Repr

/-- The colour that a style sheet gives to a class: the last rule decides. -/
def fillOf (css : List (String × Rgb)) (cls : String) : Option Rgb :=
  (css.reverse.find? fun r => r.1 == cls).map (·.2)

/-- Symbols drawn one after the other from column `x` on, each as wide as `wd` says. -/
def spread (wd : String → Nat) (ink : Nat → String → Ink) : Nat → List String → List Ink
  | _, [] => []
  | x, s :: r => ink x s :: spread wd ink (x + wd s) r

/-- What a viewer draws for a text element. -/
def Text.drawn (wd : String → Nat) (css : List (String × Rgb)) (t : Text) : List Ink :=
  spread wd (fun x s => ⟨t.row, x, s, fillOf css t.cls, t.bold, t.italic, t.underline, t.strike⟩) t.start t.symbols

/-- The characters of a row of cells that begins at column `x`. -/
def wanted (y : Nat) : Nat → List Cell → List Ink
  | _, [] => []
  | x, c :: r =>
    if c.continuation then wanted y (x + 1) r
    else ⟨y, x, c.symbol, c.fg, c.attrs.bold, c.attrs.italic, c.attrs.underline, c.attrs.strike⟩ :: wanted y (x + 1) r

/-- A cell without colour and attributes. -/
def plain (c : Cell) : Bool := c.fg == none && c.attrs == {}

/-- A row without the plain cells at its end. -/
def trimPlain : List Cell → List Cell
  | [] => []
  | c :: r => if (c :: r).all plain then [] else c :: trimPlain r

/-- A row of whole characters: each in a cell as wide as it is, followed by its continuation cells. -/
inductive Whole (wd : String → Nat) : List Cell → Prop where
  | nil : Whole wd []
  | char (s : String) (fg bg : Option Rgb) (attrs : Attrs) (conts rest : List Cell) (hs : s ≠ "")
      (hw : wd s = conts.length + 1)
      (hc : ∀ c ∈ conts, c.continuation = true ∧ c.fg = fg ∧ c.attrs = attrs) (hr : Whole wd rest) :
      Whole wd (⟨s, wd s, false, fg, bg, attrs⟩ :: (conts ++ rest))

/-- A rectangle covers a cell. -/
def Rect.Covers (r : Rect) (y x : Nat) : Prop := r.row = y ∧ r.start ≤ x ∧ x < r.start + r.width

/-- The five named characters of XML, and the one numbered character that is used. -/
def entity (name : List Char) : Option Char :=
  if name = "lt".toList then some '<'
  else if name = "gt".toList then some '>'
  else if name = "amp".toList then some '&'
  else if name = "quot".toList then some '"'
  else if name = "apos".toList then some '\''
  else if name = "#160".toList then some (Char.ofNat 160)
  else none

/-- XML character data read back; `name` is the reference being read. Markup or a bare `&` is refused. -/
def decode : Option (List Char) → List Char → Option (List Char)
  | none, [] => some []
  | some _, [] => none
  | none, c :: r =>
    if c = '&' then decode (some []) r
    else if c = '<' ∨ c = '>' then none
    else (decode none r).map (c :: ·)
  | some name, c :: r =>
    if c = ';' then (entity name).bind fun e => (decode none r).map (e :: ·)
    else decode (some (name ++ [c])) r

/-- The pen of a terminal. -/
structure Pen where
  fg : Option Rgb := none
  bg : Option Rgb := none
  attrs : Attrs := {}
deriving DecidableEq, Repr

/-- What a terminal shows of a snapshot: the lines of texts, each with the pen it was written with. -/
def view : Pen → List Tok → List (List (String × Pen))
  | _, [] => [[]]
  | p, t :: r =>
    match t with
    | .reset => view {} r
    | .bold => view { p with attrs := { p.attrs with bold := true } } r
    | .dim => view { p with attrs := { p.attrs with dim := true } } r
    | .italic => view { p with attrs := { p.attrs with italic := true } } r
    | .underline => view { p with attrs := { p.attrs with underline := true } } r
    | .strike => view { p with attrs := { p.attrs with strike := true } } r
    | .reverse => view { p with attrs := { p.attrs with reverse := true } } r
    | .fg c => view { p with fg := some c } r
    | .fgDefault => view { p with fg := none } r
    | .bg c => view { p with bg := some c } r
    | .bgDefault => view { p with bg := none } r
    | .text s =>
      match view p r with
      | l :: ls => ((s, p) :: l) :: ls
      | [] => [[(s, p)]]
    | .newline => [] :: view p r

/-- What a cell looks like: its text with its style. -/
def look (c : Cell) : String × Pen := (if c.continuation then " " else c.symbol, ⟨c.fg, c.bg, c.attrs⟩)

/-- The columns that a line takes. -/
def columns (wd : String → Nat) (l : List (String × Pen)) : Nat := (l.map fun x => wd x.1).sum

end Textual.Svg
