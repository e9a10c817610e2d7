import Verif.Model.Canvas

/-!
Model of the reading half of `/repo/crates/textual/src/canvas.rs`: the functions a test uses to see what
is on a canvas. Texts are lists of characters. Which characters `trim_end` takes for white space is a
parameter `ws`.
-/

namespace Textual.Snapshot

/-- canvas.rs:596-602: what one cell adds to the text of its row. -/
def cellText (d : Cell) : List Char := if d.continuation then [' '] else d.symbol.toList

/-- canvas.rs:589-604 `row_str`. -/
def rowStr (c : Canvas) (y : Int) : List Char :=
  if y < 0 ∨ y ≥ c.h then []
  else ((c.cells.drop (y.toNat * c.w)).take c.w).flatMap cellText

/-- canvas.rs:576-586 `get_char`; `'\0'` outside the canvas and for a cell without text. (Inside the
canvas the index is in range; the model gives `'\0'` where the code would panic.) -/
def getChar (c : Canvas) (x y : Int) : Char :=
  if x < 0 ∨ x ≥ c.w ∨ y < 0 ∨ y ≥ c.h then '\x00'
  else
    match c.cells[y.toNat * c.w + x.toNat]? with
    | none => '\x00'
    | some d => if d.continuation then ' ' else d.symbol.toList.head?.getD '\x00'

/-- canvas.rs:607-613 `has_bg_at`. (Inside the canvas the index is in range.) -/
def hasBgAt (c : Canvas) (x y : Int) : Bool :=
  if x < 0 ∨ x ≥ c.w ∨ y < 0 ∨ y ≥ c.h then false
  else
    match c.cells[y.toNat * c.w + x.toNat]? with
    | none => false
    | some d => d.bg.isSome

/-- `str::trim_end`. Used at canvas.rs:619. -/
def trimEnd (ws : Char → Bool) (s : List Char) : List Char := (s.reverse.dropWhile ws).reverse

/-- canvas.rs:617-622 `to_snapshot`: the rows without the white space at their ends, joined by line ends. -/
def snapshot (ws : Char → Bool) (c : Canvas) : List Char :=
  ['\n'].intercalate ((List.range c.h).map fun (y : Nat) => trimEnd ws (rowStr c y))

end Textual.Snapshot
