import Verif.Model.Canvas

/-!
Model of the flushing half of `/repo/crates/textual/src/canvas.rs` (375-553), producing terminal
commands, and a model of what a terminal does with them (trusted; DEC/xterm behaviour with deferred
wrap at the right margin).
-/

namespace Textual

/-- The text attributes of `crossterm::style::Attribute` that are used. Used at canvas.rs:405, 427, 452. -/
inductive AttrKind where
  | bold | dim | italic | underline | strike | reverse
deriving DecidableEq, Repr

/-- Terminal commands written by `flush` (`crossterm` commands and plain text). `none` is
`Color::Reset`. See canvas.rs:399-405, 424-427, 446-476. -/
inductive Cmd where
  | moveTo (x y : Nat)
  | setFg (c : Option Rgb)
  | setBg (c : Option Rgb)
  | attrReset
  | attr (k : AttrKind)
  | print (s : String)
deriving DecidableEq, Repr

/-- The style the flush loop believes the terminal has (canvas.rs:407-409). -/
structure Last where
  fg : Option Rgb := none
  bg : Option Rgb := none
  attrs : Attrs := {}
deriving DecidableEq, Repr

namespace Canvas

/-- canvas.rs:404-406, 425-427, 451-453, 477-479. -/
def resetCmds : List Cmd := [.setFg none, .setBg none, .attrReset]

/-- canvas.rs:515-532: the attribute commands. -/
def attrCmds (a : Attrs) : List Cmd :=
  (if a.bold then [.attr .bold] else []) ++ (if a.dim then [.attr .dim] else []) ++
  (if a.italic then [.attr .italic] else []) ++ (if a.underline then [.attr .underline] else []) ++
  (if a.strike then [.attr .strike] else []) ++ (if a.reverse then [.attr .reverse] else [])

/-- canvas.rs:513-537: the attribute part of `emit_cell`. -/
def emitAttrs (cell : Cell) (last : Last) : List Cmd × Last :=
  if cell.attrs ≠ last.attrs then
    (.attrReset :: attrCmds cell.attrs, { fg := none, bg := none, attrs := cell.attrs })
  else ([], last)

/-- canvas.rs:540-544. -/
def emitFg (cell : Cell) (last : Last) : List Cmd × Last :=
  if cell.fg ≠ last.fg then ([.setFg cell.fg], { last with fg := cell.fg }) else ([], last)

/-- canvas.rs:545-549. -/
def emitBg (cell : Cell) (last : Last) : List Cmd × Last :=
  if cell.bg ≠ last.bg then ([.setBg cell.bg], { last with bg := cell.bg }) else ([], last)

/-- canvas.rs:504-553 `emit_cell`. -/
def emitCell (cell : Cell) (last : Last) : List Cmd × Last :=
  let (c1, last) := emitAttrs cell last
  let (c2, last) := emitFg cell last
  let (c3, last) := emitBg cell last
  (c1 ++ c2 ++ c3 ++ [.print cell.symbol], last)

/-- The loop state: tracked cursor and style. See canvas.rs:399, 446. -/
structure FlushState where
  cx : Int
  cy : Int
  last : Last

/-- The body shared by both loops, canvas.rs:419-441 and 467-497, for a cell that is written. -/
def flushCell (w i : Nat) (cell : Cell) (st : FlushState) : List Cmd × FlushState :=
  let x := i % w
  let y := i / w
  let (pre, last) :=
    if st.cx ≠ x ∨ st.cy ≠ y then (.moveTo x y :: resetCmds, {}) else ([], st.last)
  let (cmds, last) := emitCell cell last
  let cx : Int := x + cell.width
  (pre ++ cmds,
    if cx ≥ w then { cx := 0, cy := y + 1, last } else { cx, cy := y, last })

/-- canvas.rs:415-441: the loop of `flush_full` from index `i` on. -/
def fullLoop (w : Nat) : Nat → List Cell → FlushState → List Cmd
  | _, [], _ => []
  | i, cell :: rest, st =>
    if cell.continuation then fullLoop w (i + 1) rest st
    else
      let (cmds, st) := flushCell w i cell st
      cmds ++ fullLoop w (i + 1) rest st

/-- canvas.rs:399-443 `flush_full`. -/
def flushFull (c : Canvas) : List Cmd :=
  .moveTo 0 0 :: resetCmds ++ fullLoop c.w 0 c.cells { cx := 0, cy := 0, last := {} }

/-- canvas.rs:463-498: the loop of `flush_diff` over the zipped frames. -/
def diffLoop (w : Nat) : Nat → List (Cell × Cell) → FlushState → List Cmd
  | _, [], _ => []
  | i, (cell, prev) :: rest, st =>
    if cell = prev then diffLoop w (i + 1) rest st
    else if cell.continuation then diffLoop w (i + 1) rest st
    else
      let (cmds, st) := flushCell w i cell st
      cmds ++ diffLoop w (i + 1) rest st

/-- canvas.rs:446-501 `flush_diff`. -/
def flushDiff (c : Canvas) : List Cmd :=
  resetCmds ++ diffLoop c.w 0 (c.cells.zip c.prev) { cx := -1, cy := -1, last := {} }

/-- canvas.rs:375-396 `flush`: the commands written and the canvas afterwards (buffers swapped). -/
def flush (c : Canvas) : List Cmd × Canvas :=
  (if c.firstFlush then c.flushFull else c.flushDiff,
    { c with cells := c.prev, prev := c.cells, firstFlush := false })

end Canvas

/-! ### The terminal -/

/-- Graphic rendition. Not code of /repo: part of the terminal that reads what canvas.rs:375-553 writes. -/
structure TStyle where
  fg : Option Rgb
  bg : Option Rgb
  attrs : Attrs
deriving DecidableEq, Repr

/-- A position of the screen: the first column of a glyph of some width, or a further column of a
wide glyph. Not code of /repo: part of the terminal that reads what canvas.rs:375-553 writes. -/
inductive TCell where
  | glyph (s : String) (width : Nat) (st : TStyle)
  | cont (st : TStyle)
deriving DecidableEq, Repr

/-- Columns a cell claims. Not code of /repo: part of the terminal that reads what canvas.rs:375-553 writes. -/
def TCell.extent : TCell → Nat
  | .glyph _ n _ => n
  | .cont _ => 0

/-- What differs between terminals: the width they give a text, and what they leave behind in the
remaining columns of a wide glyph that was partly overwritten.
Not code of /repo: part of the terminal that reads what canvas.rs:375-553 writes. -/
structure TermEnv where
  width : String → Nat
  junk : TStyle → Nat → TCell

/-- Remains of a destroyed glyph never form a wide glyph.
Not code of /repo: part of the terminal that reads what canvas.rs:375-553 writes. -/
def TermEnv.Ok (env : TermEnv) : Prop := ∀ st k, (env.junk st k).extent ≤ 1

/-- Terminal state; `screen` is row-major (`y * w + x`).
Not code of /repo: part of the terminal that reads what canvas.rs:375-553 writes. -/
structure Term where
  w : Nat
  h : Nat
  screen : Nat → TCell
  cx : Nat
  cy : Nat
  pending : Bool
  st : TStyle

namespace Term

/-- Position `k` (outside the written columns `[p, p+n)`) belonged to a glyph that overlaps them.
Not code of /repo: part of the terminal that reads what canvas.rs:375-553 writes. -/
def clobbered (scr : Nat → TCell) (p n k : Nat) : Bool :=
  (List.range (k + 1)).any fun q =>
    k < q + (scr q).extent && q < p + n && p < q + (scr q).extent

/-- Write a glyph of width `n` at position `p`.
Not code of /repo: part of the terminal that reads what canvas.rs:375-553 writes. -/
def place (env : TermEnv) (scr : Nat → TCell) (p n : Nat) (s : String) (st : TStyle) : Nat → TCell :=
  fun k =>
    if p ≤ k ∧ k < p + n then (if k = p then .glyph s n st else .cont st)
    else if clobbered scr p n k then env.junk st k
    else scr k

/-- Move to the start of the next line, scrolling at the bottom.
Not code of /repo: part of the terminal that reads what canvas.rs:375-553 writes. -/
def newline (t : Term) : Term :=
  if t.cy + 1 < t.h then { t with cx := 0, cy := t.cy + 1, pending := false }
  else
    { t with
      cx := 0
      pending := false
      screen := fun k =>
        if k < (t.h - 1) * t.w then t.screen (k + t.w) else .glyph " " 1 ⟨none, none, {}⟩ }

/-- Print a text at the cursor; the wrap at the right margin is deferred.
Not code of /repo: part of the terminal that reads what canvas.rs:375-553 writes. -/
def print (env : TermEnv) (t : Term) (s : String) : Term :=
  let t := if t.pending then t.newline else t
  let n := env.width s
  let t := if t.cx + n > t.w then t.newline else t
  let scr := place env t.screen (t.cy * t.w + t.cx) n s t.st
  if t.cx + n ≥ t.w then { t with screen := scr, cx := t.w - 1, pending := true }
  else { t with screen := scr, cx := t.cx + n }

/-- Not code of /repo: part of the terminal that reads what canvas.rs:375-553 writes. -/
def setAttr (a : Attrs) : AttrKind → Attrs
  | .bold => { a with bold := true }
  | .dim => { a with dim := true }
  | .italic => { a with italic := true }
  | .underline => { a with underline := true }
  | .strike => { a with strike := true }
  | .reverse => { a with reverse := true }

/-- Execute one command. `SetAttribute(Reset)` (SGR 0) also resets the colours.
Not code of /repo: part of the terminal that reads what canvas.rs:375-553 writes. -/
def exec (env : TermEnv) (t : Term) : Cmd → Term
  | .moveTo x y => { t with cx := min x (t.w - 1), cy := min y (t.h - 1), pending := false }
  | .setFg c => { t with st := { t.st with fg := c } }
  | .setBg c => { t with st := { t.st with bg := c } }
  | .attrReset => { t with st := ⟨none, none, {}⟩ }
  | .attr k => { t with st := { t.st with attrs := setAttr t.st.attrs k } }
  | .print s => t.print env s

/-- Execute commands in order. Not code of /repo: part of the terminal that reads what canvas.rs:375-553 writes. -/
def run (env : TermEnv) (t : Term) (cmds : List Cmd) : Term := cmds.foldl (exec env) t

end Term
end Textual
