/-! Model of `crates/textual/src/box_drawing.rs` and `crates/textual/src/keyline_canvas.rs`. -/

namespace Textual.Keyline

/-- `Quad` (box_drawing.rs:30-32): line types on the (top, right, bottom, left) arms; 0 none, 1 thin,
2 heavy, 3 double. `u8` as `Nat`. -/
structure Quad where
  top : Nat
  right : Nat
  bottom : Nat
  left : Nat
deriving DecidableEq, Repr

/-- `BOX_CHARACTERS` (box_drawing.rs:35-173), in source order (no quad is inserted twice). -/
def boxCharacters : List (Quad × Char) := [
  (⟨0, 1, 0, 1⟩, '─'),
  (⟨0, 2, 0, 2⟩, '━'),
  (⟨0, 3, 0, 3⟩, '═'),
  (⟨1, 0, 1, 0⟩, '│'),
  (⟨2, 0, 2, 0⟩, '┃'),
  (⟨3, 0, 3, 0⟩, '║'),
  (⟨0, 1, 1, 0⟩, '┌'),
  (⟨0, 0, 1, 1⟩, '┐'),
  (⟨1, 1, 0, 0⟩, '└'),
  (⟨1, 0, 0, 1⟩, '┘'),
  (⟨0, 2, 2, 0⟩, '┏'),
  (⟨0, 0, 2, 2⟩, '┓'),
  (⟨2, 2, 0, 0⟩, '┗'),
  (⟨2, 0, 0, 2⟩, '┛'),
  (⟨0, 3, 3, 0⟩, '╔'),
  (⟨0, 0, 3, 3⟩, '╗'),
  (⟨3, 3, 0, 0⟩, '╚'),
  (⟨3, 0, 0, 3⟩, '╝'),
  (⟨0, 1, 1, 1⟩, '┬'),
  (⟨1, 1, 0, 1⟩, '┴'),
  (⟨1, 1, 1, 0⟩, '├'),
  (⟨1, 0, 1, 1⟩, '┤'),
  (⟨0, 2, 2, 2⟩, '┳'),
  (⟨2, 2, 0, 2⟩, '┻'),
  (⟨2, 2, 2, 0⟩, '┣'),
  (⟨2, 0, 2, 2⟩, '┫'),
  (⟨0, 3, 3, 3⟩, '╦'),
  (⟨3, 3, 0, 3⟩, '╩'),
  (⟨3, 3, 3, 0⟩, '╠'),
  (⟨3, 0, 3, 3⟩, '╣'),
  (⟨1, 1, 1, 1⟩, '┼'),
  (⟨2, 2, 2, 2⟩, '╋'),
  (⟨3, 3, 3, 3⟩, '╬'),
  (⟨0, 2, 1, 0⟩, '┍'),
  (⟨0, 0, 1, 2⟩, '┑'),
  (⟨1, 2, 0, 0⟩, '┕'),
  (⟨1, 0, 0, 2⟩, '┙'),
  (⟨0, 1, 2, 0⟩, '┎'),
  (⟨0, 0, 2, 1⟩, '┒'),
  (⟨2, 1, 0, 0⟩, '┖'),
  (⟨2, 0, 0, 1⟩, '┚'),
  (⟨0, 1, 2, 1⟩, '┰'),
  (⟨2, 1, 0, 1⟩, '┸'),
  (⟨2, 1, 2, 0⟩, '┠'),
  (⟨2, 0, 2, 1⟩, '┨'),
  (⟨0, 2, 1, 2⟩, '┯'),
  (⟨1, 2, 0, 2⟩, '┷'),
  (⟨1, 2, 1, 0⟩, '┝'),
  (⟨1, 0, 1, 2⟩, '┥'),
  (⟨1, 2, 1, 2⟩, '┿'),
  (⟨2, 1, 2, 1⟩, '╂'),
  (⟨2, 2, 1, 2⟩, '╈'),
  (⟨1, 2, 2, 2⟩, '╇'),
  (⟨2, 2, 2, 1⟩, '╊'),
  (⟨2, 1, 2, 2⟩, '╉'),
  (⟨2, 2, 1, 0⟩, '┡'),
  (⟨1, 2, 2, 0⟩, '┢'),
  (⟨2, 0, 1, 2⟩, '┩'),
  (⟨1, 0, 2, 2⟩, '┪'),
  (⟨0, 2, 2, 1⟩, '┲'),
  (⟨0, 1, 2, 2⟩, '┱'),
  (⟨2, 2, 0, 1⟩, '┺'),
  (⟨2, 1, 0, 2⟩, '┹'),
  (⟨0, 1, 0, 0⟩, '╴'),
  (⟨0, 0, 0, 1⟩, '╶'),
  (⟨1, 0, 0, 0⟩, '╵'),
  (⟨0, 0, 1, 0⟩, '╷'),
  (⟨0, 2, 0, 0⟩, '╸'),
  (⟨0, 0, 0, 2⟩, '╺'),
  (⟨2, 0, 0, 0⟩, '╹'),
  (⟨0, 0, 2, 0⟩, '╻'),
  (⟨0, 2, 0, 1⟩, '╼'),
  (⟨0, 1, 0, 2⟩, '╾'),
  (⟨1, 0, 2, 0⟩, '╽'),
  (⟨2, 0, 1, 0⟩, '╿'),
  (⟨0, 3, 1, 0⟩, '╒'),
  (⟨0, 0, 1, 3⟩, '╕'),
  (⟨1, 3, 0, 0⟩, '╘'),
  (⟨1, 0, 0, 3⟩, '╛'),
  (⟨0, 1, 3, 0⟩, '╓'),
  (⟨0, 0, 3, 1⟩, '╖'),
  (⟨3, 1, 0, 0⟩, '╙'),
  (⟨3, 0, 0, 1⟩, '╜'),
  (⟨0, 3, 1, 3⟩, '╤'),
  (⟨1, 3, 0, 3⟩, '╧'),
  (⟨1, 3, 1, 0⟩, '╞'),
  (⟨1, 0, 1, 3⟩, '╡'),
  (⟨0, 1, 3, 1⟩, '╥'),
  (⟨3, 1, 0, 1⟩, '╨'),
  (⟨3, 1, 3, 0⟩, '╟'),
  (⟨3, 0, 3, 1⟩, '╢'),
  (⟨1, 3, 1, 3⟩, '╪'),
  (⟨3, 1, 3, 1⟩, '╫')]

/-- `get_box_char` (box_drawing.rs:178-180). -/
def getBoxChar (q : Quad) : Option Char := boxCharacters.lookup q

/-- `combine_quads` (box_drawing.rs:186-188). -/
def combineQuads (a b : Quad) : Quad :=
  ⟨max a.top b.top, max a.right b.right, max a.bottom b.bottom, max a.left b.left⟩

/-- `widget_edge_quad` (box_drawing.rs:201-207); `rows - 1` on `usize` underflows for 0, here it is 0. -/
def widgetEdgeQuad (row col rows cols lt : Nat) : Quad :=
  ⟨if row = 0 then lt else 0, if col = cols - 1 then lt else 0,
   if row = rows - 1 then lt else 0, if col = 0 then lt else 0⟩

/-- `KeylineCanvas` (keyline_canvas.rs:25-36); the colour is not modelled. -/
structure KCanvas where
  width : Nat
  height : Nat
  quads : List Quad
  lineType : Nat
deriving Repr

/-- `KeylineCanvas::new` (keyline_canvas.rs:46-54). -/
def KCanvas.new (width height lineType : Nat) : KCanvas :=
  ⟨width, height, List.replicate (width * height) ⟨0, 0, 0, 0⟩, lineType⟩

/-- `KeylineCanvas::get` (keyline_canvas.rs:57-63). An index outside the vector would panic; it gives
`none` here, and `get_isSome` shows that it does not happen. -/
def KCanvas.get (k : KCanvas) (x y : Nat) : Option Quad :=
  if x < k.width ∧ y < k.height then k.quads[y * k.width + x]? else none

/-- `KeylineCanvas::set` (keyline_canvas.rs:66-71). -/
def KCanvas.set (k : KCanvas) (x y : Nat) (q : Quad) : KCanvas :=
  if x < k.width ∧ y < k.height then
    { k with quads := k.quads.modify (y * k.width + x) (fun old => combineQuads old q) }
  else k

/-- One call of `set`: column, row, quad. See keyline_canvas.rs:66. -/
abbrev Cmd := Nat × Nat × Quad

/-- A sequence of calls of `set`. See keyline_canvas.rs:94-122. -/
def KCanvas.setAll (k : KCanvas) (cmds : List Cmd) : KCanvas :=
  cmds.foldl (fun k c => k.set c.1 c.2.1 c.2.2) k

/-- The Rust range `a..b`. Used at keyline_canvas.rs:94-122, 183, 205. -/
def span (a b : Nat) : List Nat := List.range' a (b - a)

/-- The calls of `set` made by `add_widget_box` (keyline_canvas.rs:83-131), in order. -/
def boxCmds (lt x y w h : Nat) : List Cmd :=
  if w = 0 ∨ h = 0 then [] else
  [(x, y, ⟨0, lt, lt, 0⟩)] ++
  (span 1 (w - 1)).map (fun i => (x + i, y, ⟨0, lt, 0, lt⟩)) ++
  (if w > 1 then [(x + w - 1, y, ⟨0, 0, lt, lt⟩)] else []) ++
  (span 1 (h - 1)).map (fun j => (x, y + j, ⟨lt, 0, lt, 0⟩)) ++
  (if w > 1 then (span 1 (h - 1)).map (fun j => (x + w - 1, y + j, ⟨lt, 0, lt, 0⟩)) else []) ++
  (if h > 1 then [(x, y + h - 1, ⟨lt, lt, 0, 0⟩)] else []) ++
  (if h > 1 then (span 1 (w - 1)).map (fun i => (x + i, y + h - 1, ⟨0, lt, 0, lt⟩)) else []) ++
  (if w > 1 ∧ h > 1 then [(x + w - 1, y + h - 1, ⟨lt, 0, 0, lt⟩)] else [])

/-- `KeylineCanvas::add_widget_box` (keyline_canvas.rs:83-131). -/
def KCanvas.addWidgetBox (k : KCanvas) (x y w h : Nat) : KCanvas :=
  k.setAll (boxCmds k.lineType x y w h)

/-- The calls of `set` made by `add_grid` (keyline_canvas.rs:145-213), in order. -/
def gridCmds (cw ch lt : Nat) (cols rows : List Nat) : List Cmd :=
  if cols.length < 2 ∨ rows.length < 2 then [] else
  let lastCol := cols.length - 1
  let lastRow := rows.length - 1
  rows.zipIdx.flatMap (fun (y, ri) =>
    if y ≥ ch then [] else
    cols.zipIdx.flatMap (fun (x, ci) =>
      if x ≥ cw then [] else
      (x, y, ⟨if ri = 0 then 0 else lt, if ci = lastCol then 0 else lt,
        if ri = lastRow then 0 else lt, if ci = 0 then 0 else lt⟩) ::
      (if ci < lastCol then
        (span (x + 1) (min (cols[ci + 1]?.getD 0) cw)).map (fun fx => (fx, y, ⟨0, lt, 0, lt⟩))
      else []))) ++
  cols.flatMap (fun x =>
    if x ≥ cw then [] else
    rows.zipIdx.flatMap (fun (y, ri) =>
      if y ≥ ch then [] else
      if ri < lastRow then
        (span (y + 1) (min (rows[ri + 1]?.getD 0) ch)).map (fun fy => (x, fy, ⟨lt, 0, lt, 0⟩))
      else []))

/-- `KeylineCanvas::add_grid` (keyline_canvas.rs:145-213). -/
def KCanvas.addGrid (k : KCanvas) (cols rows : List Nat) : KCanvas :=
  k.setAll (gridCmds k.width k.height k.lineType cols rows)

/-- `cell_occupancy.get(r).and_then(|row| row.get(c)).copied().flatten()` (keyline_canvas.rs:242-251). -/
def occupant (occ : List (List (Option Nat))) (r c : Nat) : Option Nat :=
  (occ[r]?.bind (fun row => row[c]?)).join

/-- `different_occupant` (keyline_canvas.rs:241-253). -/
def differ (occ : List (List (Option Nat))) (r1 c1 r2 c2 : Nat) : Bool :=
  occupant occ r1 c1 != occupant occ r2 c2

/-- A horizontal line on row `y` from `a` to `b` inclusive, clipped to the canvas: the loop used at
keyline_canvas.rs:259-263, 268-272 and 331-335. -/
def hline (cw lt a b y : Nat) : List Cmd :=
  (span a (min (b + 1) cw)).map (fun x => (x, y, ⟨0, if x < b then lt else 0, 0, if x > a then lt else 0⟩))

/-- A vertical line in column `x` from `a` to `b` inclusive, clipped to the canvas: the loop used at
keyline_canvas.rs:277-281, 286-290 and 308-312. -/
def vline (ch lt a b x : Nat) : List Cmd :=
  (span a (min (b + 1) ch)).map (fun y => (x, y, ⟨if y > a then lt else 0, 0, if y < b then lt else 0, 0⟩))

/-- The quad put at the junction of column line `ci` and row line `ri` (keyline_canvas.rs:353-401). -/
def junction (occ : List (List (Option Nat))) (lt nc nr ri ci : Nat) : Quad :=
  let edgeX := ci = 0 ∨ ci = nc
  let edgeY := ri = 0 ∨ ri = nr
  let up : Bool := if ri = 0 then false else if edgeX then true else differ occ (ri - 1) (ci - 1) (ri - 1) ci
  let down : Bool := if ri = nr then false else if edgeX then true else differ occ ri (ci - 1) ri ci
  let left : Bool := if ci = 0 then false else if edgeY then true else differ occ (ri - 1) (ci - 1) ri (ci - 1)
  let right : Bool := if ci = nc then false else if edgeY then true else differ occ (ri - 1) ci ri ci
  ⟨if up then lt else 0, if right then lt else 0, if down then lt else 0, if left then lt else 0⟩

/-- The calls of `set` made by `add_grid_with_occupancy` (keyline_canvas.rs:222-404), in order. -/
def occCmds (cw ch lt : Nat) (cols rows : List Nat) (occ : List (List (Option Nat))) : List Cmd :=
  if cols.length < 2 ∨ rows.length < 2 then [] else
  let nc := cols.length - 1
  let nr := rows.length - 1
  let col := fun i => cols[i]?.getD 0
  let row := fun i => rows[i]?.getD 0
  (if row 0 < ch then hline cw lt (col 0) (col nc) (row 0) else []) ++
  (if row nr < ch then hline cw lt (col 0) (col nc) (row nr) else []) ++
  (if col 0 < cw then vline ch lt (row 0) (row nr) (col 0) else []) ++
  (if col nc < cw then vline ch lt (row 0) (row nr) (col nc) else []) ++
  (span 1 nc).flatMap (fun ci =>
    if col ci ≥ cw then [] else
    (span 0 nr).flatMap (fun ri =>
      if differ occ ri (ci - 1) ri ci then vline ch lt (row ri) (row (ri + 1)) (col ci) else [])) ++
  (span 1 nr).flatMap (fun ri =>
    if row ri ≥ ch then [] else
    (span 0 nc).flatMap (fun ci =>
      if differ occ (ri - 1) ci ri ci then hline cw lt (col ci) (col (ci + 1)) (row ri) else [])) ++
  (span 0 (nr + 1)).flatMap (fun ri =>
    if row ri ≥ ch then [] else
    (span 0 (nc + 1)).flatMap (fun ci =>
      if col ci ≥ cw then [] else [(col ci, row ri, junction occ lt nc nr ri ci)]))

/-- `KeylineCanvas::add_grid_with_occupancy` (keyline_canvas.rs:222-404). -/
def KCanvas.addGridWithOccupancy (k : KCanvas) (cols rows : List Nat) (occ : List (List (Option Nat))) :
    KCanvas :=
  k.setAll (occCmds k.width k.height k.lineType cols rows occ)

/-- The glyph `render` draws for the cell at column `x`, row `y` (keyline_canvas.rs:413-438), if any:
nothing for an empty quad and for a quad without glyph. -/
def KCanvas.drawn (k : KCanvas) (x y : Nat) : Option Char :=
  (k.get x y).bind (fun q => if q = ⟨0, 0, 0, 0⟩ then none else getBoxChar q)

end Textual.Keyline
