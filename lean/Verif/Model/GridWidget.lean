import Verif.Model.Arrange
import Verif.Model.Grid
import Verif.Model.Keyline
import Verif.Model.Pane
import Mathlib.Data.List.Sort

/-!
# Grid widgets

Model of drawing and mouse handling in `crates/textual/src/containers/grid.rs` (`Grid`) and
`crates/textual/src/containers/item_grid.rs` (`ItemGrid`), and of the keylines of plain containers in
`crates/textual/src/containers/container.rs`. The chrome is four numbers (`Scroller.inner`); colours and
`visibility: hidden` are left out.
-/

namespace Textual.GridWidget

open Layout (Placement LChild AlignH AlignV applyAlignment)
open Layout.Grid (Parent)
open Keyline (KCanvas)
open Scroller (Sheet inner Mouse)

/-- What a grid takes from its style: the tracks, the keyline style's line type (`None` is `keyline: none`) and
the alignment of its children. Read by containers/grid.rs:123, 229. -/
structure Look where
  parent : Parent
  keyline : Option Nat := none
  alignH : AlignH := .left
  alignV : AlignV := .top
  /-- `min_column_width` of item grids (item_grid.rs:73-76); plain grids have none. -/
  minColumn : Option Nat := none

/-- grid.rs:91-101 and 144-149: the area left for the children. -/
def layoutArea (keyline : Bool) (r : Region) : Region :=
  if keyline then ⟨r.x, r.y, max (r.width - 2) 0, max (r.height - 2) 0⟩ else r

/-- grid.rs:70-120 `compute_child_placements`; for item grids item_grid.rs:105-133, which has no keylines. -/
def placements (l : Look) (cs : List LChild) (r : Region) : List Placement :=
  let ps := Layout.Grid.arrange l.minColumn l.parent cs (layoutArea l.keyline.isSome r)
  let ps := if l.keyline.isSome then ps.map (·.move 1 1) else ps
  applyAlignment ps cs l.alignH l.alignV r

/-- grid.rs:173-190 (columns), 191-205 (rows): line positions for drawing; `size` is the length of the whole region. -/
def lineList (ps : List Int) (size : Int) : List Nat :=
  ps.mapIdx fun i x =>
    if i = 0 then 0
    else if i = ps.length - 1 then (max (size - 1) 0).toNat
    else (max x 0).toNat

/-- grid.rs:123-214 `render_keylines`, with layouts/grid.rs:427-515 `compute_track_info`. -/
def keylines (lineType : Nat) (l : Look) (cs : List LChild) (r : Region) : Option KCanvas :=
  if cs.isEmpty then none
  else
    let a := layoutArea true r
    let cols := Layout.Grid.columnCount l.minColumn l.parent.grid a.width
    let rows := Layout.Grid.rowCount l.parent.grid cols cs.length
    let gv := Layout.Grid.resolveScalar l.parent.grid.gutterV a.height
    let gh := Layout.Grid.resolveScalar l.parent.grid.gutterH a.width
    let columns := Layout.Grid.columnTracks l.parent cs rows cols a.width gh
    let rowTs := Layout.Grid.rowTracks l.parent cs rows cols a.height gv
    let xs := Layout.Grid.linePositions columns a.width
    let ys := Layout.Grid.linePositions rowTs a.height
    let occ := (List.range rows).map fun i => (List.range cols).map fun j => Layout.Grid.cellOccupancy cs rows cols i j
    if xs.length < 2 ∨ ys.length < 2 then none
    else some ((KCanvas.new r.width.toNat r.height.toNat lineType).addGridWithOccupancy
      (lineList xs r.width) (lineList ys r.height) occ)

/-- What a grid shows: the children with their regions, in order, and the lines drawn over them.
See containers/grid.rs:123, 229. -/
structure Drawn where
  children : List Placement
  lines : Option KCanvas

/-- grid.rs:229-260 `render`. -/
def render (s : Sheet) (l : Look) (cs : List LChild) (r : Region) : Drawn :=
  if r.width ≤ 0 ∨ r.height ≤ 0 then ⟨[], none⟩
  else
    let a := inner s r
    ⟨placements l cs a, l.keyline.bind fun lt => keylines lt l cs a⟩

/-- grid.rs:363-388 `on_mouse`, 390-418 `on_mouse_with_sender`; item_grid.rs:247-270 and 272-299: the children
given the event, with the region each is told; `answers` says which of them return a message. -/
def onMouse (l : Look) (cs : List LChild) (m : Mouse) (r : Region) (answers : Nat → Bool) : List Placement :=
  if r.containsPoint m.column m.row = false then []
  else Pane.ask answers ((placements l cs r).filter fun c => c.region.containsPoint m.column m.row)

/-- container.rs:403-424 (columns of a row) and 433-454 (rows of a column): the lines of a plain container, from
the far edges of the children counted from the region's edge. -/
def dividers (edges : List Int) (size : Nat) : List Nat :=
  let ps := edges.foldl (fun (ps : List Nat) (e : Int) => if 0 ≤ e ∧ e < size ∧ e.toNat ∉ ps then ps ++ [e.toNat] else ps) [0]
  let ps := if size - 1 ∈ ps then ps else ps ++ [size - 1]
  ps.insertionSort (· ≤ ·)

/-- container.rs:400-430: the keylines of a horizontal container with content region `r`. -/
def rowLines (lineType : Nat) (ps : List Placement) (r : Region) : Option KCanvas :=
  if ps.isEmpty then none
  else some ((KCanvas.new r.width.toNat r.height.toNat lineType).addGrid
    (dividers (ps.map fun p => p.region.x + p.region.width - r.x) r.width.toNat) [0, r.height.toNat - 1])

end Textual.GridWidget
