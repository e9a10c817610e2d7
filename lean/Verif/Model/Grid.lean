import Verif.Model.LayoutTypes
import Verif.Model.Fraction

/-!
Model of `/repo/crates/textual/src/layouts/grid.rs`. The occupancy matrix (`Vec<Vec<bool>>`) is modelled by a
function; reads and writes of the code are always inside the matrix.
-/

namespace Textual.Layout.Grid

/-- tcss/src/types/grid.rs:32-55 `GridStyle`. -/
structure GridStyle where
  columns : Option Nat := none
  rows : Option Nat := none
  columnWidths : List Scalar := []
  rowHeights : List Scalar := []
  gutterV : Scalar := ⟨0, .cells⟩
  gutterH : Scalar := ⟨0, .cells⟩

/-- grid.rs:21-27 `ResolvedTrack`. -/
structure Track where
  offset : Int
  size : Int
deriving DecidableEq, Repr

/-- grid.rs:33-37 `OccupancyGrid::cells`. -/
abbrev Occ := Nat → Nat → Bool

/-- grid.rs:49-61 `find_next_free`. -/
def findNextFree (occ : Occ) (rows cols row col : Nat) : Option (Nat × Nat) :=
  if row < rows then
    if col < cols then
      if occ row col then findNextFree occ rows cols row (col + 1) else some (row, col)
    else findNextFree occ rows cols (row + 1) 0
  else none
termination_by (rows - row) * (cols + 1) + (cols - col)
decreasing_by
  · omega
  · obtain ⟨k, hk⟩ : ∃ k, rows - row = k + 1 := ⟨rows - row - 1, by omega⟩
    rw [hk, show rows - (row + 1) = k by omega, Nat.add_mul]; omega

/-- grid.rs:64-70 `occupy`. -/
def occupy (occ : Occ) (rows cols row col rowSpan colSpan : Nat) : Occ := fun r c =>
  if row ≤ r ∧ r < min (row + rowSpan) rows ∧ col ≤ c ∧ c < min (col + colSpan) cols then true else occ r c

/-- grid.rs:73-85 `can_fit`. -/
def canFit (occ : Occ) (rows cols row col rowSpan colSpan : Nat) : Bool :=
  if row + rowSpan > rows ∨ col + colSpan > cols then false
  else (List.range' row rowSpan).all fun r => (List.range' col colSpan).all fun c => !occ r c

/-- A cell assignment (row, column, row span, column span). See layouts/grid.rs:64-77. -/
structure Spot where
  row : Nat
  col : Nat
  rowSpan : Nat
  colSpan : Nat
deriving DecidableEq, Repr

/-- grid.rs:363-367 and 753-757: one column on, at the end of a row to the next row. -/
def advance (cols row col : Nat) : Nat × Nat := if col + 1 ≥ cols then (row + 1, 0) else (row, col + 1)

theorem findNextFree_bound {occ : Occ} {rows cols row col : Nat} {r c : Nat}
    (h : findNextFree occ rows cols row col = some (r, c)) :
    r < rows ∧ c < cols ∧ (row < r ∨ (row = r ∧ col ≤ c)) := by
  induction row, col using findNextFree.induct (occ := occ) (rows := rows) (cols := cols) with
  | case1 row col h1 h2 h3 ih =>
    rw [findNextFree, if_pos h1, if_pos h2, if_pos h3] at h
    have := ih h; omega
  | case2 row col h1 h2 h3 =>
    rw [findNextFree, if_pos h1, if_pos h2, if_neg h3] at h
    cases h; omega
  | case3 row col h1 h2 ih =>
    rw [findNextFree, if_pos h1, if_neg h2] at h
    have := ih h; omega
  | case4 row col h1 =>
    rw [findNextFree, if_neg h1] at h; cases h

/-- grid.rs:333-383 and 677-770, the inner `loop`: the first place at or after (row, col) where the child fits,
spans cut to the grid; with it the cursor after the loop. -/
def findSpot (occ : Occ) (rows cols rowSpan colSpan row col : Nat) : Option Spot × Nat × Nat :=
  match h : findNextFree occ rows cols row col with
  | some (r, c) =>
    let cs := min colSpan (cols - c)
    let rs := min rowSpan (rows - r)
    if canFit occ rows cols r c rs cs then (some ⟨r, c, rs, cs⟩, advance cols r c)
    else findSpot occ rows cols rowSpan colSpan (advance cols r c).1 (advance cols r c).2
  | none => (none, row, col)
termination_by (rows - row) * (cols + 1) + (cols - col)
decreasing_by
  have hb := findNextFree_bound h
  by_cases hc : c + 1 ≥ cols
  · simp only [advance, hc, if_true]
    obtain ⟨k, hk⟩ : ∃ k, rows - row = (rows - (r + 1)) + (k + 1) := ⟨r - row, by omega⟩
    rw [hk, Nat.add_mul, Nat.add_mul k]; omega
  · simp only [advance, hc, if_false]
    obtain ⟨k, hk⟩ : ∃ k, rows - row = (rows - r) + k := ⟨r - row, by omega⟩
    rw [hk, Nat.add_mul]
    by_cases h0 : k = 0
    · subst h0; omega
    · obtain ⟨j, rfl⟩ : ∃ j, k = j + 1 := ⟨k - 1, by omega⟩
      rw [Nat.add_mul j]; omega

/-- The spans of a child (grid.rs:330-331, 672-673). -/
def spans (c : LChild) : Nat × Nat := (max c.style.rowSpan 1, max c.style.columnSpan 1)

/-- grid.rs:329-388, the loop of `compute_cell_assignments`. -/
def assignLoop (rows cols : Nat) (occ : Occ) (row col : Nat) : List LChild → List Spot
  | [] => []
  | c :: cs =>
    match findSpot occ rows cols (spans c).1 (spans c).2 row col with
    | (some s, r', c') =>
      s :: (if r' ≥ rows then []
        else assignLoop rows cols (occupy occ rows cols s.row s.col s.rowSpan s.colSpan) r' c' cs)
    | (none, r', c') => ⟨0, 0, 0, 0⟩ :: (if r' ≥ rows then [] else assignLoop rows cols occ r' c' cs)

/-- grid.rs:319-389 `compute_cell_assignments`. -/
def cellAssignments (cs : List LChild) (rows cols : Nat) : List Spot :=
  assignLoop rows cols (fun _ _ => false) 0 0 cs

/-- grid.rs:663-774, the loop of `arrange`: the cells of each placed child. -/
def placeLoop (rows cols : Nat) (occ : Occ) (row col : Nat) : List LChild → List (LChild × Spot)
  | [] => []
  | c :: cs =>
    match findSpot occ rows cols (spans c).1 (spans c).2 row col with
    | (some s, r', c') =>
      (c, s) :: (if r' ≥ rows then []
        else placeLoop rows cols (occupy occ rows cols s.row s.col s.rowSpan s.colSpan) r' c' cs)
    | (none, _, _) => []

/-- grid.rs:111-121 `column_count`; `minColumn` is `min_column_width`. -/
def columnCount (minColumn : Option Nat) (g : GridStyle) (availableWidth : Int) : Nat :=
  match minColumn with
  | some m =>
    if 0 < (m : Int) ∧ 0 < availableWidth then (max (availableWidth.tdiv m) 1).toNat else g.columns.getD 1
  | none => g.columns.getD 1

/-- grid.rs:124-132 `row_count`. -/
def rowCount (g : GridStyle) (cols childCount : Nat) : Nat :=
  match g.rows with
  | some r => r
  | none => if cols = 0 then 1 else (childCount + cols - 1) / cols

/-- grid.rs:135-143 `resolve_scalar`. -/
def resolveScalar (s : Scalar) (available : Int) : Int :=
  match s.unit with
  | .cells => toI32 s.value
  | .percent => toI32 (percentOf s.value available)
  | .auto => available
  | .fraction => available
  | _ => toI32 s.value

/-- grid.rs:158-166 `track_specs`. -/
def trackSpecs (specs : List Scalar) (count : Nat) : List Scalar :=
  (List.range count).map fun i => (specs[i % specs.length]?).getD ⟨1, .fraction⟩

/-- grid.rs:173-188: the size of a track that is neither `fr` nor `auto`, 0 for those. -/
def fixedSize (available : Int) (s : Scalar) : Int :=
  match s.unit with
  | .fraction => 0
  | .auto => 0
  | _ => resolveScalar s available

/-- grid.rs:197-211: sizes of `fr` tracks with carried remainder (other tracks keep their size). -/
def frPass (available remaining total : Int) : Fraction → List Scalar → List Int
  | _, [] => []
  | rem, s :: ss =>
    if s.unit = .fraction then
      let raw := (Fraction.new (remaining * toI64 (s.value * 1000)) total).add rem
      raw.floor :: frPass available remaining total raw.fract ss
    else fixedSize available s :: frPass available remaining total rem ss

/-- grid.rs:212-222: sizes of `auto` tracks with carried remainder. -/
def autoPass (available remaining : Int) (count : Nat) : Fraction → List Scalar → List Int
  | _, [] => []
  | rem, s :: ss =>
    if s.unit = .auto then
      let raw := (Fraction.new remaining count).add rem
      raw.floor :: autoPass available remaining count raw.fract ss
    else fixedSize available s :: autoPass available remaining count rem ss

/-- grid.rs:153-155 `available_for_tracks`. -/
def availableForTracks (count : Nat) (available gutter : Int) : Int :=
  max (available - ((count - 1 : Nat) : Int) * gutter) 0

/-- grid.rs:148-240 `distribute_space`. The branch for no `fr`, no `auto` and no specs (223-231) cannot be
reached, since absent specs are `1fr`. -/
def distributeSpace (specs : List Scalar) (count : Nat) (available gutter : Int) : List Int :=
  let avail := availableForTracks count available gutter
  let ts := trackSpecs specs count
  let totalFr := (ts.map fun s => if s.unit = .fraction then s.value else 0).sum
  let remaining := avail - (ts.map (fixedSize avail)).sum
  let autoCount := (ts.filter fun s => s.unit = .auto).length
  let sizes :=
    if 0 < totalFr then frPass avail remaining (toI64 (totalFr * 1000)) Fraction.ZERO ts
    else if 0 < autoCount then autoPass avail remaining autoCount Fraction.ZERO ts
    else ts.map (fixedSize avail)
  sizes.map fun s => if s < 1 then 1 else s

/-- grid.rs:252-261, 304-313: offsets accumulate sizes and gutters. -/
def layTracks (gutter : Int) : Int → List Int → List Track
  | _, [] => []
  | offset, s :: ss => ⟨offset, s⟩ :: layTracks gutter (offset + (s + gutter)) ss

/-- grid.rs:246-262 `resolve_tracks`. -/
def resolveTracks (specs : List Scalar) (count : Nat) (available gutter : Int) : List Track :=
  layTracks gutter 0 (distributeSpace specs count available gutter)

/-- grid.rs:268-315 `resolve_tracks_with_content`. -/
def resolveTracksWithContent (specs : List Scalar) (count : Nat) (available gutter : Int) (content : List Int) :
    List Track :=
  if specs.isEmpty ∧ ¬ content.isEmpty then
    let total := content.sum
    let avail := available - ((count - 1 : Nat) : Int) * gutter
    let sizes := if total ≤ avail then content
      else content.map fun s => if 0 < total then (s * avail).tdiv total else 1
    layTracks gutter 0 (sizes.map fun s => max s 1)
  else resolveTracks specs count available gutter

/-- grid.rs:392-421 `compute_content_sizes`, one track: the largest desired size `d` of the children that
occupy exactly that track (`at s = j`, `span s = 1`). -/
def contentSize (at' span : Spot → Nat) (d : LChild → Nat) (cs : List LChild) (as : List Spot) (j : Nat) : Int :=
  (cs.zip as).foldl (fun m ca =>
    if ca.2.rowSpan = 0 ∨ ca.2.colSpan = 0 then m
    else if span ca.2 = 1 ∧ at' ca.2 = j then max m (d ca.1) else m) 0

/-- The part of the parent style read by `arrange`, besides the grid. Read by layouts/grid.rs:581. -/
structure Parent where
  grid : GridStyle
  autoWidth : Bool := false
  autoHeight : Bool := false

/-- grid.rs:596-659: the columns. -/
def columnTracks (p : Parent) (cs : List LChild) (rows cols : Nat) (available gutter : Int) : List Track :=
  if p.grid.columnWidths.isEmpty ∧ p.autoWidth then
    resolveTracksWithContent p.grid.columnWidths cols available gutter
      ((List.range cols).map (contentSize Spot.col Spot.colSpan LChild.desiredWidth cs (cellAssignments cs rows cols)))
  else resolveTracks p.grid.columnWidths cols available gutter

/-- grid.rs:596-659: the rows. -/
def rowTracks (p : Parent) (cs : List LChild) (rows cols : Nat) (available gutter : Int) : List Track :=
  if p.grid.rowHeights.isEmpty ∧ p.autoHeight then
    resolveTracksWithContent p.grid.rowHeights rows available gutter
      ((List.range rows).map (contentSize Spot.row Spot.rowSpan LChild.desiredHeight cs (cellAssignments cs rows cols)))
  else resolveTracks p.grid.rowHeights rows available gutter

/-- grid.rs:808-820 (columns) and 823-835 (rows): the length of a span of tracks. -/
def spanLength (ts : List Track) (start span : Nat) (gutter : Int) : Int :=
  let stop := min (start + span) ts.length
  match ts[start]? with
  | none => 0
  | some t =>
    match ts[stop]? with
    | some e => e.offset - t.offset - gutter
    | none => ((ts.drop start).map (·.size)).sum + ((stop - start - 1 : Nat) : Int) * gutter

/-- grid.rs:804-805: where a track starts. -/
def spanStart (ts : List Track) (i : Nat) : Int := ((ts[i]?).map (·.offset)).getD 0

/-- grid.rs:791-842 `child_region`. -/
def childRegion (s : Spot) (columns rows : List Track) (region : Region) (gutterH gutterV : Int) : Region :=
  ⟨region.x + spanStart columns s.col, region.y + spanStart rows s.row,
    spanLength columns s.col s.colSpan gutterH, spanLength rows s.row s.rowSpan gutterV⟩

/-- grid.rs:719-722 `height_is_auto`. -/
def heightIsAuto (s : LStyle) : Bool :=
  match s.height with
  | some h => h.unit = .auto
  | none => false

/-- grid.rs:708-755: the region of a child in its cell. -/
def childPlacement (c : LChild) (cell : Region) : Placement :=
  let s := c.style
  let w := min (resolveWidthWithIntrinsic s c.desiredWidth cell.width) cell.width
  let h := if heightIsAuto s then (c.intrinsicHeight (w % 65536).toNat : Int)
    else resolveHeightWithIntrinsic s c.desiredHeight cell.height
  let mt := toI32 s.margin.top.value
  let mr := toI32 s.margin.right.value
  let mb := toI32 s.margin.bottom.value
  let ml := toI32 s.margin.left.value
  ⟨c.index, ⟨cell.x + ml, cell.y + mt, max (w - ml - mr) 0, max (h - mt - mb) 0⟩⟩

/-- grid.rs:581-783 `arrange`. -/
def arrange (minColumn : Option Nat) (p : Parent) (cs : List LChild) (available : Region) : List Placement :=
  if cs.isEmpty then []
  else
    let cols := columnCount minColumn p.grid available.width
    let rows := rowCount p.grid cols cs.length
    let gv := resolveScalar p.grid.gutterV available.height
    let gh := resolveScalar p.grid.gutterH available.width
    let columns := columnTracks p cs rows cols available.width gh
    let rowTs := rowTracks p cs rows cols available.height gv
    (placeLoop rows cols (fun _ _ => false) 0 0 cs).map fun (c, s) =>
      childPlacement c (childRegion s columns rowTs available gh gv)

/-- grid.rs:491-506: which child covers a cell, as told to the keyline drawing. -/
def cellOccupancy (cs : List LChild) (rows cols : Nat) : Nat → Nat → Option Nat :=
  ((cs.zip (cellAssignments cs rows cols)).foldl (fun occ ca r c =>
    if ca.2.rowSpan = 0 ∨ ca.2.colSpan = 0 then occ r c
    else if ca.2.row ≤ r ∧ r < min (ca.2.row + ca.2.rowSpan) rows ∧
        ca.2.col ≤ c ∧ c < min (ca.2.col + ca.2.colSpan) cols then some ca.1.index
    else occ r c) fun _ _ => none)

/-- grid.rs:543-554 (columns), 556-568 (rows): the positions of the keylines. -/
def linePositions (ts : List Track) (length : Int) : List Int :=
  ts.map (·.offset) ++
    match ts.getLast? with
    | some t =>
      let edge := min (t.offset + t.size) length
      [if edge ≥ length then length - 1 else edge]
    | none => []

end Textual.Layout.Grid
