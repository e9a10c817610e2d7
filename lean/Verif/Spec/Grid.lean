import Verif.Model.Grid

/-! What placing children on the cells of a grid means. -/

namespace Textual.Layout.Grid

/-- The cell (r, c) belongs to the spot. -/
def Spot.Covers (s : Spot) (r c : Nat) : Prop :=
  s.row ≤ r ∧ r < s.row + s.rowSpan ∧ s.col ≤ c ∧ c < s.col + s.colSpan

/-- Reading order: earlier row, or same row and earlier column. -/
def Before (r c r' c' : Nat) : Prop := r < r' ∨ (r = r' ∧ c < c')

/-- The spot wanted by a child at cell (r, c): its spans, at least 1, cut off at the edge of the grid. -/
def wanted (rows cols : Nat) (child : LChild) (r c : Nat) : Spot :=
  ⟨r, c, min (max child.style.rowSpan 1) (rows - r), min (max child.style.columnSpan 1) (cols - c)⟩

/-- Two spots without common cell. -/
def Spot.Disjoint (s t : Spot) : Prop := ∀ r c, ¬ (s.Covers r c ∧ t.Covers r c)

/-- The declared size of track `i`: the declarations repeat; without any, tracks are `1fr`. -/
def specAt (specs : List Scalar) (i : Nat) : Scalar :=
  if h : specs = [] then ⟨1, .fraction⟩
  else specs[i % specs.length]'(Nat.mod_lt _ (List.length_pos_iff.2 h))

/-- The declared sizes of all tracks. -/
def specList (specs : List Scalar) (count : Nat) : List Scalar := (List.range count).map (specAt specs)

/-- The whole part of a number, toward zero, in the `i32` range. -/
def cells (q : Rat) : Int := max (-2147483648) (min 2147483647 (if 0 ≤ q then ⌊q⌋ else ⌈q⌉))

/-- The cells of a track that does not share free space; percentages are of `total`. -/
def trackCells (total : Int) (s : Scalar) : Int :=
  match s with
  | ⟨_, .fraction⟩ => 0
  | ⟨_, .auto⟩ => 0
  | ⟨v, .percent⟩ => cells (v / 100 * total)
  | ⟨v, _⟩ => cells v

/-- The `fr` weight of a track. -/
def weight (s : Scalar) : Rat := if s.unit = .fraction then s.value else 0

/-- The length available to `count` tracks besides the gutters. -/
def trackSpace (count : Nat) (available gutter : Int) : Int := available - ((count : Int) - 1) * gutter

/-- The length left for flexible tracks. -/
def freeSpace (specs : List Scalar) (count : Nat) (available gutter : Int) : Int :=
  trackSpace count available gutter -
    ((specList specs count).map (trackCells (trackSpace count available gutter))).sum

end Textual.Layout.Grid
