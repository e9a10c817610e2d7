import Verif.Model.Keyline

/-! What keylines are: sets of unit line segments between the centres of neighbouring cells. -/

namespace Textual.Keyline

/-- A drawing of lines: `h x y` is the segment from cell `(x, y)` to `(x+1, y)`, `v x y` the one from
`(x, y)` to `(x, y+1)`. -/
structure Lines where
  h : Nat → Nat → Bool
  v : Nat → Nat → Bool

/-- No lines. -/
def Lines.empty : Lines := ⟨fun _ _ => false, fun _ _ => false⟩

/-- Both drawings together. -/
def Lines.union (a b : Lines) : Lines := ⟨fun x y => a.h x y || b.h x y, fun x y => a.v x y || b.v x y⟩

/-- The arms cell `(x, y)` must show for a drawing in line type `lt`. -/
def Lines.quad (L : Lines) (lt x y : Nat) : Quad where
  top := if 0 < y ∧ L.v x (y - 1) = true then lt else 0
  right := if L.h x y = true then lt else 0
  bottom := if L.v x y = true then lt else 0
  left := if 0 < x ∧ L.h (x - 1) y = true then lt else 0

/-- The outline of the box with top left cell `(x, y)` and size `w × h`. -/
def boxLines (x y w h : Nat) : Lines where
  h := fun a b => decide ((b = y ∨ b = y + h - 1) ∧ x ≤ a ∧ a + 1 ≤ x + w - 1)
  v := fun a b => decide ((a = x ∨ a = x + w - 1) ∧ y ≤ b ∧ b + 1 ≤ y + h - 1)

/-- The lines of a table: full-length lines at every row and column position. -/
def tableLines (cols rows : List Nat) : Lines where
  h := fun a b => decide (b ∈ rows ∧ (∃ c ∈ cols, c ≤ a) ∧ ∃ c ∈ cols, a < c)
  v := fun a b => decide (a ∈ cols ∧ (∃ r ∈ rows, r ≤ b) ∧ ∃ r ∈ rows, b < r)

/-- The lines of a table with merged cells: the line between two neighbouring cells is drawn when they
have different occupants; the outline is always drawn. `cols[i] .. cols[i+1]` are the edges of column `i`. -/
def mergedLines (cols rows : List Nat) (occ : List (List (Option Nat))) : Lines where
  h := fun a b => (List.range rows.length).any fun r => (List.range (cols.length - 1)).any fun c =>
    decide (rows[r]? = some b) && decide (cols[c]?.getD 0 ≤ a ∧ a < cols[c + 1]?.getD 0) &&
      (decide (r = 0 ∨ r = rows.length - 1) || differ occ (r - 1) c r c)
  v := fun a b => (List.range cols.length).any fun c => (List.range (rows.length - 1)).any fun r =>
    decide (cols[c]? = some a) && decide (rows[r]?.getD 0 ≤ b ∧ b < rows[r + 1]?.getD 0) &&
      (decide (c = 0 ∨ c = cols.length - 1) || differ occ r (c - 1) r c)

/-- Positions in strictly increasing order, at least two of them. -/
def Increasing (l : List Nat) : Prop := 2 ≤ l.length ∧ ∀ i j : Nat, i < j → j < l.length → l[i]?.getD 0 < l[j]?.getD 0

end Textual.Keyline
