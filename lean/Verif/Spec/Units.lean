import Verif.Model.LayoutTypes

/-! What a length written in a stylesheet means. -/

namespace Textual.Layout

/-- The length meant by a number with a unit, for a box in a container of size `a` on a screen of size `vp`:
`own` is the length of the container in the direction of the length. `fr` and `auto` name no length. -/
def Scalar.meant (own : Int) (a : Region) (vp : Viewport) (s : Scalar) : Option Rat :=
  match s.unit with
  | .cells => some s.value
  | .percent => some (s.value / 100 * own)
  | .width => some (s.value / 100 * a.width)
  | .height => some (s.value / 100 * a.height)
  | .viewWidth => some (s.value / 100 * vp.width)
  | .viewHeight => some (s.value / 100 * vp.height)
  | .fraction => none
  | .auto => none

/-- The width of the box of a child (with border and padding) meant by its style: a width with `content-box` does
not count them. -/
def LStyle.meantWidth (s : LStyle) (a : Region) (vp : Viewport) : Option Rat := do
  let q ← (← s.width).meant a.width a vp
  return q + (if s.contentBox then (horizontalChrome s : Rat) else 0)

/-- The height of the box of a child meant by its style. -/
def LStyle.meantHeight (s : LStyle) (a : Region) (vp : Viewport) : Option Rat := do
  let q ← (← s.height).meant a.height a vp
  return q + (if s.contentBox then (verticalChrome s : Rat) else 0)

/-- A whole number of cells within less than a cell of the length meant. -/
def About (n : Int) (q : Rat) : Prop := q - 1 < n ∧ n < q + 1

/-- A number that is not negative, at most `2147483647` (the largest `i32`). -/
def Modest (q : Rat) : Prop := 0 ≤ q ∧ q ≤ 2147483647

end Textual.Layout
