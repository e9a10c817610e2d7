import Mathlib.Data.Rat.Floor

/-! Model of `crates/textual/src/scrollbar.rs`. `f32` values are exact rationals; the canvas is reduced to
the one column (row) of track cells, each cell holding the last glyph put there. That the drawing calls look like this on
the canvas is proved in `Props/Bars.lean` (C183). -/

namespace Textual.Scrollbar

/-- `f as i32`: truncation toward zero (the saturation at the ends of `i32` is not modelled). -/
def trunc (q : Rat) : Int := if 0 ≤ q then ⌊q⌋ else ⌈q⌉

/-- `thumb_bounds` (scrollbar.rs:321-345). -/
def thumbBounds (trackSize : Int) (virtualSize windowSize position : Rat) : Int × Int :=
  let size : Rat := trackSize
  let windowSize := if windowSize < virtualSize then windowSize else 0
  if windowSize ≤ 0 ∨ trackSize = 0 ∨ virtualSize = size ∨ virtualSize ≤ 0 then (0, 0)
  else
    let barRatio := virtualSize / size
    let thumbSize := max (windowSize / barRatio) 1
    let positionRatio := position / (virtualSize - windowSize)
    let thumbPosition := trunc ((size - thumbSize) * positionRatio)
    (thumbPosition, thumbPosition + ⌈thumbSize⌉)

/-- A colour of the scrollbar. See textual/src/scrollbar.rs:40. -/
inductive Ink where
  | thumb
  | track
deriving DecidableEq, Repr

/-- A drawn track cell: index of the glyph in the 8-entry table, foreground (absent for the track
background) and background. -/
structure Cell where
  glyph : Nat
  fg : Option Ink
  bg : Ink
deriving DecidableEq, Repr

/-- `ScrollbarGlyphs::BODY` is the last entry of both tables (scrollbar.rs:21, 25, 28). -/
def body : Nat := 7

/-- Start and end of the thumb in eighths of a cell (scrollbar.rs:112-128 and 240-256). -/
def thumbEighths (size : Int) (virtualSize windowSize position : Rat) : Int × Int :=
  let barRatio := virtualSize / (size : Rat)
  let thumbSize := max (windowSize / barRatio) 1
  let positionRatio := position / (virtualSize - windowSize)
  let thumbPosition := ((size : Rat) - thumbSize) * positionRatio
  let start := trunc (thumbPosition * 8)
  let stop := start + ⌈thumbSize * 8⌉
  (max start 0, max stop 0)

/-- The cells of the track: `render_vertical` (scrollbar.rs:72-188) with `headFg = thumb`,
`render_horizontal` (scrollbar.rs:200-316) with `headFg = track`. `none`: nothing drawn (empty region).
Writes are listed in order: track, thumb body, head, tail; the function gives the last one at `off`. -/
def renderCell (headFg tailFg : Ink) (size : Int) (virtualSize windowSize position : Rat) (drawThumb : Bool)
    (off : Int) : Option Cell :=
  if size ≤ 0 ∨ off < 0 ∨ size ≤ off then none
  else if !drawThumb || windowSize ≤ 0 || virtualSize ≤ 0 || virtualSize = (size : Rat) then some ⟨body, none, .track⟩
  else
    let (start, stop) := thumbEighths size virtualSize windowSize position
    let startIndex := start / 8
    let startBar := (start % 8).toNat
    let endIndex := stop / 8
    let endBar := (stop % 8).toNat
    let bodyStart := min (max startIndex 0) size
    let bodyEnd := min (max endIndex 0) size
    let c : Cell := ⟨body, none, .track⟩
    let c := if bodyStart ≤ off ∧ off < bodyEnd then ⟨body, some .thumb, .thumb⟩ else c
    let other : Ink → Ink := fun | .thumb => .track | .track => .thumb
    let c := if off = startIndex ∧ 8 - 1 - startBar ≠ body then
      ⟨8 - 1 - startBar, some headFg, other headFg⟩ else c
    let c := if off = endIndex ∧ 8 - 1 - endBar ≠ body then
      ⟨8 - 1 - endBar, some tailFg, other tailFg⟩ else c
    some c

/-- `render_vertical` (scrollbar.rs:72-188): head `fg = thumb, bg = track` (150-166), tail the reverse
(167-183). -/
def renderVertical := renderCell .thumb .track

/-- `render_horizontal` (scrollbar.rs:200-316): head `fg = track, bg = thumb` (278-294), tail the reverse
(295-311). -/
def renderHorizontal := renderCell .track .thumb

/-- `compose_colors` decision on drawing the thumb is `thumb.a > 0` (scrollbar.rs:52); the colours
themselves are `blend_over` (modelled in `Verif/Model/Color.lean`). -/
def drawThumb (thumbAlpha : Rat) : Bool := decide (0 < thumbAlpha)

end Textual.Scrollbar
