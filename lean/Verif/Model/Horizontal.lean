import Verif.Model.LayoutTypes
import Verif.Model.Fraction

/-!
Model of `/repo/crates/textual/src/layouts/horizontal.rs` (`HorizontalLayout::arrange`, lines 20-327). The
accumulators of the first pass (sums of widths, margins, weights) are taken as sums of the list it produces.
-/

namespace Textual.Layout.Horizontal

/-- horizontal.rs:28-31 `percent_to_fraction`. -/
def percentToFraction (value : Rat) (basis : Int) : Fraction :=
  Fraction.new (basis * roundHalfAway (value * 1000)) (100 * 1000)

/-- horizontal.rs:32-37 `apply_box_sizing_width_fraction`. -/
def applyBoxSizingFraction (w : Fraction) (s : LStyle) : Fraction :=
  if s.contentBox then w.add (Fraction.ofInt (horizontalChrome s)) else w

/-- The width a child asks for: an exact length or an `fr` weight in thousandths (horizontal.rs:65-146). -/
inductive Want where
  | fixed (w : Fraction)
  | fr (weight : Int)
deriving DecidableEq, Repr

/-- horizontal.rs:65-146, the match on the unit (before the carried remainder is added). -/
def want (c : LChild) (available : Region) (vp : Viewport) : Want :=
  let s := c.style
  let intrinsic := if c.desiredWidth = fill then Want.fr 1000 else .fixed (Fraction.ofInt c.desiredWidth)
  match s.width with
  | some w =>
    match w.unit with
    | .fraction => .fr (toI64 (w.value * 1000))
    | .cells => .fixed (Fraction.ofInt (applyBoxSizingWidth (toI32 w.value) s))
    | .percent => .fixed (applyBoxSizingFraction (percentToFraction w.value available.width) s)
    | .width => .fixed (applyBoxSizingFraction (percentToFraction w.value available.width) s)
    | .height => .fixed (applyBoxSizingFraction (percentToFraction w.value available.height) s)
    | .viewWidth => .fixed (applyBoxSizingFraction (percentToFraction w.value vp.width) s)
    | .viewHeight => .fixed (applyBoxSizingFraction (percentToFraction w.value vp.height) s)
    | .auto => intrinsic
  | none => intrinsic

/-- horizontal.rs:48-152: the whole width of each fixed child; the fractional part is carried to the next
fixed child. `none` for `fr` children. -/
def fixedWidths : Fraction → List Want → List (Option Int)
  | _, [] => []
  | rem, .fixed w :: ws =>
    let raw := w.add rem
    some raw.floor :: fixedWidths raw.fract ws
  | rem, .fr _ :: ws => none :: fixedWidths rem ws

/-- horizontal.rs:50-62: the effective left margin of each child; `prev` is the right margin of the previous
child, `none` for the first. -/
def leftMargins : Option Int → List LChild → List Int
  | _, [] => []
  | prev, c :: cs =>
    let ml := toI32 c.style.margin.left.value
    (match prev with
      | none => ml
      | some p => max (ml - p) 0) :: leftMargins (some (toI32 c.style.margin.right.value)) cs

/-- horizontal.rs:61 `total_margin`. -/
def totalMargin (cs : List LChild) : Int :=
  (leftMargins none cs).sum + (cs.map (fun c => toI32 c.style.margin.right.value)).sum

/-- horizontal.rs:150 `fixed_width_sum`. -/
def fixedSum (ws : List (Option Int)) : Int := (ws.map (fun w => w.getD 0)).sum

/-- The weight of a child, 0 if fixed. -/
def Want.weight : Want → Int
  | .fixed _ => 0
  | .fr v => v

/-- horizontal.rs:42, 68: `total_fr`. -/
def totalFr (ws : List Want) : Int := (ws.map Want.weight).sum

/-- horizontal.rs:154 `remaining_for_fr`. -/
def remainingForFr (available : Region) (ws : List (Option Int)) (cs : List LChild) : Int :=
  max (available.width - fixedSum ws - totalMargin cs) 0

/-- horizontal.rs:160-168: the rounded-down share of each `fr` child. -/
def shares (remaining total : Int) (ws : List Want) : List (Option Int) :=
  ws.map fun
    | .fixed _ => none
    | .fr v => some ((Fraction.ofInt remaining).mulRatio v total).floor

/-- horizontal.rs:170-177: one more cell for the first `fr` children while there is something left over. -/
def addLeftover : Int → List (Option Int) → List Int
  | _, [] => []
  | left, none :: ws => 0 :: addLeftover left ws
  | left, some w :: ws => if left ≤ 0 then w :: addLeftover left ws else (w + 1) :: addLeftover (left - 1) ws

/-- horizontal.rs:156-178 `fr_widths`. -/
def frWidths (remaining : Int) (ws : List Want) : List Int :=
  if totalFr ws > 0 ∧ remaining > 0 then
    let sh := shares remaining (totalFr ws) ws
    addLeftover (remaining - fixedSum sh) sh
  else ws.map (fun _ => 0)

/-- horizontal.rs:226-253: the height before constraints. -/
def baseHeight (c : LChild) (available : Region) (width : Int) : Int :=
  match c.style.height with
  | some h =>
    match h.unit with
    | .auto => c.intrinsicHeight (clampU16 width)
    | .fraction => available.height
    | .cells => applyBoxSizingHeight (toI32 h.value) c.style
    | .percent => applyBoxSizingHeight (toI32 (percentOf h.value available.height)) c.style
    | _ => applyBoxSizingHeight (toI32 h.value) c.style
  | none => available.height

/-- Whether the height is `auto`. -/
def autoHeight (s : LStyle) : Bool :=
  match s.height with
  | some h => h.unit = .auto
  | none => false

/-- horizontal.rs:184-324, the loop of the second pass: `ws` the precomputed widths, `lm` the effective left
margins, `x` is `current_x`. -/
def place (available : Region) (vp : Viewport) : Int → List LChild → List Int → List Int → List Placement
  | x, c :: cs, w :: ws, lm :: lms =>
    let s := c.style
    let width := constrain s.maxWidth s.minWidth available.width available vp w
    let height := constrain s.maxHeight s.minHeight available.height available vp (baseHeight c available width)
    let mt := toI32 s.margin.top.value
    let mb := toI32 s.margin.bottom.value
    let x := x + lm
    let height := if autoHeight s then height else max (height - mt - mb) 0
    { childIndex := c.index, region := ⟨x, available.y + mt, width, height⟩ } ::
      place available vp (x + (width + toI32 s.margin.right.value)) cs ws lms
  | _, _, _, _ => []

/-- horizontal.rs:20-327 `arrange`. -/
def arrange (cs : List LChild) (available : Region) (vp : Viewport) : List Placement :=
  let wants := cs.map (fun c => want c available vp)
  let fixed := fixedWidths Fraction.ZERO wants
  let fr := frWidths (remainingForFr available fixed cs) wants
  let widths := List.zipWith (fun f w => f.getD w) fixed fr
  place available vp available.x cs widths (leftMargins none cs)

end Textual.Layout.Horizontal
