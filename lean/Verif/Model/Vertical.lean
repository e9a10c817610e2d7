import Verif.Model.LayoutTypes

/-!
Model of `/repo/crates/textual/src/layouts/vertical.rs`. The accumulators of the first pass are taken as sums.
-/

namespace Textual.Layout.Vertical

/-- vertical.rs:25-85 `resolve_child_width`. -/
def childWidth (c : LChild) (available : Region) (vp : Viewport) : Int :=
  let s := c.style
  let base := resolveWidthWithIntrinsic s c.desiredWidth available.width
  let reduce := match s.width with
    | some w => match w.unit with
      | .percent | .width | .height | .viewWidth | .viewHeight | .fraction => true
      | _ => false
    | none => true
  let width := if reduce then max (base - toI32 s.margin.left.value - toI32 s.margin.right.value) 0 else base
  constrain s.maxWidth s.minWidth available.width available vp width

/-- vertical.rs:118-160: the height a child uses of the fixed total (first pass); 0 for `fr`. -/
def fixedHeight (c : LChild) (available : Region) (vp : Viewport) : Rat :=
  match c.style.height with
  | some h =>
    match h.unit with
    | .fraction => 0
    | .cells => applyBoxSizingHeight (toI32 h.value) c.style
    | .percent => percentOf h.value vp.height
    | .height => percentOf h.value vp.height
    | .width => percentOf h.value vp.width
    | .viewWidth => percentOf h.value vp.width
    | .viewHeight => percentOf h.value vp.height
    | .auto => c.intrinsicHeight (clampU16 (childWidth c available vp))
  | none => if c.desiredHeight = fill then 0 else c.desiredHeight

/-- vertical.rs:119-121, 154-156: the `fr` weight of a child, 0 for fixed ones. -/
def frWeight (c : LChild) : Rat :=
  match c.style.height with
  | some h => if h.unit = .fraction then h.value else 0
  | none => if c.desiredHeight = fill then 1 else 0

/-- vertical.rs:110-117: the effective top margin of each child. -/
def topMargins : Option Rat → List LChild → List Rat
  | _, [] => []
  | prev, c :: cs =>
    let mt := c.style.margin.top.value
    (match prev with
      | none => mt
      | some p => max (mt - p) 0) :: topMargins (some c.style.margin.bottom.value) cs

/-- vertical.rs:119 `total_margin`. -/
def totalMargin (cs : List LChild) : Rat :=
  (topMargins none cs).sum + (cs.map (fun c => c.style.margin.bottom.value)).sum

/-- vertical.rs:165-166 `remaining_for_fr`. -/
def remainingForFr (cs : List LChild) (available : Region) (vp : Viewport) : Rat :=
  max (vp.height - (cs.map (fun c => fixedHeight c available vp)).sum - totalMargin cs) 0

/-- vertical.rs:170-174 `fraction_unit`. -/
def fractionUnit (cs : List LChild) (available : Region) (vp : Viewport) : Rat :=
  let total := (cs.map frWeight).sum
  let remaining := remainingForFr cs available vp
  if 0 < total ∧ 0 < remaining then remaining / total else 1

/-- vertical.rs:193-222: the height before constraints, in the second pass. -/
def boxHeight0 (c : LChild) (available : Region) (vp : Viewport) (unit : Rat) : Rat :=
  match c.style.height with
  | some h =>
    match h.unit with
    | .fraction => h.value * unit
    | .auto => c.intrinsicHeight (clampU16 (childWidth c available vp))
    | .cells => applyBoxSizingHeight (toI32 h.value) c.style
    | .percent => percentOf h.value available.height
    | .height => percentOf h.value available.height
    | .width => percentOf h.value vp.width
    | .viewWidth => percentOf h.value vp.width
    | .viewHeight => percentOf h.value vp.height
  | none => if c.desiredHeight = fill then unit else c.desiredHeight

/-- vertical.rs:261-264 `should_reduce_by_margins`. -/
def reduceByMargins (c : LChild) : Bool :=
  match c.style.height with
  | some h => match h.unit with
    | .percent | .height | .fraction => true
    | _ => false
  | none => c.desiredHeight = fill

/-- vertical.rs:193-269 `box_height`, with constraints and margin reduction. -/
def boxHeight (c : LChild) (available : Region) (vp : Viewport) (unit : Rat) : Rat :=
  let s := c.style
  let h := boxHeight0 c available vp unit
  let h := match s.maxHeight with
    | some m => min h (constraintValue m available.height available vp)
    | none => h
  let h := match s.minHeight with
    | some m => max h (constraintValue m available.height available vp)
    | none => h
  if reduceByMargins c then max (h - s.margin.top.value - s.margin.bottom.value) 0 else h

/-- vertical.rs:180-303, the loop of the second pass: `y` is `current_y`, `tm` the effective top margins. -/
def place (available : Region) (vp : Viewport) (unit : Rat) : Rat → List LChild → List Rat → List Placement
  | y, c :: cs, tm :: tms =>
    let s := c.style
    let y := y + tm
    let next := y + boxHeight c available vp unit
    { childIndex := c.index
      region := ⟨available.x + toI32 s.margin.left.value, ⌊y⌋, childWidth c available vp, max (⌊next⌋ - ⌊y⌋) 0⟩ } ::
      place available vp unit (next + s.margin.bottom.value) cs tms
  | _, _, _ => []

/-- vertical.rs:88-306 `arrange`. -/
def arrange (cs : List LChild) (available : Region) (vp : Viewport) : List Placement :=
  place available vp (fractionUnit cs available vp) available.y cs (topMargins none cs)

end Textual.Layout.Vertical
