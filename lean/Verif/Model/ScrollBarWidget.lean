import Verif.Model.Region
import Verif.Model.Scrollbar

/-!
# The scrollbar widget

Model of `crates/textual/src/widget/scrollbar.rs`. `f32` values are exact rationals. Styles, ids and the dirty flag
are left out; the drawing is `Verif/Model/Scrollbar.lean`.
-/

namespace Textual.ScrollBarWidget

open Scrollbar (thumbBounds)

/-- scrollbar.rs:14-24 `ScrollBarState`. -/
inductive Hold where
  | normal
  | hover
  | grabbed (grip : Int)
deriving DecidableEq, Repr

/-- scrollbar.rs:31-60 `ScrollBar`: the parts that matter here. -/
structure Bar where
  vertical : Bool
  thickness : Nat := 1
  position : Rat := 0
  grabbedPosition : Rat := 0
  virtualSize : Rat := 100
  windowSize : Rat := 100
  state : Hold := .normal
deriving DecidableEq, Repr

/-- The messages of `scroll/message.rs` sent by the widget. See scroll.rs:5. -/
inductive Msg where
  | up | down | left | right
  | scrollTo (x y : Option Rat)
deriving DecidableEq, Repr

/-- The kinds of mouse events told apart in `on_mouse`; buttons do not matter. See widget/scrollbar.rs:216, 240. -/
inductive Kind where
  | moved | down | drag | up | scrollDown | scrollUp | other
deriving DecidableEq, Repr

/-- What happens to a scrollbar: a mouse event while it is drawn in a region, and the calls of its container and of
the application. See widget/scrollbar.rs:216. -/
inductive Event where
  | mouse (kind : Kind) (column row : Int) (region : Region)
  | update (virtualSize windowSize position : Rat)
  | setHover (on : Bool)
  | setActive (on : Bool)
  | clearHover

/-- scrollbar.rs:105-116 `update`; the tolerance `f32::EPSILON` is the rational 2⁻²³. -/
def Bar.update (b : Bar) (v w p : Rat) : Bar :=
  let eps : Rat := 1 / 8388608
  if |b.virtualSize - v| > eps ∨ |b.windowSize - w| > eps ∨ |b.position - p| > eps then
    { b with virtualSize := v, windowSize := w, position := p }
  else b

/-- The length of the bar in a region (scrollbar.rs:125-129, 286-290). -/
def Bar.track (b : Bar) (r : Region) : Int := if b.vertical then r.height else r.width

/-- scrollbar.rs:124-136 `thumb_bounds`. -/
def Bar.thumb (b : Bar) (r : Region) : Int × Int := thumbBounds (b.track r) b.virtualSize b.windowSize b.position

/-- scrollbar.rs:286-304: the position a drag asks for, the thumb to start at `start`. -/
def Bar.dragged (b : Bar) (r : Region) (start : Int) : Rat :=
  let size : Rat := b.track r
  let thumbSize := b.windowSize / b.virtualSize * size
  let range := size - thumbSize
  if range > 0 then start / range * (b.virtualSize - b.windowSize) else 0

/-- scrollbar.rs:216-351 `on_mouse`. -/
def Bar.onMouse (b : Bar) (kind : Kind) (mx my : Int) (r : Region) : Bar × Option Msg :=
  if r.containsPoint mx my = false then
    (if b.state = .hover then { b with state := .normal } else b, none)
  else
    let pos := if b.vertical then my - r.y else mx - r.x
    let (start, stop) := b.thumb r
    let onThumb : Bool := decide (pos ≥ start ∧ pos < stop)
    match kind with
    | .moved =>
      match b.state with
      | .grabbed _ => (b, none)
      | _ => ({ b with state := .hover }, none)
    | .down =>
      if onThumb then ({ b with state := .grabbed (pos - start), grabbedPosition := b.position }, none)
      else if pos < start then (b, some (if b.vertical then .up else .left))
      else (b, some (if b.vertical then .down else .right))
    | .drag =>
      match b.state with
      | .grabbed grip =>
        let p := b.dragged r (pos - grip)
        (b, some (if b.vertical then .scrollTo none (some p) else .scrollTo (some p) none))
      | _ => (b, none)
    | .up =>
      match b.state with
      | .grabbed _ => ({ b with state := .hover }, none)
      | _ => (b, none)
    | .scrollDown => (b, some (if b.vertical then .down else .right))
    | .scrollUp => (b, some (if b.vertical then .up else .left))
    | .other => (b, none)

/-- scrollbar.rs:402-416 `set_hover`. -/
def Bar.setHover (b : Bar) (on : Bool) : Bar :=
  match b.state with
  | .grabbed _ => b
  | _ => { b with state := if on then .hover else .normal }

/-- scrollbar.rs:418-431 `set_active`. -/
def Bar.setActive (b : Bar) (on : Bool) : Bar :=
  if on then b
  else
    match b.state with
    | .grabbed _ => { b with state := .normal }
    | _ => b

/-- scrollbar.rs:433-440 `clear_hover`. -/
def Bar.clearHover (b : Bar) : Bar :=
  match b.state with
  | .grabbed _ => b
  | _ => { b with state := .normal }

/-- One event. See widget/scrollbar.rs:216. -/
def Bar.step (b : Bar) : Event → Bar × Option Msg
  | .mouse k x y r => b.onMouse k x y r
  | .update v w p => (b.update v w p, none)
  | .setHover on => (b.setHover on, none)
  | .setActive on => (b.setActive on, none)
  | .clearHover => (b.clearHover, none)

/-- A history. A history of the calls of widget/scrollbar.rs:216. -/
def Bar.run (b : Bar) (es : List Event) : Bar := es.foldl (fun b e => (b.step e).1) b

/-- scrollbar.rs:353-361 `get_state`: shown as held (`:active`) and as hovered. -/
def Bar.active (b : Bar) : Bool := match b.state with | .grabbed _ => true | _ => false
/-- Set in `on_mouse`, widget/scrollbar.rs:216. -/
def Bar.hovered (b : Bar) : Bool := match b.state with | .hover => true | _ => false

/-- scrollbar.rs:166-178 `desired_size`. -/
def Bar.desired (b : Bar) : Nat × Nat := if b.vertical then (b.thickness, 1) else (1, b.thickness)

end Textual.ScrollBarWidget
