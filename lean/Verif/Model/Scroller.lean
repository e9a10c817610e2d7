import Verif.Model.Scroll
import Verif.Model.Scrollbar
import Verif.Model.LayoutTypes

/-!
# Scrolling containers

Model of `crates/textual/src/containers/scrollable.rs` (`ScrollableContainer`, and so `VerticalScroll` and
`HorizontalScroll`, which forward to it): which scrollbars are shown, where the children are drawn, and what
keys and mouse events do. The layout of the children is a parameter: any function from the area and the
viewport to placements (C20-C51 are about the layouts themselves). `f32` values are exact rationals, `i32` are
integers. Colours, logging, styles and messages are not modelled: an event for a child is recorded as the
child and the region it is given.
-/

namespace Textual.Scroller

open Layout (Placement Viewport)

/-- tcss/src/types/layout.rs:65-73 `Overflow`. -/
inductive Overflow where
  | hidden | auto | scroll
deriving DecidableEq, Repr

/-- The parts of `ComputedStyle` that matter here: overflow, `ScrollbarStyle` (tcss/src/types/scrollbar.rs) and
the room the chrome takes on each side (C91). See tcss/src/types/mod.rs:60, scrollbar.rs:49, layout.rs:65. -/
structure Sheet where
  overflowX : Overflow := .auto
  overflowY : Overflow := .auto
  /-- Width of the vertical bar. -/
  barV : Nat := 2
  /-- Height of the horizontal bar. -/
  barH : Nat := 1
  stableGutter : Bool := false
  visible : Bool := true
  chromeLeft : Nat := 0
  chromeTop : Nat := 0
  chromeRight : Nat := 0
  chromeBottom : Nat := 0
deriving DecidableEq, Repr

/-- The scrolled content: its layout, and the right and bottom margins of the children.
The layout is layouts/mod.rs:160. -/
structure Body where
  arrange : Region → Viewport → List Placement
  marginRight : Nat → Int := fun _ => 0
  marginBottom : Nat → Int := fun _ => 0

/-- Which scrollbars are shown. See scrollable.rs:183, 188. -/
structure Flags where
  v : Bool := false
  h : Bool := false
deriving DecidableEq, Repr

/-- scrollable.rs:105-126 `compute_inner_region`, containers.rs:50-80 `inner_region_for_container`. -/
def inner (s : Sheet) (r : Region) : Region :=
  if r.width ≤ 0 ∨ r.height ≤ 0 then r
  else ⟨r.x + s.chromeLeft, r.y + s.chromeTop, max (r.width - (s.chromeLeft + s.chromeRight)) 0,
    max (r.height - (s.chromeTop + s.chromeBottom)) 0⟩

/-- scrollable.rs:195-224 `content_region_with_flags`. -/
def contentRegion (s : Sheet) (r : Region) (f : Flags) : Region :=
  let v : Int := if f.v = true ∨ (s.stableGutter = true ∧ s.overflowY = .auto) then s.barV else 0
  let h : Int := if f.h = true then s.barH else 0
  ⟨r.x, r.y, max (r.width - v) 0, max (r.height - h) 0⟩

/-- scrollable.rs:232-250 `vertical_scrollbar_region_with_flags`. -/
def vRegion (s : Sheet) (r : Region) (h : Bool) : Region :=
  ⟨r.x + r.width - s.barV, r.y, s.barV, max (r.height - (if h then (s.barH : Int) else 0)) 0⟩

/-- scrollable.rs:258-276 `horizontal_scrollbar_region_with_flags`. -/
def hRegion (s : Sheet) (r : Region) (v : Bool) : Region :=
  ⟨r.x, r.y + r.height - s.barH, max (r.width - (if v then (s.barV : Int) else 0)) 0, s.barH⟩

/-- scrollable.rs:279-287 `corner_region`. -/
def cornerRegion (s : Sheet) (r : Region) : Region :=
  ⟨r.x + r.width - s.barV, r.y + r.height - s.barH, s.barV, s.barH⟩

/-- scrollable.rs:310-344 `compute_virtual_size`. -/
def virtualSize (b : Body) (ps : List Placement) (base : Region) : Int × Int :=
  ps.foldl (fun (acc : Int × Int) p =>
    let w := (p.region.x - base.x) + p.region.width + b.marginRight p.childIndex
    let h := (p.region.y - base.y) + p.region.height + b.marginBottom p.childIndex
    (if w > acc.1 then w else acc.1, if h > acc.2 then h else acc.2)) (0, 0)

/-- scrollable.rs:512-521: a bar is needed. -/
def needs (o : Overflow) (virt size : Int) : Bool :=
  match o with
  | .scroll => true
  | .auto => decide (virt > size)
  | .hidden => false

/-- scrollable.rs:504-524: the bars needed when the content is laid out beside the bars `f`. -/
def next (s : Sheet) (b : Body) (r : Region) (vp : Viewport) (f : Flags) : Flags :=
  let content := contentRegion s r f
  let size := virtualSize b (b.arrange content vp) content
  { v := needs s.overflowY size.2 content.height, h := needs s.overflowX size.1 content.width }

/-- scrollable.rs:59-66 `ScrollLayout`. -/
structure Plan where
  content : Region
  placements : List Placement
  virtualWidth : Int
  virtualHeight : Int
  show_ : Flags
deriving DecidableEq, Repr

/-- scrollable.rs:503-532: the loop of `compute_scroll_layout`; `n + 1` rounds remain. -/
def rounds (s : Sheet) (b : Body) (r : Region) (vp : Viewport) : Nat → Flags → Plan
  | n, f =>
    let f' := next s b r vp f
    let plan : Plan :=
      let content := contentRegion s r f
      let ps := b.arrange content vp
      let size := virtualSize b ps content
      ⟨content, ps, size.1, size.2, f'⟩
    match n with
    | 0 => plan
    | n + 1 => if f' = f then plan else rounds s b r vp n f'

/-- scrollable.rs:495-548 `compute_scroll_layout`, the value. -/
def plan (s : Sheet) (b : Body) (r : Region) (vp : Viewport) : Plan := rounds s b r vp 2 {}

/-- scrollable.rs:38-57: the state that changes. -/
structure State where
  scroll : ScrollState := ⟨0, 0, 0, 0, 0, 0⟩
  /-- The bar under the pointer; `true` is the vertical one. -/
  hover : Option Bool := none
  /-- The bar being dragged and the place it is held. -/
  drag : Option (Bool × Int) := none
  dirty : Bool := true
deriving DecidableEq, Repr

/-- scrollable.rs:534-538: the effect of `compute_scroll_layout`. -/
def State.laidOut (st : State) (p : Plan) : State :=
  { st with scroll :=
      (st.scroll.setVirtualSize p.virtualWidth p.virtualHeight).setViewport p.content.width p.content.height }

/-- scrollable.rs:183-186 `render_vertical_scrollbar`. `render` also asks that the container itself is not
`visibility: hidden` (748, 771, 794); the mouse code does not. Only containers that are not hidden are modelled. -/
def drawsV (s : Sheet) (f : Flags) : Bool := f.v && s.visible && decide (s.barV > 0)
/-- scrollable.rs:188-193 `render_horizontal_scrollbar`. -/
def drawsH (s : Sheet) (f : Flags) : Bool := f.h && s.visible && decide (s.barH > 0)

/-- scrollable.rs:726-731, 1045-1050: the region of a child after scrolling. -/
def scrolled (st : ScrollState) (r : Region) : Region := ⟨r.x - st.offsetX, r.y - st.offsetY, r.width, r.height⟩

/-- scrollable.rs:733-736: some of the region lies in the content area. -/
def inView (content r : Region) : Bool :=
  decide (r.x + r.width > content.x ∧ r.x < content.x + content.width ∧
    r.y + r.height > content.y ∧ r.y < content.y + content.height)

/-- scrollable.rs:664-801 `render`: the children drawn, in order, clipped to the content area `p.content`. -/
def State.drawn (st : State) (p : Plan) : List Placement :=
  (p.placements.map fun c => (⟨c.childIndex, scrolled (st.laidOut p).scroll c.region⟩ : Placement)).filter
    fun c => inView p.content c.region

/-! ### Keys -/

/-- The keys `on_event` distinguishes. See scrollable.rs:898. -/
inductive Key where
  | up | down | left | right | pageUp | pageDown | home | stop | other
deriving DecidableEq, Repr

/-- `(size as f32 * PAGE_SCROLL_RATIO) as i32` (scrollable.rs:31, 919). -/
def page (size : Int) : Int := Scrollbar.trunc ((size : Rat) * (9 / 10))

/-- scrollable.rs:551-574 `handle_scroll` and the other updates: the position changes and a redraw is asked for. -/
def State.scrollBy (st : State) (f : ScrollState → ScrollState) : State :=
  { st with scroll := f st.scroll, dirty := true }

/-- scrollable.rs:898-977 `on_event`; the second part is `true` if the key goes on to the children. -/
def State.onKey (s : Sheet) (st : State) : Key → State × Bool
  | .up => if s.overflowY ≠ .hidden then (st.scrollBy (·.scrollUp 1), false) else (st, true)
  | .down => if s.overflowY ≠ .hidden then (st.scrollBy (·.scrollDown 1), false) else (st, true)
  | .left => if s.overflowX ≠ .hidden then (st.scrollBy (·.scrollLeft 1), false) else (st, true)
  | .right => if s.overflowX ≠ .hidden then (st.scrollBy (·.scrollRight 1), false) else (st, true)
  | .pageUp =>
    if s.overflowY ≠ .hidden then (st.scrollBy fun c => c.scrollUp (page c.viewportHeight), false) else (st, true)
  | .pageDown =>
    if s.overflowY ≠ .hidden then (st.scrollBy fun c => c.scrollDown (page c.viewportHeight), false) else (st, true)
  | .home =>
    if s.overflowY ≠ .hidden ∨ s.overflowX ≠ .hidden then
      (st.scrollBy fun c => c.scrollTo (if s.overflowX ≠ .hidden then some 0 else none)
        (if s.overflowY ≠ .hidden then some 0 else none), false)
    else (st, true)
  | .stop =>
    if s.overflowY ≠ .hidden ∨ s.overflowX ≠ .hidden then
      (st.scrollBy fun c => c.scrollTo (if s.overflowX ≠ .hidden then some (c.maxScrollX : Rat) else none)
        (if s.overflowY ≠ .hidden then some (c.maxScrollY : Rat) else none), false)
    else (st, true)
  | .other => (st, true)

/-! ### Mouse -/

/-- The kinds of mouse events (crossterm's `MouseEventKind`). See scrollable.rs:979. -/
inductive Kind where
  | moved | down | drag | up | scrollDown | scrollUp | scrollLeft | scrollRight
deriving DecidableEq, Repr

/-- A mouse event; `sideways` if Shift or Ctrl is held. See scrollable.rs:979. -/
structure Mouse where
  kind : Kind
  column : Int
  row : Int
  sideways : Bool := false
deriving DecidableEq, Repr

/-- scrollable.rs:1433-1467 `handle_vertical_scrollbar_click`. -/
def State.clickV (st : State) (row : Int) (bar : Region) : State :=
  let pos := row - bar.y
  let c := st.scroll
  let thumb := Scrollbar.thumbBounds bar.height c.virtualHeight c.viewportHeight c.offsetY
  if pos ≥ thumb.1 ∧ pos < thumb.2 then { st with drag := some (true, pos - thumb.1), dirty := true }
  else if pos < thumb.1 then st.scrollBy fun c => c.scrollUp (page c.viewportHeight)
  else st.scrollBy fun c => c.scrollDown (page c.viewportHeight)

/-- scrollable.rs:1470-1528 `handle_horizontal_scrollbar_click`. -/
def State.clickH (st : State) (column : Int) (bar : Region) : State :=
  let pos := column - bar.x
  let c := st.scroll
  let thumb := Scrollbar.thumbBounds bar.width c.virtualWidth c.viewportWidth c.offsetX
  if pos ≥ thumb.1 ∧ pos < thumb.2 then { st with drag := some (false, pos - thumb.1), dirty := true }
  else if pos < thumb.1 then st.scrollBy fun c => c.scrollLeft (page c.viewportWidth)
  else st.scrollBy fun c => c.scrollRight (page c.viewportWidth)

/-- scrollable.rs:1545-1558, 1565-1578: the position for a thumb dragged to `start`; `none` leaves it. An
empty window (`f32` infinities and NaN) is not modelled exactly: division by zero is zero. -/
def dragTo (track virt window : Int) (start : Int) : Option Rat :=
  let thumb : Rat := (window : Rat) / virt * track
  let range : Rat := track - thumb
  if range > 0 then some ((start : Rat) / range * (virt - window)) else none

/-- scrollable.rs:137-151, 157-171 `show_vertical_scrollbar`, `show_horizontal_scrollbar`. -/
def State.shows (s : Sheet) (st : State) : Flags :=
  let bar (o : Overflow) (virt view : Int) : Bool := match o with
    | .scroll => true
    | .auto => decide (0 < view) && decide (virt > view)
    | .hidden => false
  { v := bar s.overflowY st.scroll.virtualHeight st.scroll.viewportHeight,
    h := bar s.overflowX st.scroll.virtualWidth st.scroll.viewportWidth }

/-- scrollable.rs:1531-1581 `handle_scrollbar_drag`; `r` is the inner region. -/
def State.dragBar (s : Sheet) (st : State) (m : Mouse) (r : Region) (vertical : Bool) (grab : Int) : State :=
  let c := st.scroll
  if vertical then
    let bar := vRegion s r (st.shows s).h
    match dragTo bar.height c.virtualHeight c.viewportHeight (m.row - bar.y - grab) with
    | some pos => st.scrollBy (·.scrollTo none (some pos))
    | none => st
  else
    let bar := hRegion s r (st.shows s).v
    match dragTo bar.width c.virtualWidth c.viewportWidth (m.column - bar.x - grab) with
    | some pos => st.scrollBy (·.scrollTo (some pos) none)
    | none => st

/-- scrollable.rs:1039-1054 and three more times: the child under the pointer. -/
def childAt (st : ScrollState) (p : Plan) (x y : Int) : Option Placement :=
  if p.content.containsPoint x y then
    (p.placements.map fun c => (⟨c.childIndex, scrolled st c.region⟩ : Placement)).find?
      fun c => c.region.containsPoint x y
  else none

/-- scrollable.rs:979-1177 `on_mouse` (and 1179-1378 `on_mouse_with_sender`); `r` is the whole region. The second
part is the child that gets the event, with the region it is told. -/
def State.onMouse (s : Sheet) (b : Body) (st : State) (m : Mouse) (r : Region) : State × Option Placement :=
  let inn := inner s r
  let p := plan s b inn (Viewport.ofRegion r)
  let st := st.laidOut p
  let bv := vRegion s inn p.show_.h
  let bh := hRegion s inn p.show_.v
  let onV := drawsV s p.show_ && bv.containsPoint m.column m.row
  let onH := drawsH s p.show_ && bh.containsPoint m.column m.row
  let child := childAt st.scroll p m.column m.row
  match m.kind with
  | .moved =>
    match st.drag with
    | some (vertical, grab) => (st.dragBar s m inn vertical grab, none)
    | none =>
      let hover := if onV then some true else if onH then some false else none
      (if st.hover ≠ hover then { st with hover := hover, dirty := true } else st, child)
  | .down =>
    if onV then (st.clickV m.row bv, none)
    else if onH then (st.clickH m.column bh, none)
    else (st, child)
  | .drag =>
    match st.drag with
    | some (vertical, grab) => (st.dragBar s m inn vertical grab, none)
    | none => (st, child)
  | .up => (if st.drag.isSome then { st with drag := none, dirty := true } else st, child)
  | .scrollDown =>
    if m.sideways then (if s.overflowX ≠ .hidden then st.scrollBy (·.scrollRight 1) else st, none)
    else (if s.overflowY ≠ .hidden then st.scrollBy (·.scrollDown 1) else st, none)
  | .scrollUp =>
    if m.sideways then (if s.overflowX ≠ .hidden then st.scrollBy (·.scrollLeft 1) else st, none)
    else (if s.overflowY ≠ .hidden then st.scrollBy (·.scrollUp 1) else st, none)
  | .scrollLeft => (if s.overflowX ≠ .hidden then st.scrollBy (·.scrollLeft 1) else st, none)
  | .scrollRight => (if s.overflowX ≠ .hidden then st.scrollBy (·.scrollRight 1) else st, none)

/-- scrollable.rs:1421-1428 `clear_hover`. -/
def State.clearHover (st : State) : State := { st with hover := none }

end Textual.Scroller
