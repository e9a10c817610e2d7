import Verif.Model.BarColours

/-!
# Specification of the colours of scrollbars (C172)

Which bar is being held and which is under the pointer, read from the history of mouse events alone and from where the
bars and their thumbs are.
-/

namespace Textual.BarColours

open Scroller (Sheet Body Mouse State Kind)
open Layout (Viewport)

/-- What the user is doing with the bars. -/
structure Doing where
  /-- The bar whose thumb was pressed and not released since. -/
  held : Option Bool := none
  /-- The bar under the pointer. -/
  over : Option Bool := none
deriving DecidableEq, Repr

/-- The colours for a bar: the first that the stylesheet gives. -/
def firstGiven (l : List (Option RgbaColor)) (default : RgbaColor) : RgbaColor := (l.filterMap id).headD default

/-- Thumb and track of the bar. -/
def expected (c : Colours) (d : Doing) (vertical : Bool) : RgbaColor × RgbaColor :=
  if d.held = some vertical then
    (firstGiven [c.colorActive, c.colorHover, c.color] (.rgb 0 48 84),
     firstGiven [c.backgroundActive, c.backgroundHover, c.background] (.rgb 0 0 0))
  else if d.over = some vertical then
    (firstGiven [c.colorHover, c.color] (.rgb 0 48 84), firstGiven [c.backgroundHover, c.background] (.rgb 0 0 0))
  else (firstGiven [c.color] (.rgb 0 48 84), firstGiven [c.background] (.rgb 0 0 0))

/-- The places of the bars shown, and the scroll position, when an event arrives. -/
structure Bars where
  vertical : Option Region
  horizontal : Option Region
  scroll : ScrollState

/-- The bar at a place. -/
def Bars.barAt (k : Bars) (m : Mouse) : Option Bool :=
  if k.vertical.any (·.containsPoint m.column m.row) then some true
  else if k.horizontal.any (·.containsPoint m.column m.row) then some false
  else none

/-- The bar whose thumb is at a place. -/
def Bars.thumbAt (k : Bars) (m : Mouse) : Option Bool :=
  match k.barAt m, k.vertical, k.horizontal with
  | some true, some bar, _ =>
    let t := Scrollbar.thumbBounds bar.height k.scroll.virtualHeight k.scroll.viewportHeight k.scroll.offsetY
    if t.1 ≤ m.row - bar.y ∧ m.row - bar.y < t.2 then some true else none
  | some false, _, some bar =>
    let t := Scrollbar.thumbBounds bar.width k.scroll.virtualWidth k.scroll.viewportWidth k.scroll.offsetX
    if t.1 ≤ m.column - bar.x ∧ m.column - bar.x < t.2 then some false else none
  | _, _, _ => none

/-- A press on a thumb takes hold of the bar, a release lets go, a move brings the pointer over a bar or away; a move
that carries a thumb along says `carried` about that. `inside`: the pointer is in the region. -/
def Doing.next (carried : Option Bool → Option Bool) (k : Bars) (inside : Bool) (d : Doing) (m : Mouse) : Doing :=
  match m.kind with
  | .down => if inside then { d with held := (k.thumbAt m).or d.held } else d
  | .up => { d with held := none }
  | .moved =>
    if inside then { d with over := if d.held.isSome then carried d.over else k.barAt m }
    else { d with over := carried d.over }
  | _ => d

/-- The bars of a scrolling container. -/
def scrollerBars (s : Sheet) (b : Body) (r : Region) (st : State) : Bars :=
  let inn := Scroller.inner s r
  let p := Scroller.plan s b inn (Viewport.ofRegion r)
  { vertical := if Scroller.drawsV s p.show_ then some (Scroller.vRegion s inn p.show_.h) else none
    horizontal := if Scroller.drawsH s p.show_ then some (Scroller.hRegion s inn p.show_.v) else none
    scroll := (st.laidOut p).scroll }

/-- The bars of a screen. -/
def screenBars (s : Sheet) (r : Region) (st : State) : Bars :=
  let a := Scroller.inner s r
  let f := Screen.shows s st.scroll
  let content := Scroller.contentRegion s a f
  { vertical := if Scroller.drawsV s f then some (Scroller.vRegion s a f.h) else none
    horizontal := if Scroller.drawsH s f then some (Scroller.hRegion s a f.v) else none
    scroll := st.scroll.setViewport content.width content.height }

/-- What the user is doing with the bars of a container in the end; the state is only asked for the scroll position. -/
def doing (s : Sheet) (b : Body) (r : Region) : State → Doing → List Mouse → Doing
  | _, d, [] => d
  | st, d, m :: ms =>
    doing s b r (step s b r st m)
      (d.next (fun _ => none) (scrollerBars s b r st) (r.containsPoint m.column m.row) m) ms

/-- The same for a screen. -/
def screenDoing (s : Sheet) (b : Body) (pinned : Nat → Bool) (r : Region) : State → Doing → List Mouse → Doing
  | _, d, [] => d
  | st, d, m :: ms =>
    screenDoing s b pinned r (screenStep s b pinned r st m)
      (d.next id (screenBars s r st) (r.containsPoint m.column m.row) m) ms

end Textual.BarColours
