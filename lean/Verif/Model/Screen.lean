import Verif.Model.Scroller

/-!
# The screen

Model of `crates/textual/src/widget/screen.rs`: responsive classes, drawing as far as it places children and bars, and
mouse handling. The parameters are those of scrolling containers (`Model/Scroller.lean`): the layout of the children
is any function of area and screen size, the chrome is four numbers. `pinned` says which children have a `dock` or
`position: absolute`. Colours, and `visibility: hidden` are left out.
-/

namespace Textual.Screen

open Layout (Placement Viewport)
open Scroller (Sheet Body Overflow Mouse Kind Flags inner scrolled inView virtualSize State vRegion hRegion
  contentRegion drawsV drawsH dragTo)

/-! ### Responsive classes -/

/-- screen.rs:30-31 `Breakpoint`. -/
abbrev Breakpoint := Nat × String

/-- screen.rs:103-111, 113-121: the last breakpoint that is reached. -/
def reached (bps : List Breakpoint) (size : Nat) : Option String :=
  ((bps.filter fun b => decide (size ≥ b.1)).getLast?).map (·.2)

/-- screen.rs:54, 57, 63-64: the fields used here. -/
structure Responsive where
  classes : List String := []
  dirty : Bool := true
deriving DecidableEq, Repr

/-- screen.rs:99-126 `update_breakpoints`, called by `on_resize` (663-669). -/
def Responsive.resize (h v : List Breakpoint) (st : Responsive) (width height : Nat) : Responsive :=
  let new := (reached h width).toList ++ (reached v height).toList
  { classes := new, dirty := st.dirty || decide (st.classes ≠ new) }

/-! ### Drawing -/

/-- screen.rs:250-264 `show_vertical_scrollbar`, `show_horizontal_scrollbar`. -/
def shows (s : Sheet) (c : ScrollState) : Flags :=
  let bar (o : Overflow) (can : Bool) : Bool := match o with
    | .scroll => true
    | .auto => can
    | .hidden => false
  { v := bar s.overflowY c.canScrollY, h := bar s.overflowX c.canScrollX }

/-- What a drawing shows: the area the children are clipped to, the children in order, and the bars.
See screen.rs:497. -/
structure Drawn where
  content : Region
  children : List Placement
  vBar : Option Region
  hBar : Option Region
deriving DecidableEq, Repr

/-- screen.rs:515-524: the bars the first layout calls for. -/
def wants (s : Sheet) (a : Region) (size : Int × Int) : Flags :=
  let bar (o : Overflow) (over : Bool) : Bool := match o with
    | .scroll => true
    | .hidden => false
    | .auto => over
  { v := bar s.overflowY (decide (size.2 > a.height)), h := bar s.overflowX (decide (size.1 > a.width)) }

/-- screen.rs:508-553: the area for the children and the children laid out; `a` is the inner region. The second layout
uses the area beside the bar. -/
def layout (s : Sheet) (b : Body) (a : Region) (vp : Viewport) : Region × List Placement × (Int × Int) :=
  let first := b.arrange a vp
  let size := virtualSize b first a
  let f := wants s a size
  let content := contentRegion s a f
  if f.v = true ∧ content.width < a.width then
    let again := b.arrange content vp
    (content, again, virtualSize b again content)
  else (content, first, size)

/-- screen.rs:497-656 `render`. The bars are asked for anew after the sizes are known (596-597). -/
def draw (s : Sheet) (b : Body) (st : State) (r : Region) (vp : Viewport) : Option Drawn × State :=
  if r.width ≤ 0 ∨ r.height ≤ 0 then (none, st)
  else
    let a := inner s r
    let (content, ps, size) := layout s b a vp
    let c := (st.scroll.setVirtualSize size.1 size.2).setViewport content.width content.height
    let f := shows s c
    (some { content := content,
            children := (ps.map fun p => (⟨p.childIndex, scrolled c p.region⟩ : Placement)).filter
              fun p => inView content p.region,
            vBar := if drawsV s f then some (vRegion s a f.h) else none,
            hBar := if drawsH s f then some (hRegion s a f.v) else none },
     { st with scroll := c })

/-! ### Mouse -/

/-- screen.rs:434-481 `handle_scrollbar_drag`; `a` is the inner region. -/
def dragBar (s : Sheet) (st : State) (m : Mouse) (a : Region) (vertical : Bool) (grab : Int) : State :=
  let c := st.scroll
  if vertical then
    let bar := vRegion s a (shows s c).h
    match dragTo bar.height c.virtualHeight c.viewportHeight (m.row - bar.y - grab) with
    | some pos => st.scrollBy (·.scrollTo none (some pos))
    | none => st
  else
    let bar := hRegion s a (shows s c).v
    match dragTo bar.width c.virtualWidth c.viewportWidth (m.column - bar.x - grab) with
    | some pos => st.scrollBy (·.scrollTo (some pos) none)
    | none => st

/-- screen.rs:203-248 `dispatch_mouse_to_children`: the first child at the pointer, with the region it is told. -/
def childAt (b : Body) (pinned : Nat → Bool) (c : ScrollState) (area : Region) (vp : Viewport) (x y : Int) :
    Option Placement :=
  ((b.arrange area vp).map fun p =>
      if pinned p.childIndex then p else (⟨p.childIndex, scrolled c p.region⟩ : Placement)).find?
    fun p => p.region.containsPoint x y

/-- screen.rs:932-951, 1113-1131: a turn of the wheel the screen does not use is offered to all children at the pointer
(only the vertical position is taken into account). -/
def offered (b : Body) (c : ScrollState) (area : Region) (vp : Viewport) (x y : Int) : List Placement :=
  ((b.arrange area vp).map fun p =>
      (⟨p.childIndex, ⟨p.region.x, p.region.y - c.offsetY, p.region.width, p.region.height⟩⟩ : Placement)).filter
    fun p => p.region.containsPoint x y

/-- screen.rs:771-954 `on_mouse` and 956-1134 `on_mouse_with_sender`. The second part is the children the event is
given to, in order (for the wheel: until one answers). -/
def onMouse (s : Sheet) (b : Body) (pinned : Nat → Bool) (st : State) (m : Mouse) (r : Region) :
    State × List Placement :=
  if r.containsPoint m.column m.row = false then (st, [])
  else
    let a := inner s r
    let vp := Viewport.ofRegion r
    let f := shows s st.scroll
    let content := contentRegion s a f
    let bv := vRegion s a f.h
    let bh := hRegion s a f.v
    let onV := drawsV s f && bv.containsPoint m.column m.row
    let onH := drawsH s f && bh.containsPoint m.column m.row
    let area := if f.v = true ∧ content.width < a.width then content else a
    let st := { st with scroll := st.scroll.setViewport content.width content.height }
    let child := if area.containsPoint m.column m.row then
      (childAt b pinned st.scroll area vp m.column m.row).toList else []
    let g := shows s st.scroll
    let pass := (st, offered b st.scroll area vp m.column m.row)
    let right := st.scrollBy fun c => { c with offsetX := min (c.offsetX + 3) (max (c.virtualWidth - content.width) 0) }
    let down := st.scrollBy fun c => { c with offsetY := min (c.offsetY + 3) (max (c.virtualHeight - content.height) 0) }
    let left := st.scrollBy fun c => { c with offsetX := max (c.offsetX - 3) 0 }
    let up := st.scrollBy fun c => { c with offsetY := max (c.offsetY - 3) 0 }
    match m.kind with
    | .moved =>
      match st.drag with
      | some (vertical, grab) => (dragBar s st m a vertical grab, [])
      | none =>
        let hover := if onV then some true else if onH then some false else none
        (if st.hover ≠ hover then { st with hover := hover, dirty := true } else st, child)
    | .down =>
      if onV then (st.clickV m.row bv, [])
      else if onH then (st.clickH m.column bh, [])
      else (st, child)
    | .drag =>
      match st.drag with
      | some (vertical, grab) => (dragBar s st m a vertical grab, [])
      | none => (st, child)
    | .up => (if st.drag.isSome then { st with drag := none, dirty := true } else st, child)
    | .scrollDown =>
      if m.sideways then (if g.h then (right, []) else pass) else if g.v then (down, []) else pass
    | .scrollUp =>
      if m.sideways then (if g.h then (left, []) else pass) else if g.v then (up, []) else pass
    | .scrollLeft => if g.h then (left, []) else pass
    | .scrollRight => if g.h then (right, []) else pass

end Textual.Screen
