import Verif.Model.Scroller

/-!
# Plain containers

Model of drawing and mouse handling in `crates/textual/src/containers/container.rs` (`Container`, and so `Vertical`
and `Horizontal`). As for scrolling containers (`Model/Scroller.lean`) the layout of the children is a parameter and
the chrome is four numbers; titles, keylines, colours and `visibility: hidden` are left out. The children are handed
to every operation, since they can change without the container being told.
-/

namespace Textual.Pane

open Layout (Placement Viewport)
open Scroller (Sheet Body Overflow Mouse Kind Flags inner scrolled inView virtualSize)

/-- container.rs:69-72: what a container remembers: the last layout with the area and viewport it is for, and the
position. -/
structure State where
  cache : Option (Region × Viewport × List Placement) := none
  scroll : ScrollState := ⟨0, 0, 0, 0, 0, 0⟩
deriving DecidableEq, Repr

/-- container.rs:331-376 `compute_child_placements`. -/
def State.place (st : State) (b : Body) (a : Region) (vp : Viewport) : List Placement × State :=
  match st.cache with
  | some (a', vp', ps) =>
    if a' = a ∧ vp' = vp then (ps, st)
    else (b.arrange a vp, { st with cache := some (a, vp, b.arrange a vp) })
  | none => (b.arrange a vp, { st with cache := some (a, vp, b.arrange a vp) })

/-- container.rs:1371, 1381, 1395, 1405, 1427: the layout is forgotten (new style, `mark_dirty`, resize). -/
def State.refresh (st : State) : State := { st with cache := none }

/-- container.rs:199-219 `show_vertical_scrollbar`, `show_horizontal_scrollbar`. -/
def State.shows (s : Sheet) (st : State) : Flags :=
  let bar (o : Overflow) (can : Bool) : Bool := match o with
    | .scroll => true
    | .auto => can
    | .hidden => false
  { v := bar s.overflowY st.scroll.canScrollY, h := bar s.overflowX st.scroll.canScrollX }

/-- container.rs:237-257 `content_region_for_scroll`. -/
def contentRegion (s : Sheet) (r : Region) (f : Flags) : Region :=
  let v : Int := if f.v = true ∨ s.stableGutter = true then s.barV else 0
  let h : Int := if f.h = true ∨ s.stableGutter = true then s.barH else 0
  ⟨r.x, r.y, max (r.width - v) 0, max (r.height - h) 0⟩

/-- The largest of the extents (`max().unwrap_or(0)`, container.rs:822-846), from the first placement on, so that it
can be negative. -/
def extent (b : Body) (ps : List Placement) (base : Region) : Int × Int :=
  match ps with
  | [] => (0, 0)
  | p :: rest =>
    let w (p : Placement) := (p.region.x - base.x) + p.region.width + b.marginRight p.childIndex
    let h (p : Placement) := (p.region.y - base.y) + p.region.height + b.marginBottom p.childIndex
    (rest.foldl (fun m q => max m (w q)) (w p), rest.foldl (fun m q => max m (h q)) (h p))

/-- container.rs:849-853, 894-898: the sizes are handed to the position. -/
def State.measure (st : State) (size : Int × Int) (a : Region) : State :=
  { st with scroll := (st.scroll.setVirtualSize size.1 size.2).setViewport a.width a.height }

/-- What a drawing shows: the area the children are clipped to and the children in order. See container.rs:675. -/
structure Drawn where
  content : Region
  children : List Placement
deriving DecidableEq, Repr

/-- container.rs:818-936: the layout of `render`, with the inner region `a`. -/
def State.drawInner (s : Sheet) (b : Body) (st : State) (a : Region) (vp : Viewport) : Drawn × State :=
  let (first, st) := st.place b a vp
  let st := st.measure (extent b first a) a
  let content := contentRegion s a (st.shows s)
  let (ps, st) :=
    if (st.shows s).v = true ∧ content.width < a.width then
      let (again, st) := st.refresh.place b content vp
      (again, st.measure (extent b again content) content)
    else (first, st)
  ({ content := content,
     children := (ps.map fun c => (⟨c.childIndex, scrolled st.scroll c.region⟩ : Placement)).filter
       fun c => inView content c.region }, st)

/-- container.rs:675-990 `render`. -/
def State.draw (s : Sheet) (b : Body) (st : State) (r : Region) (vp : Viewport) : Drawn × State :=
  if r.width ≤ 0 ∨ r.height ≤ 0 then (⟨r, []⟩, st) else st.drawInner s b (inner s r) vp

/-- container.rs:1477-1501: the children asked, in order, up to the first that answers. -/
def ask (answers : Nat → Bool) : List Placement → List Placement
  | [] => []
  | c :: rest => if answers c.childIndex then [c] else c :: ask answers rest

/-- container.rs:1445-1504 `on_mouse` (and 1506-1569 `on_mouse_with_sender`): the children given the event, with the
region each is told; `answers` says which of them return a message. -/
def State.onMouse (s : Sheet) (b : Body) (st : State) (m : Mouse) (r : Region) (answers : Nat → Bool) :
    List Placement × State :=
  if r.containsPoint m.column m.row = false then ([], st)
  else if m.kind = .scrollDown ∧ ((st.shows s).v = true ∨ s.overflowY = .auto) then
    ([], { st with scroll := st.scroll.scrollDown 3 })
  else if m.kind = .scrollUp ∧ ((st.shows s).v = true ∨ s.overflowY = .auto) then
    ([], { st with scroll := st.scroll.scrollUp 3 })
  else
    let (ps, st) := st.place b r (Viewport.ofRegion r)
    let moved := ps.map fun c =>
      (⟨c.childIndex, ⟨c.region.x, c.region.y - st.scroll.offsetY, c.region.width, c.region.height⟩⟩ : Placement)
    (ask answers (moved.filter fun c => c.region.containsPoint m.column m.row), st)

end Textual.Pane
