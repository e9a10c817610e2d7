import Verif.Model.Nest

/-!
# The wheel over containers in containers

What a turn of the wheel does to the positions of all containers of a tree as in `Model/Nest.lean`: a container uses the
turn itself or hands it on to children, which do the same.
-/

namespace Textual.Nest

open Layout (Placement Viewport)
open Scroller (Mouse)

/-- The position of a container after it was drawn: scrollable.rs:664-801, container.rs:675-990, screen.rs:497-656
`render`. -/
def Box.position (vp : Viewport) (r : Region) : Box → ScrollState
  | .scroller s b st =>
    (if r.width ≤ 0 ∨ r.height ≤ 0 then st else st.laidOut (Scroller.plan s b (Scroller.inner s r) vp)).scroll
  | .pane s b st => (st.draw s b r vp).2.scroll
  | .screen s b _ st => (Screen.draw s b st r vp).2.scroll

/-- The position after a mouse event that follows the drawing: scrollable.rs:979-1378, container.rs:1445-1569,
screen.rs:771-1134. What children answer is of no effect on the position. -/
def Box.wheeled (vp : Viewport) (r : Region) (m : Mouse) : Box → ScrollState
  | .scroller s b st =>
    let st := if r.width ≤ 0 ∨ r.height ≤ 0 then st else st.laidOut (Scroller.plan s b (Scroller.inner s r) vp)
    (st.onMouse s b m r).1.scroll
  | .pane s b st => ((st.draw s b r vp).2.onMouse s b m r fun _ => false).2.scroll
  | .screen s b pinned st => (Screen.onMouse s b pinned (Screen.draw s b st r vp).2 m r).1.scroll

/-- A container that the event moved: the way to it from the root, the cells its content was moved by before the event
and after it, each across and down. See scrollable.rs:1149, container.rs:1464. -/
abbrev Turned := List Nat × (Int × Int) × (Int × Int)

/-- `on_mouse` of the tree (scrollable.rs:979-1378, container.rs:1445-1569, screen.rs:771-1134): the containers that
moved. -/
def turned (vp : Viewport) (m : Mouse) : Node → Region → List Turned
  | .leaf _ _, _ => []
  | .box b child, r =>
    let old := b.position vp r
    let new := b.wheeled vp r m
    (if (old.offsetX, old.offsetY) = (new.offsetX, new.offsetY) then []
     else [([], (old.offsetX, old.offsetY), (new.offsetX, new.offsetY))]) ++
    (b.asked vp r m fun i r' => (reach vp m (child i) r').2).flatMap fun c =>
      (turned vp m (child c.childIndex) c.region).map fun t => (c.childIndex :: t.1, t.2)

end Textual.Nest
