import Verif.Model.Scroller
import Verif.Model.Pane
import Verif.Model.Screen

/-!
# Containers in containers

A tree of containers of the kinds modelled one by one in `Model/Scroller.lean`, `Model/Pane.lean` and
`Model/Screen.lean`; its leaves are the widgets that answer to the mouse. Each container draws its children clipped to
its content area and hands mouse events on to them, which do the same. As in those models the layout of the children of
each container is any function of area and screen.

Simplifications: children are counted by any function from numbers to trees. A leaf is known by a number and by whether
it answers the event with a message. The state is the one before the drawing that precedes the event. Each child is placed
at most once (C48): a plain container that asks several children is told the answer of the one with that number.
-/

namespace Textual.Nest

open Layout (Placement Viewport)
open Scroller (Sheet Body Mouse)

/-- A container with its style, the layout of its children and its state before it is drawn.
See scrollable.rs:664, 979, container.rs:675, screen.rs:497, 771. -/
inductive Box where
  | scroller (s : Sheet) (b : Body) (st : Scroller.State)
  | pane (s : Sheet) (b : Body) (st : Pane.State)
  | screen (s : Sheet) (b : Body) (pinned : Nat → Bool) (st : Scroller.State)

/-- The area the children are clipped to and the children drawn in it: scrollable.rs:664-801, container.rs:675-990,
screen.rs:497-656 `render`. -/
def Box.shown (vp : Viewport) (r : Region) : Box → Region × List Placement
  | .scroller s b st =>
    if r.width ≤ 0 ∨ r.height ≤ 0 then (r, [])
    else let p := Scroller.plan s b (Scroller.inner s r) vp; (p.content, st.drawn p)
  | .pane s b st => let d := (st.draw s b r vp).1; (d.content, d.children)
  | .screen s b _ st => match (Screen.draw s b st r vp).1 with
    | some d => (d.content, d.children)
    | none => (r, [])

/-- The children given the event after the container was drawn, each with the region it is told: scrollable.rs:979-1378,
container.rs:1445-1569, screen.rs:771-1134. `answers i r` is what child `i` says if it is given the event in region `r`. -/
def Box.asked (vp : Viewport) (r : Region) (m : Mouse) (answers : Nat → Region → Bool) : Box → List Placement
  | .scroller s b st =>
    let st := if r.width ≤ 0 ∨ r.height ≤ 0 then st else st.laidOut (Scroller.plan s b (Scroller.inner s r) vp)
    (st.onMouse s b m r).2.toList
  | .pane s b st =>
    let st := (st.draw s b r vp).2
    let all := (st.onMouse s b m r fun _ => false).1
    (st.onMouse s b m r fun i => all.any fun c => c.childIndex == i && answers i c.region).1
  | .screen s b pinned st => (Screen.onMouse s b pinned (Screen.draw s b st r vp).2 m r).2

/-- A widget in the tree. The children are widget.rs:84 `for_each_child`. -/
inductive Node where
  | leaf (id : Nat) (answers : Bool)
  | box (b : Box) (child : Nat → Node)

/-- A leaf drawn: its number, its region, and the areas it is clipped to.
Drawn by container.rs:675, scrollable.rs:664, screen.rs:497. -/
abbrev Painted := Nat × Region × List Region

/-- `render` of the tree: the leaves drawn, in order. See scrollable.rs:664, screen.rs:497 and `Pane.draw`. -/
def painted (vp : Viewport) : Node → Region → List Region → List Painted
  | .leaf id _, r, clips => [(id, r, clips)]
  | .box b child, r, clips =>
    (b.shown vp r).2.flatMap fun c => painted vp (child c.childIndex) c.region ((b.shown vp r).1 :: clips)

/-- `on_mouse` of the tree: the leaves given the event, with the region each is told, and whether one answers.
See scrollable.rs:979, screen.rs:771 and `Pane.onMouse`. -/
def reach (vp : Viewport) (m : Mouse) : Node → Region → List (Nat × Region) × Bool
  | .leaf id answers, r => ([(id, r)], answers)
  | .box b child, r =>
    let asked := b.asked vp r m fun i r' => (reach vp m (child i) r').2
    (asked.flatMap fun c => (reach vp m (child c.childIndex) c.region).1,
     asked.any fun c => (reach vp m (child c.childIndex) c.region).2)

end Textual.Nest
