import Verif.Model.Nest
import Verif.Props.Canvas

/-!
# Drawing a tree of containers on the canvas

The calls a tree of containers (`Model/Nest.lean`) makes on the canvas while it is drawn. What the widgets and the
containers themselves draw is left open: any drawing calls that depend on the widget and its region.

Simplification: a leaf reads nothing from the canvas but its size, which is fixed.
-/

namespace Textual.Nest

open Layout (Viewport)

/-- What is drawn: by leaf number and region for the leaves; by container and region before the children (background and
border), after them but still clipped (keylines), and at the end (scrollbars and corner). -/
structure Paint where
  leaf : Nat → Region → List Canvas.Draw
  before : Box → Region → List Canvas.Draw
  over : Box → Region → List Canvas.Draw
  after : Box → Region → List Canvas.Draw

/-- The calls of `render`: scrollable.rs:664-801 (clip 718-742), container.rs:675-990 (clip 912-943), screen.rs:497-656
(clip 572-594). -/
def calls (P : Paint) (vp : Viewport) : Node → Region → List Canvas.Op
  | .leaf id _, r => (P.leaf id r).map .draw
  | .box b child, r =>
    (P.before b r).map .draw ++
    (.push (b.shown vp r).1 :: ((b.shown vp r).2.flatMap fun c => calls P vp (child c.childIndex) c.region) ++
      (P.over b r).map .draw ++ [.pop]) ++
    (P.after b r).map .draw

/-- lib.rs:815-817: one frame. -/
def frame (P : Paint) (vp : Viewport) (n : Node) : List Canvas.Op :=
  .clear :: calls P vp n ⟨0, 0, vp.width, vp.height⟩

end Textual.Nest
