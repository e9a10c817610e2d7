import Verif.Model.Arrange

/-! What docking, alignment and layers mean. -/

namespace Textual.Layout

/-- The cell (x, y) of the screen is in the region. -/
def Inside (r : Region) (x y : Int) : Prop := r.x ≤ x ∧ x < r.x + r.width ∧ r.y ≤ y ∧ y < r.y + r.height

/-- The region lies along an edge of the container, over the whole length of the edge. -/
def HugsEdge (a r : Region) : Dock → Prop
  | .top => r.y = a.y ∧ r.x = a.x ∧ r.width = a.width
  | .bottom => r.y + r.height = a.y + a.height ∧ r.x = a.x ∧ r.width = a.width
  | .left => r.x = a.x ∧ r.y = a.y ∧ r.height = a.height
  | .right => r.x + r.width = a.x + a.width ∧ r.y = a.y ∧ r.height = a.height

/-- The thickness a widget asks for at an edge. -/
def thickness (c : LChild) : Dock → Nat
  | .top => c.desiredHeight
  | .bottom => c.desiredHeight
  | .left => c.desiredWidth
  | .right => c.desiredWidth

/-- The thickness of a region at an edge. -/
def regionThickness (r : Region) : Dock → Int
  | .top => r.height
  | .bottom => r.height
  | .left => r.width
  | .right => r.width

/-- The space taken at an edge. -/
def DockSpacing.at (s : DockSpacing) : Dock → Int
  | .top => s.top
  | .bottom => s.bottom
  | .left => s.left
  | .right => s.right

end Textual.Layout
