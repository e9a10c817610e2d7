import Verif.Model.Scroller
import Verif.Spec.Arrange

/-! What a scrolling container should do, apart from how it does it. -/

namespace Textual.Scroller

open Layout (Placement Viewport)

/-- Cell `(x, y)` lies in the region. -/
def At (r : Region) (x y : Int) : Prop := r.x ≤ x ∧ x < r.x + r.width ∧ r.y ≤ y ∧ y < r.y + r.height

instance (r : Region) (x y : Int) : Decidable (At r x y) := by unfold At; infer_instance

/-- Laid out in `area`, some child (with its margin) ends below the area. -/
def TooTall (b : Body) (vp : Viewport) (area : Region) : Prop :=
  0 > area.height ∨ ∃ p ∈ b.arrange area vp,
    p.region.y + p.region.height + b.marginBottom p.childIndex > area.y + area.height

/-- Laid out in `area`, some child (with its margin) ends to the right of the area. -/
def TooWide (b : Body) (vp : Viewport) (area : Region) : Prop :=
  0 > area.width ∨ ∃ p ∈ b.arrange area vp,
    p.region.x + p.region.width + b.marginRight p.childIndex > area.x + area.width

/-- A bar is called for: always, never, or if the content sticks out. -/
def Wanted (o : Overflow) (sticksOut : Prop) : Prop := o = .scroll ∨ (o = .auto ∧ sticksOut)

/-- Less room never makes content that stuck out fit. -/
def Monotone (b : Body) (vp : Viewport) : Prop :=
  ∀ x y w h w' h', w' ≤ w → h' ≤ h →
    (TooTall b vp ⟨x, y, w, h⟩ → TooTall b vp ⟨x, y, w', h'⟩) ∧
    (TooWide b vp ⟨x, y, w, h⟩ → TooWide b vp ⟨x, y, w', h'⟩)

/-- `got` is the place from 0 to `last` nearest to `want`. -/
def Nearest (last want got : Int) : Prop :=
  0 ≤ got ∧ got ≤ last ∧ (want ≤ 0 → got = 0) ∧ (last ≤ want → got = last) ∧ (0 ≤ want → want ≤ last → got = want)

instance (a b c : Int) : Decidable (Nearest a b c) := by unfold Nearest; infer_instance

/-- How far each key scrolls, down and to the right, in a window of the given height on content of the given size:
one cell, nine tenths of the window, or all the way. -/
def Key.rows (height content : Int) : Key → Int
  | .up => -1
  | .down => 1
  | .pageUp => -(9 * height / 10)
  | .pageDown => 9 * height / 10
  | .home => -content
  | .stop => content
  | _ => 0

def Key.columns (content : Int) : Key → Int
  | .left => -1
  | .right => 1
  | .home => -content
  | .stop => content
  | _ => 0

end Textual.Scroller
