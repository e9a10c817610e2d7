import Verif.Model.Nest

/-!
# Who is told that the pointer is on it

Before a container hands a move of the mouse to a child it calls `set_hover(true)` of the child. What that does to the widgets
in the child, in the trees of `Model/Nest.lean`.

Simplification: a child of a screen is one its layout places for some area.
-/

namespace Textual.Nest

open Layout (Viewport)
open Scroller (Mouse)

/-- `set_hover(true)` of a widget tells the leaf `i`: a leaf that it is hovered (button.rs:502-510, switch.rs:354-362); a screen
all its children (screen.rs:1136-1144); other containers nobody (widget.rs:301-303, not overridden in container.rs and
scrollable.rs). -/
inductive SetHover : Node → Nat → Prop
  | leaf (id : Nat) (a : Bool) : SetHover (.leaf id a) id
  | screen {s b pinned st child} (area : Region) (vp : Viewport) (c : Layout.Placement) (hc : c ∈ b.arrange area vp) {i : Nat}
      (h : SetHover (child c.childIndex) i) : SetHover (.box (.screen s b pinned st) child) i

/-- The containers that call `set_hover(true)` before they hand over a move: container.rs:1492-1494 and 1557-1559,
screen.rs:239-241; scrollable.rs does not. -/
def Box.tells : Box → Bool
  | .scroller .. => false
  | .pane .. => true
  | .screen .. => true

/-- A move given to the tree tells leaf `i` that it is hovered. -/
inductive TellsHover (vp : Viewport) (m : Mouse) : Node → Region → Nat → Prop
  | here {b child r} (hb : b.tells = true) (c : Layout.Placement)
      (hc : c ∈ b.asked vp r m fun i r' => (reach vp m (child i) r').2) {i : Nat} (h : SetHover (child c.childIndex) i) :
      TellsHover vp m (.box b child) r i
  | deeper {b child r} (c : Layout.Placement) (hc : c ∈ b.asked vp r m fun i r' => (reach vp m (child i) r').2) {i : Nat}
      (h : TellsHover vp m (child c.childIndex) c.region i) : TellsHover vp m (.box b child) r i

end Textual.Nest
