import Verif.Model.Frame
import Verif.Model.Static

/-!
# `visibility: hidden`

The drawing of a tree of containers (`Model/Frame.lean`) some widgets of which have the style `visibility: hidden`. Layout,
mouse events (`Nest.reach`) and keys do not look at this style, so those models stay as they are.
-/

namespace Textual.Nest

/-- The widgets hidden by their style, leaves by their number. -/
structure Hidden where
  leaf : Nat → Bool
  box : Box → Bool

/-- Screens do not look at the style (screen.rs:497-656). -/
def Box.isScreen : Box → Bool
  | .screen .. => true
  | _ => false

/-- The container leaves out what it draws itself: container.rs:682, 788, 939, 946 and 969, scrollable.rs:669-676, 748, 771
and 794. -/
def Hidden.mutes (H : Hidden) (b : Box) : Bool := H.box b && !b.isScreen

/-- What is drawn if some widgets are hidden. Each kind of leaf returns from `render` at once: static_widget.rs:460-462 (also
for `Label` and `Button`, label.rs:225-227, button.rs:376-378), input.rs:219-221, switch.rs:164-166, option_list.rs:308-310,
placeholder.rs:335-337, ruler.rs:172-174, loading_indicator.rs:82-84, header.rs:393-395. -/
def Paint.hide (H : Hidden) (P : Paint) : Paint where
  leaf id r := if H.leaf id then [] else P.leaf id r
  before b r := if H.mutes b then [] else P.before b r
  over b r := if H.mutes b then [] else P.over b r
  after b r := if H.mutes b then [] else P.after b r

end Textual.Nest

namespace Textual.Static

/-- static_widget.rs:459-466 and 551-554: a text that is hidden or has no room returns before it finds its links, and keeps
those of its last drawing. -/
def Links.rendered (l : Links) (hidden : Bool) (region : Region) (d : Drawn) : Links :=
  if hidden ∨ region.width ≤ 0 ∨ region.height ≤ 0 then l else { l with regions := d.links }

end Textual.Static
