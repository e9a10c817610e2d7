import Verif.Model.Clicks

/-!
# Which button of a tree is shown as hovered

The mouse branch of the run loop (lib.rs:962-1011) as in `Model/Clicks.lean`, with what a move of the mouse does first: the
hover of all buttons is cleared.

Simplifications: those of `Model/Clicks.lean`, but for the one about moves. That the container of a button calls `set_hover`
before it hands over a move (screen.rs:239-241, container.rs:1493, 1558) is left out: `on_mouse` of the button sets the same
(button.rs:467-500). A `Screen` inside a container, which would pass `set_hover` on to all its children (screen.rs:1136-1144),
is left out.
-/

namespace Textual.Clicks

open Press (Button)

/-- lib.rs:969-971, tree.rs:479-487 `clear_all_hover`; button.rs:512-517. -/
def clearAll (s : Nat → Button) (t : Touch) : Nat → Button :=
  if t.event.kind = .moved then fun i => (s i).clearHover else s

/-- lib.rs:962-1011, one mouse event. -/
def point (s : Nat → Button) (t : Touch) : Told × (Nat → Button) := step (clearAll s t) t

/-- The buttons after a history of events. Each event is a round of lib.rs:962-1011. -/
def pointed (s : Nat → Button) (ts : List Touch) : Nat → Button := ts.foldl (fun s t => (point s t).2) s

end Textual.Clicks
