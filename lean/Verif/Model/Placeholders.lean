import Verif.Model.Clicks
import Verif.Model.LinkClicks
import Verif.Model.Placeholder

/-!
# Mouse events for a tree of placeholders

The mouse branch of the run loop (lib.rs:962-1011) for a tree of containers (`Model/Nest.lean`) whose leaves are placeholders
(`Model/Placeholder.lean`), as `Model/Clicks.lean` does for buttons. A placeholder never answers with a message
(placeholder.rs:628) and has no hover to be cleared (widget.rs:313), so the only effect is on the placeholders.
-/

namespace Textual.Placeholders

open Placeholder (Placeholder)
open Clicks (Touch)

/-- The part of an event placeholder.rs:611-629 looks at: any mouse button counts. -/
def eventOf (e : Press.Mouse) : Placeholder.Mouse :=
  ⟨match e.kind with | .down _ => true | _ => false, e.column.toNat, e.row.toNat⟩

/-- placeholder.rs:611-629 `on_mouse` of each of the leaves reached, in order. -/
def give (e : Press.Mouse) (l : List (Nat × Region)) (s : Nat → Placeholder) : Nat → Placeholder :=
  l.foldl (fun s q j => if j = q.1 then Placeholder.onMouse (s j) (eventOf e) q.2 else s j) s

/-- lib.rs:962-1011, one mouse event: the placeholders afterwards. -/
def step (s : Nat → Placeholder) (t : Touch) : Nat → Placeholder :=
  give t.event (Nest.reach t.viewport t.mouse (LinkClicks.silent t.node) t.screen).1 s

/-- The placeholders after a history of events. Each event is a call of `on_mouse`, placeholder.rs:611. -/
def after (s : Nat → Placeholder) (ts : List Touch) : Nat → Placeholder := ts.foldl step s

end Textual.Placeholders
