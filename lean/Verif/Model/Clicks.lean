import Verif.Model.Nest
import Verif.Model.Press

/-!
# Mouse events for a tree of buttons

The mouse branch of the run loop (lib.rs:962-1011) for a tree of containers (`Model/Nest.lean`) whose leaves are buttons
(`Model/Press.lean`): the event goes to the root, from there to the leaves it reaches, each of which may change and answer;
the first answer is handed to the program, then the pending actions of all buttons are taken.

Simplifications: the command palette is closed. A leaf is known by its number, the buttons are a function from numbers.
Each event comes with the tree as it is drawn before it, as the program may change everything but the buttons' own state
between two events. That a move of the mouse clears the hover of all buttons (lib.rs:969-971) is left out, as the hover of
a button changes nothing here. A container that asks several children stops after the one that answers; what a button would
answer is computed for a region under the pointer.
-/

namespace Textual.Clicks

open Layout (Viewport)
open Press (Button)
open Nest (Node)

/-- The kind of event as the containers see it: they do not look at which mouse button it is.
The events of the loop are lib.rs:962-1011. -/
def outer : Press.Kind → Scroller.Kind
  | .moved => .moved
  | .down _ => .down
  | .up _ => .up
  | .drag _ => .drag
  | .other => .scrollDown

/-- A mouse event with the screen it happens on: the tree of widgets and the size of the terminal.
The events of the loop are lib.rs:962-1011. -/
structure Touch where
  event : Press.Mouse
  node : Node
  screen : Region
  viewport : Viewport

/-- The event given to `on_mouse`, lib.rs:962-1011. -/
def Touch.mouse (t : Touch) : Scroller.Mouse := ⟨outer t.event.kind, t.event.column, t.event.row, false⟩

/-- The tree with what each button would answer if the event were over it. The answers are those of button.rs:467. -/
def answering (s : Nat → Button) (e : Press.Mouse) : Node → Node
  | .leaf id _ => .leaf id ((s id).onMouse e ⟨e.column, e.row, 1, 1⟩).1
  | .box b child => .box b fun i => answering s e (child i)

/-- button.rs:467-500 `on_mouse` of each of the leaves reached, in order: the numbers of those that answer with a message,
and the buttons afterwards. -/
def give (e : Press.Mouse) : List (Nat × Region) → (Nat → Button) → List Nat × (Nat → Button)
  | [], s => ([], s)
  | (i, r) :: l, s =>
    let p := (s i).onMouse e r
    let q := give e l fun j => if j = i then p.2 else s j
    (if p.1 then i :: q.1 else q.1, q.2)

/-- What the program is told after an event: the button whose message it handles (`handle_message`), and the buttons whose
actions are dispatched (`dispatch_action`). See lib.rs:999, 1003-1011. -/
structure Told where
  message : Option Nat
  actions : Nat → Bool

/-- lib.rs:962-1011, one mouse event; tree.rs:459-473 `collect_pending_actions_mut`. -/
def step (s : Nat → Button) (t : Touch) : Told × (Nat → Button) :=
  let reached := (Nest.reach t.viewport t.mouse (answering s t.event t.node) t.screen).1
  let p := give t.event reached s
  (⟨p.1.head?, fun i => (p.2 i).take.1⟩, fun i => (p.2 i).take.2)

/-- The buttons after a history of events. Each event is a round of lib.rs:962-1011. -/
def after (s : Nat → Button) (ts : List Touch) : Nat → Button := ts.foldl (fun s t => (step s t).2) s

end Textual.Clicks
