import Verif.Model.Clicks

/-!
# Mouse events for a tree of switches

The mouse branch of the run loop (lib.rs:962-1011) for a tree of containers (`Model/Nest.lean`) whose leaves are switches
(`Model/Press.lean`), as `Model/Clicks.lean` does for buttons. Here the clearing of hover before a move is kept, as it also
ends the press of a switch (switch.rs:374-383).

Simplifications: those of `Model/Clicks.lean`, but for the one about moves. That the container calls `set_hover` before it
hands over a move (screen.rs:239-241, container.rs:1493, 1558) is left out: `on_mouse` of the switch sets the same
(switch.rs:317-324).
-/

namespace Textual.Toggles

open Press (Switch)
open Nest (Node)
open Clicks (Touch)

/-- The tree with what each switch would answer if the event were over it. The answers are those of switch.rs:308. -/
def answering (s : Nat → Switch) (e : Press.Mouse) : Node → Node
  | .leaf id _ => .leaf id ((s id).onMouse e ⟨e.column, e.row, 1, 1⟩).1.isSome
  | .box b child => .box b fun i => answering s e (child i)

/-- switch.rs:308-352 `on_mouse` of each of the leaves reached, in order: the messages, each with the number of the switch and
the value it tells, and the switches afterwards. -/
def give (e : Press.Mouse) : List (Nat × Region) → (Nat → Switch) → List (Nat × Bool) × (Nat → Switch)
  | [], s => ([], s)
  | (i, r) :: l, s =>
    let p := (s i).onMouse e r
    let q := give e l fun j => if j = i then p.2 else s j
    (match p.1 with | some v => (i, v) :: q.1 | none => q.1, q.2)

/-- lib.rs:969-971, tree.rs:479-487 `clear_all_hover`; switch.rs:374-383. -/
def clearAll (s : Nat → Switch) (t : Touch) : Nat → Switch :=
  if t.event.kind = .moved then fun i => (s i).clearHover else s

/-- lib.rs:962-1011, one mouse event: the message the program handles and the switches afterwards. -/
def step (s : Nat → Switch) (t : Touch) : Option (Nat × Bool) × (Nat → Switch) :=
  let s := clearAll s t
  let p := give t.event (Nest.reach t.viewport t.mouse (answering s t.event t.node) t.screen).1 s
  (p.1.head?, p.2)

/-- The switches after a history of events. Each event is a round of lib.rs:962-1011. -/
def after (s : Nat → Switch) (ts : List Touch) : Nat → Switch := ts.foldl (fun s t => (step s t).2) s

end Textual.Toggles
