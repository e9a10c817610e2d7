import Verif.Model.Press
import Verif.Model.Header
import Verif.Model.Input
import Verif.Model.Static

/-!
# Controls that are switched off

The widgets that answer to the user and can be disabled, each with its model: `Switch`, `Button` (`Model/Press.lean`),
`Input` (`Model/Input.lean`), the header's icon (`Model/Header.lean`), and texts with links, `Static` and `Label`
(`Model/Static.lean`). An input shows its value literally (C77), so it has no links to follow.
-/

namespace Textual.Disabled

open Press (Switch Button Mouse Event)
open Header (Icon)
open Input (Input)
open Static (Links)

/-- A key: Enter or one that `Input` tells apart (crossterm's `KeyCode`). Read by input.rs:233, switch.rs:236. -/
inductive Key where
  | enter
  | edit (k : Input.Key)
deriving DecidableEq, Repr

/-- The key as buttons and switches tell it apart (button.rs:461-464, switch.rs:242-251). -/
def Key.press : Key → Press.Key
  | .enter => .enter
  | .edit (.char ' ') => .space
  | .edit _ => .other

/-- The key as an input tells it apart (input.rs:237-269). -/
def Key.input : Key → Input.Key
  | .enter => .other
  | .edit k => k

/-- What the user does. Keys are given at lib.rs:905, mouse events at lib.rs:962-1011. -/
inductive Act where
  | mouse (e : Mouse)
  | key (k : Key)
deriving DecidableEq, Repr

/-- The event for a button or a switch. Given to switch.rs:236, 308 and button.rs:467. -/
def Act.event : Act → Event
  | .mouse e => .mouse e
  | .key k => .key k.press

/-- static_widget.rs:968-987: the kinds of mouse event a text tells apart. -/
def linkKind : Press.Kind → Static.Mouse
  | .down .left => .leftDown
  | .moved => .moved
  | _ => .other

/-- A control. The flag of a text is static_widget.rs:83 `disabled`. -/
inductive Control where
  | switch (s : Switch)
  | button (b : Button)
  | icon (i : Icon)
  | input (i : Input)
  | text (l : Links) (disabled : Bool)
deriving DecidableEq, Repr

/-- `is_disabled`: switch.rs:415-417, button.rs:553-555, header.rs:569-571, input.rs:363-365, static_widget.rs:941-943,
label.rs:324-326. -/
def Control.disabled : Control → Bool
  | .switch s => s.disabled
  | .button b => b.disabled
  | .icon i => i.disabled
  | .input i => i.disabled
  | .text _ d => d

/-- What the program hears: whether a message is sent, and the action asked for. See lib.rs:999, 1003-1011. -/
structure Heard where
  message : Bool := false
  action : Option String := none
deriving DecidableEq, Repr

/-- static_widget.rs:954-990 for a text in region `r`, the hovering cleared before moves (lib.rs:969), the action taken
after the event (lib.rs:1003-1011). -/
def textMouse (r : Region) (l : Links) (e : Mouse) : Option String × Links :=
  let l := if e.kind = .moved then l.clearHover else l
  (if r.containsPoint e.column e.row then l.onMouse (linkKind e.kind) e.column.toNat e.row.toNat r else l).take

/-- One act of the user on the control in region `r`, with its action named `name` if it is a button; `seg` as in `Model/Input.lean`. Keys come only to
the widget with the focus (C70); that the control has it is the caller's business. An input passes mouse events to the text
that shows its value (input.rs:273-275). -/
def step (seg : List Char → List (List Char)) (r : Region) (name : String) (a : Act) : Control → Heard × Control
  | .switch s => let p := s.step r a.event; (⟨p.1.isSome, none⟩, .switch p.2)
  | .button b =>
    let p := b.step r a.event
    (⟨p.1.message, if p.1.action then some name else none⟩, .button p.2)
  | .icon i =>
    let p := i.step r a.event
    (⟨false, if p.1 then some "app.command_palette" else none⟩, .icon p.2)
  | .input i =>
    match a with
    | .key k => ({}, .input (i.onKey seg k.input))
    | .mouse _ => ({}, .input i)
  | .text l d =>
    match a with
    | .key _ => let p := l.take; (⟨false, p.1⟩, .text p.2 d)
    | .mouse e => let p := textMouse r l e; (⟨false, p.1⟩, .text p.2 d)

/-- A history of acts: all that the program hears, and the control in the end.
No counterpart in the code: the events of the loop, lib.rs:826. -/
def run (seg : List Char → List (List Char)) (r : Region) (name : String) : Control → List Act → List Heard × Control
  | c, [] => ([], c)
  | c, a :: as =>
    let p := step seg r name a c
    let q := run seg r name p.2 as
    (p.1 :: q.1, q.2)

end Textual.Disabled
