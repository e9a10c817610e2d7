import Verif.Model.Region

/-!
# Switches and buttons (widget/switch.rs, widget/button.rs)

Kept: value, focus, hover, press, disabled, loading, visible, spinner frame, pending action and the dirty flag. The
message is modelled by the value (switch) or by whether `on_press` is called (button). Rendering, styles and classes
are elsewhere or left out.

The surroundings: the event loop (lib.rs:969 `clear_all_hover` before a move, lib.rs:990) and the containers hand a
mouse event to the widget only if the pointer is in its region (screen.rs:235-243; C106, C109, C113).
-/

namespace Textual.Press

/-- crossterm's `MouseButton`. Read by switch.rs:308, button.rs:467. -/
inductive Finger where
  | left | right | middle
deriving DecidableEq, Repr

/-- crossterm's `MouseEventKind`; the wheel is `other`. Read by switch.rs:308, button.rs:467. -/
inductive Kind where
  | moved
  | down (f : Finger)
  | up (f : Finger)
  | drag (f : Finger)
  | other
deriving DecidableEq, Repr

/-- The argument of `on_mouse`, switch.rs:308, button.rs:467. -/
structure Mouse where
  kind : Kind
  column : Int
  row : Int
deriving DecidableEq, Repr

/-- The keys that matter: `Char(' ')`, `Enter`, all others. Read by `on_event`, switch.rs:236. -/
inductive Key where
  | space | enter | other
deriving DecidableEq, Repr

/-! ### Switch -/

/-- switch.rs:14-42, the fields used here. -/
structure Switch where
  value : Bool := false
  focused : Bool := false
  hovered : Bool := false
  active : Bool := false
  visible : Bool := true
  loading : Bool := false
  disabled : Bool := false
  frame : Nat := 0
  dirty : Bool := true
deriving DecidableEq, Repr

namespace Switch

/-- switch.rs:134-139 `set_value`. -/
def setValue (s : Switch) (v : Bool) : Switch := if s.value ≠ v then { s with value := v, dirty := true } else s

/-- switch.rs:144-149 `tick_spinner`; there are ten frames (switch.rs:8). -/
def tick (s : Switch) : Switch :=
  let s := { s with frame := (s.frame + 1) % 10 }
  if s.loading then { s with dirty := true } else s

/-- switch.rs:236-252 `on_event`. -/
def onKey (s : Switch) (k : Key) : Option Bool × Switch :=
  if s.disabled ∨ s.loading ∨ ¬ s.focused then (none, s)
  else match k with
    | .space | .enter => (some !s.value, { s with value := !s.value, dirty := true })
    | .other => (none, s)

/-- switch.rs:258-263 `set_focus`. -/
def setFocus (s : Switch) (v : Bool) : Switch := if s.focused ≠ v then { s with focused := v, dirty := true } else s

/-- switch.rs:308-352 `on_mouse`. -/
def onMouse (s : Switch) (e : Mouse) (r : Region) : Option Bool × Switch :=
  let inside := r.containsPoint e.column e.row
  match e.kind with
  | .moved => if inside ≠ s.hovered then (none, { s with hovered := inside, dirty := true }) else (none, s)
  | .down _ =>
    if inside ∧ ¬ s.disabled ∧ ¬ s.loading then
      if ¬ s.active then (none, { s with active := true, dirty := true }) else (none, s)
    else (none, s)
  | .up _ =>
    if inside ∧ s.active ∧ ¬ s.disabled ∧ ¬ s.loading then
      (some !s.value, { s with active := false, value := !s.value, dirty := true })
    else if s.active then (none, { s with active := false, dirty := true })
    else (none, s)
  | _ => (none, s)

/-- switch.rs:354-362 `set_hover`. -/
def setHover (s : Switch) (v : Bool) : Switch := if s.hovered ≠ v then { s with hovered := v, dirty := true } else s

/-- switch.rs:364-372 `set_active`. -/
def setActive (s : Switch) (v : Bool) : Switch := if s.active ≠ v then { s with active := v, dirty := true } else s

/-- switch.rs:374-383 `clear_hover`. -/
def clearHover (s : Switch) : Switch :=
  let s := if s.hovered then { s with hovered := false, dirty := true } else s
  if s.active then { s with active := false, dirty := true } else s

/-- switch.rs:397-402, 408-413, 419-424 `set_visible`, `set_loading`, `set_disabled`. -/
def setVisible (s : Switch) (v : Bool) : Switch := if s.visible ≠ v then { s with visible := v, dirty := true } else s

/-- switch.rs:408-413. -/
def setLoading (s : Switch) (v : Bool) : Switch := if s.loading ≠ v then { s with loading := v, dirty := true } else s

/-- switch.rs:419-424. -/
def setDisabled (s : Switch) (v : Bool) : Switch := if s.disabled ≠ v then { s with disabled := v, dirty := true } else s

end Switch

/-- What can happen: a mouse event anywhere on the screen, a key while the widget has the focus, a call of the program,
or a redraw (`mark_clean`). See switch.rs:236, 308, button.rs:467. -/
inductive Event where
  | mouse (e : Mouse)
  | key (k : Key)
  | setValue (v : Bool)
  | setFocus (v : Bool)
  | setDisabled (v : Bool)
  | setLoading (v : Bool)
  | setVisible (v : Bool)
  | tick
  | clean
deriving DecidableEq, Repr

/-- lib.rs:967-991, screen.rs:235-243: moves clear hovering everywhere; the widget under the pointer gets the event
(a move sets its hovering first). -/
def Switch.mouse (s : Switch) (e : Mouse) (r : Region) : Option Bool × Switch :=
  let s := if e.kind = .moved then s.clearHover else s
  if r.containsPoint e.column e.row then
    (if e.kind = .moved then s.setHover true else s).onMouse e r
  else (none, s)

/-- One event for a switch in region `r`. See switch.rs:236, 308, 393-424. -/
def Switch.step (r : Region) (s : Switch) : Event → Option Bool × Switch
  | .mouse e => s.mouse e r
  | .key k => s.onKey k
  | .setValue v => (none, s.setValue v)
  | .setFocus v => (none, s.setFocus v)
  | .setDisabled v => (none, s.setDisabled v)
  | .setLoading v => (none, s.setLoading v)
  | .setVisible v => (none, s.setVisible v)
  | .tick => (none, s.tick)
  | .clean => (none, { s with dirty := false })

/-- A history: the answers, one for each event, and the final state.
A history of the calls of switch.rs:236, 308, 393-424. -/
def Switch.run (r : Region) (s : Switch) : List Event → List (Option Bool) × Switch
  | [] => ([], s)
  | e :: es =>
    let p := s.step r e
    let q := Switch.run r p.2 es
    (p.1 :: q.1, q.2)

/-! ### Button -/

/-- button.rs:43-55, the fields used here; `disabled` is that of the inner `Static`; `hasAction`, `hasPress`: whether
`action` and `on_press` are given. -/
structure Button where
  focused : Bool := false
  hovered : Bool := false
  active : Bool := false
  disabled : Bool := false
  hasAction : Bool := false
  hasPress : Bool := true
  pending : Bool := false
  dirty : Bool := true
deriving DecidableEq, Repr

namespace Button

/-- button.rs:183-192 `press`; the answer is whether a message is sent. -/
def press (b : Button) : Bool × Button :=
  if b.disabled then (false, b)
  else if b.hasAction then (false, { b with pending := true })
  else (b.hasPress, b)

/-- button.rs:457-465 `on_event`. -/
def onKey (b : Button) (k : Key) : Bool × Button :=
  if b.disabled then (false, b)
  else match k with
    | .enter | .space => b.press
    | .other => (false, b)

/-- button.rs:467-500 `on_mouse`. -/
def onMouse (b : Button) (e : Mouse) (r : Region) : Bool × Button :=
  let inside := r.containsPoint e.column e.row
  match e.kind with
  | .moved => if inside ≠ b.hovered then (false, { b with hovered := inside, dirty := true }) else (false, b)
  | .down .left =>
    if inside ∧ ¬ b.disabled then
      if ¬ b.active then (false, { b with active := true, dirty := true }) else (false, b)
    else (false, b)
  | .up .left =>
    if b.active then
      let b := { b with active := false, dirty := true }
      if inside ∧ ¬ b.disabled then b.press else (false, b)
    else (false, b)
  | _ => (false, b)

/-- button.rs:502-510 `set_hover`. -/
def setHover (b : Button) (v : Bool) : Button := if b.hovered ≠ v then { b with hovered := v, dirty := true } else b

/-- button.rs:512-517 `clear_hover`. -/
def clearHover (b : Button) : Button := if b.hovered then { b with hovered := false, dirty := true } else b

/-- button.rs:542-547 `set_focus`. -/
def setFocus (b : Button) (v : Bool) : Button := if b.focused ≠ v then { b with focused := v, dirty := true } else b

/-- button.rs:557-560 `set_disabled`. -/
def setDisabled (b : Button) (v : Bool) : Button := { b with disabled := v, dirty := true }

/-- lib.rs:967-991, screen.rs:235-243, as for the switch. -/
def mouse (b : Button) (e : Mouse) (r : Region) : Bool × Button :=
  let b := if e.kind = .moved then b.clearHover else b
  if r.containsPoint e.column e.row then
    (if e.kind = .moved then b.setHover true else b).onMouse e r
  else (false, b)

/-- button.rs:582-584 `take_pending_action`, by lib.rs:928-936, 1003-1011 after each mouse and key event. -/
def take (b : Button) : Bool × Button := (b.pending, { b with pending := false })

/-- A message or an action. The action is dispatched at lib.rs:1003-1011. -/
structure Fired where
  message : Bool := false
  action : Bool := false
deriving DecidableEq, Repr

/-- The message of button.rs:467 together with the action dispatched at lib.rs:1003-1011. -/
def finish (p : Bool × Button) : Fired × Button :=
  (⟨p.1, p.2.take.1⟩, p.2.take.2)

/-- One event for a button in region `r`; the calls a button has not (`set_value`, `set_loading`, `set_visible`,
`tick_spinner`) do nothing. See button.rs:467. -/
def step (r : Region) (b : Button) : Event → Fired × Button
  | .mouse e => finish (b.mouse e r)
  | .key k => finish (b.onKey k)
  | .setFocus v => ({}, b.setFocus v)
  | .setDisabled v => ({}, b.setDisabled v)
  | .clean => ({}, { b with dirty := false })
  | _ => ({}, b)

/-- A history, as for the switch. Each event is a call as in `step`; `on_mouse` is button.rs:467. -/
def run (r : Region) (b : Button) : List Event → List Fired × Button
  | [] => ([], b)
  | e :: es =>
    let p := b.step r e
    let q := run r p.2 es
    (p.1 :: q.1, q.2)

end Button

end Textual.Press
