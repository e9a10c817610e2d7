import Verif.Model.Press

/-! What a hand on the mouse does, seen from one widget. -/

namespace Textual.Press

inductive Which where
  | switch | button
deriving DecidableEq, Repr

/-- Switches take every mouse button, buttons the left one. -/
def Which.counts : Which → Finger → Bool
  | .switch, _ => true
  | .button, f => f == .left

/-- `down`: a mouse button is down, and whether it went down on the widget while it was enabled. `stray`: a press begun
on the widget was let go elsewhere (and, for switches, the mouse was not moved since). -/
structure Hand where
  down : Option Bool := none
  stray : Bool := false
  disabled : Bool := false
  loading : Bool := false
deriving DecidableEq, Repr

/-- The pointer is on the widget. -/
def Mouse.on (e : Mouse) (r : Region) : Bool := r.containsPoint e.column e.row

/-- The widget takes input. -/
def Hand.enabled (h : Hand) : Bool := !h.disabled && !h.loading

def Hand.next (w : Which) (r : Region) (h : Hand) : Event → Hand
  | .mouse e =>
    match e.kind with
    | .down f =>
      if w.counts f then
        { h with down := some (e.on r && h.enabled), stray := h.stray && !(e.on r && h.enabled) }
      else h
    | .up f =>
      if w.counts f then { h with down := none, stray := h.stray || (h.down == some true && !e.on r) } else h
    | .moved => { h with stray := h.stray && w == .button }
    | _ => h
  | .setDisabled v => { h with disabled := v }
  | .setLoading v => { h with loading := v && w == .switch }
  | _ => h

def Hand.after (w : Which) (r : Region) (h : Hand) (es : List Event) : Hand := es.foldl (Hand.next w r) h

/-- One mouse button at a time; moves only while no button is down (otherwise they are drags); and no stray press
before a press elsewhere. -/
def Hand.Allows (w : Which) (r : Region) (h : Hand) : Event → Prop
  | .mouse e =>
    match e.kind with
    | .down f => w.counts f = true → h.down = none ∧ (h.stray = true → (e.on r && h.enabled) = true)
    | .up f => w.counts f = true → h.down ≠ none
    | .moved => h.down = none
    | _ => True
  | _ => True

instance (w : Which) (r : Region) (h : Hand) (e : Event) : Decidable (h.Allows w r e) := by
  unfold Hand.Allows
  split
  · split <;> infer_instance
  · infer_instance

def Hand.Proper (w : Which) (r : Region) (h : Hand) : List Event → Prop
  | [] => True
  | e :: es => h.Allows w r e ∧ Hand.Proper w r (h.next w r e) es

instance decProper (w : Which) (r : Region) : (h : Hand) → (es : List Event) → Decidable (h.Proper w r es)
  | _, [] => .isTrue trivial
  | h, e :: es => @instDecidableAnd _ _ (inferInstance : Decidable (h.Allows w r e)) (decProper w r (h.next w r e) es)

/-- A click is completed: the button goes up on the enabled widget it went down on. -/
def Hand.clicks (w : Which) (r : Region) (h : Hand) : Event → Bool
  | .mouse e =>
    match e.kind with
    | .up f => w.counts f && e.on r && h.enabled && h.down == some true
    | _ => false
  | _ => false

/-- The value of a switch as told by calls and messages. -/
def told (v : Bool) : Event × Option Bool → Bool
  | (.setValue w, _) => w
  | (_, some w) => w
  | (_, none) => v

/-- Whether the last move was onto the widget. -/
def lastMove (r : Region) (b : Bool) : Event → Bool
  | .mouse e => if e.kind = .moved then e.on r else b
  | _ => b

/-- Presses of the mouse on an enabled widget. -/
def Hand.presses (w : Which) (r : Region) (h : Hand) : Event → Bool
  | .mouse e =>
    match e.kind with
    | .down f => w.counts f && e.on r && h.enabled
    | _ => false
  | _ => false

def Hand.pressCount (w : Which) (r : Region) (h : Hand) : List Event → Nat
  | [] => 0
  | e :: es => (if h.presses w r e then 1 else 0) + Hand.pressCount w r (h.next w r e) es

end Textual.Press
