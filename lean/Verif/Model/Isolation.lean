import Verif.Model.Clicks

/-!
# Mouse events for a tree of any widgets

The mouse branch of the run loop (lib.rs:962-1011) for a tree of containers (`Model/Nest.lean`) whose leaves are widgets of any
kinds, as `Model/Clicks.lean` does for buttons. What a widget is and does is a parameter: the three methods of `Widget` the
mouse branch calls.

Simplifications: the command palette is closed. Whether a leaf answers, which matters only to containers that ask several
children, is any function of its number. That a container calls `set_hover` before it hands over a move (container.rs:1493,
screen.rs:239-241) is taken as part of `onMouse`; so a `Screen` is taken to be the root only, since one inside a container hands
`set_hover` on to all its children (screen.rs:1136-1144). Pending actions are not taken here, and what the program does to the
widgets when it handles a message is left out.
-/

namespace Textual.Isolation

open Nest (Node)
open Clicks (Touch)

/-- widget.rs:274-288 `on_mouse` and `on_mouse_with_sender`, with the message answered if any, and widget.rs:313 `clear_hover`. -/
structure Widget (σ μ : Type) where
  onMouse : σ → Press.Mouse → Region → Option μ × σ
  clearHover : σ → σ

/-- The tree with the answers of its leaves. The answers are those of `on_mouse`, lib.rs:962-1011. -/
def answering (a : Nat → Bool) : Node → Node
  | .leaf id _ => .leaf id (a id)
  | .box b child => .box b fun i => answering a (child i)

/-- `on_mouse` of each of the leaves reached, in order: the messages, each with the number of its widget, and the widgets
afterwards. See lib.rs:962-1011. -/
def give (w : Widget σ μ) (e : Press.Mouse) : List (Nat × Region) → (Nat → σ) → List (Nat × μ) × (Nat → σ)
  | [], s => ([], s)
  | (i, r) :: l, s =>
    let p := w.onMouse (s i) e r
    let q := give w e l fun j => if j = i then p.2 else s j
    (match p.1 with | some v => (i, v) :: q.1 | none => q.1, q.2)

/-- lib.rs:969-971, tree.rs:479-487 `clear_all_hover`. -/
def clearAll (w : Widget σ μ) (t : Touch) (s : Nat → σ) : Nat → σ :=
  if t.event.kind = .moved then fun i => w.clearHover (s i) else s

/-- lib.rs:962-1011, one mouse event: the message the program handles and the widgets afterwards. -/
def step (w : Widget σ μ) (a : Nat → Bool) (s : Nat → σ) (t : Touch) : Option (Nat × μ) × (Nat → σ) :=
  let p := give w t.event (Nest.reach t.viewport t.mouse (answering a t.node) t.screen).1 (clearAll w t s)
  (p.1.head?, p.2)

/-- The messages handled during a history, in order, and the widgets after it.
Each event is a round of lib.rs:962-1011. -/
def run (w : Widget σ μ) (a : Nat → Bool) : (Nat → σ) → List Touch → List (Nat × μ) × (Nat → σ)
  | s, [] => ([], s)
  | s, t :: ts =>
    let p := step w a s t
    let q := run w a p.2 ts
    (p.1.toList ++ q.1, q.2)

end Textual.Isolation
