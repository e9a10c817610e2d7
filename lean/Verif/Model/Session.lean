import Verif.Model.Tabs
import Verif.Model.Isolation

/-!
# Keyboard and mouse together

The run loop with keys (`Model/Tabs.lean`) and mouse events (`Model/Isolation.lean`) in any order, for a tree of widgets of any
kinds. The widgets are numbered; `num` is the number of the widget at a path of the tree.

Simplifications: those of the two models; `set_focus(true)`, which a widget gets when the focus comes to it, is taken as part of
`onKey`, and `set_focus(false)`, which it gets when the focus leaves and which changes how it looks, is left out; the program does nothing to the widgets when it handles a message or gets a key.
-/

namespace Textual.Session

open Tree (WidgetTree)
open Clicks (Touch)

/-- `Isolation.Widget` with widget.rs:266-268 `on_event`, with the message answered if any. -/
structure Widget (σ μ : Type) extends Isolation.Widget σ μ where
  onKey : σ → Binding.Key → Option μ × σ

/-- An event from the terminal. Keys are read at lib.rs:905, mouse events at lib.rs:962-1011. -/
inductive Event where
  | key (e : Keys.Event)
  | mouse (t : Touch)

/-- The widgets, and the messages handled so far, each with the number of its widget.
Messages are handled at lib.rs:917, 999. -/
abbrev Held (σ μ : Type) := (Nat → σ) × List (Nat × μ)

/-- tree.rs:187-206 `dispatch_key` leads to `on_event` of the focused widget; lib.rs:904-918 its message is handled. -/
def app (w : Widget σ μ) (num : List Nat → Nat) : Tabs.App (Held σ μ) (Nat × μ) where
  on := fun p k s =>
    let r := w.onKey (s.1 (num p)) k
    ((fun j => if j = num p then r.2 else s.1 j, s.2), r.1.map fun m => (num p, m))
  message := fun m s => (s.1, s.2 ++ [m])

/-- lib.rs:792-801, then 868-950 for a key and 962-1011 for a mouse event. -/
def turn (w : Widget σ μ) (num : List Nat → Nat) (sc : Binding.Event → Bool) (a : Nat → Bool)
    (s : WidgetTree × Held σ μ) : Event → WidgetTree × Held σ μ
  | .key e => Tabs.turn (app w num) sc s e
  | .mouse t =>
    let p := Isolation.step w.toWidget a s.2.1 t
    (s.1.fallback, p.2, s.2.2 ++ p.1.toList)

/-- The loop. See lib.rs:648. -/
def run (w : Widget σ μ) (num : List Nat → Nat) (sc : Binding.Event → Bool) (a : Nat → Bool) (es : List Event)
    (s : WidgetTree × Held σ μ) : WidgetTree × Held σ μ := es.foldl (turn w num sc a) s

end Textual.Session
