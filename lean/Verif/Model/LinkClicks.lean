import Verif.Model.Clicks
import Verif.Model.Hidden

/-!
# Mouse events for a tree of texts with links

The mouse branch of the run loop (lib.rs:962-1011) for a tree of containers (`Model/Nest.lean`) whose leaves are texts
(`Static` or `Label`, which hands everything on: label.rs:226-302). The tree is drawn, which tells each text where its links
are (`Model/Static.lean`); then the event goes to the root and from there to the leaves; then the pending actions are taken.

Simplifications: the command palette is closed. Each event comes with the screen as it is drawn before it, as the program may
change everything but the state of the links between two events.
-/

namespace Textual.LinkClicks

open Layout (Viewport)
open Nest (Node)
open Static (Links Drawn)

/-- A mouse event with the screen it happens on; `text i w h` is what text number `i` draws in an area of that size.
The events of the loop are lib.rs:962-1011. -/
structure Page where
  kind : Press.Kind
  column : Nat
  row : Nat
  node : Node
  screen : Region
  viewport : Viewport
  text : Nat → Nat → Nat → Drawn

/-- The event given to `on_mouse`, lib.rs:962-1011. -/
def Page.mouse (p : Page) : Scroller.Mouse := ⟨Clicks.outer p.kind, p.column, p.row, false⟩

/-- static_widget.rs:954-990 `on_mouse` never answers with a message. -/
def silent : Node → Node
  | .leaf id _ => .leaf id false
  | .box b child => .box b fun i => silent (child i)

/-- The events `on_mouse` of a text distinguishes (static_widget.rs:964-988). -/
def kindOf : Press.Kind → Static.Mouse
  | .down .left => .leftDown
  | .moved => .moved
  | _ => .other

/-- Changes the state of one text. -/
def update (s : Nat → Links) (i : Nat) (f : Links → Links) : Nat → Links := fun j => if j = i then f (s j) else s j

/-- `render` of the tree: each text drawn takes down its links. See static_widget.rs:459. -/
def drawAll (p : Page) (s : Nat → Links) : Nat → Links :=
  (Nest.painted p.viewport p.node p.screen []).foldl
    (fun s q => update s q.1 fun l => l.rendered false q.2.1 (p.text q.1 q.2.1.width.toNat q.2.1.height.toNat)) s

/-- lib.rs:969-971, tree.rs:479-487 `clear_all_hover`. -/
def leave (p : Page) (s : Nat → Links) : Nat → Links :=
  if p.kind = .moved then fun i => (s i).clearHover else s

/-- `on_mouse` of each of the texts reached, in order. See static_widget.rs:954. -/
def give (p : Page) (s : Nat → Links) : Nat → Links :=
  (Nest.reach p.viewport p.mouse (silent p.node) p.screen).1.foldl
    (fun s q => update s q.1 fun l => l.onMouse (kindOf p.kind) p.column p.row q.2) s

/-- lib.rs:962-1011, one mouse event: the actions dispatched (tree.rs:459-473 `collect_pending_actions_mut`), with the number of
the text each comes from, and the links afterwards. -/
def step (s : Nat → Links) (p : Page) : (Nat → Option String) × (Nat → Links) :=
  let s := give p (leave p (drawAll p s))
  (fun i => (s i).take.1, fun i => (s i).take.2)

/-- The links after a history of events. Each event is a round of lib.rs:962-1011. -/
def after (s : Nat → Links) (ps : List Page) : Nat → Links := ps.foldl (fun s p => (step s p).2) s

end Textual.LinkClicks
