import Verif.Model.LinkClicks
import Verif.Model.Pick

/-!
# Option lists in a tree

A tree of containers (`Model/Nest.lean`) whose leaves are option lists on the screen (`Model/Pick.lean`): the mouse branch of
the run loop (lib.rs:962-1011), drawings of the tree, and whatever keys and the program do with each list in between.

Simplifications: the command palette is closed. An option list never answers with a message: its options are texts, which do
not (static_widget.rs:954-990), and `OptionList::set_hover` is that of `Widget`, which does nothing (widget.rs:301-303).
The style of each list and the layout of its options are parameters.
-/

namespace Textual.Options

open Layout (Viewport)
open Nest (Node)
open Clicks (Touch)
open Pick (View)

/-- The style of a list and the layout of its options. Read by option_list.rs:307, 338. -/
structure Looks where
  sheet : Scroller.Sheet
  layout : List OptionList.Row → Scroller.Body

/-- option_list.rs:338-367 `on_mouse`: a left button that goes up picks an option; then the container in the list gets the
event (`View.step`, event `wheel`, for any kind of event). -/
def onMouse (k : Looks) (v : View) (e : Press.Mouse) (r : Region) : View :=
  if v.list.off || !v.list.visible then v
  else if r.containsPoint e.column e.row = false then v
  else
    let v := if e.kind = .up .left then v.step k.sheet k.layout (.op (.click (Pick.rowOf r e.row))) else v
    v.step k.sheet k.layout (.wheel ⟨Clicks.outer e.kind, e.column, e.row, false⟩ r)

/-- Changes one list. -/
def update (s : Nat → View) (i : Nat) (f : View → View) : Nat → View := fun j => if j = i then f (s j) else s j

/-- What happens to the lists of the tree. See option_list.rs:307, 322, 338. -/
inductive Happening where
  | touch (t : Touch)
  | draw (viewport : Viewport) (node : Node) (screen : Region)
  | op (i : Nat) (o : OptionList.OptionList.Op)

/-- A mouse event (lib.rs:962-1011) given to the lists it reaches, in order; a drawing of the lists drawn, in order; an
operation of keys or the program on one list. -/
def step (k : Nat → Looks) (s : Nat → View) : Happening → Nat → View
  | .touch t => (Nest.reach t.viewport t.mouse (LinkClicks.silent t.node) t.screen).1.foldl
      (fun s q => update s q.1 fun v => onMouse (k q.1) v t.event q.2) s
  | .draw vp n r => (Nest.painted vp n r []).foldl
      (fun s q => update s q.1 fun v => v.step (k q.1).sheet (k q.1).layout (.draw q.2.1 vp)) s
  | .op i o => update s i fun v => v.step (k i).sheet (k i).layout (.op o)

/-- The lists after a history. A history of the calls of option_list.rs:307, 322, 338. -/
def after (k : Nat → Looks) (s : Nat → View) (hs : List Happening) : Nat → View := hs.foldl (step k) s

end Textual.Options
