import Verif.Model.OptionList
import Verif.Model.Pane
import Verif.Model.ScrollSize
import Verif.Model.Static

/-!
An option list on the screen: `/repo/crates/textual/src/widget/option_list.rs` over the container of `Model/Pane.lean`
that draws its options. The options are the children of the container in order; what they look like in the layout is
a parameter.
-/

namespace Textual.Pick

open OptionList (OptionList)
open Layout (LChild Viewport Placement PStyle)

/-- option_list.rs:70-82: the list and the container in it. -/
structure View where
  list : OptionList
  pane : Pane.State := {}

/-- The operations during which `refresh_display` is called: option_list.rs:262-280 by keys, 349-352 by the mouse,
137-168 by the setters, 388-391, 429-434 and 476-482. -/
def refreshes (l : OptionList) : OptionList.OptionList.Op → Bool
  | .up => !l.off && l.visible && !l.items.isEmpty && (l.nextEnabledFrom l.selected (-1)).isSome
  | .down => !l.off && l.visible && !l.items.isEmpty && (l.nextEnabledFrom l.selected 1).isSome
  | .click y => !l.off && l.visible && match OptionList.OptionList.indexForRow l.lineCounts 0 y with
    | some i => !l.disabledAt i && l.selected != i
    | none => false
  | .setItems _ | .setItemsWithState _ | .setSelected _ | .restyle => true
  | .setMarkup allow => l.allowMarkup != allow
  | .setFocus on => l.focused != on
  | .otherKey | .takePending | .setDisabled _ | .setVisible _ => false

/-- What happens to an option list on the screen: an operation, the wheel, a drawing.
See option_list.rs:307, 322, 338. -/
inductive Event where
  | op (o : OptionList.OptionList.Op)
  | wheel (m : Scroller.Mouse) (r : Region)
  | draw (r : Region) (vp : Viewport)

/-- The children of the container: all are displayed. -/
def body (keys : List String) (p : PStyle) (cs : List LChild) : Scroller.Body :=
  Layout.Intrinsic.scrolled keys p (cs.map fun c => (true, c))

/-- option_list.rs:225-260 with container.rs:126-131 `set_children` (the container forgets its layout and its position),
option_list.rs:338-366 (the wheel goes to the container), 307-312 `render`. `layout` gives the children for the rows. -/
def View.step (s : Scroller.Sheet) (layout : List OptionList.Row → Scroller.Body) (v : View) : Event → View
  | .op o => { list := v.list.step o, pane := if refreshes v.list o then {} else v.pane }
  | .wheel m r =>
    if v.list.off || !v.list.visible then v
    else { v with pane := (v.pane.onMouse s (layout v.list.rows) m r fun _ => false).2 }
  | .draw r vp => { v with pane := (v.pane.draw s (layout v.list.rows) r vp).2 }

/-- A click on the screen (option_list.rs:343-349): the row from the top of the widget. -/
def rowOf (r : Region) (row : Int) : Nat := (row - r.y).toNat

/-- An option in the layout: a `Static` (option_list.rs:240-249) with `height: auto` (static_widget.rs, default style), of
the given sheet and content (static_widget.rs:801-857). -/
def option (index : Nat) (style : Layout.LStyle) (sheet : Static.Sheet) (ws : Grapheme → Bool) (content : Content.Content)
    (desiredWidth : Nat) : LChild where
  index := index
  style := style
  desiredWidth := desiredWidth
  desiredHeight := 1
  intrinsicHeight := fun w => (Static.intrinsicHeight sheet ws content w).getD 0

end Textual.Pick
