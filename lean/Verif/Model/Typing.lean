import Verif.Model.Input
import Verif.Model.FromMarkup
import Verif.Model.Static

/-!
Model of the way from what is typed into an input to the lines it draws, `/repo/crates/textual/src/widget/input.rs` with
the text widget inside it, `static_widget.rs`.
-/

namespace Textual.Typing

open Input (Input)

/-- static_widget.rs:476-482: the text of a widget with markup; markup that cannot be read is shown as it is. A panic of the
parser is not expected here (C77 shows that the markup of an input is always read). -/
def content (cluster : List Char → List Grapheme) (src : List Char) : Content.Content :=
  match FromMarkup.fromMarkup cluster src with
  | .ok c => c
  | _ => { text := cluster src }

/-- input.rs:43-44 (the text inside has markup), 111-115 `refresh_display`, 218-223 `render`; static_widget.rs:476-516: the
lines of an input at a given inner width. No link is under the mouse. -/
def lines (cluster : List Char → List Grapheme) (s : Static.Sheet) (ws : Grapheme → Bool) (i : Input) (innerWidth : Nat) :
    Option (List Content.WrappedLine) :=
  Static.textLines s ws (content cluster i.shown) none innerWidth

end Textual.Typing
