import Verif.Model.Small
import Verif.Model.Press

/-!
# What a switch looks like

Model of the drawing of widget/switch.rs over the canvas; its state is that of `Model/Press.lean`.
-/

namespace Textual.Press

open Canvas

/-- A string of one-column characters. -/
def narrow (s : String) : List Grapheme := s.toList.map fun c => ⟨c.toString, 1⟩

/-- switch.rs:117-123 `with_spinner_frame`; there are ten frames (switch.rs:8). -/
def Switch.withFrame (s : Switch) (frame : Nat) : Switch := { s with frame := frame % 10 }

/-- switch.rs:177-180, 193-197: the text shown; `none` is the panic of an index out of bounds. The frames are those of the
spinner (switch.rs:8, loading_indicator.rs:11). -/
def Switch.text (s : Switch) : Option (List Grapheme) :=
  let l := narrow (if s.focused then ">[" else " [")
  let r := narrow (if s.focused then " ]<" else " ] ")
  if s.loading then (Small.frames[s.frame]?).map fun f => l ++ narrow "  " ++ [⟨f, 1⟩] ++ narrow "  " ++ r
  else some (l ++ narrow (if s.value then "  ON " else " OFF ") ++ r)

/-- switch.rs:163-208 `render`. -/
def Switch.render (s : Switch) (hidden : Bool) (fg bg : Option RgbaColor) (r : Region) : Option (List Draw) :=
  if hidden then some [] else s.text.map fun t => [.str r.x r.y t fg bg {}]

/-- switch.rs:156-161 `desired_size`. -/
def Switch.size : Nat × Nat := (10, 3)

end Textual.Press
