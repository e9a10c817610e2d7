import Verif.Model.Placeholder

/-!
# Rulers, spinners and scrollbar corners

Model of the drawing of widget/ruler.rs, widget/loading_indicator.rs and widget/scrollbar_corner.rs over the canvas.
-/

namespace Textual.Small

open Canvas

/-! ### Ruler -/

/-- ruler.rs:126-134 `char_at`. -/
def tick (pos : Nat) : Grapheme := if (pos + 1) % 5 = 0 then ⟨"•", 1⟩ else ⟨"·", 1⟩

/-- What of a ruler's style is drawn (ruler.rs:137-149 `rendering_style`). -/
structure Look where
  hidden : Bool := false
  fg : Option RgbaColor := none
  bg : Option RgbaColor := none
  attrs : Textual.Attrs := {}

/-- `Strip::from_segment(Segment::styled(text, style))` as `render_strip` reads it (segment.rs:143-152, canvas.rs:344-364). -/
def strip (l : Look) (text : List Grapheme) : List DrawSeg := [⟨text, l.fg, l.bg, l.attrs, widthOf text⟩]

/-- ruler.rs:171-202 `render`. -/
def ruler (vertical : Bool) (l : Look) (r : Region) : List Draw :=
  if l.hidden then []
  else if r.width ≤ 0 ∨ r.height ≤ 0 then []
  else if vertical then
    (List.range r.height.toNat).map fun (y : Nat) => .strip r.x (r.y + y) (strip l [tick y])
  else [.strip r.x r.y (strip l ((List.range r.width.toNat).map tick))]

/-! ### Spinner -/

/-- loading_indicator.rs:11 `SPINNER_FRAMES`. -/
def frames : List String := ["⠋", "⠙", "⠹", "⠸", "⠼", "⠴", "⠦", "⠧", "⠇", "⠏"]

/-- loading_indicator.rs:14-23, the fields used here. -/
structure Spinner where
  frame : Nat := 0
  visible : Bool := true
  dirty : Bool := true
deriving DecidableEq, Repr

/-- loading_indicator.rs:60-63 `tick`. -/
def Spinner.tick (s : Spinner) : Spinner := { s with frame := (s.frame + 1) % frames.length, dirty := true }

/-- loading_indicator.rs:53-58 `set_visible`. -/
def Spinner.setVisible (s : Spinner) (v : Bool) : Spinner :=
  if s.visible ≠ v then { s with visible := v, dirty := true } else s

/-- loading_indicator.rs:81-94 `render`; the outer `none` is the panic of an index out of bounds. -/
def Spinner.render (s : Spinner) (l : Look) (r : Region) : Option (List Draw) :=
  if ¬ s.visible ∨ l.hidden then some []
  else frames[s.frame]?.map fun f => [.char r.x r.y ⟨f, 1⟩ l.fg l.bg {}]

/-- The calls on a spinner; `clean` is the drawing. See loading_indicator.rs:53, 60, 148, 152. -/
inductive SpinnerOp where
  | tick
  | setVisible (v : Bool)
  | clean
deriving DecidableEq, Repr

/-- See loading_indicator.rs:53, 60, 148, 152. -/
def Spinner.step (s : Spinner) : SpinnerOp → Spinner
  | .tick => s.tick
  | .setVisible v => s.setVisible v
  | .clean => { s with dirty := false }

/-- A history of the calls of loading_indicator.rs:53-152. -/
def Spinner.run (ops : List SpinnerOp) : Spinner := ops.foldl Spinner.step {}

/-! ### Scrollbar corner -/

/-- scrollbar_corner.rs:79-104 `render`, for a corner of the given size and colour (scrollbar_corner.rs:63-68
`effective_color`). -/
def corner (width height : Nat) (hidden : Bool) (color : RgbaColor) (r : Region) : List Draw :=
  if hidden then []
  else Placeholder.fill ⟨r.x, r.y, min r.width width, min r.height height⟩ color

end Textual.Small
