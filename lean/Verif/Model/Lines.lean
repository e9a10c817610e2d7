import Verif.Model.Static
import Verif.Model.Fade

/-!
# Drawing lines and text widgets on the canvas

What `Canvas::render_strip` reads of a line, and the drawing calls of `Static::render`.
-/

namespace Textual

/-- canvas.rs:347-361: what `render_strip` reads of a segment. -/
def Segment.toDraw (s : Segment) : Canvas.DrawSeg where
  text := s.text
  fg := s.style.bind (·.fg)
  bg := s.style.bind (·.bg)
  attrs := match s.style with
    | some st => ⟨st.bold, st.dim, st.italic, st.underline, st.strike, st.reverse⟩
    | none => {}
  cellLength := s.cellLength

/-- canvas.rs:344-364: what `render_strip` reads of a line. -/
def Strip.toDraw (s : Strip) : List Canvas.DrawSeg := s.segments.map Segment.toDraw

namespace Static

/-- static_widget.rs:459-465, 660-702: the drawing calls of a text widget for lines of text already made; the rows are
drawn one after the other from the top (`render_strip` at 701). -/
def paint (s : Sheet) (hidden : Bool) (c : RenderCache.Cache) (lines : List Content.WrappedLine)
    (title subtitle : Option Strip) (hatch : Option Fade.Hatch) (tint : Option RgbaColor) (r : Region) :
    List Canvas.Draw :=
  if hidden then []
  else if r.width ≤ 0 ∨ r.height ≤ 0 then []
  else
    let rows := (drawLines s c lines title subtitle r.width.toNat r.height.toNat).rows
    [.strips r.x r.y ((rows.mapIdx fun y row =>
      Fade.finish (RenderCache.one c.top) (RenderCache.one c.bottom) r.height.toNat hatch tint y row).map Strip.toDraw)]

end Static

end Textual
