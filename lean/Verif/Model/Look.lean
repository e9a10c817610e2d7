import Verif.Model.Static

/-!
Model of `/repo/crates/textual/src/widget/static_widget.rs`: the styles a text widget draws its text and labels with.
-/

namespace Textual.Static

/-- static_widget.rs:245-293 `rendering_style`; `t` is `text_style`. -/
def renderingStyle (s : Restyle.Style) (t : Css.TextStyle) : Style where
  fg := s.foreground
  bg := s.effectiveBackground
  bold := t.bold
  dim := t.dim
  italic := t.italic
  underline := t.underline
  strike := t.strike
  reverse := t.reverse

/-- static_widget.rs:569-624: the style of a title or subtitle. `own` and `ground` are `border_title_color` and
`border_title_background` (or those of the subtitle), `edge` is the colour of the border on this side. -/
def labelStyle (s : Restyle.Style) (own edge ground : Option RgbaColor) (t : Css.TextStyle) : Style where
  fg :=
    let base := (own.or edge).or s.color
    match base, s.inheritedBackground with
    | some color, some bg => some (color.blendToward bg s.opacity)
    | some color, none => some (color.withOpacity s.opacity)
    | _, _ => none
  bg := ground.or s.background
  bold := t.bold
  dim := t.dim
  italic := t.italic
  underline := t.underline
  strike := t.strike
  reverse := t.reverse

/-- static_widget.rs:627-658: the strip of a title or subtitle, the first line of its text; `none` without a text, `most`
is `usize::MAX`. Simplified: the code looks for an empty source, here markup without any text also counts as none. -/
def labelStrip (ws : Grapheme → Bool) (most : Nat) (st : Style) (label : Content.Content) : Option Strip :=
  if label.text.isEmpty then none
  else ((({ label with style := some st } : Content.Content).wrap ws most).getD []).head?

end Textual.Static
