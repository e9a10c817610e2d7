import Verif.Model.Static

/-!
Model of the effects laid over finished lines: `apply_text_opacity` and `apply_hatch` of
`/repo/crates/textual/src/strip.rs` and `segment.rs`, and the places `static_widget.rs` applies them.

Simplifications: `f32`/`f64` values are exact rationals; the hatch replaces whole graphemes that are a
single space (the code replaces the character, also inside a longer grapheme); the width of the hatch
character is given, the code takes it to be 1.
-/

namespace Textual.Fade

/-- strip.rs:128: the background a segment fades toward. -/
def behind (style : Option Style) (fallback : Option RgbaColor) : Option RgbaColor :=
  (style.bind (·.bg)).or fallback

/-- strip.rs:140-157: the faded style of a segment, for an opacity between 0 and 1. -/
def fadeStyle (opacity : Rat) (fallback : Option RgbaColor) (style : Option Style) : Option Style :=
  let bg := behind style fallback
  match (style.bind (·.fg)).or (bg.map fun _ => RgbaColor.rgba 255 255 255 1) with
  | some fg =>
    let blended := match bg with
      | some b => fg.blendToward b opacity
      | none => fg.withOpacity opacity
    some { style.getD {} with fg := some blended }
  | none => style

/-- strip.rs:125-163: one segment. -/
def fadeSegment (opacity : Rat) (fallback : Option RgbaColor) (seg : Segment) : Segment :=
  if opacity ≤ 0 then
    { Segment.blank seg.cellLength (seg.style.map fun s => { s with fg := none }) with info := seg.info }
  else { Segment.mk' seg.text (fadeStyle opacity fallback seg.style) with info := seg.info }

/-- strip.rs:119-167 `apply_text_opacity`. -/
def textOpacity (s : Strip) (opacity : Rat) (fallback : Option RgbaColor) : Strip :=
  if opacity ≥ 1 then s else Strip.ofSegments (s.segments.map (fadeSegment opacity fallback))

/-- hatch.rs:92-101 `Hatch`, with the character of the pattern (45-55) and its display width. -/
structure Hatch where
  char : Char
  width : Nat := 1
  color : RgbaColor
  opacity : Rat := 1
deriving DecidableEq, Repr

/-- The hatch character as a grapheme. See static_widget.rs:682-686. -/
def Hatch.glyph (h : Hatch) : Grapheme := ⟨String.singleton h.char, h.width⟩

/-- segment.rs:373-375: the hatch colour with the opacity worked in. -/
def Hatch.ink (h : Hatch) : RgbaColor := { h.color with a := h.color.a * h.opacity }

/-- segment.rs:359-363: one character. -/
def Hatch.fill (h : Hatch) (g : Grapheme) : Grapheme := if g.text = " " then h.glyph else g

/-- segment.rs:357-402 `apply_hatch`. -/
def hatchSegment (h : Hatch) (seg : Segment) : Segment :=
  let text := seg.text.map h.fill
  if text.any fun g => g.text.toList.contains h.char then
    { seg with text := text, style := some (match seg.style with
      | some s => { s with fg := some h.ink }
      | none => { fg := some h.ink }) }
  else seg

/-- strip.rs:467-475 `apply_hatch`. -/
def hatchStrip (h : Hatch) (s : Strip) : Strip := Strip.ofSegments (s.segments.map (hatchSegment h))

/-- static_widget.rs:543-549: the lines of the text with the text opacity applied. -/
def fadeLines (opacity : Rat) (bg : Option RgbaColor) (lines : List Strip) : List Strip :=
  if opacity < 1 then lines.map fun l => textOpacity l opacity bg else lines

/-- static_widget.rs:682-699: hatch and tint on row `y` of a widget `height` rows tall. -/
def finish (top bottom height : Nat) (hatch : Option Hatch) (tint : Option RgbaColor) (y : Nat) (s : Strip) :
    Strip :=
  let s := match hatch with
    | some h => if y ≥ top ∧ y < height - bottom then hatchStrip h s else s
    | none => s
  match tint with
  | some t => s.applyTint t
  | none => s

end Textual.Fade
