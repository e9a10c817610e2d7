import Mathlib.Data.List.Chain
import Verif.Model.Content

/-! Specification vocabulary for `Content` (C59–C67). -/

namespace Textual.Content

/-- A visible character with its style and metadata. -/
abbrev Glyph := Grapheme × Style × Meta

/-- The text of a strip. -/
def textOf (s : Strip) : List Grapheme := s.segments.flatMap (·.text)

/-- The characters of a strip with their styles (no style counts as the empty style). -/
def glyphs (s : Strip) : List Glyph :=
  s.segments.flatMap fun seg => seg.text.map fun g => (g, seg.style.getD {}, seg.info)

/-- The text without white space. -/
def inked (ws : Grapheme → Bool) (t : List Grapheme) : List Grapheme := t.filter fun g => !ws g

/-- The glyphs that are not white space. -/
def inkedGlyphs (ws : Grapheme → Bool) (t : List Glyph) : List Glyph := t.filter fun g => !ws g.1

/-- The spans that cover a byte offset. -/
def covering (spans : List Span) (pos : Nat) : List Span :=
  spans.filter fun s => decide (s.start ≤ pos ∧ pos < s.stop)

/-- The style the content asks for at a byte offset: base style, then every span over the offset in
order, then the link style if there is a click action. -/
def Content.styleAt (c : Content) (spans : List Span) (pos : Nat) : Style :=
  let style := ((covering spans pos).map (·.style)).foldl Style.apply (c.style.getD {})
  let info := ((covering spans pos).map (·.info)).reverse.flatten
  match info.lookup "@click", c.linkStyle with
  | some action, some link => applyLinkStyle style link (decide (c.hovered = some action))
  | _, _ => style

/-- The metadata at a byte offset; the first entry of a key counts. -/
def metaAt (spans : List Span) (pos : Nat) : Meta := ((covering spans pos).map (·.info)).reverse.flatten

/-- A piece of text that starts at byte `pos`, each character with the style at its offset. -/
def Content.annotate (c : Content) (spans : List Span) : Nat → List Grapheme → List Glyph
  | _, [] => []
  | pos, g :: gs => (g, c.styleAt spans pos, metaAt spans pos) :: c.annotate spans (pos + gbytes g) gs

/-- The whole text with its styles. -/
def Content.annotated (c : Content) : List Glyph := c.annotate (c.spans.getD []) 0 c.text

/-- Spans start and end between characters of the text, or past its end. -/
def Aligned (spans : List Span) (text : List Grapheme) : Prop :=
  ∀ s ∈ spans, ∀ x, x = s.start ∨ x = s.stop → x < blen text → ∃ k, x = blen (text.take k)

/-- Every character has at least one byte. -/
def Solid (text : List Grapheme) : Prop := ∀ g ∈ text, 0 < gbytes g

/-- Every word of the text takes at least one column. -/
def VisibleWords (ws : Grapheme → Bool) (line : List Grapheme) : Prop := ∀ w ∈ words ws line, 0 < widthOf w

/-- White space only as single columns between words. -/
def Tidy (ws : Grapheme → Bool) (line : List Grapheme) : Prop :=
  (∀ g, line.head? = some g → ws g = false) ∧ line.IsChain (fun a b => ws a = false ∨ ws b = false) ∧
    ∀ g ∈ line, ws g = true → g.width ≤ 1

/-- Width of words set with one space between them. -/
def joinedWidth : List (List Grapheme) → Nat
  | [] => 0
  | [w] => widthOf w
  | w :: rest => widthOf w + 1 + joinedWidth rest

/-- Styled text cut at its newlines. -/
def splitGlyphs : List Glyph → List (List Glyph)
  | [] => [[]]
  | g :: gs =>
    if g.1.text = "\n" then [] :: splitGlyphs gs
    else
      match splitGlyphs gs with
      | [] => [[g]]
      | l :: ls => (g :: l) :: ls

/-- Wrapped lines grouped into paragraphs: a paragraph ends with a line that has the end mark. -/
def paragraphs : List WrappedLine → List (List Strip)
  | [] => []
  | l :: ls =>
    if l.lineEnd then [l.strip] :: paragraphs ls
    else
      match paragraphs ls with
      | [] => [[l.strip]]
      | p :: ps => (l.strip :: p) :: ps

end Textual.Content
