import Verif.Model.Content
import Verif.Model.RenderCache
import Verif.Model.Region

/-!
Model of `/repo/crates/textual/src/widget/static_widget.rs`: the lines of a text widget, its links and its
automatic size.

Simplifications: the content and the labels are given as parsed (`Content` for the text, a strip for a
title that is not empty); sizes are natural numbers (the `u16` casts of `desired_size` and
`intrinsic_height_for_width` are not modelled); `text_opacity` is 1 and there is neither hatch nor tint
(these change styles and blanks of finished strips). The computed style is that of `RenderCache.Sheet` with
the text properties of `Sheet` below.
-/

namespace Textual.Static

open Content (Content WrappedLine Overflow Wrap)
open Strip (AlignH)
open RenderCache (Cache Kind)

/-- tcss `AlignVertical`. See tcss/src/types/text.rs:226. -/
inductive AlignV where
  | top | middle | bottom
deriving DecidableEq, Repr

/-- tcss types/text.rs `TextAlign`. See tcss/src/types/text.rs:160. -/
inductive TextAlign where
  | start | stop | left | center | right | justify
deriving DecidableEq, Repr

/-- The parts of `ComputedStyle` a text widget depends on; `text` is `rendering_style` (:245-293). -/
structure Sheet where
  frame : RenderCache.Sheet := {}
  text : Style := {}
  alignH : AlignH := .left
  alignV : AlignV := .top
  textAlign : TextAlign := .start
  linePad : Nat := 0
  overflow : Overflow := .fold
  wrap : Wrap := .wrap
  link : Content.LinkStyle := {}

/-- static_widget.rs:335-342: the alignment of a line. -/
def TextAlign.line : TextAlign → AlignH
  | .start | .left | .justify => .left
  | .stop | .right => .right
  | .center => .center

/-- static_widget.rs:313-317: rows above the text. -/
def vOffset (align : AlignV) (height lines : Nat) : Nat :=
  match align with
  | .top => 0
  | .middle => (height - lines) / 2
  | .bottom => height - lines

/-- static_widget.rs:328-332: columns before the block of text. -/
def hOffset (align : AlignH) (width block : Nat) : Nat :=
  match align with
  | .left => 0
  | .center => (width - block) / 2
  | .right => width - block

/-- static_widget.rs:320-324: the length of the longest line. -/
def maxLength (lines : List WrappedLine) : Nat := (lines.map (·.strip.cellLength)).foldl max 0

/-- static_widget.rs:351-359: the style of blanks. -/
def padOf (s : Style) : Option Style := some { fg := s.fg, bg := s.bg }

/-- static_widget.rs:368-381: one line of text in its row. -/
def alignLine (s : Sheet) (width lineWidth hOff : Nat) (line : WrappedLine) : Strip :=
  let pad := padOf s.text
  let aligned := if s.textAlign = .justify ∧ line.lineEnd = false then line.strip.justify lineWidth pad
    else line.strip.textAlign s.textAlign.line lineWidth pad
  let placed := if hOff > 0 then Strip.join [Strip.blank hOff pad, aligned] else aligned
  placed.adjustCellLength width pad

/-- static_widget.rs:296-390 `align_content`. -/
def alignContent (s : Sheet) (lines : List WrappedLine) (width height : Nat) : List Strip :=
  if width = 0 ∨ height = 0 then []
  else
    let v := vOffset s.alignV height lines.length
    let block := min width (maxLength lines)
    let hOff := hOffset s.alignH width block
    let lineWidth := if s.alignH = .left ∧ s.alignV = .top then width else block
    let blank := Strip.blank width (padOf s.text)
    let body := List.replicate v blank ++ (lines.take (height - v)).map (alignLine s width lineWidth hOff)
    body ++ List.replicate (height - body.length) blank

/-- static_widget.rs:39-49 `LinkRegion`. -/
structure LinkRegion where
  action : String
  row : Nat
  startCol : Nat
  endCol : Nat
deriving DecidableEq, Repr

/-- static_widget.rs:401-416: the links of one row from column `col` on. -/
def rowLinks (row left : Nat) : Nat → List Segment → List LinkRegion
  | _, [] => []
  | col, seg :: rest =>
    (match seg.info.lookup "@click" with
      | some action => [⟨action, row, col + left, col + seg.cellLength + left⟩]
      | none => []) ++ rowLinks row left (col + seg.cellLength) rest

/-- static_widget.rs:400-417: the links of the rows from `row` on. -/
def linksFrom (top left : Nat) : Nat → List Strip → List LinkRegion
  | _, [] => []
  | row, strip :: rest => rowLinks (row + top) left 0 strip.segments ++ linksFrom top left (row + 1) rest

/-- static_widget.rs:393-420 `extract_link_regions`. -/
def linkRegions (c : Cache) (lines : List Strip) : List LinkRegion :=
  linksFrom (RenderCache.one c.top + c.paddingTop) (RenderCache.one c.left + c.paddingLeft) 0 lines

/-- static_widget.rs:423-431 `find_link_at`. -/
def findLink (regions : List LinkRegion) (x y : Nat) : Option String :=
  (regions.find? fun r => decide (y = r.row) && decide (x ≥ r.startCol) && decide (x < r.endCol)).map (·.action)

/-- static_widget.rs:476-516: the lines of the text at a given inner width. -/
def textLines (s : Sheet) (ws : Grapheme → Bool) (content : Content) (hovered : Option String)
    (innerWidth : Nat) : Option (List WrappedLine) :=
  let content := { content with style := some s.text, linkStyle := some s.link, hovered := hovered }
  let wrapWidth := max (innerWidth - 2 * s.linePad) 1
  let lines := if innerWidth > 0 then content.wrapFull ws wrapWidth s.overflow s.wrap else some []
  if s.linePad > 0 then
    lines.map fun l => l.map fun line =>
      { line with strip := Strip.join [Strip.blank s.linePad (some s.text), line.strip,
          Strip.blank s.linePad (some s.text)] }
  else lines

/-- static_widget.rs:518-537: rows reserved for labels without a border row. -/
def reserve (border : Bool) (hasBorder : Bool) (label : Option Strip) : Nat :=
  if border = false ∧ hasBorder = true ∧ label.isSome then 1 else 0

/-- What is drawn: a strip per row, and the links for the mouse.
Drawn by static_widget.rs:459; the links are used at static_widget.rs:954. -/
structure Drawn where
  rows : List Strip
  links : List LinkRegion
deriving DecidableEq, Repr

/-- static_widget.rs:459-703 `render`, for lines of text already made; `c` is the render cache. -/
def drawLines (s : Sheet) (c : Cache) (lines : List WrappedLine) (title subtitle : Option Strip)
    (width height : Nat) : Drawn :=
  let inner := c.innerSize width height
  let hasBorder := c.top || c.right || c.bottom || c.left
  let reserveTop := reserve c.top hasBorder title
  let reserveBottom := reserve c.bottom hasBorder subtitle
  let aligned := alignContent s lines inner.1 (inner.2 - (reserveTop + reserveBottom))
  let contentStart := RenderCache.one c.top + c.paddingTop + reserveTop
  let contentEnd := height - (RenderCache.one c.bottom + c.paddingBottom + reserveBottom)
  let title := if hasBorder then title else none
  let subtitle := if hasBorder then subtitle else none
  { rows := (List.range height).map fun y =>
      let line := if y ≥ contentStart ∧ y < contentEnd then aligned[y - contentStart]? else none
      c.renderLine y height width line title subtitle
    links := linkRegions c aligned }

/-- static_widget.rs:459-703 `render`: `none` is the panic of cutting a text inside a character. -/
def draw (s : Sheet) (c : Cache) (ws : Grapheme → Bool) (content : Content) (hovered : Option String)
    (title subtitle : Option Strip) (width height : Nat) : Option Drawn :=
  (textLines s ws content hovered (c.innerSize width height).1).map fun lines =>
    drawLines s c lines title subtitle width height

/-- static_widget.rs:712-726, 804-820: a border counts for the size of a widget. -/
def edge (k : Kind) : Nat := if k = .none ∨ k = .hidden then 0 else 1

/-- static_widget.rs:801-857 `intrinsic_height_for_width`. -/
def intrinsicHeight (s : Sheet) (ws : Grapheme → Bool) (content : Content) (width : Nat) : Option Nat :=
  let b := s.frame.border
  let chromeW := edge b.left.kind + edge b.right.kind + (s.frame.paddingLeft + s.frame.paddingRight)
  let chromeH := edge b.top.kind + edge b.bottom.kind + (s.frame.paddingTop + s.frame.paddingBottom)
  let contentWidth := max (width - chromeW - 2 * s.linePad) 1
  (content.wrapFull ws contentWidth s.overflow s.wrap).map fun lines => max lines.length 1 + chromeH

/-- static_widget.rs:762-766: the width of a widget of automatic width; `raw` is the text as given, with its
markup. -/
def autoWidth (s : Sheet) (raw : List Grapheme) : Nat :=
  let b := s.frame.border
  let chromeW := edge b.left.kind + edge b.right.kind + (s.frame.paddingLeft + s.frame.paddingRight)
  ((Content.splitLines raw).map widthOf).foldl max 0 + 2 * s.linePad + chromeW

/-- static_widget.rs:91-99: the state of the links. -/
structure Links where
  regions : List LinkRegion := []
  hovered : Option String := none
  pending : Option String := none
  dirty : Bool := true
deriving DecidableEq, Repr

/-- The mouse events `on_mouse` distinguishes. See static_widget.rs:954. -/
inductive Mouse where
  | leftDown | moved | other
deriving DecidableEq, Repr

/-- static_widget.rs:954-990 `on_mouse`. -/
def Links.onMouse (l : Links) (kind : Mouse) (column row : Nat) (region : Region) : Links :=
  if region.containsPoint column row = false then l
  else
    let x := (column - region.x : Int).toNat
    let y := (row - region.y : Int).toNat
    match kind with
    | .leftDown =>
      match findLink l.regions x y with
      | some action => { l with pending := some action, dirty := true }
      | none => l
    | .moved =>
      let hover := findLink l.regions x y
      if hover ≠ l.hovered then { l with hovered := hover, dirty := true } else l
    | .other => l

/-- static_widget.rs:992-998 `clear_hover`. -/
def Links.clearHover (l : Links) : Links :=
  if l.hovered.isSome then { l with hovered := none, dirty := true } else l

/-- static_widget.rs:1035-1037 `take_pending_action`. -/
def Links.take (l : Links) : Option String × Links := (l.pending, { l with pending := none })

end Textual.Static
