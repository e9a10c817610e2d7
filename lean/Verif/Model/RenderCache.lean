import Verif.Model.Strip
import Verif.Model.Restyle

/-!
Model of `/repo/crates/textual/src/render_cache.rs`, `border_render.rs`, `border_box.rs` and
`border_chars.rs`: the lines of a widget with its border, padding, outline and labels.

Simplifications: a border character is a grapheme of one column and repeating it gives that many
graphemes; paddings are natural numbers (the casts of render_cache.rs:141-144 are not modelled).
-/

namespace Textual.RenderCache

open Strip (AlignH)

/-- tcss types/border.rs:39-77 `BorderKind`. -/
inductive Kind where
  | none | hidden | ascii | blank | block | dashed | double | heavy | hkey | inner | outer | panel
  | round | solid | tall | thick | vkey | wide
deriving DecidableEq, Repr

/-- The three by three grids of border_chars.rs (rows top, middle, bottom). -/
structure Grid3 (α : Type) where
  topLeft : α
  top : α
  topRight : α
  left : α
  mid : α
  right : α
  bottomLeft : α
  bottom : α
  bottomRight : α
deriving DecidableEq, Repr

/-- border_chars.rs:61-157 `BORDER_CHARS` under the names of render_cache.rs:737-758
`border_kind_to_str`. -/
def Kind.chars : Kind → Grid3 String
  | .none => ⟨" ", " ", " ", " ", " ", " ", " ", " ", " "⟩
  | .hidden => ⟨" ", " ", " ", " ", " ", " ", " ", " ", " "⟩
  | .blank => ⟨" ", " ", " ", " ", " ", " ", " ", " ", " "⟩
  | .round => ⟨"╭", "─", "╮", "│", " ", "│", "╰", "─", "╯"⟩
  | .solid => ⟨"┌", "─", "┐", "│", " ", "│", "└", "─", "┘"⟩
  | .double => ⟨"╔", "═", "╗", "║", " ", "║", "╚", "═", "╝"⟩
  | .heavy => ⟨"┏", "━", "┓", "┃", " ", "┃", "┗", "━", "┛"⟩
  | .ascii => ⟨"+", "-", "+", "|", " ", "|", "+", "-", "+"⟩
  | .dashed => ⟨"┏", "╍", "┓", "╏", " ", "╏", "┗", "╍", "┛"⟩
  | .thick => ⟨"█", "▀", "█", "█", " ", "█", "█", "▄", "█"⟩
  | .tall => ⟨"▊", "▔", "▎", "▊", " ", "▎", "▊", "▁", "▎"⟩
  | .panel => ⟨"▊", "█", "▎", "▊", " ", "▎", "▊", "▁", "▎"⟩
  | .wide => ⟨"▁", "▁", "▁", "▎", " ", "▊", "▔", "▔", "▔"⟩
  | .inner => ⟨"▗", "▄", "▖", "▐", " ", "▌", "▝", "▀", "▘"⟩
  | .outer => ⟨"▛", "▀", "▜", "▌", " ", "▐", "▙", "▄", "▟"⟩
  | .block => ⟨"▀", "▀", "▀", "█", " ", "█", "▄", "▄", "▄"⟩
  | .hkey => ⟨"▔", "▔", "▔", " ", " ", " ", "▁", "▁", "▁"⟩
  | .vkey => ⟨"▏", " ", "▕", "▏", " ", "▕", "▏", " ", "▕"⟩

/-- border_chars.rs:39-58 and 160-180 `BORDER_LOCATIONS`. -/
def Kind.zones : Kind → Grid3 Nat
  | .tall | .panel => ⟨2, 0, 1, 2, 0, 1, 2, 0, 1⟩
  | .wide => ⟨1, 1, 1, 0, 1, 3, 1, 1, 1⟩
  | .inner => ⟨1, 1, 1, 1, 1, 1, 1, 1, 1⟩
  | .block => ⟨1, 1, 1, 0, 0, 0, 1, 1, 1⟩
  | _ => ⟨0, 0, 0, 0, 0, 0, 0, 0, 0⟩

/-- border_box.rs:15 `BoxSegments`. -/
structure Row where
  left : Segment
  fill : Segment
  right : Segment
deriving DecidableEq, Repr

/-- border_box.rs:62 `[BoxSegments; 3]`: the three rows of a box. -/
structure Box where
  top : Row
  middle : Row
  bottom : Row
deriving DecidableEq, Repr

/-- border_box.rs:104-122 `get_style_for_zone`, render_cache.rs:774-792 `style_for_zone`. -/
def zoneStyle (zone : Nat) (inner outer : Style) : Style :=
  if zone = 0 then inner
  else if zone = 1 then outer
  else if zone = 2 then { inner with bg := outer.bg, reverse := true }
  else if zone = 3 then { outer with bg := inner.bg, reverse := true }
  else inner

/-- border_box.rs:137-141 `Segment::styled(char.to_string(), style)`. -/
def piece (c : String) (style : Style) : Segment := Segment.mk' [⟨c, 1⟩] (some style)

/-- border_box.rs:89-145 `generate_box`. -/
def generateBox (kind : Kind) (inner outer : Style) : Box :=
  let c := kind.chars
  let z := kind.zones
  { top := ⟨piece c.topLeft (zoneStyle z.topLeft inner outer), piece c.top (zoneStyle z.top inner outer),
      piece c.topRight (zoneStyle z.topRight inner outer)⟩
    middle := ⟨piece c.left (zoneStyle z.left inner outer), piece c.mid (zoneStyle z.mid inner outer),
      piece c.right (zoneStyle z.right inner outer)⟩
    bottom := ⟨piece c.bottomLeft (zoneStyle z.bottomLeft inner outer),
      piece c.bottom (zoneStyle z.bottom inner outer),
      piece c.bottomRight (zoneStyle z.bottomRight inner outer)⟩ }

/-- border_box.rs:25-39 `StyleKey`. -/
def styleKey (s : Style) : Option (Nat × Nat × Nat) × Option (Nat × Nat × Nat) :=
  (s.fg.map fun c => (c.r, c.g, c.b), s.bg.map fun c => (c.r, c.g, c.b))

/-- border_box.rs:18-23 `BoxCacheKey`. -/
abbrev Key := Kind × (Option (Nat × Nat × Nat) × Option (Nat × Nat × Nat)) ×
  (Option (Nat × Nat × Nat) × Option (Nat × Nat × Nat))

/-- border_box.rs:41-43 `BOX_CACHE`. -/
abbrev Boxes := List (Key × Box)

/-- border_box.rs:62-86 `get_box`. -/
def getBox (boxes : Boxes) (kind : Kind) (inner outer : Style) : Box × Boxes :=
  let key := (kind, styleKey inner, styleKey outer)
  match boxes.lookup key with
  | some b => (b, boxes)
  | none => (generateBox kind inner outer, (key, generateBox kind inner outer) :: boxes)

/-- render_cache.rs:760-844 `build_border_box_per_edge`; each edge is its inner and outer style. -/
def perEdgeBox (kind : Kind) (top bottom left right : Style × Style) : Box :=
  let c := kind.chars
  let z := kind.zones
  { top := ⟨piece c.topLeft (zoneStyle z.topLeft top.1 top.2), piece c.top (zoneStyle z.top top.1 top.2),
      piece c.topRight (zoneStyle z.topRight top.1 top.2)⟩
    middle := ⟨piece c.left (zoneStyle z.left left.1 left.2), piece c.mid (zoneStyle z.mid top.1 top.2),
      piece c.right (zoneStyle z.right right.1 right.2)⟩
    bottom := ⟨piece c.bottomLeft (zoneStyle z.bottomLeft bottom.1 bottom.2),
      piece c.bottom (zoneStyle z.bottom bottom.1 bottom.2),
      piece c.bottomRight (zoneStyle z.bottomRight bottom.1 bottom.2)⟩ }

/-- tcss types/border.rs:82-88 `BorderEdge`. -/
structure Edge where
  kind : Kind := .none
  color : Option RgbaColor := .none
deriving DecidableEq, Repr

/-- tcss types/border.rs:108-117 `Border`. -/
structure Border where
  top : Edge := {}
  right : Edge := {}
  bottom : Edge := {}
  left : Edge := {}
deriving DecidableEq, Repr

/-- The parts of `ComputedStyle` a widget's chrome depends on; `paddingTop` and so on are the
paddings in cells. See tcss/src/types/mod.rs:60. -/
structure Sheet where
  style : Restyle.Style := {}
  border : Border := {}
  outline : Border := {}
  paddingTop : Nat := 0
  paddingRight : Nat := 0
  paddingBottom : Nat := 0
  paddingLeft : Nat := 0
  titleAlign : AlignH := .left
  subtitleAlign : AlignH := .right

/-- render_cache.rs:56-65: a border takes a row at the top (or bottom). -/
def Kind.horizontal (k : Kind) : Bool := !(k == .none || k == .hidden) && !(k == .vkey)

/-- render_cache.rs:66-75: a border takes a column at the left (or right). -/
def Kind.vertical (k : Kind) : Bool := !(k == .none || k == .hidden) && !(k == .hkey)

/-- render_cache.rs:86-95 `resolve_edge_color`. -/
def edgeColor (s : Restyle.Style) (e : Edge) : Option RgbaColor :=
  let base := match e.color with | some c => some c | none => s.color
  match base, s.inheritedBackground with
  | some c, some bg => some (c.blendToward bg (s.opacity * s.opacity))
  | some c, none => some (c.withOpacity (s.opacity * s.opacity))
  | none, _ => none

/-- render_cache.rs:20-47 `RenderCache`. -/
structure Cache where
  box : Option Box
  top : Bool
  right : Bool
  bottom : Bool
  left : Bool
  paddingTop : Nat
  paddingRight : Nat
  paddingBottom : Nat
  paddingLeft : Nat
  outlineBox : Option Box
  topOutline : Bool
  rightOutline : Bool
  bottomOutline : Bool
  leftOutline : Bool
  titleAlign : AlignH
  subtitleAlign : AlignH
  padStyle : Option Style
deriving DecidableEq, Repr

/-- render_cache.rs:81-138: the border box. -/
def borderBox (boxes : Boxes) (s : Sheet) : Box × Boxes :=
  let bg := s.style.effectiveBackground
  let outer := s.style.inheritedBackground
  let edge (e : Edge) : Style × Style :=
    ({ fg := edgeColor s.style e, bg := bg }, { fg := edgeColor s.style e, bg := outer })
  let topColor := edgeColor s.style s.border.top
  if topColor = edgeColor s.style s.border.bottom ∧ topColor = edgeColor s.style s.border.left ∧
      topColor = edgeColor s.style s.border.right then
    getBox boxes s.border.top.kind (edge s.border.top).1 (edge s.border.top).2
  else
    (perEdgeBox s.border.top.kind (edge s.border.top) (edge s.border.bottom) (edge s.border.left)
      (edge s.border.right), boxes)

/-- render_cache.rs:171-200: the outline box. -/
def outlineBoxOf (boxes : Boxes) (s : Sheet) : Box × Boxes :=
  let color := match s.outline.top.color with | some c => some c | none => s.style.color
  getBox boxes s.outline.top.kind { fg := color, bg := s.style.effectiveBackground }
    { fg := color, bg := s.style.inheritedBackground }

/-- render_cache.rs:51-221 `RenderCache::new`, with `pad_style` (:634-639). -/
def Cache.new (boxes : Boxes) (s : Sheet) : Cache × Boxes :=
  let top := s.border.top.kind.horizontal
  let bottom := s.border.bottom.kind.horizontal
  let left := s.border.left.kind.vertical
  let right := s.border.right.kind.vertical
  let topO := s.outline.top.kind.horizontal
  let bottomO := s.outline.bottom.kind.horizontal
  let leftO := s.outline.left.kind.vertical
  let rightO := s.outline.right.kind.vertical
  let (box, boxes) := if top || right || bottom || left
    then (some (borderBox boxes s).1, (borderBox boxes s).2) else (none, boxes)
  let (outline, boxes) := if topO || rightO || bottomO || leftO
    then (some (outlineBoxOf boxes s).1, (outlineBoxOf boxes s).2) else (none, boxes)
  ({ box := box, top := top, right := right, bottom := bottom, left := left
     paddingTop := s.paddingTop, paddingRight := s.paddingRight, paddingBottom := s.paddingBottom
     paddingLeft := s.paddingLeft, outlineBox := outline, topOutline := topO, rightOutline := rightO
     bottomOutline := bottomO, leftOutline := leftO, titleAlign := s.titleAlign
     subtitleAlign := s.subtitleAlign
     padStyle := s.style.effectiveBackground.map fun bg => { bg := some bg } }, boxes)

/-- render_cache.rs:229-246 `if self.has_left_border { 1 } else { 0 }`. -/
def one (b : Bool) : Nat := if b then 1 else 0

/-- render_cache.rs:262-276 `inner_size`. -/
def Cache.innerSize (c : Cache) (width height : Nat) : Nat × Nat :=
  let w := width - (one c.left + one c.right)
  let h := height - (one c.top + one c.bottom)
  (w - (c.paddingLeft + c.paddingRight), h - (c.paddingTop + c.paddingBottom))

/-- border_render.rs:192-193, render_cache.rs:464, 550: the first character of the fill segment,
repeated. -/
def repeatFill (fill : Segment) (default : String) (n : Nat) : List Grapheme :=
  List.replicate n (fill.text.head?.getD ⟨default, 1⟩)

/-- border_render.rs:203-215 `repeat_char_segment`. -/
def repeatCharSegment (fill : Segment) (n : Nat) : Segment :=
  if n = 0 then Segment.mk' [] none else Segment.mk' (repeatFill fill " " n) fill.style

/-- border_render.rs:187-200 `repeat_segment`. -/
def repeatSegment (fill : Segment) (n : Nat) : Strip :=
  if n = 0 then Strip.new else Strip.ofSegments [Segment.mk' (repeatFill fill " " n) fill.style]

/-- border_render.rs:118 the ellipsis. -/
def ellipsis : Grapheme := ⟨"…", 1⟩

/-- border_render.rs:137-153, render_cache.rs:512-525: the fill before and after a label that fits. -/
def sides (align : AlignH) (total : Nat) : Nat × Nat :=
  match align with
  | .left => (1, total - 1)
  | .center => (total / 2, total - total / 2)
  | .right => (total - 1, 1)

/-- border_render.rs:82-184 `render_label_in_row`. -/
def renderLabel (label : Strip) (fill : Segment) (width : Nat) (align : AlignH) : Strip :=
  let labelLen := label.cellLength + 2
  let available := width - 2
  let labelStyle := label.segments.head?.bind (·.style)
  if labelLen > available then
    let cropped := label.crop 0 (available - 3)
    let ellipsisStyle := cropped.segments.getLast?.bind (·.style)
    let used := 1 + 1 + cropped.cellLength + 1 + 1
    let remaining := width - used
    Strip.ofSegments ([repeatCharSegment fill 1, Segment.mk' [Grapheme.space] labelStyle] ++
      cropped.segments ++ [Segment.mk' [ellipsis] ellipsisStyle, Segment.mk' [Grapheme.space] labelStyle] ++
      (if remaining > 0 then [repeatCharSegment fill remaining] else []))
  else
    let p := sides align (width - labelLen)
    Strip.ofSegments ((if p.1 > 0 then [repeatCharSegment fill p.1] else []) ++
      [Segment.mk' [Grapheme.space] labelStyle] ++ label.segments ++
      [Segment.mk' [Grapheme.space] labelStyle] ++
      (if p.2 > 0 then [repeatCharSegment fill p.2] else []))

/-- border_render.rs:34-78 `render_row`. -/
def renderRow (row : Row) (width : Nat) (title subtitle : Option Strip) (titleAlign subtitleAlign : AlignH) :
    Strip :=
  if width ≤ 2 then
    if width = 2 then Strip.ofSegments [row.left, row.right]
    else if width = 1 then Strip.ofSegments [row.left]
    else Strip.new
  else
    let middle := match title with
      | some t => renderLabel t row.fill (width - 2) titleAlign
      | none => match subtitle with
        | some t => renderLabel t row.fill (width - 2) subtitleAlign
        | none => repeatSegment row.fill (width - 2)
    Strip.ofSegments (row.left :: middle.segments ++ [row.right])

/-- render_cache.rs:426-429, 585-588: the content cut or padded to its width. -/
def fitLine (content : Option Strip) (width : Nat) (padStyle : Option Style) : Strip :=
  match content with
  | some s => s.adjustCellLength width padStyle
  | none => Strip.blank width padStyle

/-- render_cache.rs:424-451 `render_content_row`. -/
def Cache.contentRow (c : Cache) (width : Nat) (content : Option Strip) : Strip :=
  let contentWidth := width - (c.paddingLeft + c.paddingRight)
  let strip := fitLine content contentWidth c.padStyle
  if c.paddingLeft = 0 ∧ c.paddingRight = 0 then strip
  else Strip.ofSegments ((if c.paddingLeft > 0 then [Segment.blank c.paddingLeft c.padStyle] else []) ++
    strip.segments ++ (if c.paddingRight > 0 then [Segment.blank c.paddingRight c.padStyle] else []))

/-- `Segment::styled(fill_char repeated, fill_style.unwrap_or_default())` of render_cache.rs:480-486. -/
def fillSegment (fill : Segment) (n : Nat) : Segment :=
  Segment.mk' (repeatFill fill "─" n) (some (fill.style.getD {}))

/-- render_cache.rs:454-553 `render_horizontal_border_row`. -/
def horizontalRow (row : Row) (width : Nat) (label : Option Strip) (align : AlignH) : Strip :=
  match label with
  | none => Strip.ofSegments [fillSegment row.fill width]
  | some label =>
    let available := width - 2
    if label.cellLength > available then
      let cropped := label.crop 0 (available - 1)
      let ellipsisStyle := (cropped.segments.getLast?.bind (·.style)).getD {}
      let used := 1 + cropped.cellLength + 1
      let remaining := width - used
      Strip.ofSegments ([fillSegment row.fill 1] ++ cropped.segments ++
        [Segment.mk' [ellipsis] (some ellipsisStyle)] ++
        (if remaining > 0 then [fillSegment row.fill remaining] else []))
    else
      let p := sides align (width - label.cellLength)
      Strip.ofSegments ((if p.1 > 0 then [fillSegment row.fill p.1] else []) ++ label.segments ++
        (if p.2 > 0 then [fillSegment row.fill p.2] else []))

/-- render_cache.rs:556-602 `render_partial_middle_row`. -/
def Cache.middleRow (c : Cache) (row : Row) (content : Option Strip) (width : Nat) : Strip :=
  let innerWidth := width - (one c.left + one c.right)
  let contentWidth := innerWidth - (c.paddingLeft + c.paddingRight)
  let strip := fitLine content contentWidth c.padStyle
  Strip.ofSegments ((if c.left then [row.left] else []) ++
    (if c.paddingLeft > 0 then [Segment.blank c.paddingLeft c.padStyle] else []) ++ strip.segments ++
    (if c.paddingRight > 0 then [Segment.blank c.paddingRight c.padStyle] else []) ++
    (if c.right then [row.right] else []))

/-- render_cache.rs:605-631 `render_labeled_middle_row`. -/
def Cache.labeledRow (c : Cache) (row : Row) (width : Nat) (label : Strip) (align : AlignH) : Strip :=
  let innerWidth := width - (one c.left + one c.right)
  Strip.ofSegments ((if c.left then [row.left] else []) ++
    (renderLabel label row.fill innerWidth align).segments ++ (if c.right then [row.right] else []))

/-- render_cache.rs:657-681 and 682-706: the top or bottom row of an outline. -/
def Cache.outlineEdge (c : Cache) (row : Row) (width : Nat) : Strip :=
  let innerWidth := width - one c.leftOutline - one c.rightOutline
  Strip.ofSegments ((if c.leftOutline then [row.left] else []) ++
    (if innerWidth > 0 then [fillSegment row.fill innerWidth] else []) ++
    (if c.rightOutline then [row.right] else []))

/-- render_cache.rs:645-733 `apply_outline`. -/
def Cache.applyOutline (c : Cache) (strip : Strip) (y height width : Nat) : Strip :=
  match c.outlineBox with
  | none => strip
  | some box =>
    if width = 0 ∨ height = 0 then strip
    else if y = 0 ∧ c.topOutline then c.outlineEdge box.top width
    else if y = height - 1 ∧ c.bottomOutline then c.outlineEdge box.bottom width
    else if c.leftOutline || c.rightOutline then
      let innerWidth := width - (one c.leftOutline + one c.rightOutline)
      let content := strip.crop (one c.leftOutline) (one c.leftOutline + innerWidth)
      let adjusted := content.adjustCellLength innerWidth c.padStyle
      Strip.ofSegments ((if c.leftOutline then [box.middle.left] else []) ++ adjusted.segments ++
        (if c.rightOutline then [box.middle.right] else []))
    else strip

/-- render_cache.rs:312-421 `render_line`. -/
def Cache.renderLine (c : Cache) (y height width : Nat) (content title subtitle : Option Strip) : Strip :=
  if width = 0 ∨ height = 0 then Strip.new
  else match c.box with
    | none => c.applyOutline (c.contentRow width content) y height width
    | some box =>
      if y = 0 ∧ c.top then
        c.applyOutline (if c.left && c.right then renderRow box.top width title none c.titleAlign c.subtitleAlign
          else horizontalRow box.top width title c.titleAlign) y height width
      else if y = height - 1 ∧ c.bottom then
        c.applyOutline (if c.left && c.right
          then renderRow box.bottom width none subtitle c.titleAlign c.subtitleAlign
          else horizontalRow box.bottom width subtitle c.subtitleAlign) y height width
      else if y ≥ one c.top ∧ y < height - one c.bottom then
        if c.left || c.right then
          match (if !c.top && y == one c.top then title else none) with
          | some t => c.labeledRow box.middle width t c.titleAlign
          | none =>
            match (if !c.bottom && y + 1 == height - one c.bottom then subtitle else none) with
            | some t => c.labeledRow box.middle width t c.subtitleAlign
            | none => c.applyOutline (c.middleRow box.middle content width) y height width
        else c.applyOutline (c.contentRow width content) y height width
      else c.applyOutline (Strip.blank width c.padStyle) y height width

end Textual.RenderCache
