import Verif.Model.Canvas

/-!
Model of `/repo/crates/textual/src/segment.rs` and `strip.rs`. A text is a list of graphemes with
their widths. Simplifications: the display width of a text is the sum of the widths of its graphemes,
and concatenating texts does not merge graphemes at the seam.
-/

namespace Textual

/-- segment.rs:22-40 `Style`. -/
structure Style where
  fg : Option RgbaColor := none
  bg : Option RgbaColor := none
  bold : Bool := false
  dim : Bool := false
  italic : Bool := false
  underline : Bool := false
  strike : Bool := false
  reverse : Bool := false
deriving DecidableEq, Repr

namespace Style

/-- segment.rs:69-78 `is_empty`. -/
def isEmpty (s : Style) : Bool :=
  s.fg.isNone && s.bg.isNone && !s.bold && !s.dim && !s.italic && !s.underline && !s.strike && !s.reverse

/-- segment.rs:84-95 `apply`. -/
def apply (self other : Style) : Style where
  fg := other.fg.or self.fg
  bg := other.bg.or self.bg
  bold := self.bold || other.bold
  dim := self.dim || other.dim
  italic := self.italic || other.italic
  underline := self.underline || other.underline
  strike := self.strike || other.strike
  reverse := self.reverse || other.reverse

end Style

/-- Metadata of a segment (`HashMap<String, String>`). See segment.rs:126. -/
abbrev Meta := List (String × String)

/-- segment.rs:117-127 `Segment`. -/
structure Segment where
  text : List Grapheme
  cellLength : Nat
  style : Option Style
  info : Meta
deriving DecidableEq, Repr

/-- `display_width` of a text. Used at segment.rs:133, 145. -/
def widthOf (s : List Grapheme) : Nat := (s.map (·.width)).sum

/-- A blank column. -/
def Grapheme.space : Grapheme := ⟨" ", 1⟩

namespace Segment

/-- segment.rs:131-140 `new`, 143-152 `styled`. -/
def mk' (text : List Grapheme) (style : Option Style) : Segment := ⟨text, widthOf text, style, []⟩

/-- segment.rs:155-162 `blank`. -/
def blank (width : Nat) (style : Option Style) : Segment :=
  ⟨List.replicate width Grapheme.space, width, style, []⟩

/-- segment.rs:264-273: the loop looking for the cut. -/
def splitLoop (cut : Nat) : Nat → List Grapheme → List Grapheme × List Grapheme × Nat
  | pos, [] => ([], [], pos)
  | pos, g :: gs =>
    if pos ≥ cut then ([], g :: gs, pos)
    else
      let (l, r, p) := splitLoop cut (pos + g.width) gs
      (g :: l, r, p)

/-- segment.rs:238-292 `split_at`. -/
def splitAt (s : Segment) (cut : Nat) : Segment × Segment :=
  if cut = 0 then ({ s with text := [], cellLength := 0 }, s)
  else if cut ≥ s.cellLength then (s, { s with text := [], cellLength := 0 })
  else
    let (l, r, p) := splitLoop cut 0 s.text
    ({ s with text := l, cellLength := p }, { s with text := r, cellLength := s.cellLength - p })

/-- segment.rs:298-310 `apply_style`. -/
def applyStyle (s : Segment) (style : Style) : Segment :=
  { s with style := some (match s.style with
      | some current => current.apply style
      | none => style) }

/-- segment.rs:328-351 `apply_tint`. -/
def applyTint (s : Segment) (tint : RgbaColor) : Segment :=
  if tint.a = 0 then s
  else { s with style := s.style.map fun st =>
      { st with fg := st.fg.map (·.tint tint), bg := st.bg.map (·.tint tint) } }

end Segment

/-- strip.rs:34-42 `Strip`. -/
structure Strip where
  segments : List Segment
  cellLength : Nat
deriving DecidableEq, Repr

namespace Strip

/-- strip.rs:46-51 `new`. -/
def new : Strip := ⟨[], 0⟩

/-- strip.rs:54-60 `from_segments`, 71-77 `from_smallvec`. -/
def ofSegments (segs : List Segment) : Strip := ⟨segs, (segs.map (·.cellLength)).sum⟩

/-- strip.rs:89-94 `blank`. -/
def blank (width : Nat) (style : Option Style) : Strip :=
  if width = 0 then new else ofSegments [Segment.blank width style]

/-- strip.rs:189-222: what one segment of length `seg_len` at `pos` contributes to `crop`. -/
def cropSegment (seg : Segment) (pos start stop : Nat) : List Segment :=
  let localStart := start - pos
  let localEnd := min (stop - pos) seg.cellLength
  if localStart = 0 ∧ localEnd = seg.cellLength then [seg]
  else if localStart = 0 then
    let left := (seg.splitAt localEnd).1
    if left.text.isEmpty then [] else [left]
  else if localEnd = seg.cellLength then
    let right := (seg.splitAt localStart).2
    if right.text.isEmpty then [] else [right]
  else
    let temp := (seg.splitAt localStart).2
    let middle := (temp.splitAt (localEnd - localStart)).1
    if middle.text.isEmpty then [] else [middle]

/-- strip.rs:181-225: the loop of `crop`. -/
def cropLoop (start stop : Nat) : Nat → List Segment → List Segment
  | _, [] => []
  | pos, seg :: rest =>
    let segEnd := pos + seg.cellLength
    if segEnd ≤ start then cropLoop start stop segEnd rest
    else if pos ≥ stop then []
    else cropSegment seg pos start stop ++ cropLoop start stop segEnd rest

/-- strip.rs:172-228 `crop`. -/
def crop (s : Strip) (start stop : Nat) : Strip :=
  if start ≥ stop ∨ start ≥ s.cellLength then new
  else ofSegments (cropLoop start (min stop s.cellLength) 0 s.segments)

/-- strip.rs:238-250: the loop of `divide`. -/
def divideLoop (s : Strip) : Nat → List Nat → List Strip
  | last, [] => if last < s.cellLength then [s.crop last s.cellLength] else []
  | last, cut :: cuts =>
    if cut > last ∧ cut ≤ s.cellLength then s.crop last cut :: divideLoop s cut cuts
    else divideLoop s last cuts

/-- strip.rs:233-254 `divide`. -/
def divide (s : Strip) (cuts : List Nat) : List Strip :=
  if cuts.isEmpty then [s] else divideLoop s 0 cuts

/-- strip.rs:259-262 `apply_style`. -/
def applyStyle (s : Strip) (style : Style) : Strip := ofSegments (s.segments.map (·.applyStyle style))

/-- strip.rs:448-463 `apply_tint`. -/
def applyTint (s : Strip) (tint : RgbaColor) : Strip :=
  if tint.a = 0 then s else ofSegments (s.segments.map (·.applyTint tint))

/-- strip.rs:288-293, 299-304: emit the collected text unless empty. -/
def emit (text : List Grapheme) (style : Option Style) : List Segment :=
  if text.isEmpty then [] else [Segment.mk' text style]

/-- strip.rs:277-304: the loop of `simplify` after the first segment. -/
def simplifyLoop (text : List Grapheme) (style : Option Style) : List Segment → List Segment
  | [] => emit text style
  | seg :: rest =>
    if seg.style = style then simplifyLoop (text ++ seg.text) style rest
    else emit text style ++ simplifyLoop seg.text seg.style rest

/-- strip.rs:267-307 `simplify`. -/
def simplify (s : Strip) : Strip :=
  match s.segments with
  | [] => s
  | [_] => s
  | seg :: rest => ofSegments (simplifyLoop seg.text seg.style rest)

/-- strip.rs:310-316 `join`. -/
def join (strips : List Strip) : Strip := ofSegments (strips.flatMap (·.segments))

/-- strip.rs:322-333 `adjust_cell_length`. -/
def adjustCellLength (s : Strip) (length : Nat) (padStyle : Option Style) : Strip :=
  if s.cellLength = length then s
  else if s.cellLength > length then s.crop 0 length
  else ofSegments (s.segments ++ [Segment.blank (length - s.cellLength) padStyle])

/-- tcss `AlignHorizontal`. See tcss/src/types/text.rs:212. -/
inductive AlignH where
  | left | center | right
deriving DecidableEq, Repr

/-- strip.rs:339-382 `text_align`. -/
def textAlign (s : Strip) (align : AlignH) (width : Nat) (padStyle : Option Style) : Strip :=
  if s.cellLength ≥ width then s.crop 0 width
  else
    let gap := width - s.cellLength
    match align with
    | .left => ofSegments (s.segments ++ [Segment.blank gap padStyle])
    | .right => ofSegments (Segment.blank gap padStyle :: s.segments)
    | .center =>
      let leftPad := gap / 2
      let rightPad := gap - leftPad
      ofSegments ((if leftPad > 0 then [Segment.blank leftPad padStyle] else []) ++ s.segments ++
        (if rightPad > 0 then [Segment.blank rightPad padStyle] else []))

/-- strip.rs:391-395: number of spaces (a space character is a grapheme of its own). -/
def gapCount (segs : List Segment) : Nat :=
  (segs.map fun seg => seg.text.countP (·.text == " ")).sum

/-- strip.rs:402-406: distribution of the extra spaces, from the last gap backwards. -/
def extraPerGap (extra gaps : Nat) : List Nat :=
  (List.range extra).foldl (fun v i => v.modify (gaps - 1 - i % gaps) (· + 1)) (List.replicate gaps 0)

/-- strip.rs:478-489 `build_segment`. -/
def buildSegment (text : List Grapheme) (style : Option Style) (info : Meta) : Segment :=
  { Segment.mk' text style with info := info }

/-- strip.rs:412-434: one segment of `justify`; `gi` is the index of the next gap. -/
def justifySegment (extras : List Nat) (style : Option Style) (info : Meta) :
    Nat → List Grapheme → List Grapheme → List Segment × Nat
  | gi, buffer, [] => (if buffer.isEmpty then [] else [buildSegment buffer style info], gi)
  | gi, buffer, g :: gs =>
    if g.text == " " then
      let pre := if buffer.isEmpty then [] else [buildSegment buffer style info]
      let spaces := List.replicate (1 + extras[gi]?.getD 0) Grapheme.space
      let (rest, gi') := justifySegment extras style info (gi + 1) [] gs
      (pre ++ buildSegment spaces style info :: rest, gi')
    else justifySegment extras style info gi (buffer ++ [g]) gs

/-- strip.rs:411-435: the segment loop of `justify`. -/
def justifyLoop (extras : List Nat) : Nat → List Segment → List Segment
  | _, [] => []
  | gi, seg :: rest =>
    let (out, gi') := justifySegment extras seg.style seg.info gi [] seg.text
    out ++ justifyLoop extras gi' rest

/-- strip.rs:385-438 `justify`. -/
def justify (s : Strip) (width : Nat) (padStyle : Option Style) : Strip :=
  if s.cellLength ≥ width then s.crop 0 width
  else if gapCount s.segments = 0 then s.textAlign .left width padStyle
  else
    ofSegments (justifyLoop (extraPerGap (width - s.cellLength) (gapCount s.segments)) 0 s.segments)

end Strip
end Textual
