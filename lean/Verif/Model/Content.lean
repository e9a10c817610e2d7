import Verif.Model.Strip
import Verif.Model.Cascade

/-!
# Content: lines, styled spans and wrapping

`crates/textual/src/content.rs`. A text is a list of graphemes with widths, as in `Model/Strip.lean`.
Span offsets are byte offsets. Slicing a text at an offset that is not between two graphemes is
`none` (the code panics only if it is not between two characters). Word positions inside one line
are counted in graphemes instead of bytes. White space is a parameter. A newline is a grapheme of its own
(a text with `\r\n`, which is one grapheme, is outside the model).
-/

namespace Textual.Content

/-- Bytes of one grapheme. Used by `len`, content.rs:249, 293. -/
def gbytes (g : Grapheme) : Nat := (g.text.toList.map Char.utf8Size).sum

/-- `str::len`. Used at content.rs:249, 293. -/
def blen (t : List Grapheme) : Nat := (t.map gbytes).sum

/-- content.rs:36-46 `InternalSpan`. -/
structure Span where
  start : Nat
  stop : Nat
  style : Style
  info : Meta
deriving DecidableEq, Repr

/-- tcss types/link.rs:13-27 `LinkStyle`. -/
structure LinkStyle where
  color : Option RgbaColor := none
  background : Option RgbaColor := none
  colorHover : Option RgbaColor := none
  backgroundHover : Option RgbaColor := none
  style : Css.TextStyle := {}
  styleHover : Css.TextStyle := {}
deriving DecidableEq, Repr

/-- content.rs:55-67 `Content`. -/
structure Content where
  text : List Grapheme
  style : Option Style := none
  spans : Option (List Span) := none
  linkStyle : Option LinkStyle := none
  hovered : Option String := none
deriving DecidableEq, Repr

/-- `self.text.split('\n')` (content.rs:209-212, 504). -/
def splitLines : List Grapheme → List (List Grapheme)
  | [] => [[]]
  | g :: gs =>
    if g.text = "\n" then [] :: splitLines gs
    else
      match splitLines gs with
      | [] => [[g]]
      | l :: ls => (g :: l) :: ls

/-- content.rs:192-194 `height`. -/
def Content.height (c : Content) : Nat := max (splitLines c.text).length 1

/-! ### Links -/

/-- content.rs:369-384: the merged text style of a hovered link. -/
def mergeHover (a b : Css.TextStyle) : Css.TextStyle where
  bold := a.bold || b.bold
  dim := a.dim || b.dim
  italic := a.italic || b.italic
  underline := a.underline || b.underline
  underline2 := a.underline2 || b.underline2
  blink := a.blink || b.blink
  blink2 := a.blink2 || b.blink2
  reverse := a.reverse || b.reverse
  strike := a.strike || b.strike
  overline := a.overline || b.overline
  themeVar := none

/-- content.rs:391-399: link background over the base background. -/
def linkBackground (linkBg base : Option RgbaColor) : Option RgbaColor :=
  match linkBg, base with
  | some l, some b => if l.a < 1 then some (l.blendOver b) else some l
  | some l, none => some l
  | none, b => b

/-- content.rs:405-438: link colour. -/
def linkForeground (linkColor bg : Option RgbaColor) (base : Style) : Option RgbaColor :=
  match linkColor with
  | some color =>
    if color.auto then
      match bg with
      | some b => some (b.getContrastingColor color.a)
      | none =>
        match base.bg with
        | some b => some (b.getContrastingColor color.a)
        | none => base.fg
    else if color.a < 1 then
      match bg with
      | some b => some (color.blendOver b)
      | none =>
        match base.bg with
        | some b => some (color.blendOver b)
        | none => some color
    else some color
  | none =>
    match bg with
    | some b => some (b.getContrastingColor (87 / 100))
    | none => base.fg

/-- content.rs:344-461 `apply_link_style`. -/
def applyLinkStyle (base : Style) (link : LinkStyle) (isHovered : Bool) : Style :=
  let linkBg := if isHovered then link.backgroundHover.or link.background else link.background
  let linkColor := if isHovered then link.colorHover.or link.color else link.color
  let text := if isHovered then mergeHover link.style link.styleHover else link.style
  let bg := linkBackground linkBg base.bg
  { fg := linkForeground linkColor bg base
    bg := bg
    bold := base.bold || text.bold
    dim := base.dim || text.dim
    italic := base.italic || text.italic
    underline := if isHovered then text.underline else true
    strike := base.strike || text.strike
    reverse := base.reverse || text.reverse }

/-! ### Lines with spans -/

/-- content.rs:294: the span covers the position. -/
def Span.covers (s : Span) (pos : Nat) : Bool := decide (s.start ≤ pos) && decide (pos < s.stop)

/-- `HashMap::extend`: the first entry for a key counts. Used at content.rs:302. -/
def extendMeta (old new : Meta) : Meta := new ++ old

/-- content.rs:290-298: style of the spans at a position. -/
def spanStyle (base : Style) (spans : List Span) (pos : Nat) : Style :=
  spans.foldl (fun acc s => if s.covers pos then acc.apply s.style else acc) base

/-- content.rs:291-298: metadata at a position. -/
def spanMeta (spans : List Span) (pos : Nat) : Meta :=
  spans.foldl (fun acc s => if s.covers pos then extendMeta acc s.info else acc) []

/-- content.rs:302-309: add the link style when there is a click action. -/
def Content.withLink (c : Content) (style : Style) (info : Meta) : Style :=
  match info.lookup "@click", c.linkStyle with
  | some action, some link => applyLinkStyle style link (c.hovered == some action)
  | _, _ => style

/-- content.rs:312-320: end of the segment that starts at `pos` (relative to the line). -/
def nextChange (spans : List Span) (lineStart absPos lineLen : Nat) : Nat :=
  spans.foldl (fun next s =>
    let next := if s.start > absPos ∧ s.start - lineStart < next then s.start - lineStart else next
    if s.stop > absPos ∧ s.stop - lineStart < next then s.stop - lineStart else next) lineLen

/-- Split a text after `n` bytes. -/
def splitBytes : Nat → List Grapheme → Option (List Grapheme × List Grapheme)
  | 0, t => some ([], t)
  | _ + 1, [] => none
  | n + 1, g :: gs =>
    if gbytes g ≤ n + 1 then (splitBytes (n + 1 - gbytes g) gs).map fun (a, r) => (g :: a, r)
    else none
termination_by _ t => t.length

/-- content.rs:327-338: the segment for a range (nothing for an empty text). -/
def mkSegment (text : List Grapheme) (style : Style) (info : Meta) : List Segment :=
  if text.isEmpty then []
  else [{ Segment.mk' text (if style.isEmpty then none else some style) with info := info }]

/-- content.rs:286-341: the loop over the segments of a line. `rest` is the line from byte `pos` on. -/
def Content.renderFrom (c : Content) (spans : List Span) (lineStart lineLen : Nat) :
    Nat → Nat → List Grapheme → Option (List Segment)
  | 0, pos, _ => if lineLen ≤ pos then some [] else none
  | fuel + 1, pos, rest =>
    if lineLen ≤ pos then some []
    else
      let absPos := lineStart + pos
      let info := spanMeta spans absPos
      let style := c.withLink (spanStyle (c.style.getD {}) spans absPos) info
      let stop := min (nextChange spans lineStart absPos lineLen) lineLen
      match splitBytes (stop - pos) rest with
      | none => none
      | some (a, rest') =>
        (c.renderFrom spans lineStart lineLen fuel stop rest').map fun segs =>
          mkSegment a style info ++ segs

/-- The strip of one line in the uniform style (content.rs:231-238, 273-278, 519-525). -/
def Content.plainStrip (c : Content) (line : List Grapheme) : Strip :=
  Strip.ofSegments [Segment.mk' line c.style]

/-- content.rs:256-342 `render_line_with_spans` (`line_end` is `line_start + line.len()` in every call). -/
def Content.renderLine (c : Content) (spans : List Span) (lineStart : Nat) (line : List Grapheme) :
    Option Strip :=
  if line.isEmpty then some Strip.new
  else
    let relevant := spans.filter fun s => decide (s.start < lineStart + blen line) && decide (lineStart < s.stop)
    if relevant.isEmpty then some (c.plainStrip line)
    else (c.renderFrom relevant lineStart (blen line) line.length 0 line).map Strip.ofSegments

/-- content.rs:242-253 `lines_with_spans`, the loop. -/
def Content.linesFrom (c : Content) (spans : List Span) : Nat → List (List Grapheme) → Option (List Strip)
  | _, [] => some []
  | start, line :: rest =>
    match c.renderLine spans start line with
    | none => none
    | some s => (c.linesFrom spans (start + blen line + 1) rest).map (s :: ·)

/-- content.rs:221-240 `lines`. -/
def Content.lines (c : Content) : Option (List Strip) :=
  if c.text.isEmpty then some [Strip.new]
  else
    match c.spans with
    | some spans => c.linesFrom spans 0 (splitLines c.text)
    | none => some ((splitLines c.text).map c.plainStrip)

/-! ### Word wrapping -/

/-- `str::split_whitespace`: `cur` is the word being read. Used at content.rs:664, 750. -/
def wordsLoop (ws : Grapheme → Bool) (cur : List Grapheme) : List Grapheme → List (List Grapheme)
  | [] => if cur.isEmpty then [] else [cur]
  | g :: gs =>
    if ws g then (if cur.isEmpty then [] else [cur]) ++ wordsLoop ws [] gs
    else wordsLoop ws (cur ++ [g]) gs

/-- `str::split_whitespace`. Used at content.rs:664, 750. -/
def words (ws : Grapheme → Bool) (line : List Grapheme) : List (List Grapheme) := wordsLoop ws [] line

/-- content.rs:795-831 `break_word`: `cur`, `curW` is the piece being filled. -/
def breakLoop (width : Nat) (cur : List Grapheme) (curW : Nat) : List Grapheme → List (List Grapheme)
  | [] => if cur.isEmpty then [] else [cur]
  | g :: gs =>
    if curW + g.width ≤ width then breakLoop width (cur ++ [g]) (curW + g.width) gs
    else (if cur.isEmpty then [] else [cur]) ++ breakLoop width [g] g.width gs

/-- content.rs:795-831 `break_word`. -/
def breakWord (width : Nat) (word : List Grapheme) : List (List Grapheme) := breakLoop width [] 0 word

/-- content.rs:744-790: the word loop of `wrap_line` and the final line, as texts. -/
def wrapWords (width : Nat) (cur : List Grapheme) (curW : Nat) : List (List Grapheme) → List (List Grapheme)
  | [] => if cur.isEmpty then [] else [cur]
  | word :: rest =>
    let wordW := widthOf word
    if curW = 0 then
      if wordW ≤ width then wrapWords width word wordW rest
      else breakWord width word ++ wrapWords width cur curW rest
    else if curW + 1 + wordW ≤ width then
      wrapWords width (cur ++ Grapheme.space :: word) (curW + 1 + wordW) rest
    else
      cur :: (if wordW ≤ width then wrapWords width word wordW rest
        else breakWord width word ++ wrapWords width [] 0 rest)

/-- content.rs:738-792 `wrap_line`. -/
def Content.wrapLine (c : Content) (ws : Grapheme → Bool) (width : Nat) (line : List Grapheme) : List Strip :=
  (wrapWords width [] 0 (words ws line)).map c.plainStrip

/-- `str::find` of a word. Used at content.rs:670. -/
def findAt (word : List Grapheme) : List Grapheme → Option Nat
  | [] => if word.isEmpty then some 0 else none
  | g :: gs => if word.isPrefixOf (g :: gs) then some 0 else (findAt word gs).map (· + 1)

/-- content.rs:661-668: start and end of each word. -/
def positions (line : List Grapheme) : Nat → List (List Grapheme) → List (Nat × Nat)
  | _, [] => []
  | from_, word :: rest =>
    match findAt word (line.drop from_) with
    | some p => (from_ + p, from_ + p + word.length) :: positions line (from_ + p + word.length) rest
    | none => positions line from_ rest

/-- content.rs:673-733: the word loop of `wrap_line_with_spans`. The result lists the ranges
`[start, end)` of the line that are rendered, one per output line; `none` is the panic of an index
out of range. `i` is the index of the head of the word list. -/
def spanLoop (lineLen width : Nat) (pos : List (Nat × Nat)) (segStart curW : Nat) :
    Nat → List (List Grapheme) → Option (List (Nat × Nat))
  | i, [] =>
    if 0 < curW ∧ 0 < i then
      let stop := match pos.getLast? with
        | some p => p.2
        | none => lineLen
      if segStart < stop then some [(segStart, stop)] else some []
    else some []
  | i, word :: rest =>
    let wordW := widthOf word
    if curW = 0 then
      if wordW ≤ width then spanLoop lineLen width pos segStart wordW (i + 1) rest
      else
        match pos[i]? with
        | none => none
        | some p =>
          let next := match pos[i + 1]? with
            | some q => q.1
            | none => lineLen
          (spanLoop lineLen width pos next 0 (i + 1) rest).map (p :: ·)
    else if curW + (1 + wordW) ≤ width then
      spanLoop lineLen width pos segStart (curW + (1 + wordW)) (i + 1) rest
    else
      match (if 0 < i then pos[i - 1]?.map (·.2) else some 0), pos[i]? with
      | some stop, some p =>
        -- the next iteration starts with `current_width == 0` at the same word
        if wordW ≤ width then
          (spanLoop lineLen width pos p.1 wordW (i + 1) rest).map ((segStart, stop) :: ·)
        else
          let next := match pos[i + 1]? with
            | some q => q.1
            | none => lineLen
          (spanLoop lineLen width pos next 0 (i + 1) rest).map fun r => (segStart, stop) :: p :: r
      | _, _ => none

/-- Render the given ranges of a line (content.rs:690-696, 714-719, 726-731). A range whose start is
after its end is the panic of `&line[a..b]`. -/
def Content.renderRanges (c : Content) (spans : List Span) (lineStart : Nat) (line : List Grapheme) :
    List (Nat × Nat) → Option (List Strip)
  | [] => some []
  | (a, b) :: rest =>
    if b < a ∨ line.length < b then none
    else
      match c.renderLine spans (lineStart + blen (line.take a)) ((line.take b).drop a) with
      | none => none
      | some s => (c.renderRanges spans lineStart line rest).map (s :: ·)

/-- content.rs:648-735 `wrap_line_with_spans`. -/
def Content.wrapLineSpans (c : Content) (ws : Grapheme → Bool) (width : Nat) (spans : List Span)
    (lineStart : Nat) (line : List Grapheme) : Option (List Strip) :=
  match spanLoop line.length width (positions line 0 (words ws line)) 0 0 0 (words ws line) with
  | none => none
  | some ranges => c.renderRanges spans lineStart line ranges

/-- content.rs:834-849 `split_strip_by_width`, the loop (`width > 0`). -/
def splitLoop (s : Strip) (width : Nat) (start : Nat) : List Strip :=
  if h : start < s.cellLength ∧ 0 < width then
    s.crop start (min (start + width) s.cellLength) ::
      splitLoop s width (min (start + width) s.cellLength)
  else []
termination_by s.cellLength - start

/-- content.rs:834-849 `split_strip_by_width`. -/
def splitByWidth (s : Strip) (width : Nat) : List Strip :=
  if width = 0 then [Strip.new]
  else if s.cellLength = 0 then [Strip.new]
  else splitLoop s width 0

/-- The ellipsis. See content.rs:867-880. -/
def ellipsis : Grapheme := ⟨"…", 1⟩

/-- `segments().last().and_then(style)`. See content.rs:864, 876. -/
def lastStyle (s : Strip) : Option Style := s.segments.getLast?.bind (·.style)

/-- content.rs:851-882 `truncate_with_ellipsis`. -/
def truncate (s : Strip) (width : Nat) : Strip :=
  if width = 0 then Strip.new
  else if s.cellLength ≤ width then s
  else if width = 1 then Strip.ofSegments [Segment.mk' [ellipsis] (lastStyle s)]
  else
    let cropped := s.crop 0 (width - 1)
    Strip.join [cropped, Strip.ofSegments [Segment.mk' [ellipsis] (lastStyle cropped)]]

/-- tcss `TextOverflow`. See tcss/src/types/text.rs:178. -/
inductive Overflow where
  | clip | fold | ellipsis
deriving DecidableEq, Repr

/-- tcss `TextWrap`. See tcss/src/types/text.rs:195. -/
inductive Wrap where
  | wrap | noWrap
deriving DecidableEq, Repr

/-- content.rs:70-74 `WrappedLine`. -/
structure WrappedLine where
  strip : Strip
  lineEnd : Bool
deriving DecidableEq, Repr

/-- content.rs:531-536, 549-558: mark the last strip of a line. -/
def markLast : List Strip → List WrappedLine
  | [] => []
  | [s] => [⟨s, true⟩]
  | s :: rest => ⟨s, false⟩ :: markLast rest

/-- content.rs:513-527 `render_full_line`. -/
def Content.fullLine (c : Content) (lineStart : Nat) (line : List Grapheme) : Option Strip :=
  match c.spans with
  | some spans => c.renderLine spans lineStart line
  | none => some (c.plainStrip line)

/-- content.rs:504-563: the lines made of one non-empty source line. -/
def Content.wrapOne (c : Content) (ws : Grapheme → Bool) (width : Nat) (overflow : Overflow) (wrap : Wrap)
    (lineStart : Nat) (line : List Grapheme) : Option (List WrappedLine) :=
  if line.isEmpty then some [⟨Strip.new, true⟩]
  else
    match wrap with
    | .noWrap =>
      (c.fullLine lineStart line).map fun strip =>
        match overflow with
        | .fold => markLast (splitByWidth strip width)
        | .clip => [⟨strip.crop 0 width, true⟩]
        | .ellipsis => [⟨truncate strip width, true⟩]
    | .wrap =>
      let wrapped := match c.spans with
        | some spans => c.wrapLineSpans ws width spans lineStart line
        | none => some (c.wrapLine ws width line)
      wrapped.map fun l =>
        markLast (l.map fun s => if overflow = .ellipsis then truncate s width else s)

/-- content.rs:504-563: the loop over the lines. -/
def Content.wrapLines (c : Content) (ws : Grapheme → Bool) (width : Nat) (overflow : Overflow) (wrap : Wrap) :
    Nat → List (List Grapheme) → Option (List WrappedLine)
  | _, [] => some []
  | start, line :: rest =>
    match c.wrapOne ws width overflow wrap start line with
    | none => none
    | some a => (c.wrapLines ws width overflow wrap (start + blen line + 1) rest).map (a ++ ·)

/-- content.rs:490-571 `wrap_with_line_end_overflow`. -/
def Content.wrapFull (c : Content) (ws : Grapheme → Bool) (width : Nat) (overflow : Overflow) (wrap : Wrap) :
    Option (List WrappedLine) :=
  if width = 0 then some [⟨Strip.new, true⟩]
  else
    (c.wrapLines ws width overflow wrap 0 (splitLines c.text)).map fun r =>
      if r.isEmpty then [⟨Strip.new, true⟩] else r

/-- content.rs:475-480 `wrap`. -/
def Content.wrap (c : Content) (ws : Grapheme → Bool) (width : Nat) : Option (List Strip) :=
  (c.wrapFull ws width .fold .wrap).map fun l => l.map (·.strip)

end Textual.Content
