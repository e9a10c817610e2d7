import Verif.Model.Content
import Verif.Model.Restyle

/-!
# Placeholders

`crates/textual/src/widget/placeholder.rs`. Texts are lists of graphemes with widths, white space is
a parameter, and so is the filler paragraph of the text variant. Padding is a natural number of cells
(the code casts an `f32`). Sizes are unbounded (`u16` in the code).
-/

namespace Textual.Placeholder

open Content

/-- placeholder.rs:35-43 `PlaceholderVariant`. -/
inductive Variant where
  | default | size | text
deriving DecidableEq, Repr

/-- placeholder.rs:47-53 `PlaceholderVariant::next`. -/
def Variant.next : Variant → Variant
  | .default => .size
  | .size => .text
  | .text => .default

/-- placeholder.rs:73-86 `PALETTE`. -/
def palette : List (Nat × Nat × Nat) :=
  [(136, 17, 119), (170, 51, 85), (204, 102, 102), (238, 153, 68), (238, 221, 0), (153, 221, 85),
   (68, 221, 136), (34, 204, 187), (0, 187, 204), (0, 153, 204), (51, 102, 187), (102, 51, 153)]

/-- placeholder.rs:100-109 `Placeholder` (inline style and classes left out), and the padding of its
style. -/
structure Placeholder where
  label : Option (List Grapheme) := none
  paletteIndex : Nat := 0
  style : Restyle.Style := {}
  padTop : Nat := 0
  padRight : Nat := 0
  padBottom : Nat := 0
  padLeft : Nat := 0
  id : Option (List Grapheme) := none
  variant : Variant := .default
  dirty : Bool := true

/-- placeholder.rs:113-129 `new`; the thread's counter is an argument and part of the result. -/
def new (counter : Nat) : Placeholder × Nat :=
  ({ paletteIndex := counter % palette.length }, counter + 1)

/-- `new` called `n` times in a row. See placeholder.rs:113. -/
def newMany : Nat → Nat → List Placeholder × Nat
  | 0, counter => ([], counter)
  | n + 1, counter =>
    let (p, counter) := new counter
    let (ps, counter) := newMany n counter
    (p :: ps, counter)

/-- An ASCII text. -/
def ascii (s : String) : List Grapheme := s.toList.map fun c => ⟨c.toString, 1⟩

/-- placeholder.rs:179 `format!("{} x {}", …)`. -/
def sizeText (r : Region) : List Grapheme := ascii (toString r.width ++ " x " ++ toString r.height)

/-- placeholder.rs:180-184: five paragraphs with an empty line between two of them. -/
def loremText (lorem : List Grapheme) : List Grapheme :=
  let sep : List Grapheme := [⟨"\n", 0⟩, ⟨"\n", 0⟩]
  lorem ++ sep ++ lorem ++ sep ++ lorem ++ sep ++ lorem ++ sep ++ lorem

/-- placeholder.rs:170-186 `get_display_content`. -/
def content (p : Placeholder) (lorem : List Grapheme) (r : Region) : List Grapheme :=
  match p.variant with
  | .default =>
    match p.label with
    | some l => l
    | none =>
      match p.id with
      | some i => ⟨"#", 1⟩ :: i
      | none => ascii "Placeholder"
  | .size => sizeText r
  | .text => loremText lorem

/-- placeholder.rs:254-268: the grapheme loop of `break_word` and the last piece. -/
def breakLoop (width : Nat) (cur : List Grapheme) (curW : Nat) : List Grapheme → List (List Grapheme)
  | [] => if cur.isEmpty then [] else [cur]
  | g :: gs =>
    if curW + g.width ≤ width ∨ cur = [] then breakLoop width (cur ++ [g]) (curW + g.width) gs
    else cur :: breakLoop width [g] g.width gs

/-- placeholder.rs:249-271 `break_word`. -/
def breakWord (width : Nat) (word : List Grapheme) : List (List Grapheme) := breakLoop width [] 0 word

/-- placeholder.rs:207-217 and again 227-237: a word at the start of a line. The result is the finished
lines, the line being filled and its width. -/
def startLine (width : Nat) (word : List Grapheme) : List (List Grapheme) × List Grapheme × Nat :=
  if widthOf word ≤ width then ([], word, widthOf word)
  else
    match (breakWord width word).getLast? with
    | some last => ((breakWord width word).dropLast, last, widthOf last)
    | none => ([], [], 0)

/-- placeholder.rs:203-243: the word loop of `word_wrap` and the last line of a paragraph. -/
def wrapWords (width : Nat) (cur : List Grapheme) (curW : Nat) : List (List Grapheme) → List (List Grapheme)
  | [] => if cur.isEmpty then [] else [cur]
  | word :: rest =>
    if cur.isEmpty then
      (startLine width word).1 ++ wrapWords width (startLine width word).2.1 (startLine width word).2.2 rest
    else if curW + 1 + widthOf word ≤ width then
      wrapWords width (cur ++ Grapheme.space :: word) (curW + (1 + widthOf word)) rest
    else
      cur :: ((startLine width word).1 ++
        wrapWords width (startLine width word).2.1 (startLine width word).2.2 rest)

/-- placeholder.rs:195-243: one paragraph of `word_wrap`. -/
def wrapParagraph (ws : Grapheme → Bool) (width : Nat) (p : List Grapheme) : List (List Grapheme) :=
  if p.isEmpty then [[]] else wrapWords width [] 0 (words ws p)

/-- placeholder.rs:190-247 `word_wrap`. -/
def wordWrap (ws : Grapheme → Bool) (text : List Grapheme) (maxWidth : Nat) : List (List Grapheme) :=
  (splitLines text).flatMap (wrapParagraph ws (max maxWidth 1))

/-- placeholder.rs:274-288 `effective_background`. -/
def background (p : Placeholder) : RgbaColor :=
  match p.style.background with
  | some bg => p.style.effectiveBackground.getD bg
  | none =>
    let (r, g, b) := palette.getD p.paletteIndex (0, 0, 0)
    let overlay := RgbaColor.rgba r g b (1 / 2)
    match p.style.inheritedBackground with
    | some bg => overlay.blendOver bg
    | none => overlay

/-- placeholder.rs:291-314 `effective_foreground`. -/
def foreground (p : Placeholder) (bg : RgbaColor) : Option RgbaColor :=
  if p.style.autoColor then
    let ratio := match p.style.color with | some c => c.a | none => 1
    let contrasting := bg.getContrastingColor ratio
    some (match p.style.inheritedBackground with
      | some inherited => contrasting.blendToward inherited p.style.opacity
      | none => contrasting.withOpacity p.style.opacity)
  else
    match p.style.color, p.style.inheritedBackground with
    | some c, some b => some (c.blendToward b p.style.opacity)
    | some c, none => some (c.withOpacity p.style.opacity)
    | none, some b =>
      if p.style.opacity < 1 then some ((RgbaColor.rgba 255 255 255 1).blendToward b p.style.opacity) else none
    | none, none => none

/-- placeholder.rs:353-355. -/
def textColor (p : Placeholder) : RgbaColor := (foreground p (background p)).getD (RgbaColor.rgb 255 255 255)

/-- placeholder.rs:358-362: the background. -/
def fill (r : Region) (bg : RgbaColor) : List Canvas.Draw :=
  (List.range r.height.toNat).flatMap fun (j : Nat) => (List.range r.width.toNat).map fun (i : Nat) =>
    .char (r.x + i) (r.y + j) Grapheme.space none (some bg) {}

/-- placeholder.rs:394-398, 449-453: the widest line. -/
def blockWidth (lines : List (List Grapheme)) : Nat := (lines.map widthOf).foldr max 0

/-- placeholder.rs:409-420, 462-472: lines one below the other. -/
def drawLines (x y : Int) (fg bg : RgbaColor) : List (List Grapheme) → List Canvas.Draw
  | [] => []
  | l :: ls => .str x y l (some fg) (some bg) {} :: drawLines x (y + 1) fg bg ls

/-- placeholder.rs:371-474: the text, given the content area (not empty). -/
def texts (p : Placeholder) (ws : Grapheme → Bool) (lorem : List Grapheme) (r : Region) (x y w h : Int) :
    List Canvas.Draw :=
  let bg := background p
  let fg := textColor p
  let t := content p lorem r
  match p.variant with
  | .text =>
    let w := (max (w - 2) 1).toNat
    let h := (max (h - 2) 1).toNat
    let lines := (wordWrap ws t w).take h
    let dx := max (((w : Int) - blockWidth lines).tdiv 2) 0
    let dy := max (((h : Int) - lines.length).tdiv 2) 0
    drawLines (x + 1 + dx) (y + 1 + dy) fg bg lines
  | .size =>
    [.str (x + (max (w - widthOf t) 0).tdiv 2) (y + (h - 1).tdiv 2) t (some fg) (some bg) { bold := true }]
  | .default =>
    let w := (max w 1).toNat
    let lines := wordWrap ws t w
    let dy := max ((h - lines.length).tdiv 2) 0
    let dx := max (((w : Int) - blockWidth lines).tdiv 2) 0
    drawLines (x + dx) (y + dy) fg bg lines

/-- placeholder.rs:334-476 `render`, as the drawing calls it makes. -/
def render (p : Placeholder) (ws : Grapheme → Bool) (lorem : List Grapheme) (r : Region) : List Canvas.Draw :=
  if p.style.hidden then []
  else if r.width ≤ 0 ∨ r.height ≤ 0 then []
  else
    let w := max (r.width - p.padLeft - p.padRight) 0
    let h := max (r.height - p.padTop - p.padBottom) 0
    fill r (background p) ++
      (if w ≤ 0 ∨ h ≤ 0 then []
       else texts p ws lorem r (r.x + p.padLeft) (r.y + p.padTop) w h)

/-- The drawing calls one after the other; `none` is a panic. -/
def drawAll (c : Canvas) : List Canvas.Draw → Option Canvas
  | [] => some c
  | d :: ds => (c.draw d).bind (drawAll · ds)

/-- placeholder.rs:488-496: `str::lines` of the content gives these sizes (a newline at the end does not
start a line). -/
def desiredLines (t : List Grapheme) : List (List Grapheme) :=
  match (splitLines t).getLast? with
  | some [] => (splitLines t).dropLast
  | _ => splitLines t

/-- placeholder.rs:478-537 `desired_size` for `width: auto` and `height: auto` (or neither set). -/
def desiredSize (p : Placeholder) (lorem : List Grapheme) : Nat × Nat :=
  let lines := desiredLines (content p lorem ⟨0, 0, 0, 0⟩)
  (blockWidth lines + (p.padLeft + p.padRight), max lines.length 1 + (p.padTop + p.padBottom))

/-- placeholder.rs:539-553 `intrinsic_height_for_width`. -/
def intrinsicHeight (p : Placeholder) (ws : Grapheme → Bool) (lorem : List Grapheme) (width : Nat) : Nat :=
  let w := max (width - (p.padLeft + p.padRight)) 1
  max (wordWrap ws (content p lorem ⟨0, 0, 0, 0⟩) w).length 1 + p.padTop + p.padBottom

/-- What `on_mouse` looks at. See placeholder.rs:611. -/
structure Mouse where
  down : Bool
  column : Nat
  row : Nat

/-- placeholder.rs:611-629 `on_mouse`. -/
def onMouse (p : Placeholder) (e : Mouse) (r : Region) : Placeholder :=
  let inside := (e.column : Int) ≥ r.x ∧ (e.column : Int) < r.x + r.width ∧
    (e.row : Int) ≥ r.y ∧ (e.row : Int) < r.y + r.height
  if e.down ∧ inside then { p with variant := p.variant.next, dirty := true } else p

end Textual.Placeholder
