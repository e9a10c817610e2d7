import Verif.Model.Region
import Verif.Model.Color

/-!
Model of the drawing half of `/repo/crates/textual/src/canvas.rs`. A text is a list of graphemes
with their display width (segmentation and width come from the unicode crates and are parameters).
A call that would panic (index out of range) returns `none`.
-/

namespace Textual

/-- canvas.rs:13-21 `TextAttributes`. -/
structure Attrs where
  bold : Bool := false
  dim : Bool := false
  italic : Bool := false
  underline : Bool := false
  strike : Bool := false
  reverse : Bool := false
deriving DecidableEq, Repr

/-- `crossterm::style::Color::Rgb`, the only colour the canvas stores besides "none". See canvas.rs:743-766. -/
structure Rgb where
  r : Nat
  g : Nat
  b : Nat
deriving DecidableEq, Repr

/-- canvas.rs:112-119 `Cell`. -/
structure Cell where
  symbol : String
  width : Nat
  continuation : Bool
  fg : Option Rgb
  bg : Option Rgb
  attrs : Attrs
deriving DecidableEq, Repr

/-- The blank cell of canvas.rs:135-142 and 556-563. -/
def Cell.blank : Cell := ⟨" ", 1, false, none, none, {}⟩

/-- A grapheme cluster with its display width (grapheme.rs `graphemes`, `display_width`). See grapheme.rs:4, 16. -/
structure Grapheme where
  text : String
  width : Nat
deriving DecidableEq, Repr

/-- canvas.rs:121-131 `Canvas`. The clip stack has its top at the head of the list. -/
structure Canvas where
  w : Nat
  h : Nat
  cells : List Cell
  prev : List Cell
  firstFlush : Bool
  clips : List Region
deriving DecidableEq, Repr

/-- canvas.rs:751-757 `to_crossterm_rgb`. -/
def toCrosstermRgb (c : RgbaColor) : Rgb := ⟨c.r, c.g, c.b⟩

/-- canvas.rs:734-749 `to_crossterm_color`. -/
def toCrosstermColor (c : RgbaColor) : Rgb :=
  if c.a ≥ 1 then toCrosstermRgb c
  else ⟨RgbaColor.roundU8 (c.r * c.a), RgbaColor.roundU8 (c.g * c.a), RgbaColor.roundU8 (c.b * c.a)⟩

/-- canvas.rs:759-775 `resolve_background`. -/
def resolveBackground (bg : Option RgbaColor) (existing : Option Rgb) : Option Rgb :=
  match bg with
  | none => existing
  | some bg =>
    if bg.isTransparent then existing
    else
      let base := match existing with
        | some e => RgbaColor.rgb e.r e.g e.b
        | none => RgbaColor.black
      let blended := if bg.a < 1 then bg.blendOver base else bg
      some (toCrosstermRgb blended)

namespace Canvas

/-- canvas.rs:134-151 `new` with overflow checks on (`width * height` is a `u16` product, so it
panics from 65536 cells on). -/
def new (w h : Nat) : Option Canvas :=
  if w * h < 65536 then
    some { w, h, cells := List.replicate (w * h) Cell.blank,
           prev := List.replicate (w * h) Cell.blank, firstFlush := true, clips := [] }
  else none

/-- canvas.rs:134-151 `new` without overflow checks (release build): the product wraps. -/
def newRelease (w h : Nat) : Canvas :=
  { w, h, cells := List.replicate (w * h % 65536) Cell.blank,
    prev := List.replicate (w * h % 65536) Cell.blank, firstFlush := true, clips := [] }

/-- canvas.rs:180-187 `current_clip`. -/
def currentClip (c : Canvas) : Region :=
  match c.clips with
  | r :: _ => r
  | [] => ⟨0, 0, c.w, c.h⟩

/-- canvas.rs:167-171 `push_clip`. -/
def pushClip (c : Canvas) (r : Region) : Canvas :=
  { c with clips := r.intersection c.currentClip :: c.clips }

/-- canvas.rs:174-176 `pop_clip`. -/
def popClip (c : Canvas) : Canvas := { c with clips := c.clips.tail }

/-- `self.cells[i] = f(self.cells[i])`; `none` is the out-of-bounds panic. Used at canvas.rs:296-328. -/
def updateCell (cells : List Cell) (i : Nat) (f : Cell → Cell) : Option (List Cell) :=
  match cells[i]? with
  | none => none
  | some old => some (cells.set i (f old))

/-- canvas.rs:284-288: only recolour, when a translucent background is painted with a blank. -/
def preserveText (g : Grapheme) (fg : Option Rgb) (bg : Option RgbaColor) (attrs : Attrs) : Bool :=
  (match bg with
    | some b => decide (b.a < 1) && !b.isTransparent
    | none => false) &&
  g.text == " " && g.width == 1 && fg.isNone && attrs == {}

/-- canvas.rs:290-305: the new lead cell. -/
def leadCell (g : Grapheme) (fg : Option Rgb) (bg : Option RgbaColor) (attrs : Attrs) (old : Cell) : Cell :=
  let newBg := resolveBackground bg old.bg
  if preserveText g fg bg attrs then
    match newBg with
    | some b => { old with bg := some b }
    | none => old
  else ⟨g.text, g.width, false, fg, newBg, attrs⟩

/-- canvas.rs:316-333: a new continuation cell. -/
def contCell (g : Grapheme) (fg : Option Rgb) (bg : Option RgbaColor) (attrs : Attrs) (old : Cell) : Cell :=
  let newBg := resolveBackground bg old.bg
  if preserveText g fg bg attrs then
    match newBg with
    | some b => { old with bg := some b }
    | none => old
  else ⟨" ", 0, true, fg, newBg, attrs⟩

/-- canvas.rs:307-336: the loop over the continuation columns `offsets`. -/
def putConts (w h : Nat) (x y : Int) (g : Grapheme) (fg : Option Rgb) (bg : Option RgbaColor)
    (attrs : Attrs) (clip : Region) : List Nat → List Cell → Option (List Cell)
  | [], cells => some cells
  | off :: rest, cells =>
    let cx := x + off
    if cx < clip.x ∨ cx ≥ clip.x + clip.width then putConts w h x y g fg bg attrs clip rest cells
    else if cx < 0 ∨ cx ≥ w then putConts w h x y g fg bg attrs clip rest cells
    else
      match updateCell cells (y.toNat * w + cx.toNat) (contCell g fg bg attrs) with
      | none => none
      | some cells => putConts w h x y g fg bg attrs clip rest cells

/-- canvas.rs:255-337 `put_grapheme`. -/
def putGrapheme (c : Canvas) (x y : Int) (g : Grapheme) (fg : Option Rgb) (bg : Option RgbaColor)
    (attrs : Attrs) (clip : Region) : Option Canvas :=
  if y < clip.y ∨ y ≥ clip.y + clip.height then some c
  else if y < 0 ∨ y ≥ c.h then some c
  else if x < clip.x ∨ x ≥ clip.x + clip.width then some c
  else if x < 0 ∨ x ≥ c.w then some c
  else if x + g.width > clip.x + clip.width then some c
  else if x + g.width > c.w then some c
  else
    match updateCell c.cells (y.toNat * c.w + x.toNat) (leadCell g fg bg attrs) with
    | none => none
    | some cells =>
      match putConts c.w c.h x y g fg bg attrs clip (List.range' 1 (g.width - 1)) cells with
      | none => none
      | some cells => some { c with cells := cells }

/-- canvas.rs:240-252: the grapheme loop of `put_str`. -/
def putGraphemes (c : Canvas) (x y : Int) (fg : Option Rgb) (bg : Option RgbaColor) (attrs : Attrs)
    (clip : Region) : List Grapheme → Option Canvas
  | [] => some c
  | g :: gs =>
    if x ≥ clip.x + clip.width then some c
    else
      match putGrapheme c x y g fg bg attrs clip with
      | none => none
      | some c => putGraphemes c (x + g.width) y fg bg attrs clip gs

/-- canvas.rs:223-253 `put_str`. -/
def putStr (c : Canvas) (x y : Int) (s : List Grapheme) (fg bg : Option RgbaColor) (attrs : Attrs) :
    Option Canvas :=
  let clip := c.currentClip
  if y < clip.y ∨ y ≥ clip.y + clip.height then some c
  else if y < 0 ∨ y ≥ c.h then some c
  else putGraphemes c x y (fg.map toCrosstermColor) bg attrs clip s

/-- canvas.rs:204-219 `put_char` (a character is one grapheme). -/
def putChar (c : Canvas) (x y : Int) (g : Grapheme) (fg bg : Option RgbaColor) (attrs : Attrs) :
    Option Canvas :=
  putGrapheme c x y g (fg.map toCrosstermColor) bg attrs c.currentClip

/-- What `render_strip` reads of a segment (canvas.rs:348-361): text, colours, attributes and the
cached cell length. -/
structure DrawSeg where
  text : List Grapheme
  fg : Option RgbaColor
  bg : Option RgbaColor
  attrs : Attrs
  cellLength : Nat
deriving DecidableEq, Repr

/-- canvas.rs:344-364 `render_strip`. -/
def renderStrip (c : Canvas) (x y : Int) : List DrawSeg → Option Canvas
  | [] => some c
  | s :: rest =>
    match putStr c x y s.text s.fg s.bg s.attrs with
    | none => none
    | some c => renderStrip c (x + s.cellLength) y rest

/-- canvas.rs:369-373 `render_strips`. -/
def renderStrips (c : Canvas) (x y : Int) : List (List DrawSeg) → Option Canvas
  | [] => some c
  | s :: rest =>
    match renderStrip c x y s with
    | none => none
    | some c => renderStrips c x (y + 1) rest

/-- canvas.rs:555-565 `clear`. -/
def clear (c : Canvas) : Canvas :=
  { c with cells := c.cells.map (fun _ => Cell.blank), clips := [] }

/-- canvas.rs:569-571 `invalidate`. -/
def invalidate (c : Canvas) : Canvas := { c with firstFlush := true }

/-- Drawing calls. -/
inductive Draw where
  | char (x y : Int) (g : Grapheme) (fg bg : Option RgbaColor) (attrs : Attrs)
  | str (x y : Int) (s : List Grapheme) (fg bg : Option RgbaColor) (attrs : Attrs)
  | strip (x y : Int) (s : List DrawSeg)
  | strips (x y : Int) (s : List (List DrawSeg))

/-- One drawing call. -/
def draw (c : Canvas) : Draw → Option Canvas
  | .char x y g fg bg a => c.putChar x y g fg bg a
  | .str x y s fg bg a => c.putStr x y s fg bg a
  | .strip x y s => c.renderStrip x y s
  | .strips x y s => c.renderStrips x y s

end Canvas
end Textual
