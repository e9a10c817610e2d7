import Verif.Model.Scrollbar
import Verif.Model.Small
import Verif.Model.Frame
import Verif.Model.Lines

/-!
# Drawing scrollbars on the canvas

The drawing calls of `crates/textual/src/scrollbar.rs`, of which `Model/Scrollbar.lean` keeps one cell for each place along
the bar, and of the containers around their children: bars, corner and chrome. `f32` values are exact rationals.
-/

namespace Textual.Bars

open Canvas (Draw)
open Layout (Viewport)
open Scroller (Sheet Body Flags inner vRegion hRegion cornerRegion drawsV drawsH)
open Scrollbar (thumbEighths body)

/-- scrollbar.rs:21, 25: the glyphs, all one column wide. -/
def glyphs (vertical : Bool) : List String :=
  if vertical then ["▁", "▂", "▃", "▄", "▅", "▆", "▇", " "] else ["▉", "▊", "▋", "▌", "▍", "▎", "▏", " "]

/-- `ScrollbarGlyphs::VERTICAL[i]`, `HORIZONTAL[i]` (scrollbar.rs:152, 169, 280, 297); `i` is at most 7. -/
def glyph (vertical : Bool) (i : Nat) : Grapheme := ⟨((glyphs vertical)[i]?).getD " ", 1⟩

/-- The cells across the bar at one place along it: the inner loops of scrollbar.rs:135-148, 155-165, 172-182 and of
263-276, 283-293, 300-310. -/
def across (vertical : Bool) (r : Region) (off : Int) (g : Grapheme) (fg bg : RgbaColor) : List Draw :=
  if vertical then
    (List.range r.width.toNat).map fun (k : Nat) => .char (r.x + k) (r.y + off) g (some fg) (some bg) {}
  else (List.range r.height.toNat).map fun (k : Nat) => .char (r.x + off) (r.y + k) g (some fg) (some bg) {}

/-- scrollbar.rs:72-188 `render_vertical`, 200-316 `render_horizontal`. -/
def bar (vertical : Bool) (r : Region) (virt window position : Rat) (thumb track : RgbaColor) (drawThumb : Bool) :
    List Draw :=
  if r.height ≤ 0 ∨ r.width ≤ 0 then []
  else
    let size := if vertical then r.height else r.width
    Placeholder.fill r track ++
    if !drawThumb || window ≤ 0 || virt ≤ 0 || virt = (size : Rat) then []
    else
      let start := (thumbEighths size virt window position).1
      let stop := (thumbEighths size virt window position).2
      let bodyStart := min (max (start / 8) 0) size
      let bodyEnd := min (max (stop / 8) 0) size
      let head := 7 - (start % 8).toNat
      let tail := 7 - (stop % 8).toNat
      ((List.range (bodyEnd - bodyStart).toNat).flatMap fun (k : Nat) =>
        across vertical r (bodyStart + k) (glyph vertical body) thumb thumb) ++
      (if 0 ≤ start / 8 ∧ start / 8 < size ∧ (glyph vertical head).text ≠ (glyph vertical body).text then
        (if vertical then across vertical r (start / 8) (glyph vertical head) thumb track
          else across vertical r (start / 8) (glyph vertical head) track thumb)
       else []) ++
      (if 0 ≤ stop / 8 ∧ stop / 8 < size ∧ (glyph vertical tail).text ≠ (glyph vertical body).text then
        (if vertical then across vertical r (stop / 8) (glyph vertical tail) track thumb
          else across vertical r (stop / 8) (glyph vertical tail) thumb track)
       else [])

/-- scrollbar.rs:40-60 `compose_colors`: thumb, track and whether the thumb is drawn. -/
def compose (thumb track : RgbaColor) (base : Option RgbaColor) : RgbaColor × RgbaColor × Bool :=
  let track := match base with
    | some b => if track.a < 1 then track.blendOver b else track
    | none => track
  if 0 < thumb.a then (thumb.blendOver track, track, true) else (thumb, track, false)

/-- containers.rs:23-46 `render_container_chrome` (no labels), container.rs:777-793 (with border labels; `any` if there is a
border or a background, 781): the lines of the chrome, top to bottom. `c` is the render cache. -/
def chrome (c : RenderCache.Cache) (any : Bool) (title subtitle : Option Strip) (r : Region) : List Draw :=
  if r.width ≤ 0 ∨ r.height ≤ 0 ∨ any = false then []
  else
    [.strips r.x r.y ((List.range r.height.toNat).map fun y =>
      (c.renderLine y r.height.toNat r.width.toNat none title subtitle).toDraw)]

/-- The colours of the bars of a container (after `compose_colors`) and of the corner. See scrollable.rs:752, 775. -/
structure Inks where
  vThumb : RgbaColor
  vTrack : RgbaColor
  vDraw : Bool
  hThumb : RgbaColor
  hTrack : RgbaColor
  hDraw : Bool
  corner : RgbaColor

/-- scrollable.rs:744-800, container.rs:945-989, screen.rs:596-655: the bars around the content, and the corner if both are
drawn (a plain container has no corner). `a` is the inner region, `off` the position. -/
def bars (s : Sheet) (a content : Region) (f : Flags) (cornered : Bool) (i : Inks) (virt off : Int × Int) : List Draw :=
  (if drawsV s f then
    bar true (vRegion s a f.h) virt.2 content.height off.2 i.vThumb i.vTrack i.vDraw else []) ++
  (if drawsH s f then
    bar false (hRegion s a f.v) virt.1 content.width off.1 i.hThumb i.hTrack i.hDraw else []) ++
  (if cornered && drawsV s f && drawsH s f then Small.corner s.barV s.barH false i.corner (cornerRegion s a) else [])

/-- scrollable.rs:744-800, container.rs:945-989, screen.rs:596-655: what a container draws after its children. -/
def after (vp : Viewport) (i : Inks) : Nest.Box → Region → List Draw
  | .scroller s b st, r =>
    if r.width ≤ 0 ∨ r.height ≤ 0 then []
    else
      let p := Scroller.plan s b (inner s r) vp
      let c := (st.laidOut p).scroll
      bars s (inner s r) p.content p.show_ true i (p.virtualWidth, p.virtualHeight) (c.offsetX, c.offsetY)
  | .pane s b st, r =>
    if r.width ≤ 0 ∨ r.height ≤ 0 then []
    else
      let d := st.draw s b r vp
      let c := d.2.scroll
      bars s (inner s r) d.1.content (d.2.shows s) false i (c.virtualWidth, c.virtualHeight) (c.offsetX, c.offsetY)
  | .screen s b _ st, r =>
    match (Screen.draw s b st r vp).1 with
    | none => []
    | some d =>
      let c := (Screen.draw s b st r vp).2.scroll
      bars s (inner s r) d.content (Screen.shows s c) true i (c.virtualWidth, c.virtualHeight) (c.offsetX, c.offsetY)

/-- What a container looks like apart from its layout: the chrome it remembers, whether it has any, its labels, and the
colours of its bars. container.rs:745-781, 945-989. -/
structure Look where
  cache : RenderCache.Cache
  any : Bool := true
  title : Option Strip := none
  subtitle : Option Strip := none
  inks : Inks

/-- What is drawn in a tree of containers without keylines: the widgets, the chrome and the bars of the containers.
containers/scrollable.rs:699-803, container.rs:694-992, screen.rs:558-656. -/
def paintOf (vp : Viewport) (leaf : Nat → Region → List Draw) (look : Nest.Box → Look) : Nest.Paint where
  leaf := leaf
  before b r := chrome (look b).cache (look b).any (look b).title (look b).subtitle r
  over _ _ := []
  after b r := after vp (look b).inks b r

end Textual.Bars
