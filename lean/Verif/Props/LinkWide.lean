import Verif.Props.LinkClicks
import Verif.Props.InTreeWide

/-!
# Links in text with wide characters (C199, C201)

As `Props/LinkMarkup.lean` and `Props/LinkClicks.lean`, for characters of one or more columns in lines that fit in the widget.
-/

namespace Textual.Static

open Markup (Res)
open FromMarkup
open Content (WrappedLine Glyph ellipsis Solid Aligned)
open RenderCache (cacheAfter NoOutline)

theorem fit_of_columns {line : WrappedLine} (h : line.strip.Columns) {n : Nat} (hn : line.strip.cellLength ≤ n) : Fit n line :=
  ⟨h.wf, fun seg hs g hg ht => (h.made seg hs g hg).2 ht, onBoundary_beyond h.wf hn⟩

/-- **C199** (mouse, partial: no outline, a title only in a top border, lines that fit). As `click_actions_partial`, for
characters of any width: a click on any column of a character of the text finds the action the markup gives the character. -/
theorem click_actions_wide_partial (cluster : List Char → List Grapheme) (src : List Char) (m : Markup.Parsed)
    (h : Markup.parse ext src = .ok m) (hs : Solid (cluster m.text))
    (ha : Aligned (m.spans.map convertSpan) (cluster m.text))
    (h1 : ∀ g ∈ cluster m.text, g.text ≠ "\n" → 1 ≤ g.width ∧ (g.text = " " → g.width = 1))
    (hist : List RenderCache.Sheet) (s : Sheet) (ws : Grapheme → Bool) (hovered : Option String) (title subtitle : Option Strip)
    (w hgt : Nat) (ho : NoOutline s.frame) (htop : s.frame.border.top.kind.horizontal = true ∨ title = none)
    (ht1 : Unlinked title) (ht2 : Unlinked subtitle) :
    ∃ c, fromMarkup cluster src = .ok c ∧ ∀ lines,
      textLines s ws c hovered ((cacheAfter hist s.frame).innerSize w hgt).1 = some lines →
      (∀ line ∈ lines, line.strip.cellLength ≤ ((cacheAfter hist s.frame).innerSize w hgt).1) → ∀ x y row cell,
      (drawLines s (cacheAfter hist s.frame) lines title subtitle w hgt).rows[y]? = some row → row.cells[x]? = some cell →
      (∃ line ∈ lines, cell ∈ line.strip.cells) → cell.g ≠ Grapheme.space → cell.g ≠ ellipsis →
      ∃ pre post, cluster m.text = pre ++ cell.g :: post ∧
        findLink (drawLines s (cacheAfter hist s.frame) lines title subtitle w hgt).links x y = actionAt m (Content.blen pre) := by
  obtain ⟨c, hc, key⟩ := line_actions cluster src m h hs ha s ws hovered ((cacheAfter hist s.frame).innerSize w hgt).1
  refine ⟨c, hc, ?_⟩
  intro lines e hf x y row cell hrow hcell ⟨line, hl, hm⟩ n1 n2
  have htext : c.text = cluster m.text := by
    unfold fromMarkup at hc
    rw [h] at hc
    cases hc
    rfl
  have cols := textLines_columns s ws c (by rw [htext]; exact h1) hovered _ lines e
  rw [links_exact_partial hist s lines title subtitle w hgt x y row cell ho htop
    (fun l hl => fit_of_columns (cols l hl) (hf l hl)) ht1 ht2 hrow hcell]
  rcases key lines e line hl cell hm with ⟨h | h, _⟩ | h
  · exact absurd h n1
  · exact absurd h n2
  · exact h

/-- **C199** (one link, partial: lines that fit): in the text `before [@click=action] shown [/] after`, with characters of any
width, a click on any column of a character that stands only in the link finds the action as written, and a click on any that
stands only outside finds none. -/
theorem link_clicked_wide_partial (wd : Char → Nat) (before action shown after : List Char)
    (ha1 : Markup.Bare Char.isWhitespace action) (ha2 : Markup.Body 0 ("@click=".toList ++ action))
    (hw : ∀ c ∈ before ++ shown ++ after, c ≠ '\n' → 1 ≤ wd c ∧ (c = ' ' → wd c = 1))
    (hist : List RenderCache.Sheet) (s : Sheet) (ws : Grapheme → Bool) (hovered : Option String) (title subtitle : Option Strip)
    (w hgt : Nat) (ho : NoOutline s.frame) (htop : s.frame.border.top.kind.horizontal = true ∨ title = none)
    (ht1 : Unlinked title) (ht2 : Unlinked subtitle) :
    ∃ c, fromMarkup (byChar wd) (Markup.escape before ++ ('[' :: ("@click=".toList ++ action) ++ [']']) ++ Markup.escape shown ++
        "[/]".toList ++ Markup.escape after) = .ok c ∧ ∀ lines,
      textLines s ws c hovered ((cacheAfter hist s.frame).innerSize w hgt).1 = some lines →
      (∀ line ∈ lines, line.strip.cellLength ≤ ((cacheAfter hist s.frame).innerSize w hgt).1) → ∀ x y row cell (ch : Char),
      (drawLines s (cacheAfter hist s.frame) lines title subtitle w hgt).rows[y]? = some row → row.cells[x]? = some cell →
      (∃ line ∈ lines, cell ∈ line.strip.cells) → cell.g.text = String.singleton ch → ch ≠ ' ' → ch ≠ '…' →
      (ch ∉ before → ch ∉ after →
        findLink (drawLines s (cacheAfter hist s.frame) lines title subtitle w hgt).links x y = some (String.ofList action)) ∧
      (ch ∉ shown → findLink (drawLines s (cacheAfter hist s.frame) lines title subtitle w hgt).links x y = none) := by
  have hp := oneLink_parse before action shown after ha1 ha2
  obtain ⟨c, hc, key⟩ := click_actions_wide_partial (byChar wd) _ _ hp (byChar_solid wd _) (byChar_aligned wd hp) (by
    intro g hg hn
    obtain ⟨ch, hm, rfl⟩ := List.mem_map.1 hg
    obtain ⟨k1, k2⟩ := hw ch hm (by rintro rfl; exact hn rfl)
    refine ⟨k1, fun h => k2 ?_⟩
    have := congrArg String.toList h
    simpa using this) hist s ws hovered title subtitle w hgt ho htop ht1 ht2
  refine ⟨c, hc, ?_⟩
  intro lines e hf x y row cell ch hrow hcell hm hch n1 n2
  obtain ⟨pre, post, k1, k2⟩ := key lines e hf x y row cell hrow hcell hm (not_named hch (d := ' ') rfl n1)
    (not_named hch (d := '…') rfl n2)
  obtain ⟨p, q, e1, rfl⟩ := byChar_place wd _ pre post cell.g ch hch k1
  rw [k2, blen_byChar]
  exact oneLink_action before action shown after p q ch e1

/-! ### A case -/

/-- Two columns for the characters of Chinese and Japanese, one for the others. -/
def wideChar (c : Char) : Nat := if c.toNat ≥ 0x1100 then 2 else 1

/-- The link is on two wide characters, between plain ones. -/
def wideSource : List Char := "a [@click=app.go]日本[/] 語".toList

def wideParsed : Markup.Parsed := ⟨"a 日本 語".toList, [⟨2, 8, {}, [("@click".toList, "app.go".toList)]⟩]⟩

theorem wideSource_parse : Markup.parse ext wideSource = .ok wideParsed := by decide +kernel

/-- In a centred card with a round border: a click on any column of `日` or `本` finds the action, one on `語` finds none. -/
example : ∃ c, fromMarkup (byChar wideChar) wideSource = .ok c ∧ ∀ lines,
    textLines card Content.asciiWs c none ((cacheAfter [] card.frame).innerSize 16 4).1 = some lines →
    (∀ line ∈ lines, line.strip.cellLength ≤ ((cacheAfter [] card.frame).innerSize 16 4).1) → ∀ x y row cell,
    (drawLines card (cacheAfter [] card.frame) lines none none 16 4).rows[y]? = some row → row.cells[x]? = some cell →
    (∃ line ∈ lines, cell ∈ line.strip.cells) → cell.g ≠ Grapheme.space → cell.g ≠ ellipsis →
    ∃ pre post, byChar wideChar wideParsed.text = pre ++ cell.g :: post ∧
      findLink (drawLines card (cacheAfter [] card.frame) lines none none 16 4).links x y =
        actionAt wideParsed (Content.blen pre) :=
  click_actions_wide_partial (byChar wideChar) _ _ wideSource_parse (byChar_solid _ _) (byChar_aligned _ wideSource_parse)
    (by decide) [] card Content.asciiWs none none none 16 4 (by unfold NoOutline; decide) (Or.inr rfl)
    (by rintro t h; cases h) (by rintro t h; cases h)

/-- The same text in its parts. -/
example : ∃ c, fromMarkup (byChar wideChar) wideSource = .ok c ∧ ∀ lines,
    textLines card Content.asciiWs c none ((cacheAfter [] card.frame).innerSize 16 4).1 = some lines →
    (∀ line ∈ lines, line.strip.cellLength ≤ ((cacheAfter [] card.frame).innerSize 16 4).1) → ∀ x y row cell,
    (drawLines card (cacheAfter [] card.frame) lines none none 16 4).rows[y]? = some row → row.cells[x]? = some cell →
    (∃ line ∈ lines, cell ∈ line.strip.cells) → cell.g.text = "本" →
    findLink (drawLines card (cacheAfter [] card.frame) lines none none 16 4).links x y = some "app.go" := by
  obtain ⟨c, hc, key⟩ := link_clicked_wide_partial wideChar "a ".toList "app.go".toList "日本".toList " 語".toList
    (by unfold Markup.Bare; decide) (Markup.tagBody_body 0 ("@click=app.go".toList ++ [']']) _ [] (by decide +kernel)).1
    (by decide) [] card Content.asciiWs none none none 16 4 (by unfold NoOutline; decide) (Or.inr rfl)
    (by rintro t h; cases h) (by rintro t h; cases h)
  exact ⟨c, hc, fun lines h hf x y row cell h1 h2 h3 h4 =>
    (key lines h hf x y row cell '本' h1 h2 h3 h4 (by decide) (by decide)).1 (by decide) (by decide)⟩

/-- Its line fits, and is seen: both columns of `本` have the link, those of `語` have none. -/
example :
    let c : Content.Content := { text := byChar wideChar wideParsed.text, spans := some [⟨2, 8, {}, [("@click", "app.go")]⟩] }
    fromMarkup (byChar wideChar) wideSource = .ok c ∧
    (textLines card Content.asciiWs c none ((cacheAfter [] card.frame).innerSize 16 4).1).map (fun lines =>
      (decide (∀ line ∈ lines, line.strip.cellLength ≤ ((cacheAfter [] card.frame).innerSize 16 4).1),
       ((drawLines card (cacheAfter [] card.frame) lines none none 16 4).rows.flatMap fun r =>
         (r.cells.filter fun x => decide (x.g.width = 2)).map fun x => (x.g.text, x.col, linkOf x)))) =
      some (true, [("日", 0, some "app.go"), ("日", 1, some "app.go"), ("本", 0, some "app.go"), ("本", 1, some "app.go"),
        ("語", 0, none), ("語", 1, none)]) := by
  decide +kernel

end Textual.Static

namespace Textual.LinkClicks

open Layout (Viewport)
open Nest (Node Good NoOverlap SeenAt painted reach Paint Tidy frame GlyphSeen)
open Static (Links Drawn findLink linkOf)
open Scroller (At OnScreen)

open Static Content in
/-- **C201** (partial, as `press_on_screen_partial`, for characters of any width in lines that fit in the widget). The screen
is drawn and then the left button goes down on a column of a text: the action dispatched is that of the link the column
belongs to, or none, no other text dispatches one, and if no part of the column's character is clipped away, the column is on
the canvas with it: the character in its first column, the others continue it. -/
theorem press_on_screen_wide_partial {w h : Nat} {c0 : Canvas} (h0 : Canvas.new w h = some c0) (p : Page) (P : Paint)
    (before : List Canvas.Op) (hv : p.viewport = ⟨w, h⟩) (hsc : p.screen = ⟨0, 0, w, h⟩) (hk : p.kind = .down .left)
    (ht : Tidy ⟨w, h⟩ P p.node ⟨0, 0, w, h⟩) (s : Nat → Links) (hs : Idle s) (ps : List Page) (hf : ∀ q ∈ ps ++ [p], q.Fair)
    (id : Nat) (r : Region) (ks : List Region) (hpd : (id, r, ks) ∈ painted ⟨w, h⟩ p.node ⟨0, 0, w, h⟩ [])
    (hseen : SeenAt (id, r, ks) p.column p.row)
    (hist : List RenderCache.Sheet) (sh : Static.Sheet) (lines : List WrappedLine) (title subtitle : Option Strip)
    (hatch : Option Fade.Hatch) (tint : Option RgbaColor)
    (hpaint : P.leaf id r = paint sh false (RenderCache.cacheAfter hist sh.frame) lines title subtitle hatch tint r)
    (htext : p.text id r.width.toNat r.height.toNat =
      drawLines sh (RenderCache.cacheAfter hist sh.frame) lines title subtitle r.width.toNat r.height.toNat)
    (ho : RenderCache.NoOutline sh.frame) (htop : sh.frame.border.top.kind.horizontal = true ∨ title = none)
    (hl : ∀ line ∈ lines, line.strip.Columns)
    (hfit : ∀ line ∈ lines, line.strip.cellLength ≤
      ((RenderCache.cacheAfter hist sh.frame).innerSize r.width.toNat r.height.toNat).1)
    (h1 : ∀ t ∈ title, t.Columns) (h2 : ∀ t ∈ subtitle, t.Columns)
    (hh : ∀ h ∈ hatch, h.width = 1) (hu1 : Unlinked title) (hu2 : Unlinked subtitle)
    (row : Strip) (cell : StripCell)
    (hrow : (p.text id r.width.toNat r.height.toNat).rows[(p.row - r.y : Int).toNat]? = some row)
    (hcell : row.cells[(p.column - r.x : Int).toNat]? = some cell) :
    (step (after s ps) p).1 id = linkOf cell ∧ (∀ j, j ≠ id → (step (after s ps) p).1 j = none) ∧
    ∃ c, c0.run (before ++ frame P ⟨w, h⟩ p.node) = some c ∧
      (cell.g.text ≠ " " → GlyphSeen w h ks cell p.column p.row →
        (c.cells[p.row * w + p.column]?).map (fun e => (e.symbol, e.continuation)) =
          some (if cell.col = 0 then cell.g.text else " ", decide (cell.col ≠ 0))) := by
  have hfp := hf p (by simp)
  have hon : p.On id r := ⟨ks, by rw [hv, hsc]; exact hpd, hseen⟩
  have hat := hseen.1
  have hin := hfp.inside
  have hos := hfp.onScreen
  rw [hsc] at hin
  simp only [At] at hat hin
  simp only [OnScreen, Page.mouse] at hos
  have hg := hfp.good
  have ha := hfp.apart
  rw [hv] at hg ha
  rw [hsc] at hg
  have hrow' := hrow
  rw [htext] at hrow'
  have hexact := links_exact_partial hist sh lines title subtitle r.width.toNat r.height.toNat _ _ row cell ho htop
    (fun line hline => fit_of_columns (hl line hline) (hfit line hline)) hu1 hu2 hrow' hcell
  rw [← htext] at hexact
  refine ⟨?_, fun j hj => ?_, ?_⟩
  · rw [Option.ext_iff]
    intro a
    rw [followed_partial s hs ps p hf id a, ← hexact]
    refine ⟨?_, fun h => ⟨hk, r, hon, h⟩⟩
    rintro ⟨-, r', hr', h⟩
    obtain ⟨-, rfl⟩ := on_unique p hfp hr' hon
    exact h
  · rw [Option.eq_none_iff_forall_ne_some]
    intro a h
    obtain ⟨-, r', hr', -⟩ := (followed_partial s hs ps p hf j a).1 h
    exact hj (on_unique p hfp hr' hon).1
  · obtain ⟨c, c1, c2, r1, r2, r3, r4⟩ := Nest.widget_on_top_partial h0 p.node P before hg ha ht id r ks hpd p.column p.row
      (by omega) (by omega) (by omega) hseen
    refine ⟨c, r1, fun hne hglyph => ?_⟩
    obtain ⟨k1, k2, k3, k4, k5⟩ := hglyph
    have hcol : cell.col < cell.g.width := column_lt hcell
    obtain ⟨c', e1, e2⟩ := rows_on_canvas_wide_partial hist sh lines title subtitle hatch tint r (by omega) (by omega) hl hfit
      h1 h2 hh c1 (by rw [r2.len, r2.weq, r2.heq])
    rw [hpaint, e1] at r3
    cases r3
    have first := Canvas.clips_within (w := w) (h := h) (x := p.column - cell.col + 0) (y := p.row) (by omega) k3 (by omega)
      (by omega) ks (fun a ha => k5 a ha 0 (by omega))
    have last := Canvas.clips_within (w := w) (h := h) (x := p.column - cell.col + (cell.g.width - 1)) (y := p.row) (by omega)
      k3 (by omega) (by omega) ks (fun a ha => k5 a ha (cell.g.width - 1) (by omega))
    simp only [Canvas.Within] at first last
    have := (e2 _ row _ cell p.column p.row hrow' hcell (by omega) (by omega)
      ⟨by rw [r2.heq, r2.currentClip]; omega, by rw [r2.currentClip]; omega, by rw [r2.weq, r2.currentClip]; omega⟩).2 hne
    rw [r2.weq] at this
    rw [r4]
    exact this

/-! ### A case -/

/-- A line with a link on a wide character. -/
def wideLine : Content.WrappedLine :=
  ⟨Strip.ofSegments [Segment.mk' [⟨"a", 1⟩] none, { Segment.mk' [⟨"本", 2⟩] none with info := [("@click", "app.go")] }], true⟩

theorem wideLine_columns : ∀ line ∈ [wideLine], line.strip.Columns := by
  intro line h
  rw [List.mem_singleton.1 h]
  refine ⟨⟨by decide, rfl⟩, ?_⟩
  unfold Strip.Made MadeSegs
  decide

/-- The second card of the tree of C174 shows it. -/
def wideLinked : Paint where
  leaf _ r := if r = ⟨1, 3, 8, 6⟩ then
    Static.paint {} false (RenderCache.cacheAfter [] ({} : Static.Sheet).frame) [wideLine] none none none none r else []
  before _ _ := []
  over _ _ := []
  after _ _ := []

theorem wideLinked_tidy : Tidy ⟨20, 10⟩ wideLinked Nest.tree ⟨0, 0, 20, 10⟩ := by
  have leaf : ∀ (id : Nat) (r : Region), Nest.Inside r (wideLinked.leaf id r) := by
    intro id r
    by_cases h : r = ⟨1, 3, 8, 6⟩
    · subst h
      refine Nest.lines_inside ⟨1, 3, 8, 6⟩ _ (by decide +kernel) ?_
      unfold Canvas.Measured
      decide +kernel
    · show Nest.Inside r (if _ then _ else [])
      rw [if_neg h]
      exact Nest.nothing_in _
  refine ⟨Nest.nothing_in _, Nest.nothing_in _, Nest.nothing_in _, fun c _ => ?_⟩
  dsimp only
  split
  · exact ⟨Nest.nothing_in _, Nest.nothing_in _, Nest.nothing_in _, fun c _ => leaf _ _⟩
  · exact leaf _ _

/-- A mouse event on that screen. -/
def widePage (k : Press.Kind) (x y : Nat) : Page :=
  { page k x y with
    text := fun _ w h => Static.drawLines {} (RenderCache.cacheAfter [] ({} : Static.Sheet).frame) [wideLine] none none w h }

/-- A press on the right half of the wide character follows its link, and that half is on the screen as its continuation. -/
example : ∃ c0 c, Canvas.new 20 10 = some c0 ∧ c0.run (frame wideLinked ⟨20, 10⟩ Nest.tree) = some c ∧
    (c.cells[3 * 20 + 3]?).map (fun e => (e.symbol, e.continuation)) = some (" ", true) ∧
    (step (after (fun _ => {}) [widePage .moved 2 3]) (widePage (.down .left) 3 3)).1 11 = some "app.go" := by
  obtain ⟨c0, h0⟩ : ∃ c0, Canvas.new 20 10 = some c0 := ⟨_, rfl⟩
  have key := fun row cell => press_on_screen_wide_partial h0 (widePage (.down .left) 3 3) wideLinked [] rfl rfl rfl
    wideLinked_tidy (fun _ => {}) (fun _ => rfl) [widePage .moved 2 3] (by
      intro q hq
      simp only [List.cons_append, List.nil_append, List.mem_cons, List.not_mem_nil, or_false] at hq
      rcases hq with rfl | rfl
      · obtain ⟨a, b, c, d, e, f⟩ := page_fair .moved 2 3 (by decide) (by decide) (by decide)
        exact ⟨a, b, c, d, e, f⟩
      · obtain ⟨a, b, c, d, e, f⟩ := page_fair (.down .left) 3 3 (by decide) (by decide) (by decide)
        exact ⟨a, b, c, d, e, f⟩)
    11 ⟨1, 3, 8, 6⟩ [⟨1, 1, 16, 4⟩, ⟨0, 0, 20, 10⟩] (by decide +kernel)
    (by
      simp only [SeenAt, At, widePage, page, List.mem_cons, List.not_mem_nil, or_false, forall_eq_or_imp, forall_eq]
      omega)
    [] {} [wideLine] none none none none rfl rfl (by unfold RenderCache.NoOutline; decide) (.inr rfl) wideLine_columns
    (by decide) (by rintro t h; cases h) (by rintro t h; cases h) (by rintro t h; cases h) (by rintro t h; cases h)
    (by rintro t h; cases h) row cell
  have hc : (((widePage (.down .left) 3 3).text 11 8 6).rows[0]?.bind fun row => row.cells[2]?).map
      (fun c => (c.g.text, c.col, c.g.width, Static.linkOf c)) = some ("本", 1, 2, some "app.go") := by decide +kernel
  cases hrow : ((widePage (.down .left) 3 3).text 11 8 6).rows[0]? with
  | none => rw [hrow] at hc; cases hc
  | some row =>
    rw [hrow, Option.bind_some] at hc
    cases hcell : row.cells[2]? with
    | none => rw [hcell] at hc; cases hc
    | some cell =>
      rw [hcell] at hc
      simp only [Option.map_some, Option.some.injEq, Prod.mk.injEq] at hc
      obtain ⟨g1, g2, g3, g4⟩ := hc
      obtain ⟨k1, -, c, k2, k3⟩ := key row cell hrow hcell
      refine ⟨c0, c, h0, k2, ?_, k1.trans g4⟩
      have := k3 (by rw [g1]; decide) ⟨by rw [g2]; decide, by rw [g2, g3]; decide, by decide, by decide, by
        intro a ha d hd
        rw [g3] at hd
        rw [g2]
        simp only [List.mem_cons, List.not_mem_nil, or_false] at ha
        rcases ha with rfl | rfl <;> simp only [At, widePage, page] <;> omega⟩
      rw [g2] at this
      exact this

end Textual.LinkClicks
