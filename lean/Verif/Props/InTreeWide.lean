import Verif.Props.InTree
import Verif.Props.LinesWide

/-!
# Text of any width anywhere in the tree is on the screen (C181)

As `Props/InTree.lean`, for characters of one or more columns.
-/

namespace Textual.Nest

open Layout (Placement Viewport)
open Scroller (Mouse At OnScreen Body Apart)
open Canvas (Inv Op Draw OnlyCells Within)

/-- All columns of the glyph that has column `x.col` at `(X, Y)` are on the screen and not clipped away. -/
structure GlyphSeen (w h : Nat) (clips : List Region) (x : StripCell) (X Y : Nat) : Prop where
  left : x.col ≤ X
  right : X - x.col + x.g.width ≤ w
  row : Y < h
  small : w ≤ 65536 ∧ h ≤ 65536
  clips : ∀ a ∈ clips, ∀ d < x.g.width, At a ((X - x.col + d : Nat) : Int) Y

open Static Content in
/-- **C181** (partial: containers as in C174 that draw nothing on their children, characters of at least one column, no
outline). The text of a widget at any depth of containers is on the screen at the end of the frame: its lines lie in the
widget as the style asks for, and each of their characters no part of which is clipped away by a container is in its cells:
the character in the first, the others continue it; and so on the terminal after the flush, if no drawing call cuts a wide
character in two. -/
theorem text_in_tree_wide_partial {w h : Nat} {c0 : Canvas} (h0 : Canvas.new w h = some c0) (n : Node) (P : Paint)
    (before : List Op) (hg : Good ⟨w, h⟩ n ⟨0, 0, w, h⟩) (ha : NoOverlap ⟨w, h⟩ n) (ht : Tidy ⟨w, h⟩ P n ⟨0, 0, w, h⟩)
    (id : Nat) (r : Region) (clips : List Region) (hp : (id, r, clips) ∈ painted ⟨w, h⟩ n ⟨0, 0, w, h⟩ [])
    (hist : List RenderCache.Sheet) (s : Static.Sheet) (lines : List WrappedLine) (title subtitle : Option Strip)
    (hatch : Option Fade.Hatch) (tint : Option RgbaColor)
    (hpaint : P.leaf id r = paint s false (RenderCache.cacheAfter hist s.frame) lines title subtitle hatch tint r)
    (hwr : 0 < r.width) (ho : RenderCache.NoOutline s.frame) (hl : ∀ line ∈ lines, line.strip.Columns)
    (h1 : ∀ t ∈ title, t.Columns) (h2 : ∀ t ∈ subtitle, t.Columns) (hh : ∀ h ∈ hatch, h.width = 1)
    (hbw : 0 < (textBox s.frame title subtitle r).width) (hbh : 0 < (textBox s.frame title subtitle r).height)
    (fw : ∀ line ∈ lines, (line.strip.cellLength : Int) ≤ (textBox s.frame title subtitle r).width)
    (fh : (lines.length : Int) ≤ (textBox s.frame title subtitle r).height) :
    ∃ above below left right block : Nat,
      (above + lines.length + below : Int) = (textBox s.frame title subtitle r).height ∧ SplitV s.alignV above below ∧
      (left + block + right : Int) = (textBox s.frame title subtitle r).width ∧ SplitH s.alignH left right ∧
      (if s.alignH = .left ∧ s.alignV = .top then (block : Int) = (textBox s.frame title subtitle r).width
        else (∀ line ∈ lines, line.strip.cellLength ≤ block) ∧
          (lines ≠ [] → ∃ line ∈ lines, line.strip.cellLength = block)) ∧
      ∀ (i : Nat) (line : WrappedLine), lines[i]? = some line → ¬(s.textAlign = .justify ∧ line.lineEnd = false) →
        ∃ pre post, pre + line.strip.cellLength + post = block ∧ SplitLine s.textAlign pre post ∧
          ∀ (k : Nat) (x : StripCell) (X Y : Nat), line.strip.cells[k]? = some x → x.g.text ≠ " " →
            (X : Int) = (textBox s.frame title subtitle r).x + left + pre + k →
            (Y : Int) = (textBox s.frame title subtitle r).y + above + i → GlyphSeen w h clips x X Y →
            ∃ c, c0.run (before ++ frame P ⟨w, h⟩ n) = some c ∧
              (c.cells[Y * w + X]?).map (fun e => (e.symbol, e.continuation)) =
                some (if x.col = 0 then x.g.text else " ", decide (x.col ≠ 0)) ∧
              ∀ (env : TermEnv) (t t' : Term), env.Ok → env.width " " = 1 → t.w = w → t.h = h →
                Canvas.EveryDraw (fun c d => d.Whole env c) c0 (before ++ frame P ⟨w, h⟩ n) →
                Canvas.session env c0 t (before ++ frame P ⟨w, h⟩ n) = some (c, t') →
                if x.col = 0 then ∃ cols st, (t'.run env c.flush.1).screen (Y * w + X) = .glyph x.g.text cols st
                else ∃ st, (t'.run env c.flush.1).screen (Y * w + X) = .cont st := by
  obtain ⟨above, below, left, right, block, e1, e2, e3, e4, e5, e6⟩ :=
    text_placed_wide hist s lines title subtitle hatch tint r hwr ho hl h1 h2 hh hbw hbh fw fh
  refine ⟨above, below, left, right, block, e1, e2, e3, e4, e5, fun i line hi hj => ?_⟩
  obtain ⟨pre, post, g1, g2, g3⟩ := e6 i line hi hj
  refine ⟨pre, post, g1, g2, fun k x X Y hk hne hX hY hin => ?_⟩
  have hli : i < lines.length := (List.getElem?_eq_some_iff.1 hi).1
  have hki : k < line.strip.cellLength := by
    rw [← (hl line (List.mem_of_getElem? hi)).wf.length]
    exact (List.getElem?_eq_some_iff.1 hk).1
  have hcol : x.col < x.g.width := column_lt hk
  obtain ⟨k1, k2, k3, k4, k5⟩ := hin
  have hXw : X < w := by omega
  have hXs : X < 65536 := by omega
  have hYs : Y < 65536 := by omega
  have hcl : ∀ a ∈ clips, At a X Y := fun a ha => by
    have := k5 a ha x.col hcol
    rwa [Nat.sub_add_cancel k1] at this
  have hseen : SeenAt (id, r, clips) X Y := by
    refine ⟨?_, hcl⟩
    simp only [textBox] at *
    simp only [At]
    omega
  obtain ⟨c, c1, c2, r1, r2, r3, r4⟩ := widget_on_top_partial h0 n P before hg ha ht id r clips hp X Y hXw hXs hYs hseen
  have hcell : (c.cells[Y * w + X]?).map (fun e => (e.symbol, e.continuation)) =
      some (if x.col = 0 then x.g.text else " ", decide (x.col ≠ 0)) := by
    rw [hpaint] at r3
    have first := Canvas.clips_within (w := w) (h := h) (x := X - x.col + 0) (y := Y) (by omega) k3 (by omega) hYs clips
      (fun a ha => k5 a ha 0 (by omega))
    have last := Canvas.clips_within (w := w) (h := h) (x := X - x.col + (x.g.width - 1)) (y := Y) (by omega) k3 (by omega) hYs
      clips (fun a ha => k5 a ha (x.g.width - 1) (by omega))
    simp only [Canvas.Within] at first last
    have := (g3 c1 c2 (by rw [r2.len, r2.weq, r2.heq]) r3 k x X Y hk hX hY
      ⟨by rw [r2.heq, r2.currentClip]; omega, by rw [r2.currentClip]; omega, by rw [r2.weq, r2.currentClip]; omega⟩).2 hne
    rw [r2.weq] at this
    rw [r4]
    exact this
  refine ⟨c, r1, hcell, fun env t t' hj hsp htw hth hnar hses => ?_⟩
  cases hc : c.cells[Y * w + X]? with
  | none => rw [hc] at hcell; cases hcell
  | some cell =>
    rw [hc] at hcell
    have := Canvas.whole_session_flush_shows hj hsp h0 htw hth _ hnar hses X Y cell hc
    rw [this]
    simp only [Option.map_some, Option.some.injEq, Prod.mk.injEq] at hcell
    unfold Canvas.shown
    rw [hcell.1, hcell.2]
    by_cases hz : x.col = 0
    · simp [hz]
    · simp [hz]

/-! ### A case -/

/-- The second card of the tree of C174 shows two lines with wide characters, all other widgets nothing. -/
def widePages : Paint where
  leaf _ r := if r = ⟨1, 3, 8, 6⟩ then
    Static.paint {} false (RenderCache.cacheAfter [] ({} : Static.Sheet).frame) Static.wideTwo none none none none r else []
  before _ _ := []
  over _ _ := []
  after _ _ := []

theorem widePages_tidy : Tidy ⟨20, 10⟩ widePages tree ⟨0, 0, 20, 10⟩ := by
  have leaf : ∀ (id : Nat) (r : Region), Inside r (widePages.leaf id r) := by
    intro id r
    by_cases h : r = ⟨1, 3, 8, 6⟩
    · subst h
      refine lines_inside ⟨1, 3, 8, 6⟩ _ (by decide +kernel) ?_
      unfold Canvas.Measured
      decide +kernel
    · show Inside r (if _ then _ else [])
      rw [if_neg h]
      exact nothing_in _
  refine ⟨nothing_in _, nothing_in _, nothing_in _, fun c _ => ?_⟩
  dsimp only
  split
  · exact ⟨nothing_in _, nothing_in _, nothing_in _, fun c _ => leaf _ _⟩
  · exact leaf _ _

/-- The second character of the first line is in columns 3 and 4 of row 3, in a container that is scrolled. -/
example : ∃ c0, Canvas.new 20 10 = some c0 ∧
    (∃ c, c0.run (frame widePages ⟨20, 10⟩ tree) = some c ∧
      (c.cells[3 * 20 + 3]?).map (fun e => (e.symbol, e.continuation)) = some ("本", false)) ∧
    (∃ c, c0.run (frame widePages ⟨20, 10⟩ tree) = some c ∧
      (c.cells[3 * 20 + 4]?).map (fun e => (e.symbol, e.continuation)) = some (" ", true)) := by
  obtain ⟨c0, h0⟩ : ∃ c0, Canvas.new 20 10 = some c0 := ⟨_, rfl⟩
  obtain ⟨above, below, left, right, block, e1, e2, e3, e4, e5, e6⟩ := text_in_tree_wide_partial h0 tree widePages []
    tree_ok.1 tree_ok.2 widePages_tidy 11 ⟨1, 3, 8, 6⟩ [⟨1, 1, 16, 4⟩, ⟨0, 0, 20, 10⟩] (by decide +kernel) [] {}
    Static.wideTwo none none none none rfl (by decide) (by unfold RenderCache.NoOutline; decide) Static.wideTwo_columns
    (by rintro t h; cases h) (by rintro t h; cases h) (by rintro t h; cases h) (by decide) (by decide) (by decide) (by decide)
  obtain ⟨pre, post, k1, k2, k3⟩ := e6 0 _ rfl (by decide)
  have s2 : above = 0 := e2
  have s4 : left = 0 := e4
  have s6 : pre = 0 := k2
  subst s2 s4 s6
  have seen : ∀ x : StripCell, x.g.width = 2 → ∀ X : Nat, X - x.col = 3 → x.col ≤ X →
      GlyphSeen 20 10 [⟨1, 1, 16, 4⟩, ⟨0, 0, 20, 10⟩] x X 3 := by
    intro x hx X h1 h2
    refine ⟨h2, by omega, by decide, by decide, ?_⟩
    intro a ha d hd
    rw [h1]
    simp only [List.mem_cons, List.not_mem_nil, or_false] at ha
    rcases ha with rfl | rfl <;> simp only [At] <;> omega
  obtain ⟨c, r1, r2, -⟩ := k3 2 _ 3 3 rfl (by decide) (by decide) (by decide) (seen _ rfl _ rfl (by decide))
  obtain ⟨c', r3, r4, -⟩ := k3 3 _ 4 3 rfl (by decide) (by decide) (by decide) (seen _ rfl _ rfl (by decide))
  exact ⟨c0, h0, ⟨c, r1, r2⟩, ⟨c', r3, r4⟩⟩

end Textual.Nest
