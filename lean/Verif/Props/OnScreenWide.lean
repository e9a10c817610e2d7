import Verif.Lemmas.Measured
import Verif.Props.OnScreen
import Verif.Props.Painted
import Mathlib.Tactic.Common

/-!
# C178 for characters of any width: every column of a text that fits is on the canvas where its style puts it
-/

namespace Textual

open Canvas (OnlyCells Within DrawSeg Put strPuts stripPuts stripsPuts)

/-! ### Specification -/

/-- What a column of a line makes of a canvas cell: the glyph in its first column, nothing of its own in the others, the
colours and attributes of its style in all; a plain blank in a translucent background only tints. -/
def columnOn (k : StripCell) (old : Cell) : Cell :=
  let st := k.style.getD {}
  let bg := resolveBackground st.bg old.bg
  if k.g.text = " " ∧ k.g.width = 1 ∧ st = { bg := st.bg } ∧ (∃ b ∈ st.bg, 0 < b.a ∧ b.a < 1) then { old with bg := bg }
  else ⟨if k.col = 0 then k.g.text else " ", if k.col = 0 then k.g.width else 0, k.col ≠ 0,
    st.fg.map toCrosstermColor, bg, st.attrs⟩

/-- All columns of the glyph one of whose columns is at `(X, Y)` lie inside canvas and clip. -/
structure GlyphInside (c : Canvas) (k : StripCell) (X Y : Nat) : Prop where
  row : Y < c.h ∧ c.currentClip.y ≤ Y ∧ (Y : Int) < c.currentClip.y + c.currentClip.height
  left : k.col ≤ X ∧ c.currentClip.x ≤ (X : Int) - k.col
  right : X - k.col + k.g.width ≤ c.w ∧ (X : Int) - k.col + k.g.width ≤ c.currentClip.x + c.currentClip.width

/-- A line of characters of at least one column, blanks of one. -/
structure Strip.Columns (s : Strip) : Prop where
  wf : s.WF
  made : s.Made fun g => 1 ≤ g.width ∧ (g.text = " " → g.width = 1)

/-! ### Columns and puts -/

theorem text_put (st : Option Style) (info : Meta) (fg : Option Rgb) (bg : Option RgbaColor) (a : Attrs) (y : Int) :
    ∀ (t : List Grapheme) (x : Int) (i : Nat) (k : StripCell), (textCells st info t)[i]? = some k →
      (⟨x + i - k.col, y, k.g, fg, bg, a⟩ : Put) ∈ strPuts x y fg bg a t ∧ k.style = st
  | [], x, i, k, h => by simp [textCells] at h
  | g :: t, x, i, k, h => by
    have e : textCells st info (g :: t) = ((List.range g.width).map fun c => (⟨g, c, st, info⟩ : StripCell)) ++ textCells st info t := by
      unfold textCells; rw [List.flatMap_cons]
    rw [e] at h
    by_cases hi : i < g.width
    · rw [List.getElem?_append_left (by simpa using hi), List.getElem?_map, List.getElem?_range hi] at h
      simp only [Option.map_some, Option.some.injEq] at h
      subst h
      refine ⟨?_, rfl⟩
      dsimp only
      rw [show x + (i : Int) - i = x by omega]
      exact List.mem_cons_self
    · rw [List.getElem?_append_right (by simpa using hi), List.length_map, List.length_range] at h
      obtain ⟨h1, h2⟩ := text_put st info fg bg a y t (x + g.width) (i - g.width) k h
      refine ⟨List.mem_cons_of_mem _ ?_, h2⟩
      rw [show x + (i : Int) - k.col = x + g.width + ((i - g.width : Nat) : Int) - k.col by omega]
      exact h1

/-- The put of a column at `(X, Y)`. -/
def putOf (k : StripCell) (X Y : Int) : Put :=
  ⟨X - k.col, Y, k.g, (k.style.getD {}).fg.map toCrosstermColor, (k.style.getD {}).bg, (k.style.getD {}).attrs⟩

theorem line_put (y : Int) : ∀ (l : List Segment) (x : Int) (i : Nat) (k : StripCell), MeasSegs l →
    (segCells l)[i]? = some k → putOf k (x + i) y ∈ stripPuts x y (l.map Segment.toDraw)
  | [], x, i, k, _, h => by simp [segCells] at h
  | s :: l, x, i, k, hm, h => by
    have h0 := hm s List.mem_cons_self
    have hw : (textCells s.style s.info s.text).length = widthOf s.text := textCells_length ..
    rw [segCells_cons] at h
    show _ ∈ strPuts .. ++ stripPuts ..
    by_cases hi : i < widthOf s.text
    · rw [List.getElem?_append_left (by omega)] at h
      obtain ⟨h1, h2⟩ := text_put s.style s.info (s.toDraw.fg.map toCrosstermColor) s.toDraw.bg s.toDraw.attrs y s.text x i k h
      refine List.mem_append_left _ ?_
      obtain ⟨e1, e2, e3⟩ := toDraw_fields s
      unfold putOf
      rw [h2, ← e1, ← e2, ← e3]
      exact h1
    · rw [List.getElem?_append_right (by omega), hw] at h
      have := line_put y l (x + widthOf s.text) (i - widthOf s.text) k (fun s' h' => hm s' (List.mem_cons_of_mem _ h')) h
      refine List.mem_append_right _ ?_
      rw [show x + (i : Int) = x + widthOf s.text + ((i - widthOf s.text : Nat) : Int) by omega]
      exact this

theorem rows_put (x : Int) : ∀ (rows : List Strip) (y : Int) (j i : Nat) (row : Strip) (k : StripCell),
    (∀ row ∈ rows, row.WF) → rows[j]? = some row → row.cells[i]? = some k →
    putOf k (x + i) (y + j) ∈ stripsPuts x y (rows.map Strip.toDraw)
  | [], y, j, i, row, k, _, hj, _ => by simp at hj
  | r :: rows, y, j, i, row, k, hr, hj, hk => by
    show _ ∈ stripPuts .. ++ stripsPuts ..
    cases j with
    | zero =>
      simp only [List.getElem?_cons_zero, Option.some.injEq] at hj
      subst hj
      refine List.mem_append_left _ ?_
      rw [show y + ((0 : Nat) : Int) = y by omega]
      exact line_put y r.segments x i k (hr r List.mem_cons_self).seg hk
    | succ j =>
      rw [List.getElem?_cons_succ] at hj
      refine List.mem_append_right _ ?_
      rw [show y + ((j + 1 : Nat) : Int) = y + 1 + j by omega]
      exact rows_put x rows (y + 1) j i row k (fun q hq => hr q (List.mem_cons_of_mem _ hq)) hj hk

theorem strPuts_g {x y fg bg a} : ∀ {t : List Grapheme} {p : Put}, p ∈ strPuts x y fg bg a t → p.g ∈ t
  | [], p, h => by cases h
  | g :: t, p, h => by
    rcases List.mem_cons.1 h with rfl | h
    · exact List.mem_cons_self
    · exact List.mem_cons_of_mem _ (strPuts_g h)

theorem stripPuts_g {y} : ∀ {l : List DrawSeg} {x : Int} {p : Put}, p ∈ stripPuts x y l → ∃ s ∈ l, p.g ∈ s.text
  | [], x, p, h => by cases h
  | s :: l, x, p, h => by
    rcases List.mem_append.1 h with h | h
    · exact ⟨s, List.mem_cons_self, strPuts_g h⟩
    · obtain ⟨s', h1, h2⟩ := stripPuts_g h
      exact ⟨s', List.mem_cons_of_mem _ h1, h2⟩

theorem stripsPuts_g {x} : ∀ {l : List (List DrawSeg)} {y : Int} {p : Put}, p ∈ stripsPuts x y l → ∃ r ∈ l, ∃ s ∈ r, p.g ∈ s.text
  | [], x, p, h => by cases h
  | r :: l, y, p, h => by
    rcases List.mem_append.1 h with h | h
    · exact ⟨r, List.mem_cons_self, stripPuts_g h⟩
    · obtain ⟨s', h1, h2⟩ := stripsPuts_g h
      exact ⟨s', List.mem_cons_of_mem _ h1, h2⟩

theorem column_lt {l : List Segment} {i : Nat} {k : StripCell} (h : (segCells l)[i]? = some k) : k.col < k.g.width := by
  obtain ⟨seg, _, hx⟩ := List.mem_flatMap.1 (List.mem_of_getElem? h)
  exact (Fade.mem_textCells hx).2.2.2

theorem glass_style (k : StripCell) (X Y : Int) : (putOf k X Y).Glass ↔
    k.g.text = " " ∧ k.g.width = 1 ∧ k.style.getD {} = { bg := (k.style.getD {}).bg } ∧
      (∃ b ∈ (k.style.getD {}).bg, 0 < b.a ∧ b.a < 1) := by
  unfold Put.Glass putOf
  dsimp only
  generalize k.style.getD {} = st
  obtain ⟨fg, bg, b, d, i, u, s, r⟩ := st
  constructor
  · rintro ⟨h1, h2, h3, h4, c, rfl, h5, h6⟩
    rw [Option.map_eq_none_iff] at h3
    dsimp only at h3
    subst h3
    cases h4
    exact ⟨h1, h2, rfl, c, rfl, h5, h6⟩
  · rintro ⟨h1, h2, h3, c, hc, h5, h6⟩
    simp only [Style.mk.injEq] at h3
    obtain ⟨rfl, -, rfl, rfl, rfl, rfl, rfl, rfl⟩ := h3
    exact ⟨h1, h2, rfl, rfl, c, hc, h5, h6⟩

/-- **C178** (characters of any width): drawing rows shows every column of every glyph that lies wholly inside canvas and
clip. -/
theorem rows_drawn_wide (rows : List Strip) (hr : ∀ row ∈ rows, row.WF ∧ row.Made (1 ≤ ·.width)) (c : Canvas)
    (hc : c.cells.length = c.w * c.h) (x y : Int) :
    ∃ c', c.renderStrips x y (rows.map Strip.toDraw) = some c' ∧
      ∀ (i j X Y : Nat) (row : Strip) (k : StripCell), rows[j]? = some row → row.cells[i]? = some k →
        (X : Int) = x + i → (Y : Int) = y + j → GlyphInside c k X Y →
        c'.cells[Y * c.w + X]? = (c.cells[Y * c.w + X]?).map (columnOn k) := by
  have hm : (Canvas.Draw.strips x y (rows.map Strip.toDraw)).Measured := by
    intro l hl seg hs
    obtain ⟨row, h1, rfl⟩ := List.mem_map.1 hl
    obtain ⟨s, h2, rfl⟩ := List.mem_map.1 hs
    exact (hr row h1).1.seg s h2
  have h1 : ∀ p ∈ (Canvas.Draw.strips x y (rows.map Strip.toDraw)).puts, 1 ≤ p.g.width := by
    intro p hp
    obtain ⟨l, hl, seg, hs, hg⟩ := stripsPuts_g hp
    obtain ⟨row, h1, rfl⟩ := List.mem_map.1 hl
    obtain ⟨s, h2, rfl⟩ := List.mem_map.1 hs
    exact (hr row h1).2 s h2 _ hg
  obtain ⟨cs, a1, _, a3, a4, _⟩ := Canvas.draw_exact_partial c hc _ hm h1
  refine ⟨_, a1, ?_⟩
  intro i j X Y row k hj hk hX hY hin
  obtain ⟨⟨r1, r2, r3⟩, ⟨l1, l2⟩, ⟨u1, u2⟩⟩ := hin
  have hlt : k.col < k.g.width := column_lt hk
  have hmem := rows_put x rows y j i row k (fun row h => (hr row h).1) hj hk
  rw [← hX, ← hY] at hmem
  have hs : (putOf k X Y).start c = Y * c.w + (X - k.col) := by
    unfold Put.start putOf
    dsimp only
    congr 1
    · omega
  have hcov : (putOf k X Y).Covers c (Y * c.w + X) := by
    refine ⟨?_, by rw [hs]; omega, by rw [hs]; show _ < _ + k.g.width; omega⟩
    unfold Put.Visible putOf
    dsimp only
    omega
  show cs[Y * c.w + X]? = _
  by_cases hg : (putOf k X Y).Glass
  · rw [a4 _ hmem hg _ hcov]
    congr 1
    funext old
    unfold columnOn
    dsimp only
    rw [if_pos ((glass_style k X Y).1 hg)]
    rfl
  · rw [a3 _ hmem hg _ hcov, hs, show Y * c.w + X - (Y * c.w + (X - k.col)) = k.col by omega]
    congr 1
    funext old
    unfold columnOn
    dsimp only
    rw [if_neg fun h => hg ((glass_style k X Y).2 h)]
    rfl

/-! ### Hatch and tint -/

theorem textCells_mapped (st st' : Option Style) (info info' : Meta) (φ : Grapheme → Grapheme) : ∀ (t : List Grapheme),
    (∀ g ∈ t, (φ g).width = g.width) →
    textCells st' info' (t.map φ) = (textCells st info t).map fun k => ⟨φ k.g, k.col, st', info'⟩
  | [], _ => rfl
  | g :: t, h => by
    have ih := textCells_mapped st st' info info' φ t fun g' h' => h g' (List.mem_cons_of_mem _ h')
    unfold textCells at ih ⊢
    rw [List.map_cons, List.flatMap_cons, List.flatMap_cons, List.map_append, ih, h g List.mem_cons_self, List.map_map]
    rfl

/-- Changing the segments one by one, each character into one of the same width. -/
theorem segs_mapped (f : Segment → Segment) (φ : Grapheme → Grapheme) : ∀ (l : List Segment), MeasSegs l →
    (∀ seg ∈ l, (f seg).text = seg.text.map φ) → (∀ seg ∈ l, (f seg).cellLength = seg.cellLength) →
    (∀ seg ∈ l, ∀ g ∈ seg.text, (φ g).width = g.width) →
    MeasSegs (l.map f) ∧ ∀ (i : Nat) (k : StripCell), (segCells l)[i]? = some k →
      ∃ k', (segCells (l.map f))[i]? = some k' ∧ k'.g = φ k.g ∧ k'.col = k.col
  | [], _, _, _, _ => ⟨.nil, fun i k h => by simp [segCells] at h⟩
  | s :: l, hm, h1, h2, h3 => by
    have hw := h3 s List.mem_cons_self
    obtain ⟨a, b⟩ := segs_mapped f φ l (fun q hq => hm q (List.mem_cons_of_mem _ hq)) (fun q hq => h1 q (List.mem_cons_of_mem _ hq))
      (fun q hq => h2 q (List.mem_cons_of_mem _ hq)) (fun q hq => h3 q (List.mem_cons_of_mem _ hq))
    have hwid : widthOf (s.text.map φ) = widthOf s.text := by
      unfold widthOf
      rw [List.map_map]
      congr 1
      exact List.map_congr_left hw
    refine ⟨.cons (by rw [h2 s List.mem_cons_self, h1 s List.mem_cons_self, hwid, hm s List.mem_cons_self]) a, ?_⟩
    intro i k hk
    rw [List.map_cons, segCells_cons, h1 s List.mem_cons_self,
      textCells_mapped s.style (f s).style s.info (f s).info φ s.text hw]
    rw [segCells_cons] at hk
    by_cases hi : i < (textCells s.style s.info s.text).length
    · rw [List.getElem?_append_left hi] at hk
      rw [List.getElem?_append_left (by rw [List.length_map]; exact hi), List.getElem?_map, hk]
      exact ⟨_, rfl, rfl, rfl⟩
    · rw [List.getElem?_append_right (by omega)] at hk
      rw [List.getElem?_append_right (by rw [List.length_map]; omega), List.length_map]
      exact b _ k hk

namespace Fade

/-- Hatch and tint keep the glyphs that are no blanks, column by column. -/
theorem finish_columns {s : Strip} (hs : s.Columns) (top bottom height : Nat) (hatch : Option Hatch)
    (hh : ∀ h ∈ hatch, h.width = 1) (tint : Option RgbaColor) (y : Nat) :
    ((finish top bottom height hatch tint y s).WF ∧ (finish top bottom height hatch tint y s).Made (1 ≤ ·.width)) ∧
    ∀ (i : Nat) (k : StripCell), s.cells[i]? = some k → k.g.text ≠ " " →
      ∃ k', (finish top bottom height hatch tint y s).cells[i]? = some k' ∧ k'.g = k.g ∧ k'.col = k.col := by
  have made : s.Made (1 ≤ ·.width) := fun seg h g hg => (hs.made seg h g hg).1
  have kept : ∀ (i : Nat) (k : StripCell), s.cells[i]? = some k → k.g.text ≠ " " →
      ∃ k', s.cells[i]? = some k' ∧ k'.g = k.g ∧ k'.col = k.col := fun i k h _ => ⟨k, h, rfl, rfl⟩
  have first : ((finish top bottom height hatch none y s).WF ∧ (finish top bottom height hatch none y s).Made (1 ≤ ·.width)) ∧
      ∀ (i : Nat) (k : StripCell), s.cells[i]? = some k → k.g.text ≠ " " →
        ∃ k', (finish top bottom height hatch none y s).cells[i]? = some k' ∧ k'.g = k.g ∧ k'.col = k.col := by
    cases hatch with
    | none => exact ⟨⟨hs.wf, made⟩, kept⟩
    | some h =>
      unfold finish
      dsimp only
      split
      · have hfill : ∀ seg ∈ s.segments, ∀ g ∈ seg.text, (h.fill g).width = g.width := fun seg hq g hg =>
          fill_width h (hh h rfl) (hs.made seg hq g hg).2
        obtain ⟨a, b⟩ := segs_mapped (hatchSegment h) h.fill s.segments hs.wf.seg (fun seg _ => (hatchSegment_text h seg).1)
          (fun seg _ => (hatchSegment_text h seg).2) hfill
        refine ⟨⟨Strip.ofSegments_wf a, ?_⟩, ?_⟩
        · intro seg hq g hg
          obtain ⟨seg', hq', rfl⟩ := List.mem_map.1 hq
          rw [(hatchSegment_text h seg').1] at hg
          obtain ⟨g', hg', rfl⟩ := List.mem_map.1 hg
          rw [hfill seg' hq' g' hg']
          exact made seg' hq' g' hg'
        · intro i k hk hne
          obtain ⟨k', b1, b2, b3⟩ := b i k hk
          exact ⟨k', b1, by rw [b2]; exact if_neg hne, b3⟩
      · exact ⟨⟨hs.wf, made⟩, kept⟩
  obtain ⟨⟨f1, f2⟩, f3⟩ := first
  cases tint with
  | none => exact ⟨⟨f1, f2⟩, f3⟩
  | some t =>
    show (((finish top bottom height hatch none y s).applyTint t).WF ∧ ((finish top bottom height hatch none y s).applyTint t).Made _) ∧
      ∀ (i : Nat) (k : StripCell), s.cells[i]? = some k → k.g.text ≠ " " →
        ∃ k', ((finish top bottom height hatch none y s).applyTint t).cells[i]? = some k' ∧ k'.g = k.g ∧ k'.col = k.col
    generalize finish top bottom height hatch none y s = q at *
    unfold Strip.applyTint
    split
    · exact ⟨⟨f1, f2⟩, f3⟩
    · obtain ⟨a, b⟩ := segs_mapped (·.applyTint t) id q.segments f1.seg (fun seg _ => (applyTint_text t seg).1)
        (fun seg _ => (applyTint_text t seg).2) (fun _ _ _ _ => rfl)
      refine ⟨⟨Strip.ofSegments_wf a, ?_⟩, ?_⟩
      · intro seg hq g hg
        obtain ⟨seg', hq', rfl⟩ := List.mem_map.1 hq
        rw [(applyTint_text t seg').1, List.map_id] at hg
        exact f2 seg' hq' g hg
      · intro i k hk hne
        obtain ⟨k', b1, b2, b3⟩ := f3 i k hk hne
        obtain ⟨k2, c1, c2, c3⟩ := b i k' b1
        exact ⟨k2, c1, c2.trans b2, c3.trans b3⟩

end Fade

/-! ### Text widgets -/

namespace Static

open Content (WrappedLine asciiWs)
open RenderCache (cacheAfter Cache Kind Room NoOutline PlainRow)

theorem columns_plain : RenderCache.Plain fun g => 1 ≤ g.width ∧ (g.text = " " → g.width = 1) :=
  fun _ => ⟨Nat.le_refl _, fun _ => rfl⟩

/-- The rows of a text widget with lines of any characters that fit. -/
theorem rows_columns (hist : List RenderCache.Sheet) (s : Sheet) (lines : List WrappedLine) (title subtitle : Option Strip)
    (w h : Nat) (hl : ∀ line ∈ lines, line.strip.Columns)
    (hf : ∀ line ∈ lines, line.strip.cellLength ≤ ((cacheAfter hist s.frame).innerSize w h).1)
    (h1 : ∀ t ∈ title, t.Columns) (h2 : ∀ t ∈ subtitle, t.Columns) :
    ∀ row ∈ (drawLines s (cacheAfter hist s.frame) lines title subtitle w h).rows, row.Columns := by
  intro row hrow
  unfold drawLines at hrow
  dsimp only at hrow
  obtain ⟨y, hy, rfl⟩ := List.mem_map.1 hrow
  generalize hal : alignContent s lines _ _ = aligned
  have ha : ∀ r ∈ aligned, r.Columns := by
    rw [← hal]
    intro r hr'
    refine ⟨?_, alignContent_made (columns_plain _) s lines _ _ (fun line h => (hl line h).made) r hr'⟩
    exact (alignContent_width s lines _ _ (fun line hm => ⟨(hl line hm).wf,
      fun seg hs g hg => ((hl line hm).made seg hs g hg).2, onBoundary_beyond (hl line hm).wf (hf line hm)⟩) r hr').1
  generalize ((cacheAfter hist s.frame).top || (cacheAfter hist s.frame).right || (cacheAfter hist s.frame).bottom ||
    (cacheAfter hist s.frame).left) = any
  have h1' : ∀ t, (if any = true then title else none) = some t → t.Columns := by
    split
    · exact h1
    · rintro t e; cases e
  have h2' : ∀ t, (if any = true then subtitle else none) = some t → t.Columns := by
    split
    · exact h2
    · rintro t e; cases e
  have key : ∀ content : Option Strip, (∀ l, content = some l → l.Columns) →
      ((cacheAfter hist s.frame).renderLine y h w content (if any = true then title else none)
        (if any = true then subtitle else none)).Columns := fun content hcont =>
    ⟨RenderCache.renderLine_wf _ (RenderCache.cacheAfter_sound hist s.frame) y h w (fun s e => (hcont s e).wf)
      (fun s e => (h1' s e).wf) (fun s e => (h2' s e).wf),
     RenderCache.renderLine_made columns_plain _ (RenderCache.cacheAfter_sound hist s.frame) y h w
      (fun s e => (hcont s e).made) (fun s e => (h1' s e).made) (fun s e => (h2' s e).made)⟩
  refine key _ ?_
  intro l hm
  split at hm
  · exact ha l (List.mem_of_getElem? hm)
  · cases hm

/-- **C178** (characters of any width): drawing a text widget whose lines fit shows each glyph of its rows that lies wholly
inside canvas and clip. -/
theorem rows_on_canvas_wide_partial (hist : List RenderCache.Sheet) (s : Sheet) (lines : List WrappedLine)
    (title subtitle : Option Strip) (hatch : Option Fade.Hatch) (tint : Option RgbaColor) (r : Region)
    (hw : 0 < r.width) (hht : 0 < r.height) (hl : ∀ line ∈ lines, line.strip.Columns)
    (hf : ∀ line ∈ lines, line.strip.cellLength ≤ ((cacheAfter hist s.frame).innerSize r.width.toNat r.height.toNat).1)
    (h1 : ∀ t ∈ title, t.Columns) (h2 : ∀ t ∈ subtitle, t.Columns) (hh : ∀ h ∈ hatch, h.width = 1)
    (c : Canvas) (hc : c.cells.length = c.w * c.h) :
    ∃ c', c.run ((paint s false (cacheAfter hist s.frame) lines title subtitle hatch tint r).map .draw) = some c' ∧
      ∀ (j : Nat) (row : Strip) (i : Nat) (k : StripCell) (X Y : Nat),
        (drawLines s (cacheAfter hist s.frame) lines title subtitle r.width.toNat r.height.toNat).rows[j]? = some row →
        row.cells[i]? = some k → (X : Int) = r.x + i → (Y : Int) = r.y + j → GlyphInside c k X Y →
        (hatch = none → tint = none → c'.cells[Y * c.w + X]? = (c.cells[Y * c.w + X]?).map (columnOn k)) ∧
        (k.g.text ≠ " " → (c'.cells[Y * c.w + X]?).map (fun e => (e.symbol, e.continuation)) =
          some (if k.col = 0 then k.g.text else " ", decide (k.col ≠ 0))) := by
  have e2 := rows_columns hist s lines title subtitle r.width.toNat r.height.toNat hl hf h1 h2
  unfold paint
  rw [if_neg (by decide), if_neg (by omega)]
  dsimp only
  generalize hrows : (drawLines s (cacheAfter hist s.frame) lines title subtitle r.width.toNat r.height.toNat).rows = rows at *
  generalize RenderCache.one (cacheAfter hist s.frame).top = bt at *
  generalize RenderCache.one (cacheAfter hist s.frame).bottom = bb at *
  obtain ⟨c2, f1, f2⟩ := rows_drawn_wide (rows.mapIdx fun y row => Fade.finish bt bb r.height.toNat hatch tint y row) (by
    intro row hrow
    obtain ⟨y, hy, rfl⟩ := List.mem_mapIdx.1 hrow
    exact (Fade.finish_columns (e2 _ (List.getElem_mem hy)) bt bb r.height.toNat hatch hh tint y).1) c hc r.x r.y
  refine ⟨c2, ?_, ?_⟩
  · simp only [List.map_cons, List.map_nil, Canvas.run, Canvas.step, Canvas.draw, f1, Option.bind_some]
  intro j row i k X Y hj hk hX hY hin
  have hrow := List.mem_of_getElem? hj
  obtain ⟨_, k3⟩ := Fade.finish_columns (e2 row hrow) bt bb r.height.toNat hatch hh tint j
  have hj' : (rows.mapIdx fun y row => Fade.finish bt bb r.height.toNat hatch tint y row)[j]? =
      some (Fade.finish bt bb r.height.toNat hatch tint j row) := by rw [List.getElem?_mapIdx, hj]; rfl
  constructor
  · rintro rfl rfl
    exact f2 i j X Y row k (by rw [hj']; rfl) hk hX hY hin
  · intro hne
    obtain ⟨k', a, b, d⟩ := k3 i k hk hne
    rw [f2 i j X Y _ k' hj' a hX hY ⟨hin.row, by rw [d]; exact hin.left, by rw [b, d]; exact hin.right⟩]
    have hi : Y * c.w + X < c.cells.length := by
      rw [hc]
      have := hin.left.1
      have := hin.right.1
      have := column_lt hk
      exact Canvas.index_lt (by omega) hin.row.1
    rw [List.getElem?_eq_getElem hi, Option.map_some, Option.map_some]
    unfold columnOn
    dsimp only
    rw [b, d, if_neg fun h => hne h.1]

/-- Where the glyphs of a text that fits are drawn, on any canvas. -/
theorem text_placed_wide (hist : List RenderCache.Sheet) (s : Sheet) (lines : List WrappedLine)
    (title subtitle : Option Strip) (hatch : Option Fade.Hatch) (tint : Option RgbaColor) (r : Region)
    (hwr : 0 < r.width) (ho : NoOutline s.frame)
    (hl : ∀ line ∈ lines, line.strip.Columns)
    (h1 : ∀ t ∈ title, t.Columns) (h2 : ∀ t ∈ subtitle, t.Columns) (hh : ∀ h ∈ hatch, h.width = 1)
    (hbw : 0 < (textBox s.frame title subtitle r).width) (hbh : 0 < (textBox s.frame title subtitle r).height)
    (fw : ∀ line ∈ lines, (line.strip.cellLength : Int) ≤ (textBox s.frame title subtitle r).width)
    (fh : (lines.length : Int) ≤ (textBox s.frame title subtitle r).height) :
    ∃ above below left right block : Nat,
      (above + lines.length + below : Int) = (textBox s.frame title subtitle r).height ∧ SplitV s.alignV above below ∧
      (left + block + right : Int) = (textBox s.frame title subtitle r).width ∧ SplitH s.alignH left right ∧
      (if s.alignH = .left ∧ s.alignV = .top then (block : Int) = (textBox s.frame title subtitle r).width
        else (∀ line ∈ lines, line.strip.cellLength ≤ block) ∧
          (lines ≠ [] → ∃ line ∈ lines, line.strip.cellLength = block)) ∧
      ∀ (i : Nat) (line : WrappedLine), lines[i]? = some line → ¬(s.textAlign = .justify ∧ line.lineEnd = false) →
        ∃ before after, before + line.strip.cellLength + after = block ∧ SplitLine s.textAlign before after ∧
          ∀ (c c' : Canvas), c.cells.length = c.w * c.h →
            c.run ((paint s false (cacheAfter hist s.frame) lines title subtitle hatch tint r).map .draw) = some c' →
            ∀ (k : Nat) (x : StripCell) (X Y : Nat), line.strip.cells[k]? = some x →
              (X : Int) = (textBox s.frame title subtitle r).x + left + before + k →
              (Y : Int) = (textBox s.frame title subtitle r).y + above + i → GlyphInside c x X Y →
              (hatch = none → tint = none → c'.cells[Y * c.w + X]? = (c.cells[Y * c.w + X]?).map (columnOn x)) ∧
              (x.g.text ≠ " " → (c'.cells[Y * c.w + X]?).map (fun e => (e.symbol, e.continuation)) =
                some (if x.col = 0 then x.g.text else " ", decide (x.col ≠ 0))) := by
  obtain ⟨f1, f2, f3, f4, f5, f6, f7, f8, _⟩ := RenderCache.cacheAfter_fields hist s.frame
  have inner := RenderCache.inner_size_exact hist s.frame r.width.toNat r.height.toNat
  have hany : ((cacheAfter hist s.frame).top || (cacheAfter hist s.frame).right || (cacheAfter hist s.frame).bottom ||
      (cacheAfter hist s.frame).left) = anyBorder s.frame := by rw [f1, f2, f3, f4]; rfl
  have hrt : reserve (cacheAfter hist s.frame).top (anyBorder s.frame) title =
      labelRow s.frame s.frame.border.top.kind title := by
    unfold reserve labelRow; rw [f1]; congr 1; exact propext ⟨fun ⟨a, b, c⟩ => ⟨b, a, c⟩, fun ⟨b, a, c⟩ => ⟨a, b, c⟩⟩
  have hrb : reserve (cacheAfter hist s.frame).bottom (anyBorder s.frame) subtitle =
      labelRow s.frame s.frame.border.bottom.kind subtitle := by
    unfold reserve labelRow; rw [f2]; congr 1; exact propext ⟨fun ⟨a, b, c⟩ => ⟨b, a, c⟩, fun ⟨b, a, c⟩ => ⟨a, b, c⟩⟩
  have hrt1 : labelRow s.frame s.frame.border.top.kind title = 0 → s.frame.border.top.kind.horizontal = false →
      (if anyBorder s.frame = true then title else none) = none := by
    intro e e2
    unfold labelRow at e
    split
    · rename_i ha
      cases title with
      | none => rfl
      | some t => rw [if_pos ⟨ha, e2, rfl⟩] at e; omega
    · rfl
  have hrb1 : labelRow s.frame s.frame.border.bottom.kind subtitle = 0 → s.frame.border.bottom.kind.horizontal = false →
      (if anyBorder s.frame = true then subtitle else none) = none := by
    intro e e2
    unfold labelRow at e
    split
    · rename_i ha
      cases subtitle with
      | none => rfl
      | some t => rw [if_pos ⟨ha, e2, rfl⟩] at e; omega
    · rfl
  have canvas := rows_on_canvas_wide_partial hist s lines title subtitle hatch tint r
    hwr (by simp only [textBox] at hbh; omega) hl
    (by
      intro line hm
      have := fw line hm
      rw [inner]
      simp only [textBox] at this
      show _ ≤ r.width.toNat - (edgeOf _ + edgeOf _ + _ + _)
      omega) h1 h2 hh
  have bx : (textBox s.frame title subtitle r).x = r.x + edgeOf s.frame.border.left.kind.vertical + s.frame.paddingLeft := rfl
  have by' : (textBox s.frame title subtitle r).y = r.y + edgeOf s.frame.border.top.kind.horizontal + s.frame.paddingTop +
    labelRow s.frame s.frame.border.top.kind title := rfl
  have bw : (textBox s.frame title subtitle r).width = r.width - edgeOf s.frame.border.left.kind.vertical -
    edgeOf s.frame.border.right.kind.vertical - s.frame.paddingLeft - s.frame.paddingRight := rfl
  have bh : (textBox s.frame title subtitle r).height = r.height - edgeOf s.frame.border.top.kind.horizontal -
    edgeOf s.frame.border.bottom.kind.horizontal - s.frame.paddingTop - s.frame.paddingBottom -
    labelRow s.frame s.frame.border.top.kind title - labelRow s.frame s.frame.border.bottom.kind subtitle := rfl
  generalize textBox s.frame title subtitle r = box at *
  generalize labelRow s.frame s.frame.border.top.kind title = rt at *
  generalize labelRow s.frame s.frame.border.bottom.kind subtitle = rb at *
  have iw : ((cacheAfter hist s.frame).innerSize r.width.toNat r.height.toNat).1 = box.width.toNat := by
    rw [inner, bw]
    show r.width.toNat - (edgeOf _ + edgeOf _ + _ + _) = _
    omega
  have ih : ((cacheAfter hist s.frame).innerSize r.width.toNat r.height.toNat).2 - (rt + rb) = box.height.toNat := by
    rw [inner, bh]
    show r.height.toNat - (edgeOf _ + edgeOf _ + _ + _) - _ = _
    omega
  obtain ⟨above, below, left, right, block, a1, a2, a3, a4, a5, a6, a7⟩ := align_places s lines box.width.toNat box.height.toNat
    (by omega) (by omega) (fun line h => ⟨(hl line h).wf, fun seg hs g hg => ((hl line h).made seg hs g hg).2⟩)
    (fun line h => by have := fw line h; omega) (by omega)
  refine ⟨above, below, left, right, block, by omega, a2, by omega, a4, ?_, ?_⟩
  · split
    · rename_i hc; rw [if_pos hc] at a5; omega
    · rename_i hc; rwa [if_neg hc] at a5
  intro i line hi hj
  obtain ⟨row, b1, b2, b3⟩ := a7 i line hi
  obtain ⟨before, after, d1, d2, d3⟩ := b3 hj
  refine ⟨before, after, d1, d2, ?_⟩
  intro c c' hc run k x X Y hk hX hY hin
  obtain ⟨c2, run2, shows⟩ := canvas c hc
  rw [run] at run2
  cases run2
  have hlt := (List.getElem?_eq_some_iff.1 hi).1
  have hklen : k < line.strip.cells.length := (List.getElem?_eq_some_iff.1 hk).1
  have hcl : line.strip.cells.length = line.strip.cellLength := (hl line (List.mem_of_getElem? hi)).wf.length
  -- the row of the widget
  obtain ⟨top, htop'⟩ : ∃ top, top = edgeOf s.frame.border.top.kind.horizontal + s.frame.paddingTop + rt := ⟨_, rfl⟩
  obtain ⟨bot, hbot'⟩ : ∃ bot, bot = edgeOf s.frame.border.bottom.kind.horizontal + s.frame.paddingBottom + rb := ⟨_, rfl⟩
  have htop : RenderCache.one (cacheAfter hist s.frame).top + (cacheAfter hist s.frame).paddingTop + rt = top := by
    rw [f1, f7, htop']; rfl
  have hbot : RenderCache.one (cacheAfter hist s.frame).bottom + (cacheAfter hist s.frame).paddingBottom + rb = bot := by
    rw [f2, f8, hbot']; rfl
  have hdraw : (drawLines s (cacheAfter hist s.frame) lines title subtitle r.width.toNat r.height.toNat).rows[top + (above + i)]? =
      some ((cacheAfter hist s.frame).renderLine (top + (above + i)) r.height.toNat r.width.toNat (some row)
        (if anyBorder s.frame = true then title else none) (if anyBorder s.frame = true then subtitle else none)) := by
    unfold drawLines
    dsimp only
    rw [hany, hrt, hrb, htop, hbot, iw, ih, List.getElem?_map, List.getElem?_range (by omega), Option.map_some,
      if_pos ⟨by omega, by omega⟩, Nat.add_sub_cancel_left, b1]
  have hplain : PlainRow s.frame (top + (above + i)) r.height.toNat (if anyBorder s.frame = true then title else none)
      (if anyBorder s.frame = true then subtitle else none) := by
    refine ⟨by omega, ?_, ?_, fun _ => ⟨?_, ?_⟩⟩
    · intro e
      rw [e] at htop'
      simp only [edgeOf, if_true] at htop'
      omega
    · intro e
      have : edgeOf s.frame.border.bottom.kind.horizontal = 1 := by rw [e]; rfl
      omega
    · intro e e2
      exact hrt1 (by omega) e
    · intro e e2
      exact hrb1 (by omega) e
  have hrow : row.cells[left + before + k]? = some x := by
    rw [d3, List.append_assoc, List.getElem?_append_right (by rw [List.length_replicate]; omega), List.length_replicate,
      Nat.add_sub_cancel_left, List.getElem?_append_left hklen, hk]
  have hrl : row.cells.length = box.width.toNat := by
    rw [d3]
    simp only [List.length_append, List.length_replicate]
    omega
  have hwf : row.WF := (align_fills s lines box.width.toNat box.height.toNat (by omega) (fun line hm =>
    ⟨(hl line hm).wf, fun seg hs g hg => ((hl line hm).made seg hs g hg).2,
      onBoundary_beyond (hl line hm).wf (by have := fw line hm; omega)⟩)).2 row
      (List.mem_of_getElem? b1) |>.1
  have hat := RenderCache.content_at hist s.frame (top + (above + i)) r.height.toNat r.width.toNat row _ _ hplain (by omega) ho
    (by
      rintro t e
      cases e
      exact ⟨hwf, onBoundary_beyond hwf (by rw [← hwf.length, hrl, iw])⟩) (left + before + k) (by rw [iw]; omega) (by rw [hrl]; omega)
  rw [hrow] at hat
  exact shows (top + (above + i)) _ _ x X Y hdraw hat
    (by
      have e : (if s.frame.border.left.kind.vertical = true then 1 else 0) = edgeOf s.frame.border.left.kind.vertical := rfl
      rw [e]
      omega)
    (by omega) hin


end Static

end Textual
