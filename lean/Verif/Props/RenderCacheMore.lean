import Verif.Props.RenderCache

/-!
C92-C95: labels, outlines, border characters and border colours.
-/

namespace Textual.RenderCache

open Strip (AlignH)

/-! ### Labels -/

theorem renderLabel_shows (label : Strip) (hl : Narrow (some label)) (fill : Segment) (hf : IsPiece fill)
    (w : Nat) (hw : 4 ≤ w) (align : AlignH) (pre post : List StripCell) (h1 : pre.length ≤ 1)
    (h2 : post.length ≤ 1) :
    ShowsLabel (pre ++ (renderLabel label fill w align).cells ++ post) label.cells align
      (w + pre.length + post.length) := by
  obtain ⟨k1, k2⟩ := hl label rfl
  have hlen := k1.length
  have hg := (renderLabel_good label hl fill hf w hw align).2.1
  refine ⟨pre, _, post, [gapCell label], col fill, h1, h2, Nat.le_refl _, all_one (p := fun x => x.g = _) rfl,
    rfl, by omega, ?_⟩
  rw [hg]
  split
  · rename_i h
    simp only [List.length_cons, List.length_nil] at h
    exact (renderLabel_whole label k1 fill hf w align (by omega)).2
  · rename_i h
    simp only [List.length_cons, List.length_nil] at h
    obtain ⟨_, st, e⟩ := renderLabel_cut label k1 fill hf w align hw (by omega)
      (Strip.narrow_onBoundary label k2 _) (Strip.narrow_onBoundary label k2 _)
    refine ⟨w - 5, st, min 1 (w - 4), by omega, by omega, by omega, hg, ?_⟩
    rw [e]
    simp

theorem renderRow_shows (row : Row) (hr : row.Sound) (w : Nat) (hw : 6 ≤ w) (label : Strip)
    (hl : Narrow (some label)) (title subtitle : Option Strip) (ta sa : AlignH) (align : AlignH)
    (h : (title = some label ∧ align = ta) ∨ (title = none ∧ subtitle = some label ∧ align = sa)) :
    ShowsLabel (renderRow row w title subtitle ta sa).cells label.cells align w := by
  have key := renderRow_cells row hr w (by omega) title subtitle ta sa
  have hg := renderLabel_good label hl row.fill hr.fill (w - 2) (by omega) align
  have hs := renderLabel_shows label hl row.fill hr.fill (w - 2) (by omega) align [col row.left]
    [col row.right] (Nat.le_refl _) (Nat.le_refl _)
  rw [show w - 2 + [col row.left].length + [col row.right].length = w by
    simp only [List.length_cons, List.length_nil]; omega] at hs
  rcases h with ⟨rfl, rfl⟩ | ⟨rfl, rfl, rfl⟩
  · have := key hg.1 (by intro _; omega)
    rw [this.2]
    exact hs
  · have := key hg.1 (by intro _; omega)
    rw [this.2]
    exact hs

theorem horizontalRow_shows (row : Row) (hr : row.Sound) (w : Nat) (hw : 2 ≤ w) (label : Strip)
    (hl : Narrow (some label)) (align : AlignH) :
    ShowsLabel (horizontalRow row w (some label) align).cells label.cells align w := by
  obtain ⟨k1, k2⟩ := hl label rfl
  have hlen := k1.length
  have hg := (horizontalRow_good row hr w (some label) hl (fun _ => hw) align).2.1
  refine ⟨[], _, [], [], col row.fill, by simp, by simp, by simp, (by intro x hx; cases hx),
    by rw [List.nil_append, List.append_nil], by simpa using hg, ?_⟩
  rw [hg]
  split
  · rename_i h
    simp only [List.length_nil] at h
    exact (horizontalRow_whole row hr label k1 w align (by omega)).2
  · rename_i h
    simp only [List.length_nil] at h
    obtain ⟨_, st, e⟩ := horizontalRow_cut row hr label k1 w align hw (by omega)
      (Strip.narrow_onBoundary label k2 _) (Strip.narrow_onBoundary label k2 _)
    refine ⟨w - 3, st, min 1 (w - 2), by omega, by omega, by omega, hg, ?_⟩
    rw [e]
    simp

theorem labeledRow_shows (c : Cache) (row : Row) (hr : row.Sound) (w : Nat) (hw : 6 ≤ w) (label : Strip)
    (hl : Narrow (some label)) (align : AlignH) :
    ShowsLabel (c.labeledRow row w label align).cells label.cells align w := by
  have o1 := one_le c.left
  have o2 := one_le c.right
  have hg := renderLabel_good label hl row.fill hr.fill (w - (one c.left + one c.right)) (by omega) align
  have hs := renderLabel_shows label hl row.fill hr.fill (w - (one c.left + one c.right)) (by omega) align
    (only c.left (col row.left)) (only c.right (col row.right)) (by rw [only_length]; exact o1)
    (by rw [only_length]; exact o2)
  rw [only_length, only_length, show w - (one c.left + one c.right) + one c.left + one c.right = w by omega] at hs
  rw [(labeledRow_cells c row hr w label align hg.1).2]
  exact hs

/-- No outline. -/
def NoOutline (s : Sheet) : Prop :=
  s.outline.top.kind.horizontal = false ∧ s.outline.bottom.kind.horizontal = false ∧
  s.outline.left.kind.vertical = false ∧ s.outline.right.kind.vertical = false

theorem noOutline_box {hist : List Sheet} {s : Sheet} (h : NoOutline s) :
    (cacheAfter hist s).outlineBox = none := by
  obtain ⟨_, _, _, _, _, _, _, _, o1, o2, o3, o4, _⟩ := cacheAfter_fields hist s
  by_contra h'
  have := (cacheAfter_sound hist s).outlineSome h'
  rw [o1, o2, o3, o4, h.1, h.2.1, h.2.2.1, h.2.2.2] at this
  simp at this

/-- C92: the title of a widget with a top or side border appears in its first row: whole and aligned if
it fits, otherwise its beginning followed by an ellipsis. -/
theorem title_line (hist : List Sheet) (s : Sheet) (ht w : Nat) (content subtitle : Option Strip) (t : Strip)
    (h0 : 0 < ht) (hw : 6 ≤ w) (ho : NoOutline s) (hn : Narrow (some t))
    (hb : s.border.top.kind.horizontal = true ∨ s.border.left.kind.vertical = true ∨
      s.border.right.kind.vertical = true)
    (hrow : s.border.top.kind.horizontal = false → s.border.bottom.kind.horizontal = true → 2 ≤ ht) :
    ShowsLabel ((cacheAfter hist s).renderLine 0 ht w content (some t) subtitle).cells t.cells
      s.titleAlign w := by
  have hS := cacheAfter_sound hist s
  have hob := noOutline_box (hist := hist) ho
  obtain ⟨h1, h2, h3, h4, _, _, _, _, _, _, _, _, ha, _⟩ := cacheAfter_fields hist s
  rw [← h1, ← h3, ← h4] at hb
  rw [← h1, ← h2] at hrow
  rw [← ha]
  generalize cacheAfter hist s = c at *
  obtain ⟨box, hbox⟩ : ∃ box, c.box = some box := by
    cases hbox : c.box with
    | some b => exact ⟨b, rfl⟩
    | none =>
      obtain ⟨n1, n2, _, n4⟩ := hS.noBox hbox
      rw [n1, n2, n4] at hb
      simp at hb
  have hbs := hS.box box hbox
  by_cases htop : c.top = true
  · have e : c.renderLine 0 ht w content (some t) subtitle = c.applyOutline (if c.left && c.right then
        renderRow box.top w (some t) none c.titleAlign c.subtitleAlign
        else horizontalRow box.top w (some t) c.titleAlign) 0 ht w := by
      unfold Cache.renderLine
      rw [if_neg (by omega), hbox]
      dsimp only
      rw [if_pos ⟨rfl, htop⟩]
    rw [e, applyOutline_none c hob]
    split
    · exact renderRow_shows _ hbs.top w hw t hn _ _ _ _ _ (Or.inl ⟨rfl, rfl⟩)
    · exact horizontalRow_shows _ hbs.top w (by omega) t hn _
  · have hside : (c.left || c.right) = true := by
      rw [Bool.or_eq_true]
      rcases hb with h | h
      · exact absurd h htop
      · exact h
    have htf : c.top = false := by simpa using htop
    have hl : sideLabel c 0 ht (some t) subtitle = some (t, c.titleAlign) := by
      unfold sideLabel
      rw [if_pos hside, if_pos ⟨htf, rfl⟩]
    rw [renderLine_content c hS 0 ht w content (some t) subtitle h0 (by omega) (fun h => absurd h htop)
      (fun h => by have := hrow htf h; omega), hbox, hl]
    exact labeledRow_shows c _ hbs.middle w hw t hn _

/-- C92: the subtitle of a widget with a bottom or side border appears in its last row, unless that row
is the top border or shows the title. -/
theorem subtitle_line (hist : List Sheet) (s : Sheet) (y w : Nat) (content title : Option Strip) (t : Strip)
    (hw : 6 ≤ w) (ho : NoOutline s) (hn : Narrow (some t))
    (hb : s.border.bottom.kind.horizontal = true ∨ s.border.left.kind.vertical = true ∨
      s.border.right.kind.vertical = true)
    (hrow : s.border.top.kind.horizontal = true → 0 < y)
    (htitle : s.border.bottom.kind.horizontal = false → s.border.top.kind.horizontal = false → y = 0 →
      title = none) :
    ShowsLabel ((cacheAfter hist s).renderLine y (y + 1) w content title (some t)).cells t.cells
      s.subtitleAlign w := by
  have hS := cacheAfter_sound hist s
  have hob := noOutline_box (hist := hist) ho
  obtain ⟨h1, h2, h3, h4, _, _, _, _, _, _, _, _, _, ha, _⟩ := cacheAfter_fields hist s
  rw [← h2, ← h3, ← h4] at hb
  rw [← h1] at hrow
  rw [← h1, ← h2] at htitle
  rw [← ha]
  generalize cacheAfter hist s = c at *
  obtain ⟨box, hbox⟩ : ∃ box, c.box = some box := by
    cases hbox : c.box with
    | some b => exact ⟨b, rfl⟩
    | none =>
      obtain ⟨_, n2, n3, n4⟩ := hS.noBox hbox
      rw [n3, n2, n4] at hb
      simp at hb
  have hbs := hS.box box hbox
  have hnt : ¬(y = 0 ∧ c.top = true) := fun h => by have := hrow h.2; omega
  by_cases hbot : c.bottom = true
  · have e : c.renderLine y (y + 1) w content title (some t) = c.applyOutline (if c.left && c.right then
        renderRow box.bottom w none (some t) c.titleAlign c.subtitleAlign
        else horizontalRow box.bottom w (some t) c.subtitleAlign) y (y + 1) w := by
      unfold Cache.renderLine
      rw [if_neg (by omega), hbox]
      dsimp only
      rw [if_neg hnt, if_pos ⟨rfl, hbot⟩]
    rw [e, applyOutline_none c hob]
    split
    · exact renderRow_shows _ hbs.bottom w hw t hn _ _ _ _ _ (Or.inr ⟨rfl, rfl, rfl⟩)
    · exact horizontalRow_shows _ hbs.bottom w (by omega) t hn _
  · have hside : (c.left || c.right) = true := by
      rw [Bool.or_eq_true]
      rcases hb with h | h
      · exact absurd h hbot
      · exact h
    have hbf : c.bottom = false := by simpa using hbot
    have hl : sideLabel c y (y + 1) title (some t) = some (t, c.subtitleAlign) := by
      unfold sideLabel
      have : (if c.top = false ∧ y = 0 then title else none) = none := by
        split
        · rename_i h; exact htitle hbf h.1 h.2
        · rfl
      rw [if_pos hside, this, if_pos ⟨hbf, rfl⟩]
      rfl
    rw [renderLine_content c hS y (y + 1) w content title (some t) (by omega) (by omega) hrow
      (fun h => absurd h hbot), hbox, hl]
    exact labeledRow_shows c _ hbs.middle w hw t hn _

/-! ### Outlines -/

/-- The widget without its outline. -/
def bare (s : Sheet) : Sheet := { s with outline := {} }

theorem bare_cache (hist : List Sheet) (s : Sheet) :
    cacheAfter hist (bare s) = { cacheAfter hist s with
      outlineBox := none, topOutline := false, rightOutline := false, bottomOutline := false,
      leftOutline := false } := by
  unfold cacheAfter
  generalize boxesAfter hist = b
  have e1 : borderBox b (bare s) = borderBox b s := rfl
  unfold Cache.new
  dsimp only
  rw [e1]
  rfl

/-- A row whose content a label has replaced. -/
def SideLabelRow (s : Sheet) (y height : Nat) (title subtitle : Option Strip) : Prop :=
  (s.border.left.kind.vertical || s.border.right.kind.vertical) = true ∧
  ((s.border.top.kind.horizontal = false ∧ y = 0 ∧ title ≠ none) ∨
   (s.border.bottom.kind.horizontal = false ∧ y + 1 = height ∧ subtitle ≠ none))

theorem sideLabel_none {hist : List Sheet} {s : Sheet} {y ht : Nat} {title subtitle : Option Strip}
    (h : ¬SideLabelRow s y ht title subtitle) :
    sideLabel (cacheAfter hist s) y ht title subtitle = none := by
  obtain ⟨h1, h2, h3, h4, _⟩ := cacheAfter_fields hist s
  unfold sideLabel
  rw [h1, h2, h3, h4]
  split
  · rename_i hs
    have e1 : (if s.border.top.kind.horizontal = false ∧ y = 0 then title else none) = none := by
      split
      · rename_i h'
        by_contra hc
        exact h ⟨hs, Or.inl ⟨h'.1, h'.2, hc⟩⟩
      · rfl
    have e2 : (if s.border.bottom.kind.horizontal = false ∧ y + 1 = ht then subtitle else none) = none := by
      split
      · rename_i h'
        by_contra hc
        exact h ⟨hs, Or.inr ⟨h'.1, h'.2, hc⟩⟩
      · rfl
    rw [e1, e2]
    rfl
  · rfl

/-- The line is that of the widget without outline, with the outline laid over it. -/
theorem renderLine_outline (hist : List Sheet) (s : Sheet) (y ht w : Nat) (content title subtitle : Option Strip)
    (hy : y < ht) (hw : 0 < w) (hl : ¬SideLabelRow s y ht title subtitle) :
    (cacheAfter hist s).renderLine y ht w content title subtitle =
      (cacheAfter hist s).applyOutline
        ((cacheAfter hist (bare s)).renderLine y ht w content title subtitle) y ht w := by
  have hS := cacheAfter_sound hist s
  have hS' := cacheAfter_sound hist (bare s)
  have hlab := sideLabel_none (hist := hist) hl
  have hlab' : sideLabel (cacheAfter hist (bare s)) y ht title subtitle = none :=
    sideLabel_none (hist := hist) (s := bare s) hl
  have hno : (cacheAfter hist (bare s)).outlineBox = none := by rw [bare_cache]
  have hap : ∀ b, (cacheAfter hist (bare s)).applyOutline b y ht w = b := fun b => applyOutline_none _ hno _ _ _ _
  have eb : (cacheAfter hist (bare s)).box = (cacheAfter hist s).box := by rw [bare_cache]
  have f1 : (cacheAfter hist (bare s)).top = (cacheAfter hist s).top := by rw [bare_cache]
  have f2 : (cacheAfter hist (bare s)).bottom = (cacheAfter hist s).bottom := by rw [bare_cache]
  have f3 : (cacheAfter hist (bare s)).left = (cacheAfter hist s).left := by rw [bare_cache]
  have f4 : (cacheAfter hist (bare s)).right = (cacheAfter hist s).right := by rw [bare_cache]
  have f5 : (cacheAfter hist (bare s)).titleAlign = (cacheAfter hist s).titleAlign := by rw [bare_cache]
  have f6 : (cacheAfter hist (bare s)).subtitleAlign = (cacheAfter hist s).subtitleAlign := by rw [bare_cache]
  have g1 : ∀ w c, (cacheAfter hist (bare s)).contentRow w c = (cacheAfter hist s).contentRow w c := by
    intro w c; rw [bare_cache]; rfl
  have g2 : ∀ r c w, (cacheAfter hist (bare s)).middleRow r c w = (cacheAfter hist s).middleRow r c w := by
    intro r c w; rw [bare_cache]; rfl
  generalize cacheAfter hist (bare s) = d at *
  generalize cacheAfter hist s = c at *
  by_cases ht0 : y = 0 ∧ c.top = true
  · cases hbox : c.box with
    | none => have := (hS.noBox hbox).1; rw [ht0.2] at this; cases this
    | some box =>
      unfold Cache.renderLine
      rw [if_neg (show ¬(w = 0 ∨ ht = 0) by omega), eb, hbox]
      dsimp only
      rw [if_pos ht0, f1, if_pos ht0, hap, f3, f4, f5, f6, if_neg (show ¬(w = 0 ∨ ht = 0) by omega)]
  by_cases hb0 : y = ht - 1 ∧ c.bottom = true
  · cases hbox : c.box with
    | none => have := (hS.noBox hbox).2.2.1; rw [hb0.2] at this; cases this
    | some box =>
      unfold Cache.renderLine
      rw [if_neg (show ¬(w = 0 ∨ ht = 0) by omega), eb, hbox]
      dsimp only
      rw [if_neg ht0, if_pos hb0, f1, f2, if_neg ht0, if_pos hb0, hap, f3, f4, f5, f6,
        if_neg (show ¬(w = 0 ∨ ht = 0) by omega)]
  have a1 : c.top = true → 0 < y := fun h => by by_contra h'; exact ht0 ⟨by omega, h⟩
  have a2 : c.bottom = true → y + 1 < ht := fun h => by by_contra h'; exact hb0 ⟨by omega, h⟩
  rw [renderLine_content c hS y ht w content title subtitle hy hw a1 a2,
    renderLine_content d hS' y ht w content title subtitle hy hw (by rw [f1]; exact a1) (by rw [f2]; exact a2),
    hlab, hlab', eb]
  cases c.box with
  | none => dsimp only; rw [hap, g1]
  | some box => dsimp only; rw [hap, f3, f4, g1, g2]

/-- C93: an outline replaces the outermost rows and columns and leaves every other column of the widget
as it is without the outline; it never moves anything. Missing: the rows of `SideLabelRow`
(`outline_counterexample`). -/
theorem outline_line_partial (hist : List Sheet) (s : Sheet) (y ht w : Nat)
    (content title subtitle : Option Strip) (hy : y < ht) (hr : Room s w title subtitle)
    (hc : Narrow content) (ht' : Narrow title) (hs' : Narrow subtitle)
    (hl : ¬SideLabelRow s y ht title subtitle) :
    let line := ((cacheAfter hist s).renderLine y ht w content title subtitle).cells
    let plain := ((cacheAfter hist (bare s)).renderLine y ht w content title subtitle).cells
    let l := s.outline.left.kind.vertical
    let r := s.outline.right.kind.vertical
    let k := s.outline.top.kind.chars
    ∃ a f b, line = only l a ++ f ++ only r b ∧ f.length = w - (one l + one r) ∧
      if y = 0 ∧ s.outline.top.kind.horizontal = true then
        a.g = ⟨k.topLeft, 1⟩ ∧ b.g = ⟨k.topRight, 1⟩ ∧ ∀ x ∈ f, x.g = ⟨k.top, 1⟩
      else if y + 1 = ht ∧ s.outline.bottom.kind.horizontal = true then
        a.g = ⟨k.bottomLeft, 1⟩ ∧ b.g = ⟨k.bottomRight, 1⟩ ∧ ∀ x ∈ f, x.g = ⟨k.bottom, 1⟩
      else
        (l = true → a.g = ⟨k.left, 1⟩) ∧ (r = true → b.g = ⟨k.right, 1⟩) ∧
        f = (plain.drop (one l)).take (w - (one l + one r)) := by
  intro line plain l r k
  have hgood : Good w ((cacheAfter hist (bare s)).renderLine y ht w content title subtitle) :=
    line_good hist (bare s) y ht w content title subtitle hy
      ⟨hr.1, hr.2.1, Nat.zero_le _, hr.2.2.2⟩ hc ht' hs'
  have e := renderLine_outline hist s y ht w content title subtitle hy hr.1 hl
  have hS := cacheAfter_sound hist s
  have hD := (cacheAfter_drawn hist s).2
  obtain ⟨_, _, _, _, _, _, _, _, o1, o2, o3, o4, _⟩ := cacheAfter_fields hist s
  have hroom := hr.2.2.1
  have el : line = ((cacheAfter hist s).applyOutline
    ((cacheAfter hist (bare s)).renderLine y ht w content title subtitle) y ht w).cells := by rw [← e]
  have hplen : plain.length = w := hgood.2.1
  cases hbox : (cacheAfter hist s).outlineBox with
  | none =>
    obtain ⟨n1, n2, n3, n4⟩ := hS.outlineNone hbox
    rw [applyOutline_none _ hbox] at el
    rw [n1] at o1; rw [n2] at o4; rw [n3] at o2; rw [n4] at o3
    have hl0 : l = false := o3.symm
    have hr0 : r = false := o4.symm
    refine ⟨padCell none, plain, padCell none, ?_, ?_, ?_⟩
    · rw [el, hl0, hr0]; simp only [only_false, List.nil_append, List.append_nil]; rfl
    · rw [hl0, hr0, hplen]; rfl
    · rw [← o1, ← o2, hl0, hr0]
      simp only [Bool.false_eq_true, and_false, if_false, false_imp_iff, true_and, one]
      rw [List.take_of_length_le (by simp [hplen])]
      rfl
  | some box =>
    obtain ⟨d1, d2, d3, d4, d5, d6, d7, d8⟩ := hD box hbox
    have key := (applyOutline_cells _ hS box hbox _ y ht w hgood hy hr.1
      (by rw [o3, o4]; exact hroom)).2
    rw [← el, o1, o2, o3, o4] at key
    by_cases h1 : y = 0 ∧ s.outline.top.kind.horizontal = true
    · rw [if_pos h1] at key
      refine ⟨_, _, _, key, List.length_replicate, ?_⟩
      rw [if_pos h1]
      refine ⟨d1, d3, ?_⟩
      intro x hx
      rw [(List.mem_replicate.1 hx).2]
      exact d2
    rw [if_neg h1] at key
    by_cases h2 : y + 1 = ht ∧ s.outline.bottom.kind.horizontal = true
    · rw [if_pos h2] at key
      refine ⟨_, _, _, key, List.length_replicate, ?_⟩
      rw [if_neg h1, if_pos h2]
      refine ⟨d6, d8, ?_⟩
      intro x hx
      rw [(List.mem_replicate.1 hx).2]
      exact d7
    rw [if_neg h2] at key
    refine ⟨_, _, _, key, ?_, ?_⟩
    · have : ((cacheAfter hist (bare s)).renderLine y ht w content title subtitle).cells.length = w := hplen
      rw [List.length_take, List.length_drop, this]
      show min (w - (one l + one r)) (w - one l) = w - (one l + one r)
      omega
    · rw [if_neg h1, if_neg h2]
      exact ⟨fun _ => d4, fun _ => d5, rfl⟩

end Textual.RenderCache
