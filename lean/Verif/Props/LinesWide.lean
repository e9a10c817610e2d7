import Verif.Props.OnScreenWide

/-! The lines made of a text know their widths and have only the characters of the text, blanks and dots. -/

namespace Textual

/-- The character takes columns, a blank one. -/
abbrev Takes (g : Grapheme) : Prop := 1 ≤ g.width ∧ (g.text = " " → g.width = 1)

theorem takes_one (t : String) : Takes ⟨t, 1⟩ := ⟨Nat.le_refl _, fun _ => rfl⟩

/-- Segments that know their width, of characters that take columns. -/
def ColSegs (l : List Segment) : Prop := ∀ s ∈ l, s.cellLength = widthOf s.text ∧ ∀ g ∈ s.text, Takes g

theorem Strip.Columns.segs {s : Strip} (h : s.Columns) : ColSegs s.segments :=
  fun seg hs => ⟨h.wf.seg seg hs, h.made seg hs⟩

namespace Strip

theorem Columns.ofSegments {l : List Segment} (h : ColSegs l) : (Strip.ofSegments l).Columns :=
  ⟨⟨fun s hs => (h s hs).1, rfl⟩, fun s hs => (h s hs).2⟩

theorem Columns.new : Strip.new.Columns := ⟨⟨fun s h => (by cases h), rfl⟩, .nil⟩

theorem Columns.crop {s : Strip} (h : s.Columns) (a b : Nat) : (s.crop a b).Columns :=
  ⟨crop_wf s h.wf a b, h.made.crop a b⟩

theorem Columns.blank (n : Nat) (st : Option Style) : (Strip.blank n st).Columns :=
  ⟨(blank_good n st).1, Strip.Made.blank (P := Takes) (takes_one _) n st⟩

theorem Columns.join {l : List Strip} (h : ∀ s ∈ l, s.Columns) : (Strip.join l).Columns := by
  refine Columns.ofSegments ?_
  intro seg hs
  obtain ⟨t, ht, hs⟩ := List.mem_flatMap.1 hs
  exact (h t ht).segs seg hs

theorem Columns.text {t : List Grapheme} (h : ∀ g ∈ t, Takes g) (st : Option Style) :
    (Strip.ofSegments [Segment.mk' t st]).Columns := by
  refine Columns.ofSegments ?_
  intro seg hs
  rw [List.mem_singleton.1 hs]
  exact ⟨rfl, h⟩

end Strip

namespace Content

/-- All characters take columns. -/
def Taking (t : List Grapheme) : Prop := ∀ g ∈ t, Takes g

theorem splitLines_taking : ∀ t : List Grapheme, (∀ g ∈ t, g.text ≠ "\n" → Takes g) → ∀ line ∈ splitLines t, Taking line
  | [], _, line, h => by
    rw [List.mem_singleton.1 h]
    exact fun g hg => by cases hg
  | g :: t, h, line, hm => by
    have ih := splitLines_taking t fun g' h' => h g' (List.mem_cons_of_mem _ h')
    unfold splitLines at hm
    split at hm
    · rcases List.mem_cons.1 hm with rfl | hm
      · exact fun g hg => by cases hg
      · exact ih line hm
    · rename_i hg
      have hg := h g (List.mem_cons_self ..) hg
      split at hm
      · rw [List.mem_singleton.1 hm]
        intro g' hg'
        rw [List.mem_singleton.1 hg']
        exact hg
      · rename_i l ls e
        rw [e] at ih
        rcases List.mem_cons.1 hm with rfl | hm
        · intro g' hg'
          rcases List.mem_cons.1 hg' with rfl | hg'
          · exact hg
          · exact ih l (List.mem_cons_self ..) g' hg'
        · exact ih line (List.mem_cons_of_mem _ hm)

theorem renderFrom_columns (c : Content) (spans : List Span) (ls ll : Nat) : ∀ (fuel pos : Nat) (rest : List Grapheme)
    (segs : List Segment), Taking rest → c.renderFrom spans ls ll fuel pos rest = some segs → ColSegs segs
  | 0, pos, rest, segs, _, h => by
    unfold Content.renderFrom at h
    split at h
    · cases h; exact fun s hs => by cases hs
    · cases h
  | fuel + 1, pos, rest, segs, ho, h => by
    unfold Content.renderFrom at h
    split at h
    · cases h; exact fun s hs => by cases hs
    · dsimp only at h
      split at h
      · cases h
      · rename_i a rest' e
        obtain ⟨m1, m2⟩ := splitBytes_mem _ _ _ _ e
        obtain ⟨segs', h1, rfl⟩ := Option.map_eq_some_iff.1 h
        have ih := renderFrom_columns c spans ls ll fuel _ rest' segs' (fun g hg => ho g (m2 g hg)) h1
        intro s hs
        rcases List.mem_append.1 hs with hs | hs
        · unfold mkSegment at hs
          split at hs
          · cases hs
          · rw [List.mem_singleton.1 hs]
            exact ⟨rfl, fun g hg => ho g (m1 g hg)⟩
        · exact ih s hs

theorem renderLine_columns (c : Content) (spans : List Span) (ls : Nat) (line : List Grapheme) (h : Taking line) (s : Strip)
    (hs : c.renderLine spans ls line = some s) : s.Columns := by
  unfold Content.renderLine at hs
  split at hs
  · cases hs; exact .new
  · dsimp only at hs
    split at hs
    · cases hs
      exact .text h _
    · obtain ⟨segs, h1, rfl⟩ := Option.map_eq_some_iff.1 hs
      exact .ofSegments (renderFrom_columns c _ _ _ _ _ _ segs h h1)

theorem wordsLoop_taking (ws : Grapheme → Bool) : ∀ (line cur : List Grapheme), Taking cur → Taking line →
    ∀ w ∈ wordsLoop ws cur line, Taking w
  | [], cur, hc, _, w, hw => by
    unfold wordsLoop at hw
    split at hw
    · cases hw
    · rw [List.mem_singleton.1 hw]; exact hc
  | g :: gs, cur, hc, hl, w, hw => by
    have hgs : Taking gs := fun x hx => hl x (List.mem_cons_of_mem _ hx)
    unfold wordsLoop at hw
    split at hw
    · rcases List.mem_append.1 hw with hw | hw
      · split at hw
        · cases hw
        · rw [List.mem_singleton.1 hw]; exact hc
      · exact wordsLoop_taking ws gs [] (fun x hx => by cases hx) hgs w hw
    · refine wordsLoop_taking ws gs _ ?_ hgs w hw
      intro x hx
      rcases List.mem_append.1 hx with hx | hx
      · exact hc x hx
      · rw [List.mem_singleton.1 hx]; exact hl g (List.mem_cons_self ..)

theorem breakLoop_taking (width : Nat) : ∀ (line cur : List Grapheme) (n : Nat), Taking cur → Taking line →
    ∀ w ∈ breakLoop width cur n line, Taking w
  | [], cur, n, hc, _, w, hw => by
    unfold breakLoop at hw
    split at hw
    · cases hw
    · rw [List.mem_singleton.1 hw]; exact hc
  | g :: gs, cur, n, hc, hl, w, hw => by
    have hgs : Taking gs := fun x hx => hl x (List.mem_cons_of_mem _ hx)
    have hg : Taking [g] := fun x hx => by rw [List.mem_singleton.1 hx]; exact hl g (List.mem_cons_self ..)
    unfold breakLoop at hw
    split at hw
    · refine breakLoop_taking width gs _ _ ?_ hgs w hw
      intro x hx
      rcases List.mem_append.1 hx with hx | hx
      · exact hc x hx
      · exact hg x hx
    · rcases List.mem_append.1 hw with hw | hw
      · split at hw
        · cases hw
        · rw [List.mem_singleton.1 hw]; exact hc
      · exact breakLoop_taking width gs _ _ hg hgs w hw

theorem wrapWords_taking (width : Nat) : ∀ (wds : List (List Grapheme)) (cur : List Grapheme) (n : Nat), Taking cur →
    (∀ w ∈ wds, Taking w) → ∀ l ∈ wrapWords width cur n wds, Taking l
  | [], cur, n, hc, _, w, hw => by
    unfold wrapWords at hw
    split at hw
    · cases hw
    · rw [List.mem_singleton.1 hw]; exact hc
  | word :: rest, cur, n, hc, hl, w, hw => by
    have hr : ∀ w ∈ rest, Taking w := fun x hx => hl x (List.mem_cons_of_mem _ hx)
    have hword := hl word (List.mem_cons_self ..)
    have hnil : Taking [] := fun x hx => by cases hx
    unfold wrapWords at hw
    dsimp only at hw
    split at hw
    · split at hw
      · exact wrapWords_taking width rest _ _ hword hr w hw
      · rcases List.mem_append.1 hw with hw | hw
        · exact breakLoop_taking width word [] 0 hnil hword w hw
        · exact wrapWords_taking width rest _ _ hc hr w hw
    split at hw
    · refine wrapWords_taking width rest _ _ ?_ hr w hw
      intro x hx
      rcases List.mem_append.1 hx with hx | hx
      · exact hc x hx
      · rcases List.mem_cons.1 hx with rfl | hx
        · exact takes_one _
        · exact hword x hx
    · rcases List.mem_cons.1 hw with rfl | hw
      · exact hc
      · split at hw
        · exact wrapWords_taking width rest _ _ hword hr w hw
        · rcases List.mem_append.1 hw with hw | hw
          · exact breakLoop_taking width word [] 0 hnil hword w hw
          · exact wrapWords_taking width rest _ _ hnil hr w hw

theorem renderRanges_columns (c : Content) (spans : List Span) (ls : Nat) (line : List Grapheme) (h : Taking line) :
    ∀ (ranges : List (Nat × Nat)) (l : List Strip), c.renderRanges spans ls line ranges = some l → ∀ s ∈ l, s.Columns
  | [], l, e, s, hs => by unfold Content.renderRanges at e; cases e; cases hs
  | (a, b) :: rest, l, e, s, hs => by
    unfold Content.renderRanges at e
    split at e
    · cases e
    · split at e
      · cases e
      · rename_i s' e'
        obtain ⟨l', h1, rfl⟩ := Option.map_eq_some_iff.1 e
        rcases List.mem_cons.1 hs with rfl | hs
        · exact renderLine_columns c spans _ _ (fun g hg => h g (List.mem_of_mem_take (List.mem_of_mem_drop hg))) s e'
        · exact renderRanges_columns c spans ls line h rest l' h1 s hs

theorem truncate_columns {s : Strip} (h : s.Columns) (w : Nat) : (truncate s w).Columns := by
  have el : ∀ st, (Strip.ofSegments [Segment.mk' [ellipsis] st]).Columns := fun st =>
    .text (fun g hg => by rw [List.mem_singleton.1 hg]; exact takes_one _) st
  unfold truncate
  split
  · exact .new
  split
  · exact h
  split
  · exact el _
  · refine .join ?_
    intro t ht
    simp only [List.mem_cons, List.not_mem_nil, or_false] at ht
    rcases ht with rfl | rfl
    · exact h.crop _ _
    · exact el _

theorem splitLoop_columns {s : Strip} (h : s.Columns) (w : Nat) : ∀ (n start : Nat), s.cellLength - start ≤ n →
    ∀ t ∈ splitLoop s w start, t.Columns
  | n, start, hn, t, ht => by
    unfold splitLoop at ht
    split at ht
    · rename_i hc
      rcases List.mem_cons.1 ht with rfl | ht
      · exact h.crop _ _
      · cases n with
        | zero => omega
        | succ n => exact splitLoop_columns h w n _ (by omega) t ht
    · cases ht

theorem wrapOne_columns (c : Content) (ws : Grapheme → Bool) (width : Nat) (o : Overflow) (m : Wrap) (ls : Nat)
    (line : List Grapheme) (h : Taking line) (l : List WrappedLine) (e : c.wrapOne ws width o m ls line = some l) :
    ∀ x ∈ l, x.strip.Columns := by
  unfold Content.wrapOne at e
  split at e
  · cases e
    intro x hx
    rw [List.mem_singleton.1 hx]
    exact .new
  cases m with
  | noWrap =>
    dsimp only at e
    obtain ⟨s, h1, rfl⟩ := Option.map_eq_some_iff.1 e
    have hs : s.Columns := by
      unfold Content.fullLine at h1
      split at h1
      · exact renderLine_columns c _ _ _ h s h1
      · cases h1; exact .text h _
    cases o with
    | fold =>
      refine markLast_all ?_
      unfold splitByWidth
      split
      · intro t ht; rw [List.mem_singleton.1 ht]; exact .new
      split
      · intro t ht; rw [List.mem_singleton.1 ht]; exact .new
      · exact splitLoop_columns hs width _ 0 (Nat.le_refl _)
    | clip => intro x hx; rw [List.mem_singleton.1 hx]; exact hs.crop _ _
    | ellipsis => intro x hx; rw [List.mem_singleton.1 hx]; exact truncate_columns hs _
  | wrap =>
    dsimp only at e
    obtain ⟨l', h1, rfl⟩ := Option.map_eq_some_iff.1 e
    have hl : ∀ s ∈ l', s.Columns := by
      split at h1
      · unfold Content.wrapLineSpans at h1
        split at h1
        · cases h1
        · exact renderRanges_columns c _ _ _ h _ l' h1
      · cases h1
        intro s hs
        obtain ⟨t, ht, rfl⟩ := List.mem_map.1 hs
        exact .text (wrapWords_taking width _ [] 0 (fun x hx => by cases hx)
          (wordsLoop_taking ws line [] (fun x hx => by cases hx) h) t ht) _
    refine markLast_all ?_
    intro t ht
    obtain ⟨s, hs, rfl⟩ := List.mem_map.1 ht
    split
    · exact truncate_columns (hl s hs) _
    · exact hl s hs

/-- The lines made of a text of characters that take columns have these only. -/
theorem wrapFull_columns (c : Content) (h : ∀ g ∈ c.text, g.text ≠ "\n" → Takes g) (ws : Grapheme → Bool) (width : Nat)
    (o : Overflow) (m : Wrap) (l : List WrappedLine) (e : c.wrapFull ws width o m = some l) :
    ∀ x ∈ l, x.strip.Columns := by
  have one : ∀ x ∈ [(⟨Strip.new, true⟩ : WrappedLine)], x.strip.Columns := by
    intro x hx; rw [List.mem_singleton.1 hx]; exact .new
  unfold Content.wrapFull at e
  split at e
  · cases e; exact one
  · obtain ⟨r, h1, rfl⟩ := Option.map_eq_some_iff.1 e
    split
    · exact one
    · exact wrapLines_all c ws width o m Strip.Columns _ _
        (fun line hm start l e => wrapOne_columns c ws width o m start line (splitLines_taking c.text h line hm) l e) r h1

end Content

namespace Static

open Content (WrappedLine asciiWs)

/-- **C178**: the lines a text widget makes of a text of characters that take columns are of such characters, so that
`text_on_canvas_wide_partial` applies to every text widget with such a text. -/
theorem textLines_columns (s : Sheet) (ws : Grapheme → Bool) (content : Content.Content)
    (h : ∀ g ∈ content.text, g.text ≠ "\n" → Takes g) (hovered : Option String) (w : Nat) (lines : List WrappedLine)
    (e : textLines s ws content hovered w = some lines) : ∀ line ∈ lines, line.strip.Columns := by
  have base : ∀ l, (if w > 0 then ({ content with style := some s.text, linkStyle := some s.link, hovered := hovered } : Content.Content).wrapFull ws
      (max (w - 2 * s.linePad) 1) s.overflow s.wrap else some []) = some l → ∀ line ∈ l, line.strip.Columns := by
    intro l e
    split at e
    · exact Content.wrapFull_columns ({ content with style := some s.text, linkStyle := some s.link, hovered := hovered } :
        Content.Content) h ws _ _ _ l e
    · cases e; intro x hx; cases hx
  unfold textLines at e
  dsimp only at e
  split at e
  · obtain ⟨l, h1, rfl⟩ := Option.map_eq_some_iff.1 e
    intro line hm
    obtain ⟨x, hx, rfl⟩ := List.mem_map.1 hm
    refine .join ?_
    intro t ht
    simp only [List.mem_cons, List.not_mem_nil, or_false] at ht
    rcases ht with rfl | rfl | rfl
    · exact .blank _ _
    · exact base l h1 x hx
    · exact .blank _ _
  · exact base lines e

open RenderCache (cacheAfter Cache Kind Room NoOutline PlainRow)

/-- **C178** (characters of any width but none): text that fits is on the canvas where the style puts it. The free rows above
and below the lines are divided as `content-align` asks for, and so are the free columns beside the block of text; each line
lies in the block as `text-align` asks for, and each column of each of its glyphs is on the canvas if canvas and clip have room
for the whole glyph. No outline, no justified lines. -/
theorem text_on_canvas_wide_partial (hist : List RenderCache.Sheet) (s : Sheet) (lines : List WrappedLine)
    (title subtitle : Option Strip) (hatch : Option Fade.Hatch) (tint : Option RgbaColor) (r : Region)
    (hwr : 0 < r.width) (ho : NoOutline s.frame)
    (hl : ∀ line ∈ lines, line.strip.Columns)
    (h1 : ∀ t ∈ title, t.Columns) (h2 : ∀ t ∈ subtitle, t.Columns) (hh : ∀ h ∈ hatch, h.width = 1)
    (hbw : 0 < (textBox s.frame title subtitle r).width) (hbh : 0 < (textBox s.frame title subtitle r).height)
    (fw : ∀ line ∈ lines, (line.strip.cellLength : Int) ≤ (textBox s.frame title subtitle r).width)
    (fh : (lines.length : Int) ≤ (textBox s.frame title subtitle r).height)
    (c : Canvas) (hc : c.cells.length = c.w * c.h) :
    ∃ c', c.run ((paint s false (cacheAfter hist s.frame) lines title subtitle hatch tint r).map .draw) = some c' ∧
      ∃ above below left right block : Nat,
        (above + lines.length + below : Int) = (textBox s.frame title subtitle r).height ∧ SplitV s.alignV above below ∧
        (left + block + right : Int) = (textBox s.frame title subtitle r).width ∧ SplitH s.alignH left right ∧
        (if s.alignH = .left ∧ s.alignV = .top then (block : Int) = (textBox s.frame title subtitle r).width
          else (∀ line ∈ lines, line.strip.cellLength ≤ block) ∧
            (lines ≠ [] → ∃ line ∈ lines, line.strip.cellLength = block)) ∧
        ∀ (i : Nat) (line : WrappedLine), lines[i]? = some line → ¬(s.textAlign = .justify ∧ line.lineEnd = false) →
          ∃ before after, before + line.strip.cellLength + after = block ∧ SplitLine s.textAlign before after ∧
            ∀ (k : Nat) (x : StripCell) (X Y : Nat), line.strip.cells[k]? = some x →
              (X : Int) = (textBox s.frame title subtitle r).x + left + before + k →
              (Y : Int) = (textBox s.frame title subtitle r).y + above + i →
              GlyphInside c x X Y →
              (hatch = none → tint = none → c'.cells[Y * c.w + X]? = (c.cells[Y * c.w + X]?).map (columnOn x)) ∧
              (x.g.text ≠ " " → (c'.cells[Y * c.w + X]?).map (fun e => (e.symbol, e.continuation)) =
                some (if x.col = 0 then x.g.text else " ", decide (x.col ≠ 0))) := by
  obtain ⟨c', run, -⟩ := rows_on_canvas_wide_partial hist s lines title subtitle hatch tint r
    hwr (by simp only [textBox] at hbh; omega) hl
    (by
      intro line hm
      have := fw line hm
      rw [RenderCache.inner_size_exact hist s.frame r.width.toNat r.height.toNat]
      simp only [textBox] at this
      show _ ≤ r.width.toNat - (edgeOf _ + edgeOf _ + _ + _)
      omega) h1 h2 hh c hc
  obtain ⟨above, below, left, right, block, e1, e2, e3, e4, e5, e6⟩ :=
    text_placed_wide hist s lines title subtitle hatch tint r hwr ho hl h1 h2 hh hbw hbh fw fh
  refine ⟨c', run, above, below, left, right, block, e1, e2, e3, e4, e5, fun i line hi hj => ?_⟩
  obtain ⟨before, after, g1, g2, g3⟩ := e6 i line hi hj
  exact ⟨before, after, g1, g2, g3 c c' hc run⟩

/-! ### Cases -/

/-- Two lines with wide characters in a card with a round border. -/
def wideTwo : List WrappedLine :=
  [⟨Strip.ofSegments [Segment.mk' [⟨"日", 2⟩, ⟨"本", 2⟩, ⟨"!", 1⟩] (some { bold := true })], true⟩,
   ⟨Strip.ofSegments [Segment.mk' [⟨"a", 1⟩, ⟨"語", 2⟩] none], true⟩]

theorem wideTwo_columns : ∀ line ∈ wideTwo, line.strip.Columns := by
  intro line h
  simp only [wideTwo, List.mem_cons, List.not_mem_nil, or_false] at h
  rcases h with rfl | rfl <;> refine ⟨⟨by decide, rfl⟩, ?_⟩ <;> unfold Strip.Made MadeSegs <;> decide

/-- The first line is five columns wide and begins in the third column of the text box. -/
example (c : Canvas) (hc : c.cells.length = c.w * c.h) (hin : GlyphInside c ⟨⟨"日", 2⟩, 1, some { bold := true }, []⟩ 7 3) :
    ∃ c', c.run ((paint card false (cacheAfter [] card.frame) wideTwo none none none none ⟨2, 1, 12, 6⟩).map .draw) = some c' ∧
      (c'.cells[3 * c.w + 7]?).map (fun e => (e.symbol, e.continuation)) = some (" ", true) := by
  obtain ⟨c', h1, above, below, left, right, block, h2, h3, h4, h5, h6, h7⟩ :=
    text_on_canvas_wide_partial [] card wideTwo none none none none ⟨2, 1, 12, 6⟩ (by decide)
      (by unfold NoOutline; decide) wideTwo_columns (by rintro t h; cases h) (by rintro t h; cases h) (by rintro t h; cases h)
      (by decide) (by decide) (by decide) (by decide) c hc
  obtain ⟨before, after, k1, k2, k3⟩ := h7 0 _ rfl (by decide)
  have e1 : (textBox card.frame none none ⟨2, 1, 12, 6⟩) = ⟨4, 2, 9, 4⟩ := by decide
  rw [e1] at h2 h4 h6 k3
  rw [if_neg (by decide)] at h6
  obtain ⟨m1, m2⟩ := h6
  have hb : 5 ≤ block := m1 _ (List.mem_cons_self ..)
  have hb2 : block ≤ 5 := by
    obtain ⟨line, hm, e⟩ := m2 (by decide)
    rw [← e]
    exact (by decide : ∀ line ∈ wideTwo, line.strip.cellLength ≤ 5) line hm
  have hl : wideTwo.length = 2 := rfl
  rw [hl] at h2
  have s3 : above ≤ below ∧ below ≤ above + 1 := h3
  have s5 : left ≤ right ∧ right ≤ left + 1 := h5
  have k1' : before + 5 + after = block := k1
  dsimp only at h2 h4
  refine ⟨c', h1, (k3 1 _ 7 3 rfl ?_ ?_ hin).2 (by decide)⟩ <;> dsimp only <;> omega

example : ∃ lines, textLines card asciiWs { text := [⟨"日", 2⟩, ⟨" ", 1⟩, ⟨"本", 2⟩, ⟨"語", 2⟩] } none 7 = some lines ∧
    lines ≠ [] ∧ ∀ line ∈ lines, line.strip.Columns := by
  obtain ⟨lines, h, hne⟩ : ∃ lines, textLines card asciiWs { text := [⟨"日", 2⟩, ⟨" ", 1⟩, ⟨"本", 2⟩, ⟨"語", 2⟩] } none 7 =
      some lines ∧ lines ≠ [] := ⟨_, rfl, by decide +kernel⟩
  exact ⟨lines, h, hne, textLines_columns card asciiWs _ (by decide) none 7 lines h⟩

/-- **C178**, why the whole glyph: of a wide glyph with one column outside the canvas (or the clip) nothing is drawn, the
cell inside keeps what was there. -/
theorem half_glyph_counterexample : ∃ (line : Strip) (c c' : Canvas), line.Columns ∧ Canvas.new 3 1 = some c ∧
    c.run [.draw (.strips 2 0 [line.toDraw])] = some c' ∧ (line.cells[0]?).map (·.g.text) = some "日" ∧
    (c'.cells[2]?).map (·.symbol) = some " " :=
  ⟨Strip.ofSegments [Segment.mk' [⟨"日", 2⟩] none], _, _, ⟨⟨by decide, rfl⟩, by unfold Strip.Made MadeSegs; decide⟩, rfl, rfl,
    by decide, by decide +kernel⟩

end Static

end Textual
