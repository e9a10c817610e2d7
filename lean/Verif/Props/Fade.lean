import Verif.Model.Fade
import Verif.Props.Strip
import Verif.Props.Color

/-!
C163: fading the text of a line. C164: hatching a line.
-/

namespace Textual.Fade

open Strip (cells)

/-- Everything about a style but the text colour. -/
def rest (s : Option Style) : Style := { s.getD {} with fg := none }

/-- `n` is the mix of `o` parts of `f` and `1 - o` parts of `b`, rounded down. -/
def Mixed (o : Rat) (f b n : Nat) : Prop :=
  (n : Rat) ≤ o * f + (1 - o) * b ∧ o * f + (1 - o) * b < (n : Rat) + 1

/-! ### C163 -/

theorem segCells_map (f : Segment → Segment) (segs : List Segment) :
    segCells (segs.map f) = segs.flatMap fun s => textCells (f s).style (f s).info (f s).text := by
  induction segs with
  | nil => rfl
  | cons x xs ih => rw [List.map_cons, segCells_cons, ih]; simp

/-- C163: at full text opacity nothing changes. -/
theorem full (s : Strip) (o : Rat) (fb : Option RgbaColor) (h : 1 ≤ o) : textOpacity s o fb = s := by
  unfold textOpacity
  rw [if_pos h]

theorem part_cells (s : Strip) (o : Rat) (fb : Option RgbaColor) (h0 : 0 < o) (h1 : o < 1) :
    (textOpacity s o fb).cells = s.cells.map fun c => { c with style := fadeStyle o fb c.style } := by
  unfold textOpacity
  rw [if_neg (not_le.mpr h1)]
  show segCells (s.segments.map _) = (segCells s.segments).map _
  rw [segCells_map]
  induction s.segments with
  | nil => rfl
  | cons x xs ih =>
    rw [segCells_cons, List.map_append, ← ih, List.flatMap_cons]
    congr 1
    rw [← Strip.textCells_map_style]
    simp [fadeSegment, not_le.mpr h0, Segment.mk']

/-- C163: a partly faded line shows the same characters in the same columns; in each column only the text
colour changes, and when there is a background (the column's own, or else the one behind the line) each
channel of the new colour is the mix of `o` parts of the old colour (white when there was none) and `1 - o`
parts of the background. Without a background the colour is made that much more transparent. -/
theorem part (s : Strip) (o : Rat) (fb : Option RgbaColor) (h0 : 0 < o) (h1 : o < 1) :
    (textOpacity s o fb).cells.length = s.cells.length ∧
    ∀ (k : Nat) (c : StripCell), s.cells[k]? = some c →
      ∃ c', (textOpacity s o fb).cells[k]? = some c' ∧ c'.g = c.g ∧ c'.col = c.col ∧ c'.info = c.info ∧
        rest c'.style = rest c.style ∧
        (∀ b, (c.style.bind (·.bg)).or fb = some b → b.Valid →
          ∀ f, f = ((c.style.bind (·.fg)).getD RgbaColor.white) → f.Valid →
          ∃ n, c'.style.bind (·.fg) = some n ∧ n.a = f.a ∧
            Mixed o f.r b.r n.r ∧ Mixed o f.g b.g n.g ∧ Mixed o f.b b.b n.b) ∧
        ((c.style.bind (·.bg)).or fb = none →
          c'.style.bind (·.fg) = (c.style.bind (·.fg)).map fun f => { f with a := f.a * o }) := by
  rw [part_cells s o fb h0 h1]
  refine ⟨by simp, ?_⟩
  intro k c hc
  refine ⟨{ c with style := fadeStyle o fb c.style }, by simp [hc], rfl, rfl, rfl, ?_, ?_, ?_⟩
  · show rest (fadeStyle o fb c.style) = rest c.style
    unfold fadeStyle
    dsimp only
    split <;> simp [rest]
  · intro b hb hbv f hf hfv
    have hf' : (c.style.bind (·.fg)).or ((behind c.style fb).map fun _ => RgbaColor.rgba 255 255 255 1) = some f := by
      unfold behind
      rw [hb, hf]
      cases c.style.bind (·.fg) <;> rfl
    have hs : (fadeStyle o fb c.style).bind (·.fg) = some (f.blendToward b o) := by
      unfold fadeStyle
      dsimp only
      rw [hf']
      have : behind c.style fb = some b := hb
      rw [this]
      rfl
    refine ⟨_, hs, ?_, ?_⟩
    · unfold RgbaColor.blendToward
      rw [if_neg (not_le.mpr h1), if_neg (not_le.mpr h0)]
      rfl
    · unfold RgbaColor.blendToward
      rw [if_neg (not_le.mpr h1), if_neg (not_le.mpr h0)]
      have key : ∀ {x y : Nat}, x < 256 → y < 256 → Mixed o x y (RgbaColor.lerpU8 y x o) := by
        intro x y hx hy
        have := RgbaColor.lerpU8_exact hy hx h0.le h1.le
        exact ⟨by linarith [this.1], by linarith [this.2]⟩
      exact ⟨key hfv.1 hbv.1, key hfv.2.1 hbv.2.1, key hfv.2.2 hbv.2.2⟩
  · intro hb
    show (fadeStyle o fb c.style).bind (·.fg) = _
    have hb' : behind c.style fb = none := hb
    unfold fadeStyle
    rw [hb']
    cases hf : c.style.bind (·.fg) with
    | none => simpa using hf
    | some f =>
      simp only [Option.some_or, Option.bind_some, Option.map_some]
      unfold RgbaColor.withOpacity
      rw [if_neg (not_le.mpr h1)]
      rfl

theorem mem_textCells {st : Option Style} {i : Meta} {t : List Grapheme} {c : StripCell}
    (h : c ∈ textCells st i t) : c.style = st ∧ c.info = i ∧ c.g ∈ t ∧ c.col < c.g.width := by
  simp only [textCells, List.mem_flatMap, List.mem_map, List.mem_range] at h
  obtain ⟨g, hg, k, hk, rfl⟩ := h
  exact ⟨rfl, rfl, hg, hk⟩

theorem blank_cells (st st' : Option Style) (f : Option Style → Option Style) (hf : f st = st') (i : Meta)
    (t : List Grapheme) : textCells st' i (List.replicate (widthOf t) Grapheme.space) =
      (textCells st i t).map fun c => ⟨Grapheme.space, 0, f c.style, c.info⟩ := by
  rw [textCells_spaces, eq_comm, List.eq_replicate_iff]
  refine ⟨by rw [List.length_map, textCells_length], ?_⟩
  intro b hb
  obtain ⟨c, hc, rfl⟩ := List.mem_map.mp hb
  have := mem_textCells hc
  rw [this.1, this.2.1, hf]

/-- C163: with text opacity 0 every column is blank, in the background and with the attributes it had. -/
theorem gone (s : Strip) (h : s.WF) (o : Rat) (fb : Option RgbaColor) (h0 : o ≤ 0) :
    (textOpacity s o fb).cells =
      s.cells.map fun c => ⟨Grapheme.space, 0, c.style.map fun t => { t with fg := none }, c.info⟩ := by
  unfold textOpacity
  rw [if_neg (not_le.mpr (lt_of_le_of_lt h0 (by norm_num)))]
  show segCells (s.segments.map _) = (segCells s.segments).map _
  rw [segCells_map]
  have hs := h.seg
  generalize s.segments = segs at hs
  induction segs with
  | nil => rfl
  | cons x xs ih =>
    rw [segCells_cons, List.map_append, ← ih (fun y hy => hs y (by simp [hy])), List.flatMap_cons]
    congr 1
    rw [← blank_cells x.style _ (fun o => o.map fun t => { t with fg := none }) rfl, ← hs x (by simp)]
    simp [fadeSegment, h0, Segment.blank]

/-- C163: fading keeps the length of a line. -/
theorem fade_wf (s : Strip) (h : s.WF) (o : Rat) (fb : Option RgbaColor) :
    (textOpacity s o fb).WF ∧ (textOpacity s o fb).cellLength = s.cellLength := by
  unfold textOpacity
  split
  · exact ⟨h, rfl⟩
  · refine ⟨Strip.ofSegments_wf ?_, ?_⟩
    · intro x hx
      obtain ⟨y, hy, rfl⟩ := List.mem_map.mp hx
      unfold fadeSegment
      split
      · simp [Segment.blank, widthOf_spaces]
      · rfl
    · rw [h.total]
      show ((s.segments.map (fadeSegment o fb)).map (·.cellLength)).sum = _
      congr 1
      rw [List.map_map]
      apply List.map_congr_left
      intro y hy
      show (fadeSegment o fb y).cellLength = _
      unfold fadeSegment
      split
      · rfl
      · exact (h.seg y hy).symm

/-- C163: the lines of a text are faded one by one, none is left out. -/
theorem each_line (o : Rat) (fb : Option RgbaColor) (lines : List Strip) :
    (fadeLines o fb lines).length = lines.length ∧
    ∀ (i : Nat) (l : Strip), lines[i]? = some l → (fadeLines o fb lines)[i]? = some (textOpacity l o fb) := by
  unfold fadeLines
  split
  · exact ⟨by simp, fun i l h => by simp [h]⟩
  · rename_i ho
    exact ⟨rfl, fun i l h => by rw [full l o fb (not_lt.mp ho)]; exact h⟩

/-- C163: text that is faded out completely can still be seen: an underline stays. -/
theorem gone_counterexample : ∃ s : Strip, s.WF ∧
    (textOpacity s 0 none).cells.any (fun c => (c.style.getD {}).underline) = true :=
  ⟨Strip.ofSegments [Segment.mk' [⟨"a", 1⟩] (some { underline := true })], ⟨by decide, rfl⟩, by decide⟩

/-- A line of red text on blue, then plain text. -/
def twoTone : Strip := Strip.ofSegments
  [Segment.mk' [⟨"h", 1⟩, ⟨"漢", 2⟩] (some { fg := some (RgbaColor.rgb 255 0 0), bg := some (RgbaColor.rgb 0 0 255), bold := true }),
   Segment.mk' [⟨"i", 1⟩] none]

example : twoTone.WF ∧ (0 : Rat) < 1 / 2 ∧ (1 / 2 : Rat) < 1 ∧
    (textOpacity twoTone (1 / 2) (some RgbaColor.black)).cells.map (fun c => (c.g.text, (c.style.bind (·.fg)).map fun f => (f.r, f.g, f.b))) =
      [("h", some (127, 0, 127)), ("漢", some (127, 0, 127)), ("漢", some (127, 0, 127)), ("i", some (127, 127, 127))] :=
  ⟨⟨by decide, rfl⟩, by norm_num, by norm_num, by decide +kernel⟩

example : (textOpacity twoTone 0 none).cells.map (fun c => (c.g.text, c.style.isSome)) =
    [(" ", true), (" ", true), (" ", true), (" ", false)] := by decide +kernel

/-! ### C164 -/

/-- Every space of the line takes one column. -/
def SpacesNarrow (s : Strip) : Prop := ∀ x ∈ s.segments, ∀ g ∈ x.text, g.text = " " → g.width = 1

/-- Every piece of the line is either blank all along or holds neither blanks nor the hatch character. -/
def Uniform (ch : Char) (s : Strip) : Prop := ∀ x ∈ s.segments,
  (∀ g ∈ x.text, g.text = " ") ∨ (∀ g ∈ x.text, g.text ≠ " " ∧ ch ∉ g.text.toList)

theorem fill_width (h : Hatch) (hw : h.width = 1) {g : Grapheme} (hg : g.text = " " → g.width = 1) :
    (h.fill g).width = g.width := by
  unfold Hatch.fill
  split
  · next e => rw [hg e]; exact hw
  · rfl

theorem fill_cells (h : Hatch) (hw : h.width = 1) (st st' : Option Style) (i : Meta) : ∀ (t : List Grapheme),
    (∀ g ∈ t, g.text = " " → g.width = 1) →
    textCells st' i (t.map h.fill) = (textCells st i t).map fun c => ⟨h.fill c.g, c.col, st', c.info⟩
  | [], _ => rfl
  | g :: gs, hg => by
    have e : ∀ (s : Option Style) (x : Grapheme) (xs : List Grapheme),
        textCells s i (x :: xs) = textCells s i [x] ++ textCells s i xs := by
      intro s x xs; simp [textCells]
    rw [List.map_cons, e, e st, List.map_append, fill_cells h hw st st' i gs (fun y hy => hg y (by simp [hy]))]
    congr 1
    simp [textCells, fill_width h hw (hg g (by simp)), Function.comp_def]

/-- The hatch is put on a segment with blanks. -/
theorem hatch_hit (h : Hatch) {seg : Segment} {g : Grapheme} (hg : g ∈ seg.text) (hs : g.text = " ") :
    (seg.text.map h.fill).any (fun g => g.text.toList.contains h.char) = true := by
  rw [List.any_eq_true]
  refine ⟨h.fill g, List.mem_map.mpr ⟨g, hg, rfl⟩, ?_⟩
  unfold Hatch.fill
  rw [if_pos hs]
  simp [Hatch.glyph]

theorem hatchSegment_rest (h : Hatch) (seg : Segment) :
    rest (hatchSegment h seg).style = rest seg.style ∧ (hatchSegment h seg).info = seg.info := by
  unfold hatchSegment
  dsimp only
  split
  · refine ⟨?_, rfl⟩
    cases seg.style <;> rfl
  · exact ⟨rfl, rfl⟩

theorem hatchSegment_cells (h : Hatch) (hw : h.width = 1) (seg : Segment)
    (hn : ∀ g ∈ seg.text, g.text = " " → g.width = 1) :
    textCells (hatchSegment h seg).style (hatchSegment h seg).info (hatchSegment h seg).text =
      (textCells seg.style seg.info seg.text).map
        fun c => ⟨h.fill c.g, c.col, (hatchSegment h seg).style, c.info⟩ := by
  rw [← fill_cells h hw _ _ _ _ hn, (hatchSegment_rest h seg).2]
  congr 1
  unfold hatchSegment
  dsimp only
  split
  · rfl
  · next hc =>
    symm
    rw [show seg.text = seg.text.map id by simp]
    rw [List.map_map]
    apply List.map_congr_left
    intro g hg
    by_contra hne
    apply hc
    apply hatch_hit h hg
    by_contra hs
    apply hne
    show h.fill g = g
    unfold Hatch.fill
    rw [if_neg hs]

/-- C164: hatching a line puts the hatch character, in the hatch colour, in every blank column, keeps every
other character where it is, and keeps the background and attributes of every column.
Missing (see `text_counterexample`, `border_counterexample`): the colour of a character that shares its piece
of the line with a blank, or is itself the hatch character, is lost; only a line whose pieces are blank or free
of both keeps its characters as they are. -/
theorem hatch_partial (h : Hatch) (hw : h.width = 1) (s : Strip) (hn : SpacesNarrow s) :
    (hatchStrip h s).cells.length = s.cells.length ∧
    ∀ (k : Nat) (c : StripCell), s.cells[k]? = some c → ∃ c', (hatchStrip h s).cells[k]? = some c' ∧
      c'.info = c.info ∧ rest c'.style = rest c.style ∧
      (c.g.text = " " → c'.g = ⟨String.singleton h.char, 1⟩ ∧ c'.col = 0 ∧
        c'.style.bind (·.fg) = some { h.color with a := h.color.a * h.opacity }) ∧
      (c.g.text ≠ " " → c'.g = c.g ∧ c'.col = c.col ∧ (Uniform h.char s → c'.style = c.style)) := by
  show (segCells (s.segments.map _)).length = (segCells s.segments).length ∧ ∀ k c,
    (segCells s.segments)[k]? = some c → ∃ c', (segCells (s.segments.map _))[k]? = some c' ∧ _
  unfold SpacesNarrow at hn
  unfold Uniform
  generalize s.segments = segs at hn ⊢
  induction segs with
  | nil => exact ⟨rfl, by intro k c hc; simp [segCells] at hc⟩
  | cons x xs ih =>
    obtain ⟨il, ic⟩ := ih (fun y hy => hn y (by simp [hy]))
    rw [List.map_cons, segCells_cons, segCells_cons, hatchSegment_cells h hw x (hn x (by simp))]
    refine ⟨by simp [il], ?_⟩
    intro k c hc
    by_cases hk : k < (textCells x.style x.info x.text).length
    · rw [List.getElem?_append_left hk] at hc
      rw [List.getElem?_append_left (by simpa using hk), List.getElem?_map, hc]
      have hm := mem_textCells (List.mem_of_getElem? hc)
      refine ⟨_, rfl, rfl, ?_, ?_, ?_⟩
      · rw [hm.1]; exact (hatchSegment_rest h x).1
      · intro hs
        refine ⟨?_, ?_, ?_⟩
        · show h.fill c.g = _
          unfold Hatch.fill
          rw [if_pos hs, Hatch.glyph, hw]
        · have := hn x (by simp) c.g hm.2.2.1 hs
          have := hm.2.2.2
          show c.col = 0
          omega
        · show (hatchSegment h x).style.bind (·.fg) = _
          unfold hatchSegment
          dsimp only
          rw [if_pos (hatch_hit h hm.2.2.1 hs)]
          cases x.style <;> rfl
      · intro hs
        refine ⟨?_, rfl, ?_⟩
        · show h.fill c.g = _
          unfold Hatch.fill
          rw [if_neg hs]
        · intro hu
          show (hatchSegment h x).style = c.style
          rw [hm.1]
          rcases hu x (by simp) with hb | hb
          · exact absurd (hb _ hm.2.2.1) hs
          · unfold hatchSegment
            dsimp only
            rw [if_neg]
            rw [List.any_eq_true]
            rintro ⟨g, hg, hgc⟩
            obtain ⟨y, hy, rfl⟩ := List.mem_map.mp hg
            unfold Hatch.fill at hgc
            rw [if_neg (hb y hy).1] at hgc
            exact (hb y hy).2 (by simpa using hgc)
    · rw [List.getElem?_append_right (by omega)] at hc
      rw [List.getElem?_append_right (by simpa using hk)]
      obtain ⟨c', h1, h2, h3, h4, h5⟩ := ic _ c hc
      refine ⟨c', by simpa using h1, h2, h3, h4, fun hs => ⟨(h5 hs).1, (h5 hs).2.1, fun hu => ?_⟩⟩
      exact (h5 hs).2.2 (fun y hy => hu y (by simp [hy]))

/-- C164: hatching with a character one column wide keeps the length of a line right. -/
theorem hatch_wf (h : Hatch) (hw : h.width = 1) (s : Strip) (hs : s.WF) (hn : SpacesNarrow s) :
    (hatchStrip h s).WF ∧ (hatchStrip h s).cellLength = s.cellLength := by
  have hl : ∀ x, (hatchSegment h x).cellLength = x.cellLength := by
    intro x
    unfold hatchSegment
    dsimp only
    split <;> rfl
  refine ⟨Strip.ofSegments_wf ?_, ?_⟩
  · intro x hx
    obtain ⟨y, hy, rfl⟩ := List.mem_map.mp hx
    rw [hl, hs.seg y hy]
    have := congrArg List.length (hatchSegment_cells h hw y (hn y hy))
    rw [List.length_map, textCells_length, textCells_length] at this
    exact this.symm
  · rw [hs.total]
    show ((s.segments.map (hatchSegment h)).map (·.cellLength)).sum = _
    rw [List.map_map]
    congr 1
    exact List.map_congr_left fun y _ => hl y

/-- The vertical hatch in green. -/
def bars : Hatch := { char := '│', color := RgbaColor.rgb 0 255 0 }

/-- C164: text with a blank in it takes the hatch colour. -/
theorem text_counterexample : ∃ s : Strip, s.WF ∧ SpacesNarrow s ∧ ∃ c c', s.cells[0]? = some c ∧
    (hatchStrip bars s).cells[0]? = some c' ∧ c.g.text = "a" ∧
    c.style.bind (·.fg) = some (RgbaColor.rgb 255 0 0) ∧ c'.style.bind (·.fg) = some (RgbaColor.rgb 0 255 0) := by
  refine ⟨Strip.ofSegments [Segment.mk' [⟨"a", 1⟩, ⟨" ", 1⟩] (some { fg := some (RgbaColor.rgb 255 0 0) })],
    ⟨by decide, rfl⟩, by unfold SpacesNarrow; decide, _, _, rfl, rfl, ?_⟩
  decide +kernel

/-- C164: a border edge drawn with the hatch character takes the hatch colour. -/
theorem border_counterexample : ∃ s : Strip, s.WF ∧ SpacesNarrow s ∧ ∃ c c', s.cells[0]? = some c ∧
    (hatchStrip bars s).cells[0]? = some c' ∧ (∀ x ∈ s.cells, x.g.text ≠ " ") ∧
    c.style.bind (·.fg) = some (RgbaColor.rgb 255 0 0) ∧ c'.style.bind (·.fg) = some (RgbaColor.rgb 0 255 0) := by
  refine ⟨Strip.ofSegments [Segment.mk' [⟨"│", 1⟩] (some { fg := some (RgbaColor.rgb 255 0 0) })],
    ⟨by decide, rfl⟩, by unfold SpacesNarrow; decide, _, _, rfl, rfl, ?_⟩
  decide +kernel

/-- C164: with a wide hatch character the line is wider than it says it is. -/
theorem wide_counterexample : ∃ (h : Hatch) (s : Strip), s.WF ∧ SpacesNarrow s ∧
    (hatchStrip h s).cellLength = 1 ∧ (hatchStrip h s).cells.length = 2 :=
  ⟨{ char := '漢', width := 2, color := RgbaColor.black }, Strip.ofSegments [Segment.mk' [⟨" ", 1⟩] none],
    ⟨by decide, rfl⟩, by unfold SpacesNarrow; decide, by decide +kernel, by decide +kernel⟩

/-- A red border edge, two blanks and a word. -/
def row : Strip := Strip.ofSegments
  [Segment.mk' [⟨"┃", 1⟩] (some { fg := some (RgbaColor.rgb 255 0 0) }), Segment.mk' [⟨" ", 1⟩, ⟨" ", 1⟩] none,
   Segment.mk' [⟨"o", 1⟩, ⟨"k", 1⟩] (some { bold := true })]

example : bars.width = 1 ∧ row.WF ∧ SpacesNarrow row ∧ Uniform '│' row ∧
    (hatchStrip bars row).cells.map (·.g.text) = ["┃", "│", "│", "o", "k"] := by
  refine ⟨rfl, ⟨by decide, rfl⟩, by unfold SpacesNarrow; decide, by unfold Uniform; decide, by decide +kernel⟩

/-- C164: tinting changes no character, no attribute and no position; the colours a column has are tinted. -/
theorem tint_cells (s : Strip) (t : RgbaColor) (ht : t.a ≠ 0) :
    (s.applyTint t).cells = s.cells.map fun c => { c with style := c.style.map fun st =>
      { st with fg := st.fg.map (·.tint t), bg := st.bg.map (·.tint t) } } := by
  unfold Strip.applyTint
  rw [if_neg ht]
  show segCells (s.segments.map _) = (segCells s.segments).map _
  rw [segCells_map]
  induction s.segments with
  | nil => rfl
  | cons x xs ih =>
    rw [segCells_cons, List.map_append, ← ih, List.flatMap_cons]
    congr 1
    rw [← Strip.textCells_map_style x.style x.info x.text fun o => o.map fun st =>
      { st with fg := st.fg.map (·.tint t), bg := st.bg.map (·.tint t) }]
    simp [Segment.applyTint, ht]

example : (row.applyTint (RgbaColor.rgba 0 0 255 (1 / 2))).cells.map (fun c => (c.g.text, (c.style.bind (·.fg)).map fun f => (f.r, f.b))) =
    [("┃", some (127, 127)), (" ", none), (" ", none), ("o", none), ("k", none)] := by decide +kernel

/-- C164: the hatch of a widget stays inside its border rows: the rows of the top and bottom border are as
they were, the others are hatched; a tint covers all of them. -/
theorem rows (top bottom height : Nat) (h : Hatch) (t : RgbaColor) (y : Nat) (hy : y < height) (s : Strip) :
    (y < top ∨ height ≤ y + bottom → finish top bottom height (some h) none y s = s ∧
      finish top bottom height (some h) (some t) y s = s.applyTint t) ∧
    (top ≤ y ∧ y + bottom < height → finish top bottom height (some h) none y s = hatchStrip h s ∧
      finish top bottom height (some h) (some t) y s = (hatchStrip h s).applyTint t) ∧
    finish top bottom height none none y s = s := by
  refine ⟨?_, ?_, rfl⟩
  · intro ho
    have : ¬ (y ≥ top ∧ y < height - bottom) := by omega
    simp [finish, this]
  · intro ho
    have : y ≥ top ∧ y < height - bottom := by omega
    simp [finish, this]

example : (3 : Nat) < 5 ∧ (1 ≤ 3 ∧ 3 + 1 < 5) ∧ finish 1 1 5 (some bars) none 3 row ≠ row ∧
    finish 1 1 5 (some bars) none 4 row = row := by
  refine ⟨by decide, by decide, by decide +kernel, by decide +kernel⟩

end Textual.Fade
