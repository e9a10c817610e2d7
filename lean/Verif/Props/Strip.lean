import Mathlib.Tactic.Linarith
import Verif.Lemmas.Strip

/-!
C08-C14: the line operations. `Strip.cells` (Lemmas/Strip.lean) is the list of terminal columns a
line covers; `OnBoundary` says that a cut does not go through a wide grapheme.
-/

namespace Textual

/-- A padding column. -/
def padCell (style : Option Style) : StripCell := ⟨Grapheme.space, 0, style, []⟩

theorem textCells_spaces (st i) (n : Nat) :
    textCells st i (List.replicate n Grapheme.space) = List.replicate n ⟨Grapheme.space, 0, st, i⟩ := by
  induction n with
  | zero => rfl
  | succ n ih =>
    have : textCells st i (List.replicate (n + 1) Grapheme.space) =
      textCells st i [Grapheme.space] ++ textCells st i (List.replicate n Grapheme.space) := by
      rw [← textCells_append]; rfl
    rw [this, ih]; rfl

theorem widthOf_spaces (n : Nat) : widthOf (List.replicate n Grapheme.space) = n := by
  simp [widthOf, Grapheme.space]

theorem segCells_blank (n : Nat) (st : Option Style) :
    segCells [Segment.blank n st] = List.replicate n (padCell st) := by
  simp [segCells, Segment.blank, textCells_spaces, padCell]

namespace Strip

theorem mk'_wf (t : List Grapheme) (st : Option Style) :
    (Segment.mk' t st).cellLength = widthOf (Segment.mk' t st).text := rfl

theorem blank_seg_wf (n : Nat) (st : Option Style) :
    (Segment.blank n st).cellLength = widthOf (Segment.blank n st).text := by
  simp [Segment.blank, widthOf_spaces]

/-- A line whose graphemes all take one column has only good cuts. -/
theorem narrow_onBoundary (s : Strip) (h : ∀ c ∈ s.cells, c.g.width = 1) (k : Nat) :
    OnBoundary s.cells k := by
  intro c hc
  have hm := List.mem_of_getElem? hc
  have hw := h c hm
  simp only [cells, segCells, textCells, List.mem_flatMap, List.mem_map, List.mem_range] at hm
  obtain ⟨seg, _, g, _, col, hcol, rfl⟩ := hm
  simp only at hw ⊢
  omega

/-! ### C08 crop -/

/-- Cropping never leaves a wrong cached length, wherever the cuts fall. -/
theorem crop_wf (s : Strip) (h : s.WF) (a b : Nat) : (s.crop a b).WF := by
  unfold crop
  split
  · exact ⟨by simp [new], rfl⟩
  · exact ofSegments_wf (cropLoop_wf _ _ _ _ h.seg)

/-- C08: cropping to `[a, b)` keeps exactly the columns `a ≤ k < b`, each with its grapheme, style
and metadata, when neither cut goes through a wide grapheme. -/
theorem crop_cells_partial (s : Strip) (h : s.WF) (a b : Nat)
    (ha : OnBoundary s.cells a) (hb : OnBoundary s.cells b) :
    (s.crop a b).cells = (s.cells.take b).drop a := by
  have hl := h.length
  unfold crop
  split
  · rename_i hc
    rw [List.drop_of_length_le]
    · rfl
    · rw [List.length_take]; omega
  · rename_i hc
    show segCells (cropLoop a (min b s.cellLength) 0 s.segments) = _
    have hmin : s.cells.take (min b s.cellLength) = s.cells.take b := by
      rcases Nat.le_total b s.cellLength with hle | hle
      · rw [Nat.min_eq_left hle]
      · rw [Nat.min_eq_right hle, List.take_of_length_le (by omega), List.take_of_length_le (by omega)]
    rw [cropLoop_cells a (min b s.cellLength) (by omega) s.segments 0 h.seg (fun _ => ha)]
    · simp only [Nat.sub_zero]
      rw [← hmin]; rfl
    · intro _
      rcases Nat.le_total b s.cellLength with hle | hle
      · rw [Nat.min_eq_left hle]; exact hb
      · intro c hc
        rw [Nat.min_eq_right hle, Nat.sub_zero] at hc
        have hlen : (segCells s.segments).length = s.cellLength := hl
        rw [List.getElem?_eq_none (by omega)] at hc
        exact absurd hc (by simp)

/-- C08 for text of one-column graphemes: no condition on the cuts. -/
theorem crop_cells_narrow (s : Strip) (h : s.WF) (hn : ∀ c ∈ s.cells, c.g.width = 1) (a b : Nat) :
    (s.crop a b).cells = (s.cells.take b).drop a :=
  crop_cells_partial s h a b (narrow_onBoundary s hn a) (narrow_onBoundary s hn b)

/-- C08: the width of a crop. -/
theorem crop_length_partial (s : Strip) (h : s.WF) (a b : Nat)
    (ha : OnBoundary s.cells a) (hb : OnBoundary s.cells b) :
    (s.crop a b).cellLength = min b s.cellLength - a := by
  rw [← (crop_wf s h a b).length, crop_cells_partial s h a b ha hb, List.length_drop, List.length_take,
    h.length]

/-- C08 fails in general: asking for one column of a wide grapheme returns two. -/
theorem crop_wide_counterexample :
    ((ofSegments [Segment.mk' [⟨"日", 2⟩] none]).crop 0 1).cellLength = 2 := by decide

/-- A two-segment line used in the examples. -/
def sample : Strip :=
  ofSegments [Segment.mk' [⟨"a", 1⟩, ⟨"日", 2⟩] none,
    Segment.mk' [⟨"b", 1⟩, ⟨" ", 1⟩, ⟨"c", 1⟩] (some { bold := true })]

theorem sample_wf : sample.WF := ⟨by decide, rfl⟩

theorem sample_boundary {k : Nat} (hk : k ≠ 2) : OnBoundary sample.cells k := by
  intro c hc
  have hlt := (List.getElem?_eq_some_iff.1 hc).1
  have hlen : sample.cells.length = 6 := by decide
  rw [hlen] at hlt
  have : k = 0 ∨ k = 1 ∨ k = 3 ∨ k = 4 ∨ k = 5 := by omega
  rcases this with rfl | rfl | rfl | rfl | rfl <;> (injection hc with hc; rw [← hc])

example : (sample.crop 1 5).cells = (sample.cells.take 5).drop 1 :=
  crop_cells_partial sample sample_wf 1 5 (sample_boundary (by decide)) (sample_boundary (by decide))
example : ((sample.crop 1 5).cells.map (·.g.text)) = ["日", "日", "b", " "] := by decide

/-! ### C09 divide and join -/

theorem join_wf (l : List Strip) (h : ∀ s ∈ l, s.WF) : (join l).WF := by
  apply ofSegments_wf
  intro x hx
  simp only [List.mem_flatMap] at hx
  obtain ⟨s, hs, hx⟩ := hx
  exact (h s hs).seg x hx

/-- C09: joining concatenates the columns. -/
theorem join_cells (l : List Strip) : (join l).cells = l.flatMap cells := by
  induction l with
  | nil => rfl
  | cons s l ih =>
    have : (join (s :: l)).cells = s.cells ++ (join l).cells := by
      simp [join, cells, ofSegments, segCells_append]
    rw [this, ih]; rfl

theorem divideLoop_cells (s : Strip) (h : s.WF) (cuts : List Nat) : ∀ last,
    last ≤ s.cellLength → OnBoundary s.cells last → (∀ c ∈ cuts, OnBoundary s.cells c) →
    (divideLoop s last cuts).flatMap cells = s.cells.drop last := by
  have hl := h.length
  have hend : OnBoundary s.cells s.cellLength := by
    intro c hc
    rw [List.getElem?_eq_none (by omega)] at hc
    exact absurd hc (by simp)
  induction cuts with
  | nil =>
    intro last hle hb _
    unfold divideLoop
    split
    · simp only [List.flatMap_cons, List.flatMap_nil, List.append_nil]
      rw [crop_cells_partial s h _ _ hb hend, List.take_of_length_le (by omega)]
    · rw [List.drop_of_length_le (by omega)]; rfl
  | cons cut cuts ih =>
    intro last hle hb hc
    unfold divideLoop
    have hcut := hc cut (by simp)
    have hcs : ∀ c ∈ cuts, OnBoundary s.cells c := fun c hm => hc c (by simp [hm])
    split
    · rename_i hlt
      rw [List.flatMap_cons, ih cut hlt.2 hcut hcs, crop_cells_partial s h _ _ hb hcut]
      have : s.cells.drop cut = (s.cells.drop last).drop (cut - last) := by
        rw [List.drop_drop]; congr 1; omega
      rw [this, List.drop_take, List.take_append_drop]
    · exact ih last hle hb hcs

/-- C09: dividing a line at any list of positions and joining the pieces gives back the same
columns, when no position is inside a wide grapheme. -/
theorem divide_join_partial (s : Strip) (h : s.WF) (cuts : List Nat)
    (hc : ∀ c ∈ cuts, OnBoundary s.cells c) : (join (s.divide cuts)).cells = s.cells := by
  rw [join_cells]
  unfold divide
  split
  · simp
  · rw [divideLoop_cells s h cuts 0 (Nat.zero_le _) _ hc, List.drop_zero]
    intro c hc
    exact onBoundary_zero s c hc
where
  onBoundary_zero (s : Strip) : OnBoundary s.cells 0 := by
    have key : ∀ segs : List Segment, OnBoundary (segCells segs) 0 := by
      intro segs
      induction segs with
      | nil => intro c hc; simp [segCells] at hc
      | cons x xs ih =>
        intro c hc
        rw [segCells_cons] at hc
        rcases Nat.eq_zero_or_pos (textCells x.style x.info x.text).length with h0 | hp
        · rw [List.length_eq_zero_iff] at h0
          rw [h0] at hc
          exact ih c hc
        · rw [List.getElem?_append_left hp] at hc
          exact boundary_zero _ _ _ c hc
    exact key s.segments

theorem divideLoop_nth (s : Strip) (cuts : List Nat) : ∀ last,
    (last :: cuts).Pairwise (· < ·) → (∀ c ∈ cuts, c ≤ s.cellLength) →
    ∀ (i c : Nat), cuts[i]? = some c →
      (divideLoop s last cuts)[i]? = some (s.crop ((last :: cuts)[i]?.getD 0) c) := by
  induction cuts with
  | nil => intro _ _ _ i c hc; simp at hc
  | cons cut cuts ih =>
    intro last hp hle i c hc
    unfold divideLoop
    rw [List.pairwise_cons] at hp
    rw [if_pos ⟨hp.1 cut (by simp), hle cut (by simp)⟩]
    cases i with
    | zero => simp at hc; subst hc; simp
    | succ i =>
      simp only [List.getElem?_cons_succ] at hc ⊢
      exact ih cut hp.2 (fun c hm => hle c (by simp [hm])) i c hc

/-- C09: with strictly increasing positive positions inside the line, the `i`-th piece is what lies
between the position before it and its own. -/
theorem divide_nth_partial (s : Strip) (h : s.WF) (cuts : List Nat)
    (hc : ∀ c ∈ cuts, OnBoundary s.cells c) (hp : (0 :: cuts).Pairwise (· < ·))
    (hle : ∀ c ∈ cuts, c ≤ s.cellLength) (i c : Nat) (hi : cuts[i]? = some c) :
    ((s.divide cuts)[i]?.map cells) =
      some ((s.cells.take c).drop ((0 :: cuts)[i]?.getD 0)) := by
  unfold divide
  split
  · rename_i he
    simp only [List.isEmpty_iff] at he
    simp [he] at hi
  · rw [divideLoop_nth s cuts 0 hp hle i c hi, Option.map_some,
      crop_cells_partial s h _ _ _ (hc c (List.mem_of_getElem? hi))]
    cases i with
    | zero => exact divide_join_partial.onBoundary_zero s
    | succ i =>
      simp only [List.getElem?_cons_succ]
      cases hci : cuts[i]? with
      | none => exact divide_join_partial.onBoundary_zero s
      | some d => exact hc d (List.mem_of_getElem? hci)

/-- C09 fails in general: dividing two wide graphemes through the first duplicates columns. -/
theorem divide_wide_counterexample :
    (join ((ofSegments [Segment.mk' [⟨"日", 2⟩, ⟨"本", 2⟩] none]).divide [1, 2])).cells.length = 6 := by
  decide

example : (join (sample.divide [1, 4, 3, 9])).cells = sample.cells :=
  divide_join_partial sample sample_wf [1, 4, 3, 9] (by
    intro c hc; apply sample_boundary; intro h; subst h; simp at hc)
example : (sample.divide [1, 4, 3, 9]).map cellLength = [1, 3, 2] := by decide

/-! ### C10 adjust_cell_length -/

/-- C10: the result has exactly the requested width; it keeps the leading columns of the line and
fills the rest with padding of the given style. -/
theorem adjustCellLength_spec_partial (s : Strip) (h : s.WF) (n : Nat) (st : Option Style)
    (hb : OnBoundary s.cells n) :
    (s.adjustCellLength n st).cellLength = n ∧ (s.adjustCellLength n st).WF ∧
    (s.adjustCellLength n st).cells =
      s.cells.take n ++ List.replicate (n - s.cellLength) (padCell st) := by
  have hl := h.length
  unfold adjustCellLength
  split
  · rename_i he
    refine ⟨he, h, ?_⟩
    rw [List.take_of_length_le (by omega), show n - s.cellLength = 0 by omega]; simp
  · split
    · rename_i hgt
      have hz := divide_join_partial.onBoundary_zero s
      refine ⟨?_, crop_wf s h _ _, ?_⟩
      · rw [crop_length_partial s h _ _ hz hb]; omega
      · rw [crop_cells_partial s h _ _ hz hb, show n - s.cellLength = 0 by omega]; simp
    · have hwf : (ofSegments (s.segments ++ [Segment.blank (n - s.cellLength) st])).WF := by
        apply ofSegments_wf
        intro x hx
        rcases List.mem_append.1 hx with hx | hx
        · exact h.seg x hx
        · simp at hx; subst hx; exact blank_seg_wf _ _
      have hcells : (ofSegments (s.segments ++ [Segment.blank (n - s.cellLength) st])).cells =
          s.cells.take n ++ List.replicate (n - s.cellLength) (padCell st) := by
        rw [List.take_of_length_le (by omega), ← segCells_blank]
        exact segCells_append _ _
      refine ⟨?_, hwf, hcells⟩
      rw [← hwf.length, hcells]
      simp; omega

/-- C10 fails in general: one column cannot be cut off a wide grapheme. -/
theorem adjustCellLength_wide_counterexample :
    ((ofSegments [Segment.mk' [⟨"日", 2⟩] none]).adjustCellLength 1 none).cellLength = 2 := by decide

example : (sample.adjustCellLength 8 none).cells =
    sample.cells.take 8 ++ List.replicate (8 - 6) (padCell none) :=
  (adjustCellLength_spec_partial sample sample_wf 8 none (sample_boundary (by decide))).2.2

/-! ### C11 text_align -/

/-- Columns of padding left of the text. -/
def leftGap (align : AlignH) (gap : Nat) : Nat :=
  match align with
  | .left => 0
  | .right => gap
  | .center => gap / 2

/-- C11: the result has the requested width and is the text (its leading columns when it is too
long) between `leftGap` and the remaining columns of padding. -/
theorem textAlign_spec_partial (s : Strip) (h : s.WF) (al : AlignH) (n : Nat) (st : Option Style)
    (hb : OnBoundary s.cells n) :
    (s.textAlign al n st).cellLength = n ∧ (s.textAlign al n st).WF ∧
    (s.textAlign al n st).cells =
      List.replicate (leftGap al (n - s.cellLength)) (padCell st) ++ s.cells.take n ++
      List.replicate (n - s.cellLength - leftGap al (n - s.cellLength)) (padCell st) := by
  have hl := h.length
  have hz := divide_join_partial.onBoundary_zero s
  unfold textAlign
  split
  · refine ⟨?_, crop_wf s h _ _, ?_⟩
    · rw [crop_length_partial s h _ _ hz hb]; omega
    · rw [crop_cells_partial s h _ _ hz hb, show n - s.cellLength = 0 by omega]
      cases al <;> simp [leftGap]
  · rename_i hlt
    simp only
    have hseg : ∀ (l r : List Segment), (∀ x ∈ l, x.cellLength = widthOf x.text) →
        (∀ x ∈ r, x.cellLength = widthOf x.text) → (ofSegments (l ++ s.segments ++ r)).WF := by
      intro l r h1 h2
      apply ofSegments_wf
      intro x hx
      simp only [List.mem_append] at hx
      rcases hx with (hx | hx) | hx
      · exact h1 x hx
      · exact h.seg x hx
      · exact h2 x hx
    have hbl : ∀ k, ∀ x ∈ [Segment.blank k st], x.cellLength = widthOf x.text := by
      intro k x hx; simp at hx; subst hx; exact blank_seg_wf _ _
    have hcells : ∀ (l r : List Segment) (p q : Nat),
        segCells l = List.replicate p (padCell st) → segCells r = List.replicate q (padCell st) →
        (ofSegments (l ++ s.segments ++ r)).cells =
          List.replicate p (padCell st) ++ s.cells ++ List.replicate q (padCell st) := by
      intro l r p q h1 h2
      show segCells _ = _
      rw [ofSegments, segCells_append, segCells_append, h1, h2]; rfl
    have fin : ∀ (x : Strip) (p q : Nat), x.WF → p + q = n - s.cellLength →
        x.cells = List.replicate p (padCell st) ++ s.cells ++ List.replicate q (padCell st) →
        x.cellLength = n := by
      intro x p q hx hpq hc
      rw [← hx.length, hc]; simp; omega
    rw [List.take_of_length_le (by omega)]
    cases al with
    | left =>
      have w := hseg [] [Segment.blank (n - s.cellLength) st] (by simp) (hbl _)
      have c := hcells [] [Segment.blank (n - s.cellLength) st] 0 _ rfl (segCells_blank _ _)
      exact ⟨fin _ _ _ w (by simp) c, w, by simpa [leftGap] using c⟩
    | right =>
      have w := hseg [Segment.blank (n - s.cellLength) st] [] (hbl _) (by simp)
      have c := hcells [Segment.blank (n - s.cellLength) st] [] _ 0 (segCells_blank _ _) rfl
      simp only [List.append_nil, List.cons_append, List.nil_append] at w c
      exact ⟨fin _ (n - s.cellLength) 0 w (by simp) (by simpa using c), w, by simpa [leftGap] using c⟩
    | center =>
      have hif : ∀ k, segCells (if k > 0 then [Segment.blank k st] else []) =
          List.replicate k (padCell st) := by
        intro k
        split
        · exact segCells_blank _ _
        · rw [show k = 0 by omega]; rfl
      have hifw : ∀ k, ∀ x ∈ (if k > 0 then [Segment.blank k st] else []), x.cellLength = widthOf x.text := by
        intro k x hx
        split at hx
        · exact hbl k x hx
        · simp at hx
      have w := hseg _ _ (hifw ((n - s.cellLength) / 2))
        (hifw (n - s.cellLength - (n - s.cellLength) / 2))
      have c := hcells _ _ _ _ (hif ((n - s.cellLength) / 2))
        (hif (n - s.cellLength - (n - s.cellLength) / 2))
      exact ⟨fin _ _ _ w (by omega) c, w, c⟩

example : ((sample.textAlign .center 9 none).cells.map (·.g.text)) =
    [" ", "a", "日", "日", "b", " ", "c", " ", " "] := by
  rw [(textAlign_spec_partial sample sample_wf .center 9 none (sample_boundary (by decide))).2.2]
  decide

/-! ### C13 simplify -/

/-- A column without its metadata: what is shown on screen. -/
def shown (c : StripCell) : Grapheme × Nat × Option Style := (c.g, c.col, c.style)

theorem shown_textCells (st : Option Style) (i j : Meta) (t : List Grapheme) :
    (textCells st i t).map shown = (textCells st j t).map shown := by
  induction t with
  | nil => rfl
  | cons g gs ih =>
    have : ∀ i, textCells st i (g :: gs) = textCells st i [g] ++ textCells st i gs := by
      intro i; simp [textCells]
    rw [this i, this j, List.map_append, List.map_append, ih]
    congr 1
    simp [textCells, shown, Function.comp_def]

theorem emit_cells (t : List Grapheme) (st : Option Style) :
    segCells (emit t st) = textCells st [] t := by
  unfold emit
  split
  · rename_i h; simp only [List.isEmpty_iff] at h; simp [h, segCells, textCells]
  · simp [segCells, Segment.mk']

theorem emit_text (t : List Grapheme) (st : Option Style) :
    (emit t st).flatMap (·.text) = t := by
  unfold emit
  split
  · rename_i h; simp only [List.isEmpty_iff] at h; simp [h]
  · simp [Segment.mk']

theorem emit_wf (t : List Grapheme) (st : Option Style) :
    ∀ x ∈ emit t st, x.cellLength = widthOf x.text := by
  unfold emit
  split
  · simp
  · intro x hx; simp at hx; subst hx; rfl

theorem simplifyLoop_spec (rest : List Segment) : ∀ (t : List Grapheme) (st : Option Style),
    (segCells (simplifyLoop t st rest)).map shown =
      (textCells st [] t).map shown ++ (segCells rest).map shown ∧
    (simplifyLoop t st rest).flatMap (·.text) = t ++ rest.flatMap (·.text) ∧
    (∀ x ∈ simplifyLoop t st rest, x.cellLength = widthOf x.text) := by
  induction rest with
  | nil =>
    intro t st
    refine ⟨?_, ?_, emit_wf _ _⟩
    · simp only [simplifyLoop, emit_cells]; simp [segCells]
    · simp only [simplifyLoop, emit_text]; simp
  | cons s ss ih =>
    intro t st
    simp only [simplifyLoop]
    split
    · rename_i he
      have := ih (t ++ s.text) st
      refine ⟨?_, by rw [this.2.1]; simp, this.2.2⟩
      rw [this.1, textCells_append, List.map_append, segCells_cons, List.map_append, List.append_assoc,
        he, shown_textCells st [] s.info s.text]
    · have := ih s.text s.style
      refine ⟨?_, ?_, ?_⟩
      · rw [segCells_append, List.map_append, emit_cells, this.1, segCells_cons, List.map_append,
          shown_textCells s.style [] s.info]
      · rw [List.flatMap_append, emit_text, this.2.1]; simp
      · intro x hx
        rcases List.mem_append.1 hx with hx | hx
        · exact emit_wf _ _ x hx
        · exact this.2.2 x hx

/-- C13: simplifying changes neither the text nor what any column shows, nor the width. -/
theorem simplify_shown (s : Strip) (h : s.WF) :
    s.simplify.cells.map shown = s.cells.map shown ∧
    s.simplify.segments.flatMap (·.text) = s.segments.flatMap (·.text) ∧
    s.simplify.cellLength = s.cellLength ∧ s.simplify.WF := by
  obtain ⟨segs, n⟩ := s
  match segs, h with
  | [], h => exact ⟨rfl, rfl, rfl, h⟩
  | [_], h => exact ⟨rfl, rfl, rfl, h⟩
  | a :: b :: rest, h =>
    have key := simplifyLoop_spec (b :: rest) a.text a.style
    have hw : (simplify ⟨a :: b :: rest, n⟩).WF := ofSegments_wf key.2.2
    have hc : (simplify ⟨a :: b :: rest, n⟩).cells.map shown =
        (cells ⟨a :: b :: rest, n⟩).map shown := by
      show (segCells (simplifyLoop a.text a.style (b :: rest))).map shown = _
      rw [key.1, shown_textCells a.style [] a.info, ← List.map_append, ← segCells_cons]
      rfl
    refine ⟨hc, ?_, ?_, hw⟩
    · show (simplifyLoop a.text a.style (b :: rest)).flatMap (·.text) = _
      rw [key.2.1]; simp
    · have := congrArg List.length hc
      rwa [List.length_map, List.length_map, hw.length, h.length] at this

theorem simplifyLoop_chain (rest : List Segment) : ∀ (t : List Grapheme) (st : Option Style),
    (∀ x ∈ rest, x.text ≠ []) → t ≠ [] →
    (simplifyLoop t st rest).IsChain (fun a b => a.style ≠ b.style) ∧
    (∃ y ys, simplifyLoop t st rest = y :: ys ∧ y.style = st) := by
  induction rest with
  | nil =>
    intro t st _ ht
    simp [simplifyLoop, emit, ht, Segment.mk']
  | cons s ss ih =>
    intro t st hne ht
    have hss : ∀ x ∈ ss, x.text ≠ [] := fun x hx => hne x (by simp [hx])
    simp only [simplifyLoop]
    split
    · exact ih _ _ hss (by simp [ht])
    · rename_i hs
      obtain ⟨hch, y, ys, hy, hyst⟩ := ih s.text s.style hss (hne s (by simp))
      have he : emit t st = [Segment.mk' t st] := by simp [emit, ht]
      rw [hy] at hch ⊢
      rw [he]
      refine ⟨?_, Segment.mk' t st, y :: ys, rfl, rfl⟩
      rw [List.singleton_append, List.isChain_cons_cons]
      refine ⟨?_, hch⟩
      rw [hyst]; exact fun hc => hs hc.symm

/-- C13: when no segment is empty, adjacent segments of a simplified line have different styles
(the line cannot be merged further). -/
theorem simplify_merged (s : Strip) (hne : ∀ x ∈ s.segments, x.text ≠ []) :
    s.simplify.segments.IsChain (fun a b => a.style ≠ b.style) := by
  obtain ⟨segs, n⟩ := s
  match segs, hne with
  | [], _ => exact .nil
  | [a], _ => exact .singleton a
  | a :: b :: rest, hne =>
    exact (simplifyLoop_chain (b :: rest) a.text a.style (fun x hx => hne x (by simp at hx ⊢; tauto))
      (hne a (by simp))).1

/-- Metadata is not part of C13: it is lost, even though the text and the style are the same. -/
theorem simplify_drops_metadata :
    let seg : Segment := { Segment.mk' [⟨"a", 1⟩] none with info := [("@click", "x")] }
    (ofSegments [seg, seg]).simplify.cells.map (·.info) = [[], []] ∧
    (ofSegments [seg, seg]).cells.map (·.info) = [[("@click", "x")], [("@click", "x")]] := by decide

example : (join [sample, sample]).simplify.cells.map shown = (join [sample, sample]).cells.map shown :=
  (simplify_shown _ (join_wf _ (by simp [sample_wf]))).1

/-! ### C14 styles -/

end Strip

namespace Style

/-- C14: overlaying styles is associative. -/
theorem apply_assoc (a b c : Style) : (a.apply b).apply c = a.apply (b.apply c) := by
  cases a; cases b; cases c
  simp [apply, Bool.or_assoc, Option.or_assoc]

/-- C14: the empty style changes nothing, on either side. -/
theorem apply_empty (a : Style) : a.apply {} = a ∧ ({} : Style).apply a = a := by
  cases a; simp [apply]

/-- C14: `is_empty` recognises exactly the empty style. -/
theorem isEmpty_iff (a : Style) : a.isEmpty = true ↔ a = {} := by
  obtain ⟨fg, bg, b1, b2, b3, b4, b5, b6⟩ := a
  cases fg <;> cases bg <;> simp [isEmpty] <;> tauto

/-- C14: overlaying the same style twice is the same as once. -/
theorem apply_idem (a b : Style) : (a.apply b).apply b = a.apply b := by
  obtain ⟨fg, bg, b1, b2, b3, b4, b5, b6⟩ := a
  obtain ⟨fg', bg', c1, c2, c3, c4, c5, c6⟩ := b
  cases fg' <;> cases bg' <;> simp [apply, Bool.or_assoc]

/-- C14: the overlay's colours win where it has them; no attribute is ever turned off. -/
theorem apply_spec (a b : Style) :
    (∀ c, b.fg = some c → (a.apply b).fg = some c) ∧ (b.fg = none → (a.apply b).fg = a.fg) ∧
    (∀ c, b.bg = some c → (a.apply b).bg = some c) ∧ (b.bg = none → (a.apply b).bg = a.bg) ∧
    ((a.apply b).bold = true ↔ a.bold = true ∨ b.bold = true) ∧
    ((a.apply b).dim = true ↔ a.dim = true ∨ b.dim = true) ∧
    ((a.apply b).italic = true ↔ a.italic = true ∨ b.italic = true) ∧
    ((a.apply b).underline = true ↔ a.underline = true ∨ b.underline = true) ∧
    ((a.apply b).strike = true ↔ a.strike = true ∨ b.strike = true) ∧
    ((a.apply b).reverse = true ↔ a.reverse = true ∨ b.reverse = true) := by
  obtain ⟨fg, bg, b1, b2, b3, b4, b5, b6⟩ := a
  obtain ⟨fg', bg', c1, c2, c3, c4, c5, c6⟩ := b
  cases fg' <;> cases bg' <;> simp [apply]

example : ({ bold := true, fg := some RgbaColor.white } : Style).apply { italic := true } =
    { bold := true, italic := true, fg := some RgbaColor.white } := by decide

end Style

namespace Strip

theorem textCells_map_style (st : Option Style) (i : Meta) (t : List Grapheme) (f : Option Style → Option Style) :
    textCells (f st) i t = (textCells st i t).map fun c => { c with style := f c.style } := by
  simp [textCells, List.map_flatMap, Function.comp_def]

/-- What overlaying `st` does to the style of a column. -/
def overlay (st : Style) (c : StripCell) : StripCell :=
  { c with style := some ((c.style.getD {}).apply st) }

/-- C14: styling a line overlays the style on every column and changes nothing else. -/
theorem applyStyle_cells (s : Strip) (st : Style) :
    (s.applyStyle st).cells = s.cells.map (overlay st) := by
  have key : ∀ segs : List Segment, segCells (segs.map (·.applyStyle st)) =
      (segCells segs).map (overlay st) := by
    intro segs
    induction segs with
    | nil => rfl
    | cons x xs ih =>
      rw [List.map_cons, segCells_cons, segCells_cons, List.map_append, ih]
      congr 1
      have := textCells_map_style x.style x.info x.text (fun o => some ((o.getD {}).apply st))
      rw [show (List.map (overlay st) (textCells x.style x.info x.text)) =
        (textCells x.style x.info x.text).map
          (fun c => { c with style := (fun o => some ((o.getD {}).apply st)) c.style }) from rfl,
        ← this]
      unfold Segment.applyStyle
      cases hx : x.style with
      | none => simp [(Style.apply_empty st).2]
      | some v => simp
  exact key s.segments

theorem applyStyle_wf (s : Strip) (h : s.WF) (st : Style) : (s.applyStyle st).WF := by
  apply ofSegments_wf
  intro x hx
  simp only [List.mem_map] at hx
  obtain ⟨y, hy, rfl⟩ := hx
  exact h.seg y hy

/-- C14: two stylings in a row are one styling with the composed style. -/
theorem applyStyle_twice (s : Strip) (a b : Style) :
    ((s.applyStyle a).applyStyle b).cells = (s.applyStyle (a.apply b)).cells := by
  rw [applyStyle_cells, applyStyle_cells, applyStyle_cells, List.map_map]
  congr 1
  funext c
  simp [overlay, Style.apply_assoc]

example : (sample.applyStyle { italic := true }).cells.map (·.style) =
    [some { italic := true }, some { italic := true }, some { italic := true },
     some { bold := true, italic := true }, some { bold := true, italic := true },
     some { bold := true, italic := true }] := by decide

end Strip
end Textual
