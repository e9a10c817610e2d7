import Mathlib.Tactic.Common
import Verif.Spec.RenderCache
import Verif.Props.Strip

namespace Textual.RenderCache

open Strip (AlignH)

/-- The column before and after a label. -/
def gapCell (label : Strip) : StripCell :=
  ⟨Grapheme.space, 0, label.segments.head?.bind (·.style), []⟩

/-- A single border character. -/
def IsPiece (s : Segment) : Prop := ∃ c st, s = piece c st

structure Row.Sound (r : Row) : Prop where
  left : IsPiece r.left
  fill : IsPiece r.fill
  right : IsPiece r.right

structure Box.Sound (b : Box) : Prop where
  top : b.top.Sound
  middle : b.middle.Sound
  bottom : b.bottom.Sound

theorem generateBox_sound (k : Kind) (i o : Style) : (generateBox k i o).Sound :=
  ⟨⟨⟨_, _, rfl⟩, ⟨_, _, rfl⟩, ⟨_, _, rfl⟩⟩, ⟨⟨_, _, rfl⟩, ⟨_, _, rfl⟩, ⟨_, _, rfl⟩⟩,
    ⟨⟨_, _, rfl⟩, ⟨_, _, rfl⟩, ⟨_, _, rfl⟩⟩⟩

theorem perEdgeBox_sound (k : Kind) (a b c d : Style × Style) : (perEdgeBox k a b c d).Sound :=
  ⟨⟨⟨_, _, rfl⟩, ⟨_, _, rfl⟩, ⟨_, _, rfl⟩⟩, ⟨⟨_, _, rfl⟩, ⟨_, _, rfl⟩, ⟨_, _, rfl⟩⟩,
    ⟨⟨_, _, rfl⟩, ⟨_, _, rfl⟩, ⟨_, _, rfl⟩⟩⟩

/-- Every remembered box is sound. -/
def Boxes.Sound (bs : Boxes) : Prop := ∀ p ∈ bs, p.2.Sound

theorem lookup_mem {α β : Type} [BEq α] [LawfulBEq α] {l : List (α × β)} {k : α} {v : β}
    (h : l.lookup k = some v) : (k, v) ∈ l := by
  induction l with
  | nil => simp at h
  | cons p l ih =>
    obtain ⟨a, b⟩ := p
    rw [List.lookup_cons] at h
    by_cases e : k == a
    · simp only [e] at h
      have := eq_of_beq e
      subst this
      injection h with h
      subst h
      simp
    · simp only [Bool.not_eq_true] at e
      simp only [e] at h
      exact List.mem_cons_of_mem _ (ih h)

theorem getBox_sound {bs : Boxes} (h : bs.Sound) (k : Kind) (i o : Style) :
    (getBox bs k i o).1.Sound ∧ (getBox bs k i o).2.Sound := by
  unfold getBox
  dsimp only
  split
  · rename_i b e
    exact ⟨h _ (lookup_mem e), h⟩
  · refine ⟨generateBox_sound _ _ _, ?_⟩
    intro p hp
    rcases List.mem_cons.1 hp with rfl | hp
    · exact generateBox_sound _ _ _
    · exact h p hp

theorem borderBox_sound {bs : Boxes} (h : bs.Sound) (s : Sheet) :
    (borderBox bs s).1.Sound ∧ (borderBox bs s).2.Sound := by
  unfold borderBox
  dsimp only
  split
  · exact getBox_sound h _ _ _
  · exact ⟨perEdgeBox_sound _ _ _ _ _, h⟩

theorem outlineBoxOf_sound {bs : Boxes} (h : bs.Sound) (s : Sheet) :
    (outlineBoxOf bs s).1.Sound ∧ (outlineBoxOf bs s).2.Sound := getBox_sound h _ _ _

/-- What holds of every cache. -/
structure Cache.Sound (c : Cache) : Prop where
  box : ∀ b, c.box = some b → b.Sound
  outline : ∀ b, c.outlineBox = some b → b.Sound
  noBox : c.box = none → c.top = false ∧ c.right = false ∧ c.bottom = false ∧ c.left = false
  hasBox : c.box ≠ none → (c.top || c.right || c.bottom || c.left) = true
  outlineNone : c.outlineBox = none → c.topOutline = false ∧ c.rightOutline = false ∧
    c.bottomOutline = false ∧ c.leftOutline = false
  outlineSome : c.outlineBox ≠ none →
    (c.topOutline || c.rightOutline || c.bottomOutline || c.leftOutline) = true

theorem new_sound {bs : Boxes} (h : bs.Sound) (s : Sheet) :
    (Cache.new bs s).1.Sound ∧ (Cache.new bs s).2.Sound := by
  unfold Cache.new
  dsimp only
  by_cases hb : (s.border.top.kind.horizontal || s.border.right.kind.vertical ||
      s.border.bottom.kind.horizontal || s.border.left.kind.vertical) = true
  · rw [if_pos hb]
    dsimp only
    have h1 := borderBox_sound h s
    by_cases ho : (s.outline.top.kind.horizontal || s.outline.right.kind.vertical ||
        s.outline.bottom.kind.horizontal || s.outline.left.kind.vertical) = true
    · rw [if_pos ho]
      have h2 := outlineBoxOf_sound h1.2 s
      refine ⟨⟨?_, ?_, ?_, fun _ => hb, ?_, fun _ => ho⟩, h2.2⟩
      · rintro b e; injection e with e; subst e; exact h1.1
      · rintro b e; injection e with e; subst e; exact h2.1
      · intro e; cases e
      · intro e; cases e
    · rw [if_neg ho]
      refine ⟨⟨?_, ?_, ?_, fun _ => hb, ?_, fun e => absurd rfl e⟩, h1.2⟩
      · rintro b e; injection e with e; subst e; exact h1.1
      · rintro b e; cases e
      · intro e; cases e
      · intro _; simpa [Bool.or_eq_true, not_or, and_assoc] using ho
  · rw [if_neg hb]
    dsimp only
    by_cases ho : (s.outline.top.kind.horizontal || s.outline.right.kind.vertical ||
        s.outline.bottom.kind.horizontal || s.outline.left.kind.vertical) = true
    · rw [if_pos ho]
      have h2 := outlineBoxOf_sound h s
      refine ⟨⟨?_, ?_, ?_, fun e => absurd rfl e, ?_, fun _ => ho⟩, h2.2⟩
      · rintro b e; cases e
      · rintro b e; injection e with e; subst e; exact h2.1
      · intro _; simpa [Bool.or_eq_true, not_or, and_assoc] using hb
      · intro e; cases e
    · rw [if_neg ho]
      refine ⟨⟨?_, ?_, ?_, fun e => absurd rfl e, ?_, fun e => absurd rfl e⟩, h⟩
      · rintro b e; cases e
      · rintro b e; cases e
      · intro _; simpa [Bool.or_eq_true, not_or, and_assoc] using hb
      · intro _; simpa [Bool.or_eq_true, not_or, and_assoc] using ho

theorem boxesAfter_sound (hist : List Sheet) : (boxesAfter hist).Sound := by
  have key : ∀ (hist : List Sheet) (b : Boxes), b.Sound →
      (hist.foldl (fun b s => (Cache.new b s).2) b).Sound := by
    intro hist
    induction hist with
    | nil => intro b h; exact h
    | cons s hist ih => intro b h; exact ih _ (new_sound h s).2
  exact key hist [] (by intro p hp; cases hp)

theorem cacheAfter_sound (hist : List Sheet) (s : Sheet) : (cacheAfter hist s).Sound :=
  (new_sound (boxesAfter_sound hist) s).1

/-- Every remembered box was generated for the kind it is remembered under. -/
def Boxes.Made (bs : Boxes) : Prop :=
  ∀ p ∈ bs, ∃ k i o, p = ((k, styleKey i, styleKey o), generateBox k i o)

theorem getBox_made {bs : Boxes} (h : bs.Made) (k : Kind) (i o : Style) :
    (∃ i' o', styleKey i' = styleKey i ∧ styleKey o' = styleKey o ∧
      (getBox bs k i o).1 = generateBox k i' o') ∧ (getBox bs k i o).2.Made := by
  unfold getBox
  dsimp only
  split
  · rename_i b e
    obtain ⟨k', i', o', e'⟩ := h _ (lookup_mem e)
    injection e' with e1 e2
    injection e1 with e3 e4
    injection e4 with e4 e5
    subst e3
    exact ⟨⟨i', o', e4.symm, e5.symm, e2⟩, h⟩
  · refine ⟨⟨i, o, rfl, rfl, rfl⟩, ?_⟩
    intro p hp
    rcases List.mem_cons.1 hp with rfl | hp
    · exact ⟨k, i, o, rfl⟩
    · exact h p hp

theorem borderBox_made {bs : Boxes} (h : bs.Made) (s : Sheet) : (borderBox bs s).2.Made := by
  unfold borderBox
  dsimp only
  split
  · exact (getBox_made h _ _ _).2
  · exact h

/-- The border box and the outline box, and the remembered boxes each is looked up in. -/
theorem new_boxes (bs : Boxes) (s : Sheet) :
    (∀ b, (Cache.new bs s).1.box = some b → b = (borderBox bs s).1) ∧
    ∃ bs', (bs' = bs ∨ bs' = (borderBox bs s).2) ∧
      (∀ b, (Cache.new bs s).1.outlineBox = some b → b = (outlineBoxOf bs' s).1) ∧
      ((Cache.new bs s).2 = bs' ∨ (Cache.new bs s).2 = (outlineBoxOf bs' s).2) := by
  unfold Cache.new
  dsimp only
  by_cases hb : (s.border.top.kind.horizontal || s.border.right.kind.vertical ||
      s.border.bottom.kind.horizontal || s.border.left.kind.vertical) = true
  · rw [if_pos hb]
    dsimp only
    refine ⟨fun b h => by injection h with h; exact h.symm, _, Or.inr rfl, ?_⟩
    split
    · exact ⟨fun b h => by injection h with h; exact h.symm, Or.inr rfl⟩
    · exact ⟨fun b h => by (cases h), Or.inl rfl⟩
  · rw [if_neg hb]
    dsimp only
    refine ⟨fun b h => by (cases h), _, Or.inl rfl, ?_⟩
    split
    · exact ⟨fun b h => by injection h with h; exact h.symm, Or.inr rfl⟩
    · exact ⟨fun b h => by (cases h), Or.inl rfl⟩

theorem new_made {bs : Boxes} (h : bs.Made) (s : Sheet) : (Cache.new bs s).2.Made := by
  obtain ⟨_, bs', h1, _, h3⟩ := new_boxes bs s
  have hm : bs'.Made := by
    rcases h1 with rfl | rfl
    · exact h
    · exact borderBox_made h s
  rcases h3 with h3 | h3 <;> rw [h3]
  · exact hm
  · exact (getBox_made hm _ _ _).2

theorem boxesAfter_made (hist : List Sheet) : (boxesAfter hist).Made := by
  have key : ∀ (hist : List Sheet) (b : Boxes), b.Made →
      (hist.foldl (fun b s => (Cache.new b s).2) b).Made := by
    intro hist
    induction hist with
    | nil => intro b h; exact h
    | cons s hist ih => intro b h; exact ih _ (new_made h s)
  exact key hist [] (by intro p hp; cases hp)

/-- The characters of a box are those of `k`. -/
def Box.Drawn (b : Box) (k : Kind) : Prop :=
  (col b.top.left).g = ⟨k.chars.topLeft, 1⟩ ∧ (col b.top.fill).g = ⟨k.chars.top, 1⟩ ∧
  (col b.top.right).g = ⟨k.chars.topRight, 1⟩ ∧
  (col b.middle.left).g = ⟨k.chars.left, 1⟩ ∧ (col b.middle.right).g = ⟨k.chars.right, 1⟩ ∧
  (col b.bottom.left).g = ⟨k.chars.bottomLeft, 1⟩ ∧ (col b.bottom.fill).g = ⟨k.chars.bottom, 1⟩ ∧
  (col b.bottom.right).g = ⟨k.chars.bottomRight, 1⟩

theorem getBox_drawn {bs : Boxes} (h : bs.Made) (k : Kind) (i o : Style) : (getBox bs k i o).1.Drawn k := by
  obtain ⟨i', o', _, _, e⟩ := (getBox_made h k i o).1
  rw [e]
  exact ⟨rfl, rfl, rfl, rfl, rfl, rfl, rfl, rfl⟩

theorem cacheAfter_drawn (hist : List Sheet) (s : Sheet) :
    (∀ b, (cacheAfter hist s).box = some b → b.Drawn s.border.top.kind) ∧
    (∀ b, (cacheAfter hist s).outlineBox = some b → b.Drawn s.outline.top.kind) := by
  have hm := boxesAfter_made hist
  obtain ⟨h1, bs', h2, h3, _⟩ := new_boxes (boxesAfter hist) s
  constructor
  · intro b hb
    rw [h1 b hb]
    unfold borderBox
    dsimp only
    split
    · exact getBox_drawn hm _ _ _
    · exact ⟨rfl, rfl, rfl, rfl, rfl, rfl, rfl, rfl⟩
  · intro b hb
    rw [h3 b hb]
    have hm' : bs'.Made := by
      rcases h2 with rfl | rfl
      · exact hm
      · exact borderBox_made hm s
    exact getBox_drawn hm' _ _ _

/-! Columns of the pieces. -/

theorem textCells_one (st : Option Style) (i : Meta) (g : Grapheme) (h : g.width = 1) (n : Nat) :
    textCells st i (List.replicate n g) = List.replicate n ⟨g, 0, st, i⟩ := by
  induction n with
  | zero => rfl
  | succ n ih =>
    have : textCells st i (List.replicate (n + 1) g) =
      textCells st i [g] ++ textCells st i (List.replicate n g) := by
      rw [List.replicate_succ, ← textCells_append]; rfl
    rw [this, ih, List.replicate_succ]
    simp [textCells, h]

theorem IsPiece.cells {s : Segment} (h : IsPiece s) : textCells s.style s.info s.text = [col s] := by
  obtain ⟨c, st, rfl⟩ := h
  simp [piece, Segment.mk', textCells, col]

theorem IsPiece.wf {s : Segment} (h : IsPiece s) : s.cellLength = widthOf s.text := by
  obtain ⟨c, st, rfl⟩ := h
  rfl

theorem IsPiece.width {s : Segment} (h : IsPiece s) : (col s).g.width = 1 := by
  obtain ⟨c, st, rfl⟩ := h
  rfl

theorem fillSegment_cells {s : Segment} (h : IsPiece s) (n : Nat) :
    textCells (fillSegment s n).style (fillSegment s n).info (fillSegment s n).text =
      List.replicate n (col s) := by
  obtain ⟨c, st, rfl⟩ := h
  simp only [fillSegment, repeatFill, piece, Segment.mk', List.head?_cons, Option.getD_some, col,
    List.headD_cons]
  rw [textCells_one _ _ _ rfl]

theorem fillSegment_wf (s : Segment) (n : Nat) :
    (fillSegment s n).cellLength = widthOf (fillSegment s n).text := rfl

theorem repeatCharSegment_cells {s : Segment} (h : IsPiece s) (n : Nat) :
    textCells (repeatCharSegment s n).style (repeatCharSegment s n).info (repeatCharSegment s n).text =
      List.replicate n (col s) := by
  obtain ⟨c, st, rfl⟩ := h
  unfold repeatCharSegment
  split
  · rename_i h; subst h; rfl
  · simp only [repeatFill, piece, Segment.mk', List.head?_cons, Option.getD_some, col,
      List.headD_cons]
    rw [textCells_one _ _ _ rfl]

theorem repeatCharSegment_wf (s : Segment) (n : Nat) :
    (repeatCharSegment s n).cellLength = widthOf (repeatCharSegment s n).text := by
  unfold repeatCharSegment
  split <;> rfl

theorem repeatSegment_cells {s : Segment} (h : IsPiece s) (n : Nat) :
    (repeatSegment s n).cells = List.replicate n (col s) := by
  obtain ⟨c, st, rfl⟩ := h
  unfold repeatSegment
  split
  · rename_i h; subst h; rfl
  · simp only [Strip.cells, Strip.ofSegments, segCells, List.flatMap_cons, List.flatMap_nil,
      List.append_nil, repeatFill, piece, Segment.mk', List.head?_cons, Option.getD_some, col,
      List.headD_cons]
    rw [textCells_one _ _ _ rfl]

theorem repeatSegment_wf (s : Segment) (n : Nat) : (repeatSegment s n).WF := by
  unfold repeatSegment
  split
  · exact ⟨by simp [Strip.new], rfl⟩
  · exact Strip.ofSegments_wf (by intro x hx; simp at hx; subst hx; rfl)

theorem mk'_one_cells (g : Grapheme) (h : g.width = 1) (st : Option Style) :
    textCells (Segment.mk' [g] st).style (Segment.mk' [g] st).info (Segment.mk' [g] st).text =
      [⟨g, 0, st, []⟩] := by
  simp [Segment.mk', textCells, h]

theorem blank_cells (n : Nat) (st : Option Style) :
    textCells (Segment.blank n st).style (Segment.blank n st).info (Segment.blank n st).text =
      List.replicate n (padCell st) := by
  have := segCells_blank n st
  rwa [segCells_cons, show segCells [] = [] from rfl, List.append_nil] at this

theorem segCells_nil : segCells [] = [] := rfl

theorem ofSegments_cells (segs : List Segment) : (Strip.ofSegments segs).cells = segCells segs := rfl

/-- Segments whose cached lengths are right. -/
def AllWF (segs : List Segment) : Prop := ∀ x ∈ segs, x.cellLength = widthOf x.text

theorem AllWF.nil : AllWF [] := by intro x hx; cases hx

theorem AllWF.append {a b : List Segment} (ha : AllWF a) (hb : AllWF b) : AllWF (a ++ b) := by
  intro x hx
  rcases List.mem_append.1 hx with h | h
  · exact ha x h
  · exact hb x h

theorem AllWF.cons {a : Segment} {b : List Segment} (ha : a.cellLength = widthOf a.text) (hb : AllWF b) :
    AllWF (a :: b) := by
  intro x hx
  rcases List.mem_cons.1 hx with rfl | h
  · exact ha
  · exact hb x h

theorem AllWF.ite {p : Prop} [Decidable p] {a b : List Segment} (ha : AllWF a) (hb : AllWF b) :
    AllWF (if p then a else b) := by
  split <;> assumption

theorem segCells_only (b : Bool) (s : Segment) (x : StripCell)
    (h : textCells s.style s.info s.text = [x]) :
    segCells (if b then [s] else []) = only b x := by
  cases b
  · rfl
  · simp [only, segCells, h]

theorem segCells_pos (n : Nat) (s : Segment) (x : StripCell)
    (h : textCells s.style s.info s.text = List.replicate n x) :
    segCells (if n > 0 then [s] else []) = List.replicate n x := by
  by_cases hn : n > 0
  · rw [if_pos hn, segCells_cons, segCells_nil, List.append_nil, h]
  · have : n = 0 := by omega
    subst this
    rfl

/-! The rows. -/

theorem window_adjust (content : Option Strip) (n : Nat) (st : Option Style) (h : CutAt content n) :
    (fitLine content n st).WF ∧ (fitLine content n st).cells = window content n (padCell st) := by
  cases content with
  | none =>
    refine ⟨?_, ?_⟩
    · show (Strip.blank n st).WF
      unfold Strip.blank
      split
      · exact ⟨by simp [Strip.new], rfl⟩
      · exact Strip.ofSegments_wf (AllWF.cons (Strip.blank_seg_wf _ _) AllWF.nil)
    · show (Strip.blank n st).cells = List.replicate n (padCell st)
      unfold Strip.blank
      split
      · rename_i h; subst h; rfl
      · exact segCells_blank n st
  | some s =>
    obtain ⟨hw, hb⟩ := h s rfl
    obtain ⟨_, h2, h3⟩ := Strip.adjustCellLength_spec_partial s hw n st hb
    refine ⟨h2, ?_⟩
    show (s.adjustCellLength n st).cells = s.cells.take n ++ List.replicate (n - s.cells.length) (padCell st)
    rw [h3, hw.length]

theorem contentRow_cells (c : Cache) (w : Nat) (content : Option Strip)
    (h : CutAt content (w - (c.paddingLeft + c.paddingRight))) :
    (c.contentRow w content).WF ∧
    (c.contentRow w content).cells = List.replicate c.paddingLeft (padCell c.padStyle) ++
      window content (w - (c.paddingLeft + c.paddingRight)) (padCell c.padStyle) ++
      List.replicate c.paddingRight (padCell c.padStyle) := by
  have key := window_adjust content (w - (c.paddingLeft + c.paddingRight)) c.padStyle h
  unfold Cache.contentRow
  obtain ⟨k1, k2⟩ := key
  dsimp only
  split
  · rename_i hp
    refine ⟨k1, ?_⟩
    rw [k2, hp.1, hp.2]
    simp
  · refine ⟨Strip.ofSegments_wf (AllWF.append (AllWF.append ?_ k1.seg) ?_), ?_⟩
    · exact AllWF.ite (AllWF.cons (Strip.blank_seg_wf _ _) AllWF.nil) AllWF.nil
    · exact AllWF.ite (AllWF.cons (Strip.blank_seg_wf _ _) AllWF.nil) AllWF.nil
    · rw [ofSegments_cells]
      rw [segCells_append, segCells_append, segCells_pos _ _ _ (blank_cells _ _),
        segCells_pos _ _ _ (blank_cells _ _), ← k2]
      rfl

theorem middleRow_cells (c : Cache) (row : Row) (hr : row.Sound) (w : Nat) (content : Option Strip)
    (h : CutAt content (w - (one c.left + one c.right) - (c.paddingLeft + c.paddingRight))) :
    (c.middleRow row content w).WF ∧
    (c.middleRow row content w).cells = only c.left (col row.left) ++
      (List.replicate c.paddingLeft (padCell c.padStyle) ++
      window content (w - (one c.left + one c.right) - (c.paddingLeft + c.paddingRight))
        (padCell c.padStyle) ++
      List.replicate c.paddingRight (padCell c.padStyle)) ++ only c.right (col row.right) := by
  have key := window_adjust content (w - (one c.left + one c.right) - (c.paddingLeft + c.paddingRight))
    c.padStyle h
  unfold Cache.middleRow
  obtain ⟨k1, k2⟩ := key
  dsimp only
  refine ⟨Strip.ofSegments_wf (AllWF.append (AllWF.append (AllWF.append (AllWF.append ?_ ?_) k1.seg) ?_) ?_), ?_⟩
  · exact AllWF.ite (AllWF.cons hr.left.wf AllWF.nil) AllWF.nil
  · exact AllWF.ite (AllWF.cons (Strip.blank_seg_wf _ _) AllWF.nil) AllWF.nil
  · exact AllWF.ite (AllWF.cons (Strip.blank_seg_wf _ _) AllWF.nil) AllWF.nil
  · exact AllWF.ite (AllWF.cons hr.right.wf AllWF.nil) AllWF.nil
  · rw [ofSegments_cells]
    rw [segCells_append, segCells_append, segCells_append, segCells_append,
      segCells_pos _ _ _ (blank_cells _ _), segCells_pos _ _ _ (blank_cells _ _),
      segCells_only _ _ _ hr.left.cells, segCells_only _ _ _ hr.right.cells, ← k2]
    simp only [List.append_assoc]
    rfl

/-! Labels. -/

theorem sides_spec (align : AlignH) (t : Nat) (h : 2 ≤ t) :
    1 ≤ (sides align t).1 ∧ 1 ≤ (sides align t).2 ∧ (sides align t).1 + (sides align t).2 = t ∧
    Aligned align (sides align t).1 (sides align t).2 := by
  cases align <;> dsimp only [sides, Aligned] <;> refine ⟨?_, ?_, ?_, ?_⟩ <;> omega

theorem renderLabel_whole (label : Strip) (hl : label.WF) (fill : Segment) (hf : IsPiece fill) (w : Nat)
    (align : AlignH) (h : label.cellLength + 4 ≤ w) :
    (renderLabel label fill w align).WF ∧
    LabelWhole (renderLabel label fill w align).cells label.cells [gapCell label] (col fill) align w := by
  have hs := sides_spec align (w - (label.cellLength + 2)) (by omega)
  unfold renderLabel
  dsimp only
  rw [if_neg (by omega)]
  generalize sides align (w - (label.cellLength + 2)) = p at hs
  have hc : (Strip.ofSegments ((if p.1 > 0 then [repeatCharSegment fill p.1] else []) ++
      [Segment.mk' [Grapheme.space] (label.segments.head?.bind (·.style))] ++ label.segments ++
      [Segment.mk' [Grapheme.space] (label.segments.head?.bind (·.style))] ++
      (if p.2 > 0 then [repeatCharSegment fill p.2] else []))).cells =
      List.replicate p.1 (col fill) ++ [gapCell label] ++ label.cells ++ [gapCell label] ++
        List.replicate p.2 (col fill) := by
    rw [ofSegments_cells]
    rw [segCells_append, segCells_append, segCells_append, segCells_append,
      segCells_pos _ _ _ (repeatCharSegment_cells hf _), segCells_pos _ _ _ (repeatCharSegment_cells hf _),
      segCells_cons, mk'_one_cells _ rfl]
    rfl
  refine ⟨Strip.ofSegments_wf (AllWF.append (AllWF.append (AllWF.append (AllWF.append ?_ ?_) hl.seg) ?_) ?_), ?_⟩
  · exact AllWF.ite (AllWF.cons (repeatCharSegment_wf _ _) AllWF.nil) AllWF.nil
  · exact AllWF.cons rfl AllWF.nil
  · exact AllWF.cons rfl AllWF.nil
  · exact AllWF.ite (AllWF.cons (repeatCharSegment_wf _ _) AllWF.nil) AllWF.nil
  · refine ⟨p.1, p.2, hs.1, hs.2.1, hs.2.2.2, ?_, hc⟩
    rw [hc]
    have := hl.length
    simp only [List.length_append, List.length_replicate, List.length_cons, List.length_nil]
    omega

theorem renderLabel_cut (label : Strip) (hl : label.WF) (fill : Segment) (hf : IsPiece fill) (w : Nat)
    (align : AlignH) (hw : 4 ≤ w) (h : w < label.cellLength + 4) (hb : OnBoundary label.cells (w - 5))
    (h0 : OnBoundary label.cells 0) :
    (renderLabel label fill w align).WF ∧
    ∃ st, (renderLabel label fill w align).cells = [col fill, gapCell label] ++ label.cells.take (w - 5) ++
      [dots st, gapCell label] ++ List.replicate (min 1 (w - 4)) (col fill) := by
  have e5 : w - 2 - 3 = w - 5 := by omega
  have hcw := Strip.crop_wf label hl 0 (w - 5)
  have hcl := Strip.crop_length_partial label hl 0 (w - 5) h0 hb
  have hcc := Strip.crop_cells_partial label hl 0 (w - 5) h0 hb
  rw [List.drop_zero] at hcc
  unfold renderLabel
  dsimp only
  rw [if_pos (by omega), e5]
  refine ⟨Strip.ofSegments_wf (AllWF.append (AllWF.append (AllWF.append ?_ hcw.seg) ?_) ?_), ?_⟩
  · exact AllWF.cons (repeatCharSegment_wf _ _) (AllWF.cons rfl AllWF.nil)
  · exact AllWF.cons rfl (AllWF.cons rfl AllWF.nil)
  · exact AllWF.ite (AllWF.cons (repeatCharSegment_wf _ _) AllWF.nil) AllWF.nil
  · refine ⟨(label.crop 0 (w - 5)).segments.getLast?.bind (·.style), ?_⟩
    rw [ofSegments_cells]
    have er : w - (1 + 1 + (label.crop 0 (w - 5)).cellLength + 1 + 1) = min 1 (w - 4) := by omega
    rw [er]
    rw [segCells_append, segCells_append, segCells_append,
      segCells_pos _ _ _ (repeatCharSegment_cells hf _), segCells_cons, segCells_cons, segCells_nil,
      repeatCharSegment_cells hf, mk'_one_cells _ rfl, segCells_cons, segCells_cons, segCells_nil,
      mk'_one_cells _ rfl, mk'_one_cells _ rfl, ← hcc]
    rfl

theorem renderRow_cells (row : Row) (hr : row.Sound) (w : Nat) (hw : 2 ≤ w) (title subtitle : Option Strip)
    (ta sa : AlignH) :
    let label := match title with
      | some t => some (t, ta)
      | none => subtitle.map (·, sa)
    let inner := match label with
      | some (t, a) => renderLabel t row.fill (w - 2) a
      | none => repeatSegment row.fill (w - 2)
    inner.WF → (label.isSome → 3 ≤ w) →
    (renderRow row w title subtitle ta sa).WF ∧
    (renderRow row w title subtitle ta sa).cells = [col row.left] ++ inner.cells ++ [col row.right] := by
  have two : w = 2 → (Strip.ofSegments [row.left, row.right]).WF ∧
      (Strip.ofSegments [row.left, row.right]).cells = [col row.left] ++ (repeatSegment row.fill (w - 2)).cells
        ++ [col row.right] := by
    rintro rfl
    refine ⟨Strip.ofSegments_wf (AllWF.cons hr.left.wf (AllWF.cons hr.right.wf AllWF.nil)), ?_⟩
    rw [ofSegments_cells]
    rw [segCells_cons, segCells_cons, segCells_nil, hr.left.cells, hr.right.cells]
    rfl
  have more : ∀ inner : Strip, inner.WF →
      (Strip.ofSegments (row.left :: inner.segments ++ [row.right])).WF ∧
      (Strip.ofSegments (row.left :: inner.segments ++ [row.right])).cells =
        [col row.left] ++ inner.cells ++ [col row.right] := by
    intro inner hi
    refine ⟨Strip.ofSegments_wf (AllWF.append (AllWF.cons hr.left.wf hi.seg)
      (AllWF.cons hr.right.wf AllWF.nil)), ?_⟩
    rw [ofSegments_cells]
    rw [segCells_append, segCells_cons, segCells_cons, segCells_nil, hr.left.cells, hr.right.cells]
    rfl
  unfold renderRow
  cases title with
  | some t =>
    dsimp only
    intro hi h3
    have := h3 rfl
    rw [if_neg (by omega)]
    exact more _ hi
  | none =>
    cases subtitle with
    | some t =>
      dsimp only [Option.map_some]
      intro hi h3
      have := h3 rfl
      rw [if_neg (by omega)]
      exact more _ hi
    | none =>
      dsimp only [Option.map_none]
      intro hi _
      by_cases h : w = 2
      · rw [if_pos (by omega), if_pos h]
        exact two h
      · rw [if_neg (by omega)]
        exact more _ hi

theorem horizontalRow_none (row : Row) (hr : row.Sound) (w : Nat) (align : AlignH) :
    (horizontalRow row w none align).WF ∧
    (horizontalRow row w none align).cells = List.replicate w (col row.fill) := by
  refine ⟨Strip.ofSegments_wf (AllWF.cons rfl AllWF.nil), ?_⟩
  unfold horizontalRow
  dsimp only
  rw [ofSegments_cells, segCells_cons, segCells_nil, fillSegment_cells hr.fill, List.append_nil]

theorem horizontalRow_whole (row : Row) (hr : row.Sound) (label : Strip) (hl : label.WF) (w : Nat)
    (align : AlignH) (h : label.cellLength + 2 ≤ w) :
    (horizontalRow row w (some label) align).WF ∧
    LabelWhole (horizontalRow row w (some label) align).cells label.cells [] (col row.fill) align w := by
  have hs := sides_spec align (w - label.cellLength) (by omega)
  unfold horizontalRow
  dsimp only
  rw [if_neg (by omega)]
  generalize sides align (w - label.cellLength) = p at hs
  have hc : (Strip.ofSegments ((if p.1 > 0 then [fillSegment row.fill p.1] else []) ++ label.segments ++
      (if p.2 > 0 then [fillSegment row.fill p.2] else []))).cells =
      List.replicate p.1 (col row.fill) ++ label.cells ++ List.replicate p.2 (col row.fill) := by
    rw [ofSegments_cells]
    rw [segCells_append, segCells_append, segCells_pos _ _ _ (fillSegment_cells hr.fill _),
      segCells_pos _ _ _ (fillSegment_cells hr.fill _)]
    rfl
  refine ⟨Strip.ofSegments_wf (AllWF.append (AllWF.append ?_ hl.seg) ?_), ?_⟩
  · exact AllWF.ite (AllWF.cons rfl AllWF.nil) AllWF.nil
  · exact AllWF.ite (AllWF.cons rfl AllWF.nil) AllWF.nil
  · refine ⟨p.1, p.2, hs.1, hs.2.1, hs.2.2.2, ?_, ?_⟩
    · rw [hc]
      have := hl.length
      simp only [List.length_append, List.length_replicate]
      omega
    · rw [hc]; simp

theorem horizontalRow_cut (row : Row) (hr : row.Sound) (label : Strip) (hl : label.WF) (w : Nat)
    (align : AlignH) (hw : 2 ≤ w) (h : w < label.cellLength + 2) (hb : OnBoundary label.cells (w - 3))
    (h0 : OnBoundary label.cells 0) :
    (horizontalRow row w (some label) align).WF ∧
    ∃ st, (horizontalRow row w (some label) align).cells = [col row.fill] ++ label.cells.take (w - 3) ++
      [dots st] ++ List.replicate (min 1 (w - 2)) (col row.fill) := by
  have e3 : w - 2 - 1 = w - 3 := by omega
  have hcw := Strip.crop_wf label hl 0 (w - 3)
  have hcl := Strip.crop_length_partial label hl 0 (w - 3) h0 hb
  have hcc := Strip.crop_cells_partial label hl 0 (w - 3) h0 hb
  rw [List.drop_zero] at hcc
  unfold horizontalRow
  dsimp only
  rw [if_pos (by omega), e3]
  refine ⟨Strip.ofSegments_wf (AllWF.append (AllWF.append (AllWF.append ?_ hcw.seg) ?_) ?_), ?_⟩
  · exact AllWF.cons rfl AllWF.nil
  · exact AllWF.cons rfl AllWF.nil
  · exact AllWF.ite (AllWF.cons rfl AllWF.nil) AllWF.nil
  · refine ⟨some (((label.crop 0 (w - 3)).segments.getLast?.bind (·.style)).getD {}), ?_⟩
    rw [ofSegments_cells]
    have er : w - (1 + (label.crop 0 (w - 3)).cellLength + 1) = min 1 (w - 2) := by omega
    rw [er]
    rw [segCells_append, segCells_append, segCells_append, segCells_pos _ _ _ (fillSegment_cells hr.fill _),
      segCells_cons, segCells_nil, fillSegment_cells hr.fill, segCells_cons, segCells_nil,
      mk'_one_cells _ rfl, ← hcc]
    rfl

theorem labeledRow_cells (c : Cache) (row : Row) (hr : row.Sound) (w : Nat) (label : Strip) (align : AlignH)
    (hi : (renderLabel label row.fill (w - (one c.left + one c.right)) align).WF) :
    (c.labeledRow row w label align).WF ∧
    (c.labeledRow row w label align).cells = only c.left (col row.left) ++
      (renderLabel label row.fill (w - (one c.left + one c.right)) align).cells ++
      only c.right (col row.right) := by
  unfold Cache.labeledRow
  dsimp only
  refine ⟨Strip.ofSegments_wf (AllWF.append (AllWF.append ?_ hi.seg) ?_), ?_⟩
  · exact AllWF.ite (AllWF.cons hr.left.wf AllWF.nil) AllWF.nil
  · exact AllWF.ite (AllWF.cons hr.right.wf AllWF.nil) AllWF.nil
  · rw [ofSegments_cells]
    rw [segCells_append, segCells_append, segCells_only _ _ _ hr.left.cells,
      segCells_only _ _ _ hr.right.cells]
    rfl

/-! Outlines. -/

theorem outlineEdge_cells (c : Cache) (row : Row) (hr : row.Sound) (w : Nat) :
    (c.outlineEdge row w).WF ∧
    (c.outlineEdge row w).cells = only c.leftOutline (col row.left) ++
      List.replicate (w - one c.leftOutline - one c.rightOutline) (col row.fill) ++
      only c.rightOutline (col row.right) := by
  unfold Cache.outlineEdge
  dsimp only
  refine ⟨Strip.ofSegments_wf (AllWF.append (AllWF.append ?_ ?_) ?_), ?_⟩
  · exact AllWF.ite (AllWF.cons hr.left.wf AllWF.nil) AllWF.nil
  · exact AllWF.ite (AllWF.cons rfl AllWF.nil) AllWF.nil
  · exact AllWF.ite (AllWF.cons hr.right.wf AllWF.nil) AllWF.nil
  · rw [ofSegments_cells]
    rw [segCells_append, segCells_append, segCells_only _ _ _ hr.left.cells,
      segCells_only _ _ _ hr.right.cells, segCells_pos _ _ _ (fillSegment_cells hr.fill _)]

theorem one_le (b : Bool) : one b ≤ 1 := by cases b <;> simp [one]

theorem only_length {α : Type} (b : Bool) (x : α) : (only b x).length = one b := by
  cases b <;> rfl

end Textual.RenderCache
