import Verif.Spec.Static
import Verif.Props.RenderCacheBorder

/-!
Lemmas about aligned text and links, for C96-C98.
-/

namespace Textual

/-- A line ends on a boundary. -/
theorem onBoundary_beyond {s : Strip} (h : s.WF) {n : Nat} (hn : s.cellLength ≤ n) : OnBoundary s.cells n := by
  intro c hc
  rw [List.getElem?_eq_none (by have := h.length; omega)] at hc
  cases hc

theorem replicate_add' {α : Type} (a b : Nat) (x : α) :
    List.replicate (a + b) x = List.replicate a x ++ List.replicate b x := by
  rw [List.replicate_append_replicate]

/-- The cells and the width of a blank strip. -/
theorem Strip.blank_good (n : Nat) (st : Option Style) :
    (Strip.blank n st).WF ∧ (Strip.blank n st).cellLength = n ∧
    (Strip.blank n st).cells = List.replicate n (padCell st) := by
  have hw : (Strip.blank n st).WF := by
    unfold Strip.blank
    split
    · exact ⟨by simp [Strip.new], rfl⟩
    · exact Strip.ofSegments_wf (by intro x hx; simp at hx; subst hx; exact Strip.blank_seg_wf _ _)
  have hc : (Strip.blank n st).cells = List.replicate n (padCell st) := by
    unfold Strip.blank
    split
    · rename_i h; subst h; rfl
    · exact segCells_blank n st
  exact ⟨hw, by rw [← hw.length, hc, List.length_replicate], hc⟩

theorem Strip.justify_wf (s : Strip) (h : s.WF) (hn : SpacesNarrow s.segments) (width : Nat) (st : Option Style) :
    (s.justify width st).WF := by
  unfold justify
  split
  · exact crop_wf s h _ _
  · rename_i hlt
    split
    · exact (textAlign_spec_partial s h _ _ _ (onBoundary_beyond h (by omega))).2.1
    · exact ofSegments_wf (justifyLoop_spec _ s.segments 0 hn).2

theorem Strip.justify_length (s : Strip) (h : s.WF) (hn : SpacesNarrow s.segments) (width : Nat)
    (st : Option Style) (hb : OnBoundary s.cells width) : (s.justify width st).cellLength = width := by
  by_cases hw : width ≤ s.cellLength
  · exact (justify_long_partial s h width st hw hb).1
  · by_cases hg : ∃ c ∈ s.cells, c.g.text = " "
    · exact (justify_spec s h hn width st (by omega) hg).1
    · refine (justify_word s h hn width st (by omega) ?_).1
      intro c hc e
      exact hg ⟨c, hc, e⟩

namespace Static

open Content (Content WrappedLine Overflow Wrap)
open Strip (AlignH SpacesNarrow)
open RenderCache (Cache Kind)

theorem foldl_max_le (l : List Nat) : ∀ a, a ≤ l.foldl max a ∧ ∀ x ∈ l, x ≤ l.foldl max a := by
  induction l with
  | nil => intro a; exact ⟨Nat.le_refl _, fun x hx => by cases hx⟩
  | cons b l ih =>
    intro a
    obtain ⟨h1, h2⟩ := ih (max a b)
    rw [List.foldl_cons]
    refine ⟨by omega, ?_⟩
    intro x hx
    rcases List.mem_cons.1 hx with rfl | hx
    · omega
    · exact h2 x hx

theorem foldl_max_mem (l : List Nat) : ∀ a, l.foldl max a = a ∨ l.foldl max a ∈ l := by
  induction l with
  | nil => intro a; exact Or.inl rfl
  | cons b l ih =>
    intro a
    rw [List.foldl_cons]
    rcases ih (max a b) with h | h
    · rw [h]
      by_cases hab : b ≤ a
      · left; omega
      · right; rw [show max a b = b by omega]; exact List.mem_cons_self
    · exact Or.inr (List.mem_cons_of_mem _ h)

theorem maxLength_le {lines : List WrappedLine} {line : WrappedLine} (h : line ∈ lines) :
    line.strip.cellLength ≤ maxLength lines :=
  (foldl_max_le _ 0).2 _ (List.mem_map_of_mem h)

/-- The line may be cut at the width of the block. -/
theorem Fit.block {n : Nat} {lines : List WrappedLine} {line : WrappedLine} (hl : line ∈ lines) (h : Fit n line) :
    OnBoundary line.strip.cells (min n (maxLength lines)) := by
  have := maxLength_le hl
  by_cases hb : n ≤ maxLength lines
  · rw [show min n (maxLength lines) = n by omega]; exact h.cut
  · rw [show min n (maxLength lines) = maxLength lines by omega]; exact onBoundary_beyond h.wf this

/-- One line in its row. -/
theorem alignLine_spec (s : Sheet) (width lineWidth hOff : Nat) (line : WrappedLine) (hwf : line.strip.WF)
    (hsp : SpacesNarrow line.strip.segments) (hb : OnBoundary line.strip.cells lineWidth)
    (hroom : hOff + lineWidth ≤ width) :
    (alignLine s width lineWidth hOff line).WF ∧ (alignLine s width lineWidth hOff line).cellLength = width ∧
    (¬(s.textAlign = .justify ∧ line.lineEnd = false) →
      let l := Strip.leftGap s.textAlign.line (lineWidth - line.strip.cellLength)
      (alignLine s width lineWidth hOff line).cells =
        List.replicate (hOff + l) (padCell (padOf s.text)) ++ line.strip.cells.take lineWidth ++
        List.replicate (lineWidth - line.strip.cellLength - l + (width - (hOff + lineWidth)))
          (padCell (padOf s.text))) := by
  have key : ∀ a : Strip, a.WF → a.cellLength = lineWidth →
      let placed := if hOff > 0 then Strip.join [Strip.blank hOff (padOf s.text), a] else a
      (placed.adjustCellLength width (padOf s.text)).WF ∧
      (placed.adjustCellLength width (padOf s.text)).cellLength = width ∧
      (placed.adjustCellLength width (padOf s.text)).cells =
        List.replicate hOff (padCell (padOf s.text)) ++ a.cells ++
        List.replicate (width - (hOff + lineWidth)) (padCell (padOf s.text)) := by
    intro a ha hal placed
    have hblank := (Strip.blank_good hOff (padOf s.text)).2.2
    have hp : placed.WF ∧ placed.cells = List.replicate hOff (padCell (padOf s.text)) ++ a.cells := by
      show Strip.WF (if hOff > 0 then _ else _) ∧ Strip.cells (if hOff > 0 then _ else _) = _
      split
      · have hw : (Strip.join [Strip.blank hOff (padOf s.text), a]).WF := by
          apply Strip.join_wf
          intro x hx
          simp only [List.mem_cons, List.not_mem_nil, or_false] at hx
          rcases hx with rfl | rfl
          · exact (Strip.blank_good _ _).1
          · exact ha
        refine ⟨hw, ?_⟩
        rw [Strip.join_cells]
        simp [hblank]
      · rename_i h0
        rw [show hOff = 0 by omega]
        exact ⟨ha, rfl⟩
    have hlen : placed.cellLength = hOff + lineWidth := by
      rw [← hp.1.length, hp.2, List.length_append, List.length_replicate, ha.length, hal]
    obtain ⟨k1, k2, k3⟩ := Strip.adjustCellLength_spec_partial placed hp.1 width (padOf s.text)
      (onBoundary_beyond hp.1 (by omega))
    refine ⟨k2, k1, ?_⟩
    rw [k3, hlen, List.take_of_length_le (by rw [hp.1.length]; omega), hp.2]
  unfold alignLine
  dsimp only
  by_cases hj : s.textAlign = .justify ∧ line.lineEnd = false
  · rw [if_pos hj]
    have := key _ (Strip.justify_wf _ hwf hsp lineWidth (padOf s.text))
      (Strip.justify_length _ hwf hsp lineWidth (padOf s.text) hb)
    exact ⟨this.1, this.2.1, fun h => absurd hj h⟩
  · rw [if_neg hj]
    obtain ⟨t1, t2, t3⟩ := Strip.textAlign_spec_partial line.strip hwf s.textAlign.line lineWidth (padOf s.text) hb
    have := key _ t2 t1
    refine ⟨this.1, this.2.1, fun _ => ?_⟩
    rw [this.2.2, t3, replicate_add', replicate_add']
    simp only [List.append_assoc]

theorem hOffset_room (a : AlignH) (width block : Nat) (h : block ≤ width) : hOffset a width block + block ≤ width := by
  cases a <;> simp only [hOffset] <;> omega

theorem vOffset_le (a : AlignV) (height n : Nat) : vOffset a height n ≤ height := by
  cases a <;> simp only [vOffset] <;> omega

/-- The parameters of a line in an aligned text. -/
theorem align_room (s : Sheet) (lines : List WrappedLine) (width : Nat) :
    hOffset s.alignH width (min width (maxLength lines)) +
      (if s.alignH = .left ∧ s.alignV = .top then width else min width (maxLength lines)) ≤ width := by
  split
  · rename_i h
    rw [h.1]
    simp [hOffset]
  · exact hOffset_room _ _ _ (by omega)

theorem Fit.lineWidth {n : Nat} {lines : List WrappedLine} {line : WrappedLine} (s : Sheet) (hl : line ∈ lines)
    (h : Fit n line) : OnBoundary line.strip.cells
      (if s.alignH = .left ∧ s.alignV = .top then n else min n (maxLength lines)) := by
  split
  · exact h.cut
  · exact h.block hl

/-- The rows of an aligned text. -/
theorem alignContent_rows (s : Sheet) (lines : List WrappedLine) (width height : Nat) (hw : 0 < width)
    (hh : 0 < height) :
    let v := vOffset s.alignV height lines.length
    (alignContent s lines width height).length = height ∧
    ∀ y < height, (alignContent s lines width height)[y]? =
      some (match (if v ≤ y then lines[y - v]? else none) with
        | some line => alignLine s width
            (if s.alignH = .left ∧ s.alignV = .top then width else min width (maxLength lines))
            (hOffset s.alignH width (min width (maxLength lines))) line
        | none => Strip.blank width (padOf s.text)) := by
  intro v
  have hv : v ≤ height := vOffset_le _ _ _
  unfold alignContent
  rw [if_neg (by omega)]
  dsimp only
  generalize hf : alignLine s width
    (if s.alignH = .left ∧ s.alignV = .top then width else min width (maxLength lines))
    (hOffset s.alignH width (min width (maxLength lines))) = f
  have hv' : vOffset s.alignV height lines.length = v := rfl
  rw [hv']
  have hlen : (List.replicate v (Strip.blank width (padOf s.text)) ++ List.map f (List.take (height - v) lines)).length =
      v + min (height - v) lines.length := by
    rw [List.length_append, List.length_replicate, List.length_map, List.length_take]
  constructor
  · rw [List.length_append, List.length_replicate, hlen]; omega
  · intro y hy
    by_cases h1 : y < v
    · rw [List.getElem?_append_left (by omega), List.getElem?_append_left (by simp; omega),
        List.getElem?_replicate_of_lt h1, if_neg (by omega)]
    · rw [if_pos (by omega)]
      by_cases h2 : y - v < lines.length
      · rw [List.getElem?_append_left (by omega), List.getElem?_append_right (by simp; omega),
          List.length_replicate, List.getElem?_map, List.getElem?_take_of_lt (by omega),
          List.getElem?_eq_getElem h2]
        rfl
      · rw [List.getElem?_append_right (by omega), hlen, List.getElem?_replicate_of_lt (by omega),
          List.getElem?_eq_none (by omega)]

/-- Every row of an aligned text has the width. -/
theorem alignContent_width (s : Sheet) (lines : List WrappedLine) (width height : Nat)
    (hl : ∀ line ∈ lines, Fit width line) :
    ∀ row ∈ alignContent s lines width height, row.WF ∧ row.cellLength = width := by
  intro row hr
  by_cases h0 : width = 0 ∨ height = 0
  · unfold alignContent at hr
    rw [if_pos h0] at hr
    cases hr
  · obtain ⟨k1, k2⟩ := alignContent_rows s lines width height (by omega) (by omega)
    obtain ⟨y, hy⟩ := List.getElem?_of_mem hr
    have hlt : y < height := by
      rw [← k1]
      exact (List.getElem?_eq_some_iff.1 hy).1
    rw [k2 y hlt] at hy
    injection hy with hy
    subst hy
    split
    · rename_i line e
      have hm : line ∈ lines := by
        split at e
        · exact List.mem_of_getElem? e
        · cases e
      have := alignLine_spec s width _ _ line (hl line hm).wf (hl line hm).spaces
        (Fit.lineWidth s hm (hl line hm)) (align_room s lines width)
      exact ⟨this.1, this.2.1⟩
    · exact ⟨(Strip.blank_good _ _).1, (Strip.blank_good _ _).2.1⟩

/-! ### Links -/

theorem findLink_append (a b : List LinkRegion) (x y : Nat) :
    findLink (a ++ b) x y = (findLink a x y).or (findLink b x y) := by
  unfold findLink
  rw [List.find?_append]
  cases List.find? _ a <;> rfl

theorem textCells_info (st : Option Style) (i : Meta) (t : List Grapheme) (k : Nat) (h : k < widthOf t) :
    ((textCells st i t)[k]?).bind linkOf = i.lookup "@click" := by
  have : ∀ x ∈ textCells st i t, x.info = i := by
    intro x hx
    unfold textCells at hx
    simp only [List.mem_flatMap, List.mem_map] at hx
    obtain ⟨_, _, _, _, e⟩ := hx
    rw [← e]
  rw [List.getElem?_eq_getElem (by rw [textCells_length]; exact h)]
  show linkOf _ = _
  unfold linkOf
  rw [this _ (List.getElem_mem _)]

theorem rowLinks_find (row left : Nat) (segs : List Segment) : ∀ (col x y : Nat),
    (∀ s ∈ segs, s.cellLength = widthOf s.text) →
    findLink (rowLinks row left col segs) x y =
      if y = row ∧ col + left ≤ x then ((segCells segs)[x - (col + left)]?).bind linkOf else none := by
  induction segs with
  | nil => intro col x y _; simp [rowLinks, findLink, segCells]
  | cons seg segs ih =>
    intro col x y h
    have hs := h seg List.mem_cons_self
    rw [rowLinks, findLink_append, ih _ _ _ (fun s hs => h s (List.mem_cons_of_mem _ hs)), segCells_cons]
    have one : ∀ l : Option String, findLink (match l with
        | some action => [⟨action, row, col + left, col + seg.cellLength + left⟩]
        | none => []) x y = if y = row ∧ col + left ≤ x ∧ x < col + seg.cellLength + left then l else none := by
      intro l
      cases l with
      | none => simp [findLink]
      | some a =>
        unfold findLink
        by_cases hc : y = row ∧ col + left ≤ x ∧ x < col + seg.cellLength + left
        · rw [if_pos hc, List.find?_cons_of_pos (by simpa [and_assoc] using hc)]
          rfl
        · rw [if_neg hc, List.find?_cons_of_neg (by simpa [and_assoc] using hc)]
          rfl
    refine Eq.trans (congrArg (fun z => Option.or z _) (one _)) ?_
    beta_reduce
    have hlen : (textCells seg.style seg.info seg.text).length = seg.cellLength := by rw [textCells_length, hs]
    by_cases hy : y = row
    · by_cases hx : col + left ≤ x
      · rw [if_pos (show y = row ∧ col + left ≤ x from ⟨hy, hx⟩)]
        by_cases hx2 : x < col + seg.cellLength + left
        · rw [if_pos ⟨hy, hx, hx2⟩, if_neg (by omega), Option.or_none, List.getElem?_append_left (by omega),
            textCells_info _ _ _ _ (by omega)]
        · rw [if_neg (by omega), if_pos ⟨hy, by omega⟩, Option.none_or, List.getElem?_append_right (by omega), hlen,
            show x - (col + left) - seg.cellLength = x - (col + seg.cellLength + left) by omega]
      · rw [if_neg (by omega), if_neg (by omega), if_neg (by omega)]
        rfl
    · rw [if_neg (by omega), if_neg (by omega), if_neg (by omega)]
      rfl

theorem linksFrom_find (top left : Nat) (lines : List Strip) : ∀ (row x y : Nat), (∀ s ∈ lines, s.WF) →
    findLink (linksFrom top left row lines) x y =
      if row + top ≤ y ∧ left ≤ x then
        ((lines[y - (row + top)]?).bind fun s => s.cells[x - left]?).bind linkOf else none := by
  induction lines with
  | nil => intro row x y _; simp [linksFrom, findLink]
  | cons s lines ih =>
    intro row x y h
    rw [linksFrom, findLink_append, ih _ _ _ (fun s hs => h s (List.mem_cons_of_mem _ hs)),
      rowLinks_find _ _ _ _ _ _ (h s List.mem_cons_self).seg, Nat.zero_add]
    by_cases hx : left ≤ x
    · by_cases hy : y = row + top
      · rw [if_pos ⟨hy, hx⟩, if_neg (by omega), if_pos ⟨by omega, hx⟩, show y - (row + top) = 0 by omega,
          Option.or_none]
        rfl
      · by_cases hy2 : row + top < y
        · rw [if_neg (by omega), if_pos ⟨by omega, hx⟩, if_pos ⟨by omega, hx⟩, Option.none_or,
            show y - (row + top) = (y - (row + 1 + top)) + 1 by omega, List.getElem?_cons_succ]
        · rw [if_neg (by omega), if_neg (by omega), if_neg (by omega)]
          rfl
    · rw [if_neg (by omega), if_neg (by omega), if_neg (by omega)]
      rfl

/-! ### Rows without links -/

theorem NoInfo.append {a b : List Segment} (ha : NoInfo a) (hb : NoInfo b) : NoInfo (a ++ b) := by
  intro s hs
  rcases List.mem_append.1 hs with h | h
  · exact ha s h
  · exact hb s h

theorem NoInfo.cons {a : Segment} {b : List Segment} (ha : a.info = []) (hb : NoInfo b) : NoInfo (a :: b) := by
  intro s hs
  rcases List.mem_cons.1 hs with rfl | h
  · exact ha
  · exact hb s h

theorem NoInfo.nil : NoInfo [] := by intro s hs; cases hs

theorem NoInfo.ite {p : Prop} [Decidable p] {a b : List Segment} (ha : NoInfo a) (hb : NoInfo b) :
    NoInfo (if p then a else b) := by split <;> assumption

theorem splitAt_info (s : Segment) (cut : Nat) : (s.splitAt cut).1.info = s.info ∧ (s.splitAt cut).2.info = s.info := by
  unfold Segment.splitAt
  split
  · exact ⟨rfl, rfl⟩
  · split
    · exact ⟨rfl, rfl⟩
    · exact ⟨rfl, rfl⟩

theorem cropSegment_info (seg : Segment) (pos a b : Nat) : ∀ s ∈ Strip.cropSegment seg pos a b, s.info = seg.info := by
  intro s hs
  unfold Strip.cropSegment at hs
  dsimp only at hs
  split at hs
  · simp at hs; rw [hs]
  · split at hs
    · split at hs
      · cases hs
      · simp at hs; rw [hs]; exact (splitAt_info _ _).1
    · split at hs
      · split at hs
        · cases hs
        · simp at hs; rw [hs]; exact (splitAt_info _ _).2
      · split at hs
        · cases hs
        · simp at hs; rw [hs, (splitAt_info _ _).1, (splitAt_info _ _).2]

theorem cropLoop_info (a b : Nat) (segs : List Segment) : ∀ pos, NoInfo segs → NoInfo (Strip.cropLoop a b pos segs) := by
  induction segs with
  | nil => intro pos _; exact NoInfo.nil
  | cons seg segs ih =>
    intro pos h
    have hr : NoInfo segs := fun s hs => h s (List.mem_cons_of_mem _ hs)
    unfold Strip.cropLoop
    dsimp only
    split
    · exact ih _ hr
    · split
      · exact NoInfo.nil
      · refine NoInfo.append ?_ (ih _ hr)
        intro s hs
        rw [cropSegment_info _ _ _ _ s hs]
        exact h seg List.mem_cons_self

theorem crop_info (s : Strip) (h : NoInfo s.segments) (a b : Nat) : NoInfo (s.crop a b).segments := by
  unfold Strip.crop
  split
  · exact NoInfo.nil
  · exact cropLoop_info _ _ _ _ h

theorem NoInfo.cells {s : Strip} (h : NoInfo s.segments) : ∀ x ∈ s.cells, linkOf x = none := by
  intro x hx
  unfold Strip.cells segCells textCells at hx
  simp only [List.mem_flatMap, List.mem_map] at hx
  obtain ⟨seg, hs, _, _, _, _, e⟩ := hx
  rw [← e]
  unfold linkOf
  rw [h seg hs]
  rfl

theorem renderLabel_info (label : Strip) (h : NoInfo label.segments) (fill : Segment) (w : Nat) (align : AlignH) :
    NoInfo (RenderCache.renderLabel label fill w align).segments := by
  have rc : ∀ n, (RenderCache.repeatCharSegment fill n).info = [] := by
    intro n; unfold RenderCache.repeatCharSegment; split <;> rfl
  have hm : ∀ g st, (Segment.mk' g st).info = [] := fun _ _ => rfl
  unfold RenderCache.renderLabel
  dsimp only
  split
  · exact NoInfo.append (NoInfo.append (NoInfo.append (NoInfo.cons (rc _) (NoInfo.cons rfl NoInfo.nil))
      (crop_info _ h _ _)) (NoInfo.cons rfl (NoInfo.cons rfl NoInfo.nil)))
      (NoInfo.ite (NoInfo.cons (rc _) NoInfo.nil) NoInfo.nil)
  · exact NoInfo.append (NoInfo.append (NoInfo.append (NoInfo.append
      (NoInfo.ite (NoInfo.cons (rc _) NoInfo.nil) NoInfo.nil) (NoInfo.cons rfl NoInfo.nil)) h)
      (NoInfo.cons rfl NoInfo.nil)) (NoInfo.ite (NoInfo.cons (rc _) NoInfo.nil) NoInfo.nil)

theorem piece_info {s : Segment} (h : RenderCache.IsPiece s) : s.info = [] := by
  obtain ⟨_, _, rfl⟩ := h; rfl

theorem renderRow_info (row : RenderCache.Row) (hr : row.Sound) (w : Nat) (title subtitle : Option Strip)
    (ht : ∀ t, title = some t → NoInfo t.segments) (hs : ∀ t, subtitle = some t → NoInfo t.segments)
    (a b : AlignH) : NoInfo (RenderCache.renderRow row w title subtitle a b).segments := by
  unfold RenderCache.renderRow
  split
  · split
    · exact NoInfo.cons (piece_info hr.left) (NoInfo.cons (piece_info hr.right) NoInfo.nil)
    · split
      · exact NoInfo.cons (piece_info hr.left) NoInfo.nil
      · exact NoInfo.nil
  · dsimp only
    refine NoInfo.append (NoInfo.cons (piece_info hr.left) ?_) (NoInfo.cons (piece_info hr.right) NoInfo.nil)
    cases title with
    | some t => exact renderLabel_info _ (ht t rfl) _ _ _
    | none =>
      cases subtitle with
      | some t => exact renderLabel_info _ (hs t rfl) _ _ _
      | none =>
        dsimp only
        unfold RenderCache.repeatSegment
        split
        · exact NoInfo.nil
        · exact NoInfo.cons rfl NoInfo.nil

theorem horizontalRow_info (row : RenderCache.Row) (w : Nat) (label : Option Strip)
    (h : ∀ t, label = some t → NoInfo t.segments) (a : AlignH) :
    NoInfo (RenderCache.horizontalRow row w label a).segments := by
  unfold RenderCache.horizontalRow
  cases label with
  | none => exact NoInfo.cons rfl NoInfo.nil
  | some t =>
    dsimp only
    split
    · exact NoInfo.append (NoInfo.append (NoInfo.append (NoInfo.cons rfl NoInfo.nil) (crop_info _ (h t rfl) _ _))
        (NoInfo.cons rfl NoInfo.nil)) (NoInfo.ite (NoInfo.cons rfl NoInfo.nil) NoInfo.nil)
    · exact NoInfo.append (NoInfo.append (NoInfo.ite (NoInfo.cons rfl NoInfo.nil) NoInfo.nil) (h t rfl))
        (NoInfo.ite (NoInfo.cons rfl NoInfo.nil) NoInfo.nil)

theorem labeledRow_info (c : Cache) (row : RenderCache.Row) (hr : row.Sound) (w : Nat) (label : Strip)
    (h : NoInfo label.segments) (a : AlignH) : NoInfo (c.labeledRow row w label a).segments := by
  unfold Cache.labeledRow
  exact NoInfo.append (NoInfo.append (NoInfo.ite (NoInfo.cons (piece_info hr.left) NoInfo.nil) NoInfo.nil)
    (renderLabel_info _ h _ _ _)) (NoInfo.ite (NoInfo.cons (piece_info hr.right) NoInfo.nil) NoInfo.nil)

theorem alignContent_length (s : Sheet) (lines : List WrappedLine) (width height : Nat) :
    (alignContent s lines width height).length ≤ height := by
  by_cases h0 : width = 0 ∨ height = 0
  · unfold alignContent; rw [if_pos h0]; exact Nat.zero_le _
  · rw [(alignContent_rows s lines width height (by omega) (by omega)).1]

end Static
end Textual
