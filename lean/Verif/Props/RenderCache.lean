import Verif.Lemmas.RenderCache

/-!
C90-C94: the lines of a widget with border, padding, labels and outline.
-/

namespace Textual.RenderCache

open Strip (AlignH)

/-! ### Fields of a cache -/

theorem cacheAfter_fields (hist : List Sheet) (s : Sheet) :
    (cacheAfter hist s).top = s.border.top.kind.horizontal ∧
    (cacheAfter hist s).bottom = s.border.bottom.kind.horizontal ∧
    (cacheAfter hist s).left = s.border.left.kind.vertical ∧
    (cacheAfter hist s).right = s.border.right.kind.vertical ∧
    (cacheAfter hist s).paddingLeft = s.paddingLeft ∧ (cacheAfter hist s).paddingRight = s.paddingRight ∧
    (cacheAfter hist s).paddingTop = s.paddingTop ∧ (cacheAfter hist s).paddingBottom = s.paddingBottom ∧
    (cacheAfter hist s).topOutline = s.outline.top.kind.horizontal ∧
    (cacheAfter hist s).bottomOutline = s.outline.bottom.kind.horizontal ∧
    (cacheAfter hist s).leftOutline = s.outline.left.kind.vertical ∧
    (cacheAfter hist s).rightOutline = s.outline.right.kind.vertical ∧
    (cacheAfter hist s).titleAlign = s.titleAlign ∧ (cacheAfter hist s).subtitleAlign = s.subtitleAlign ∧
    (cacheAfter hist s).padStyle = s.style.effectiveBackground.map fun bg => { bg := some bg } := by
  unfold cacheAfter Cache.new
  dsimp only
  generalize boxesAfter hist = b
  exact ⟨rfl, rfl, rfl, rfl, rfl, rfl, rfl, rfl, rfl, rfl, rfl, rfl, rfl, rfl, rfl⟩

/-- C91: a border takes a row or column exactly on the edges that have one, keylines only on theirs. -/
theorem edges_exact (hist : List Sheet) (s : Sheet) :
    ((cacheAfter hist s).top = true ↔ s.border.top.kind ∉ [Kind.none, .hidden, .vkey]) ∧
    ((cacheAfter hist s).bottom = true ↔ s.border.bottom.kind ∉ [Kind.none, .hidden, .vkey]) ∧
    ((cacheAfter hist s).left = true ↔ s.border.left.kind ∉ [Kind.none, .hidden, .hkey]) ∧
    ((cacheAfter hist s).right = true ↔ s.border.right.kind ∉ [Kind.none, .hidden, .hkey]) := by
  obtain ⟨h1, h2, h3, h4, _⟩ := cacheAfter_fields hist s
  rw [h1, h2, h3, h4]
  refine ⟨?_, ?_, ?_, ?_⟩
  · cases s.border.top.kind <;> decide
  · cases s.border.bottom.kind <;> decide
  · cases s.border.left.kind <;> decide
  · cases s.border.right.kind <;> decide

/-- C91: the size left for the content is the widget's size less the borders and paddings on each side. -/
theorem inner_size_exact (hist : List Sheet) (s : Sheet) (w h : Nat) :
    (cacheAfter hist s).innerSize w h =
      (w - ((if s.border.left.kind.vertical then 1 else 0) + (if s.border.right.kind.vertical then 1 else 0) +
          s.paddingLeft + s.paddingRight),
        h - ((if s.border.top.kind.horizontal then 1 else 0) + (if s.border.bottom.kind.horizontal then 1 else 0) +
          s.paddingTop + s.paddingBottom)) := by
  obtain ⟨h1, h2, h3, h4, h5, h6, h7, h8, _⟩ := cacheAfter_fields hist s
  unfold Cache.innerSize one
  rw [h1, h2, h3, h4, h5, h6, h7, h8]
  refine Prod.ext ?_ ?_ <;> dsimp only <;> omega

/-! ### Content rows -/

theorem applyOutline_none (c : Cache) (h : c.outlineBox = none) (s : Strip) (y ht w : Nat) :
    c.applyOutline s y ht w = s := by
  unfold Cache.applyOutline
  rw [h]

/-- The label a content row is replaced by, if any. -/
def sideLabel (c : Cache) (y height : Nat) (title subtitle : Option Strip) : Option (Strip × AlignH) :=
  if c.left || c.right then
    match (if c.top = false ∧ y = 0 then title else none) with
    | some t => some (t, c.titleAlign)
    | none => (if c.bottom = false ∧ y + 1 = height then subtitle else none).map (·, c.subtitleAlign)
  else none

/-- What `renderLine` draws in a content row. -/
theorem renderLine_content (c : Cache) (hc : c.Sound) (y ht w : Nat) (content title subtitle : Option Strip)
    (hy : y < ht) (hw : 0 < w) (ht0 : c.top = true → 0 < y) (hb0 : c.bottom = true → y + 1 < ht) :
    c.renderLine y ht w content title subtitle =
      match c.box, sideLabel c y ht title subtitle with
      | some box, some (t, a) => c.labeledRow box.middle w t a
      | some box, none =>
        c.applyOutline (if c.left || c.right then c.middleRow box.middle content w
          else c.contentRow w content) y ht w
      | none, _ => c.applyOutline (c.contentRow w content) y ht w := by
  unfold Cache.renderLine
  rw [if_neg (by omega)]
  cases hbox : c.box with
  | none => rfl
  | some box =>
    dsimp only
    have e1 : ¬(y = 0 ∧ c.top = true) := by rintro ⟨a, b⟩; have := ht0 b; omega
    have e2 : ¬(y = ht - 1 ∧ c.bottom = true) := by rintro ⟨a, b⟩; have := hb0 b; omega
    have e3 : y ≥ one c.top ∧ y < ht - one c.bottom := by
      constructor
      · cases h : c.top
        · simp [one]
        · have := ht0 h; simp [one]; omega
      · cases h : c.bottom
        · simp [one]; omega
        · have := hb0 h; simp [one]; omega
    rw [if_neg e1, if_neg e2, if_pos e3]
    by_cases hs : (c.left || c.right) = true
    · rw [if_pos hs]
      have t1 : (!c.top && y == one c.top) = true ↔ (c.top = false ∧ y = 0) := by
        cases c.top <;> simp [one]
      have t2 : (!c.bottom && y + 1 == ht - one c.bottom) = true ↔ (c.bottom = false ∧ y + 1 = ht) := by
        cases c.bottom <;> simp [one]
      have hl : sideLabel c y ht title subtitle =
          match (if (!c.top && y == one c.top) = true then title else none) with
          | some t => some (t, c.titleAlign)
          | none => (if (!c.bottom && y + 1 == ht - one c.bottom) = true then subtitle else none).map
            (·, c.subtitleAlign) := by
        unfold sideLabel
        rw [if_pos hs]
        simp only [t1, t2]
      rw [hl]
      generalize (if (!c.top && y == one c.top) = true then title else none) = o1
      generalize (if (!c.bottom && y + 1 == ht - one c.bottom) = true then subtitle else none) = o2
      cases o1 with
      | some t => rfl
      | none =>
        cases o2 with
        | some t => rfl
        | none => dsimp only [Option.map_none]; rw [if_pos hs]
    · rw [if_neg hs]
      have : sideLabel c y ht title subtitle = none := by
        unfold sideLabel; rw [if_neg hs]
      rw [this]
      dsimp only
      rw [if_neg hs]

/-- A content row that is not replaced by a label. -/
def PlainRow (s : Sheet) (y height : Nat) (title subtitle : Option Strip) : Prop :=
  y < height ∧ (s.border.top.kind.horizontal = true → 0 < y) ∧
  (s.border.bottom.kind.horizontal = true → y + 1 < height) ∧
  ((s.border.left.kind.vertical || s.border.right.kind.vertical) = true →
    (s.border.top.kind.horizontal = false → y = 0 → title = none) ∧
    (s.border.bottom.kind.horizontal = false → y + 1 = height → subtitle = none))

theorem plain_label {hist : List Sheet} {s : Sheet} {y ht : Nat} {title subtitle : Option Strip}
    (h : PlainRow s y ht title subtitle) : sideLabel (cacheAfter hist s) y ht title subtitle = none := by
  obtain ⟨h1, h2, h3, h4, _⟩ := cacheAfter_fields hist s
  obtain ⟨_, _, _, hp⟩ := h
  unfold sideLabel
  rw [h1, h2, h3, h4]
  split
  · rename_i hs
    obtain ⟨p1, p2⟩ := hp hs
    have e1 : (if s.border.top.kind.horizontal = false ∧ y = 0 then title else none) = none := by
      split
      · rename_i h; exact p1 h.1 h.2
      · rfl
    have e2 : (if s.border.bottom.kind.horizontal = false ∧ y + 1 = ht then subtitle else none) = none := by
      split
      · rename_i h; exact p2 h.1 h.2
      · rfl
    rw [e1, e2]
    rfl
  · rfl

theorem only_false {α : Type} (x : α) : only false x = [] := rfl

/-- The columns of a content row, before an outline. -/
theorem plain_base (hist : List Sheet) (s : Sheet) (y ht w : Nat) (content title subtitle : Option Strip)
    (hp : PlainRow s y ht title subtitle) (hw : 0 < w)
    (hc : CutAt content ((cacheAfter hist s).innerSize w ht).1) :
    ∃ base l r, base.WF ∧
      (cacheAfter hist s).renderLine y ht w content title subtitle =
        (cacheAfter hist s).applyOutline base y ht w ∧
      base.cells = only s.border.left.kind.vertical l ++
        (List.replicate s.paddingLeft (padCell (cacheAfter hist s).padStyle) ++
          window content ((cacheAfter hist s).innerSize w ht).1 (padCell (cacheAfter hist s).padStyle) ++
          List.replicate s.paddingRight (padCell (cacheAfter hist s).padStyle)) ++
        only s.border.right.kind.vertical r ∧
      l.g.width = 1 ∧ r.g.width = 1 ∧
      ∀ box, (cacheAfter hist s).box = some box → l = col box.middle.left ∧ r = col box.middle.right := by
  have hs := cacheAfter_sound hist s
  have hl := plain_label (hist := hist) hp
  obtain ⟨h1, h2, h3, h4, h5, h6, _⟩ := cacheAfter_fields hist s
  obtain ⟨hy, p1, p2, _⟩ := hp
  have key := renderLine_content (cacheAfter hist s) hs y ht w content title subtitle hy hw
    (by rw [h1]; exact p1) (by rw [h2]; exact p2)
  rw [hl] at key
  have hi : ((cacheAfter hist s).innerSize w ht).1 = w - (one (cacheAfter hist s).left +
      one (cacheAfter hist s).right) - ((cacheAfter hist s).paddingLeft + (cacheAfter hist s).paddingRight) := rfl
  rw [hi] at hc ⊢
  rw [key, ← h3, ← h4, ← h5, ← h6]
  cases hbox : (cacheAfter hist s).box with
  | none =>
    obtain ⟨_, n2, _, n4⟩ := hs.noBox hbox
    have e : w - (one (cacheAfter hist s).left + one (cacheAfter hist s).right) = w := by
      rw [n2, n4]; simp [one]
    rw [e] at hc ⊢
    have := contentRow_cells (cacheAfter hist s) w content hc
    refine ⟨_, padCell none, padCell none, this.1, rfl, ?_, rfl, rfl, fun b h => by cases h⟩
    rw [this.2, n2, n4]
    simp only [only_false, List.nil_append, List.append_nil]
  | some box =>
    have hb := hs.box box hbox
    by_cases hside : ((cacheAfter hist s).left || (cacheAfter hist s).right) = true
    · have := middleRow_cells (cacheAfter hist s) box.middle hb.middle w content hc
      refine ⟨_, col box.middle.left, col box.middle.right, this.1, ?_, this.2, hb.middle.left.width,
        hb.middle.right.width, fun b h => by injection h with h; subst h; exact ⟨rfl, rfl⟩⟩
      dsimp only
      rw [if_pos hside]
    · have hside' := hside
      simp only [Bool.or_eq_true, not_or, Bool.not_eq_true] at hside'
      have e : w - (one (cacheAfter hist s).left + one (cacheAfter hist s).right) = w := by
        rw [hside'.1, hside'.2]; simp [one]
      rw [e] at hc ⊢
      have := contentRow_cells (cacheAfter hist s) w content hc
      refine ⟨_, col box.middle.left, col box.middle.right, this.1, ?_, ?_, hb.middle.left.width,
        hb.middle.right.width, fun b h => by injection h with h; subst h; exact ⟨rfl, rfl⟩⟩
      · dsimp only
        rw [if_neg hside]
      · rw [this.2, hside'.1, hside'.2]
        simp only [only_false, List.nil_append, List.append_nil]

theorem window_length (content : Option Strip) (n : Nat) (p : StripCell) : (window content n p).length = n := by
  cases content with
  | none => simp [window]
  | some s => simp [window]; omega

/-- C91: a content row shows the side borders, the padding and the content, the content starting behind
the left border and padding and taking exactly the width `inner_size` reports. -/
theorem content_line (hist : List Sheet) (s : Sheet) (y ht w : Nat) (content title subtitle : Option Strip)
    (hp : PlainRow s y ht title subtitle) (hw : 0 < w)
    (ho : s.outline.top.kind.horizontal = false ∧ s.outline.bottom.kind.horizontal = false ∧
      s.outline.left.kind.vertical = false ∧ s.outline.right.kind.vertical = false)
    (hc : CutAt content ((cacheAfter hist s).innerSize w ht).1) :
    let pad := padCell (s.style.effectiveBackground.map fun bg => { bg := some bg })
    ∃ l r, ((cacheAfter hist s).renderLine y ht w content title subtitle).cells =
      only s.border.left.kind.vertical l ++ List.replicate s.paddingLeft pad ++
      window content ((cacheAfter hist s).innerSize w ht).1 pad ++
      List.replicate s.paddingRight pad ++ only s.border.right.kind.vertical r := by
  intro pad
  obtain ⟨base, l, r, _, e, hcells, _⟩ := plain_base hist s y ht w content title subtitle hp hw hc
  have hf := cacheAfter_fields hist s
  obtain ⟨_, _, _, _, _, _, _, _, o1, o2, o3, o4, _, _, hpad⟩ := hf
  have hnone : (cacheAfter hist s).outlineBox = none := by
    by_contra h
    have := (cacheAfter_sound hist s).outlineSome h
    rw [o1, o2, o3, o4, ho.1, ho.2.1, ho.2.2.1, ho.2.2.2] at this
    simp at this
  refine ⟨l, r, ?_⟩
  rw [e, applyOutline_none _ hnone, hcells, hpad]
  simp only [List.append_assoc]
  rfl

/-- C91: column `k` of the content is column `border + padding + k` of the line. -/
theorem content_at (hist : List Sheet) (s : Sheet) (y ht w : Nat) (line : Strip) (title subtitle : Option Strip)
    (hp : PlainRow s y ht title subtitle) (hw : 0 < w)
    (ho : s.outline.top.kind.horizontal = false ∧ s.outline.bottom.kind.horizontal = false ∧
      s.outline.left.kind.vertical = false ∧ s.outline.right.kind.vertical = false)
    (hc : CutAt (some line) ((cacheAfter hist s).innerSize w ht).1) (k : Nat)
    (hk : k < ((cacheAfter hist s).innerSize w ht).1) (hkl : k < line.cells.length) :
    ((cacheAfter hist s).renderLine y ht w (some line) title subtitle).cells[
      (if s.border.left.kind.vertical then 1 else 0) + s.paddingLeft + k]? = line.cells[k]? := by
  obtain ⟨l, r, e⟩ := content_line hist s y ht w (some line) title subtitle hp hw ho hc
  rw [e]
  have hlen : (only s.border.left.kind.vertical l ++ List.replicate s.paddingLeft
      (padCell (s.style.effectiveBackground.map fun bg => { bg := some bg }))).length =
      (if s.border.left.kind.vertical then 1 else 0) + s.paddingLeft := by
    rw [List.length_append, only_length, List.length_replicate]; rfl
  rw [List.append_assoc, List.append_assoc, List.append_assoc,
    ← List.append_assoc (only _ _), List.getElem?_append_right (by omega), hlen,
    Nat.add_sub_cancel_left, List.getElem?_append_left (by rw [window_length]; exact hk)]
  unfold window
  rw [List.getElem?_append_left (by rw [List.length_take]; omega), List.getElem?_take_of_lt hk]

/-! ### Every line fills the width -/

/-- A line of `n` one-column characters. -/
def Good (n : Nat) (s : Strip) : Prop := s.WF ∧ s.cells.length = n ∧ ∀ x ∈ s.cells, x.g.width = 1

theorem Good.of_cells {n : Nat} {s : Strip} {l : List StripCell} (hw : s.WF) (e : s.cells = l)
    (hl : l.length = n) (h1 : ∀ x ∈ l, x.g.width = 1) : Good n s := ⟨hw, by rw [e, hl], by rw [e]; exact h1⟩

theorem all_append {p : StripCell → Prop} {a b : List StripCell} (ha : ∀ x ∈ a, p x) (hb : ∀ x ∈ b, p x) :
    ∀ x ∈ a ++ b, p x := by
  intro x hx
  rcases List.mem_append.1 hx with h | h
  · exact ha x h
  · exact hb x h

theorem all_replicate {p : StripCell → Prop} {n : Nat} {a : StripCell} (ha : p a) :
    ∀ x ∈ List.replicate n a, p x := by
  intro x hx; rw [List.eq_of_mem_replicate hx]; exact ha

theorem all_one {p : StripCell → Prop} {a : StripCell} (ha : p a) : ∀ x ∈ [a], p x := by
  intro x hx; rw [List.mem_singleton.1 hx]; exact ha

theorem all_only {p : StripCell → Prop} {b : Bool} {a : StripCell} (ha : p a) : ∀ x ∈ only b a, p x := by
  cases b
  · intro x hx; cases hx
  · exact all_one ha

theorem all_take {p : StripCell → Prop} {n : Nat} {a : List StripCell} (ha : ∀ x ∈ a, p x) :
    ∀ x ∈ a.take n, p x := fun x hx => ha x (List.mem_of_mem_take hx)

theorem all_window {content : Option Strip} (h : Narrow content) (n : Nat) (st : Option Style) :
    ∀ x ∈ window content n (padCell st), x.g.width = 1 := by
  cases content with
  | none => exact all_replicate rfl
  | some s => exact all_append (all_take (h s rfl).2) (all_replicate rfl)

theorem Narrow.cutAt {line : Option Strip} (h : Narrow line) (n : Nat) : CutAt line n :=
  fun s hs => ⟨(h s hs).1, Strip.narrow_onBoundary s (h s hs).2 n⟩

theorem renderLabel_good (label : Strip) (hl : Narrow (some label)) (fill : Segment) (hf : IsPiece fill) (w : Nat)
    (hw : 4 ≤ w) (align : AlignH) : Good w (renderLabel label fill w align) := by
  obtain ⟨h1, h2⟩ := hl label rfl
  by_cases h : label.cellLength + 4 ≤ w
  · obtain ⟨k1, l, r, _, _, _, k5, k6⟩ := renderLabel_whole label h1 fill hf w align h
    refine ⟨k1, k5, ?_⟩
    rw [k6]
    exact all_append (all_append (all_append (all_append (all_replicate hf.width) (all_one rfl)) h2)
      (all_one rfl)) (all_replicate hf.width)
  · obtain ⟨k1, st, k2⟩ := renderLabel_cut label h1 fill hf w align hw (by omega)
      (Strip.narrow_onBoundary label h2 _) (Strip.narrow_onBoundary label h2 _)
    refine Good.of_cells k1 k2 ?_ ?_
    · have := h1.length
      simp only [List.length_append, List.length_cons, List.length_nil, List.length_take,
        List.length_replicate]
      omega
    · refine all_append (all_append (all_append ?_ (all_take h2)) ?_) (all_replicate hf.width)
      · intro x hx
        rcases List.mem_cons.1 hx with rfl | hx
        · exact hf.width
        · exact all_one (a := gapCell label) (p := fun x => x.g.width = 1) rfl x hx
      · intro x hx
        rcases List.mem_cons.1 hx with rfl | hx
        · rfl
        · exact all_one (a := gapCell label) (p := fun x => x.g.width = 1) rfl x hx

theorem repeatSegment_good (fill : Segment) (hf : IsPiece fill) (w : Nat) : Good w (repeatSegment fill w) :=
  Good.of_cells (repeatSegment_wf fill w) (repeatSegment_cells hf w) (List.length_replicate ..)
    (all_replicate hf.width)

theorem renderRow_good (row : Row) (hr : row.Sound) (w : Nat) (hw : 2 ≤ w) (title subtitle : Option Strip)
    (ht : Narrow title) (hs : Narrow subtitle) (h6 : title ≠ none ∨ subtitle ≠ none → 6 ≤ w) (ta sa : AlignH) :
    Good w (renderRow row w title subtitle ta sa) := by
  have key := renderRow_cells row hr w hw title subtitle ta sa
  dsimp only at key
  have fin : ∀ inner : Strip, Good (w - 2) inner →
      (renderRow row w title subtitle ta sa).WF ∧ (renderRow row w title subtitle ta sa).cells =
        [col row.left] ++ inner.cells ++ [col row.right] →
      Good w (renderRow row w title subtitle ta sa) := by
    rintro inner ⟨i1, i2, i3⟩ ⟨k1, k2⟩
    refine Good.of_cells k1 k2 ?_ ?_
    · simp only [List.length_append, List.length_cons, List.length_nil, i2]; omega
    · exact all_append (all_append (all_one hr.left.width) i3) (all_one hr.right.width)
  cases title with
  | some t =>
    have h6 := h6 (Or.inl (by simp))
    have g := renderLabel_good t ht row.fill hr.fill (w - 2) (by omega) ta
    exact fin _ g (key g.1 (by intro _; omega))
  | none =>
    cases subtitle with
    | some t =>
      have h6 := h6 (Or.inr (by simp))
      have g := renderLabel_good t hs row.fill hr.fill (w - 2) (by omega) sa
      exact fin _ g (key g.1 (by intro _; omega))
    | none =>
      have g := repeatSegment_good row.fill hr.fill (w - 2)
      exact fin _ g (key g.1 (by intro h; cases h))

theorem horizontalRow_good (row : Row) (hr : row.Sound) (w : Nat) (label : Option Strip) (hl : Narrow label)
    (h2 : label ≠ none → 2 ≤ w) (align : AlignH) : Good w (horizontalRow row w label align) := by
  cases label with
  | none =>
    obtain ⟨k1, k2⟩ := horizontalRow_none row hr w align
    exact Good.of_cells k1 k2 (List.length_replicate ..) (all_replicate hr.fill.width)
  | some label =>
    obtain ⟨h1, hn⟩ := hl label rfl
    have hw := h2 (by simp)
    by_cases h : label.cellLength + 2 ≤ w
    · obtain ⟨k1, l, r, _, _, _, k5, k6⟩ := horizontalRow_whole row hr label h1 w align h
      refine ⟨k1, k5, ?_⟩
      rw [k6]
      exact all_append (all_append (all_append (all_append (all_replicate hr.fill.width)
        (by intro x hx; cases hx)) hn) (by intro x hx; cases hx)) (all_replicate hr.fill.width)
    · obtain ⟨k1, st, k2⟩ := horizontalRow_cut row hr label h1 w align hw (by omega)
        (Strip.narrow_onBoundary label hn _) (Strip.narrow_onBoundary label hn _)
      refine Good.of_cells k1 k2 ?_ ?_
      · have := h1.length
        simp only [List.length_append, List.length_cons, List.length_nil, List.length_take,
          List.length_replicate]
        omega
      · exact all_append (all_append (all_append (all_one hr.fill.width) (all_take hn)) (all_one rfl))
          (all_replicate hr.fill.width)

theorem labeledRow_good (c : Cache) (row : Row) (hr : row.Sound) (w : Nat) (label : Strip)
    (hl : Narrow (some label)) (hw : 6 ≤ w) (align : AlignH) : Good w (c.labeledRow row w label align) := by
  have o1 := one_le c.left
  have o2 := one_le c.right
  have g := renderLabel_good label hl row.fill hr.fill (w - (one c.left + one c.right)) (by omega) align
  obtain ⟨k1, k2⟩ := labeledRow_cells c row hr w label align g.1
  refine Good.of_cells k1 k2 ?_ ?_
  · simp only [List.length_append, only_length, g.2.1]; omega
  · exact all_append (all_append (all_only hr.left.width) g.2.2) (all_only hr.right.width)

/-- The columns of a line under an outline. -/
theorem applyOutline_cells (c : Cache) (hc : c.Sound) (box : Box) (hbox : c.outlineBox = some box) (s : Strip)
    (y ht w : Nat) (hs : Good w s) (hy : y < ht) (hw : 0 < w)
    (hroom : one c.leftOutline + one c.rightOutline ≤ w) :
    (c.applyOutline s y ht w).WF ∧ (c.applyOutline s y ht w).cells =
      if y = 0 ∧ c.topOutline = true then
        only c.leftOutline (col box.top.left) ++
          List.replicate (w - (one c.leftOutline + one c.rightOutline)) (col box.top.fill) ++
          only c.rightOutline (col box.top.right)
      else if y + 1 = ht ∧ c.bottomOutline = true then
        only c.leftOutline (col box.bottom.left) ++
          List.replicate (w - (one c.leftOutline + one c.rightOutline)) (col box.bottom.fill) ++
          only c.rightOutline (col box.bottom.right)
      else
        only c.leftOutline (col box.middle.left) ++
          (s.cells.drop (one c.leftOutline)).take (w - (one c.leftOutline + one c.rightOutline)) ++
          only c.rightOutline (col box.middle.right) := by
  have hb := hc.outline box hbox
  obtain ⟨s1, s2, s3⟩ := hs
  unfold Cache.applyOutline
  rw [hbox]
  dsimp only
  rw [if_neg (by omega)]
  by_cases h1 : y = 0 ∧ c.topOutline = true
  · rw [if_pos h1, if_pos h1]
    have := outlineEdge_cells c box.top hb.top w
    rw [Nat.sub_sub] at this
    exact this
  rw [if_neg h1, if_neg h1]
  by_cases h2 : y + 1 = ht ∧ c.bottomOutline = true
  · rw [if_pos h2, if_pos (show y = ht - 1 ∧ c.bottomOutline = true from ⟨by omega, h2.2⟩)]
    have := outlineEdge_cells c box.bottom hb.bottom w
    rw [Nat.sub_sub] at this
    exact this
  rw [if_neg h2, if_neg (show ¬(y = ht - 1 ∧ c.bottomOutline = true) from
    fun h => h2 ⟨by omega, h.2⟩)]
  by_cases h3 : (c.leftOutline || c.rightOutline) = true
  · rw [if_pos h3]
    have hcut := Strip.crop_cells_narrow s s1 s3 (one c.leftOutline)
      (one c.leftOutline + (w - (one c.leftOutline + one c.rightOutline)))
    have hcw := Strip.crop_wf s s1 (one c.leftOutline)
      (one c.leftOutline + (w - (one c.leftOutline + one c.rightOutline)))
    have hlen := hcw.length
    rw [hcut] at hlen
    rw [List.length_drop, List.length_take, s2] at hlen
    have hnar : ∀ x ∈ (s.crop (one c.leftOutline)
        (one c.leftOutline + (w - (one c.leftOutline + one c.rightOutline)))).cells, x.g.width = 1 := by
      rw [hcut]
      intro x hx
      exact s3 x (List.mem_of_mem_take (List.mem_of_mem_drop hx))
    have hadj : (s.crop (one c.leftOutline)
        (one c.leftOutline + (w - (one c.leftOutline + one c.rightOutline)))).adjustCellLength
        (w - (one c.leftOutline + one c.rightOutline)) c.padStyle = s.crop (one c.leftOutline)
        (one c.leftOutline + (w - (one c.leftOutline + one c.rightOutline))) := by
      unfold Strip.adjustCellLength
      rw [if_pos (by omega)]
    rw [hadj]
    refine ⟨Strip.ofSegments_wf (AllWF.append (AllWF.append ?_ hcw.seg) ?_), ?_⟩
    · exact AllWF.ite (AllWF.cons hb.middle.left.wf AllWF.nil) AllWF.nil
    · exact AllWF.ite (AllWF.cons hb.middle.right.wf AllWF.nil) AllWF.nil
    · rw [ofSegments_cells, segCells_append, segCells_append, segCells_only _ _ _ hb.middle.left.cells,
        segCells_only _ _ _ hb.middle.right.cells]
      rw [show segCells (s.crop (one c.leftOutline)
        (one c.leftOutline + (w - (one c.leftOutline + one c.rightOutline)))).segments =
        (s.cells.take (one c.leftOutline + (w - (one c.leftOutline + one c.rightOutline)))).drop
          (one c.leftOutline) from hcut]
      rw [List.drop_take, Nat.add_sub_cancel_left]
  · rw [if_neg h3]
    simp only [Bool.or_eq_true, not_or, Bool.not_eq_true] at h3
    refine ⟨s1, ?_⟩
    rw [h3.1, h3.2]
    simp only [only_false, one, List.nil_append, List.append_nil]
    rw [List.take_of_length_le (by simp [s2])]
    rfl

theorem applyOutline_good (c : Cache) (hc : c.Sound) (s : Strip) (y ht w : Nat) (hs : Good w s) (hy : y < ht)
    (hw : 0 < w) (hroom : one c.leftOutline + one c.rightOutline ≤ w) : Good w (c.applyOutline s y ht w) := by
  cases hbox : c.outlineBox with
  | none => rw [applyOutline_none c hbox]; exact hs
  | some box =>
    have hb := hc.outline box hbox
    obtain ⟨k1, k2⟩ := applyOutline_cells c hc box hbox s y ht w hs hy hw hroom
    refine Good.of_cells k1 k2 ?_ ?_
    · have := hs.2.1
      split
      · simp only [List.length_append, only_length, List.length_replicate]; omega
      · split
        · simp only [List.length_append, only_length, List.length_replicate]; omega
        · simp only [List.length_append, only_length, List.length_take, List.length_drop]; omega
    · split
      · exact all_append (all_append (all_only hb.top.left.width) (all_replicate hb.top.fill.width))
          (all_only hb.top.right.width)
      · split
        · exact all_append (all_append (all_only hb.bottom.left.width)
            (all_replicate hb.bottom.fill.width)) (all_only hb.bottom.right.width)
        · refine all_append (all_append (all_only hb.middle.left.width) ?_) (all_only hb.middle.right.width)
          intro x hx
          exact hs.2.2 x (List.mem_of_mem_drop (List.mem_of_mem_take hx))

/-- Enough room for the chrome of a widget of style `s` in `w` columns. -/
def Room (s : Sheet) (w : Nat) (title subtitle : Option Strip) : Prop :=
  0 < w ∧ one s.border.left.kind.vertical + one s.border.right.kind.vertical + s.paddingLeft +
    s.paddingRight ≤ w ∧
  one s.outline.left.kind.vertical + one s.outline.right.kind.vertical ≤ w ∧
  (title ≠ none ∨ subtitle ≠ none → 6 ≤ w)

theorem line_good (hist : List Sheet) (s : Sheet) (y ht w : Nat)
    (content title subtitle : Option Strip) (hy : y < ht) (hr : Room s w title subtitle)
    (hc : Narrow content) (ht' : Narrow title) (hs' : Narrow subtitle) :
    Good w ((cacheAfter hist s).renderLine y ht w content title subtitle) := by
  obtain ⟨hw, r1, r2, r3⟩ := hr
  have hS := cacheAfter_sound hist s
  obtain ⟨h1, h2, h3, h4, h5, h6, _, _, o1, o2, o3, o4, _⟩ := cacheAfter_fields hist s
  rw [← h3, ← h4, ← h5, ← h6] at r1
  rw [← o3, ← o4] at r2
  generalize hcache : cacheAfter hist s = c at *
  have wrap : ∀ base, Good w base → Good w (c.applyOutline base y ht w) := fun base hb =>
    applyOutline_good c hS base y ht w hb hy hw r2
  by_cases ht0 : y = 0 ∧ c.top = true
  · cases hbox : c.box with
    | none => have := (hS.noBox hbox).1; rw [ht0.2] at this; cases this
    | some box =>
      have hb := hS.box box hbox
      have e : c.renderLine y ht w content title subtitle = c.applyOutline (if c.left && c.right then
          renderRow box.top w title none c.titleAlign c.subtitleAlign
          else horizontalRow box.top w title c.titleAlign) y ht w := by
        unfold Cache.renderLine
        rw [if_neg (by omega), hbox]
        dsimp only
        rw [if_pos ht0]
      rw [e]
      apply wrap
      split
      · rename_i hlr
        rw [Bool.and_eq_true] at hlr
        rw [hlr.1, hlr.2] at r1
        simp only [one] at r1
        exact renderRow_good _ hb.top w (by simp at r1; omega) title none ht' (by rintro x h; cases h)
          (by rintro (h | h); exact r3 (Or.inl h); exact absurd rfl h) _ _
      · exact horizontalRow_good _ hb.top w title ht' (fun h => by have := r3 (Or.inl h); omega) _
  by_cases hb0 : y = ht - 1 ∧ c.bottom = true
  · cases hbox : c.box with
    | none => have := (hS.noBox hbox).2.2.1; rw [hb0.2] at this; cases this
    | some box =>
      have hb := hS.box box hbox
      have e : c.renderLine y ht w content title subtitle = c.applyOutline (if c.left && c.right then
          renderRow box.bottom w none subtitle c.titleAlign c.subtitleAlign
          else horizontalRow box.bottom w subtitle c.subtitleAlign) y ht w := by
        unfold Cache.renderLine
        rw [if_neg (by omega), hbox]
        dsimp only
        rw [if_neg ht0, if_pos hb0]
      rw [e]
      apply wrap
      split
      · rename_i hlr
        rw [Bool.and_eq_true] at hlr
        rw [hlr.1, hlr.2] at r1
        simp only [one] at r1
        exact renderRow_good _ hb.bottom w (by simp at r1; omega) none subtitle (by rintro x h; cases h) hs'
          (by rintro (h | h); exact absurd rfl h; exact r3 (Or.inr h)) _ _
      · exact horizontalRow_good _ hb.bottom w subtitle hs' (fun h => by have := r3 (Or.inr h); omega) _
  have key := renderLine_content c hS y ht w content title subtitle hy hw
    (fun h => by by_contra h'; exact ht0 ⟨by omega, h⟩) (fun h => by by_contra h'; exact hb0 ⟨by omega, h⟩)
  rw [key]
  have plain : Good w (c.contentRow w content) ∨ (c.left || c.right) = true := by
    by_cases hside : (c.left || c.right) = true
    · exact Or.inr hside
    · left
      simp only [Bool.or_eq_true, not_or, Bool.not_eq_true] at hside
      obtain ⟨k1, k2⟩ := contentRow_cells c w content (hc.cutAt _)
      refine Good.of_cells k1 k2 ?_ ?_
      · rw [hside.1, hside.2] at r1
        simp only [one] at r1
        simp only [List.length_append, List.length_replicate, window_length]
        simp at r1
        omega
      · exact all_append (all_append (all_replicate rfl) (all_window hc _ _)) (all_replicate rfl)
  cases hbox : c.box with
  | none =>
    dsimp only
    apply wrap
    rcases plain with h | h
    · exact h
    · have := hS.noBox hbox
      rw [this.2.1, this.2.2.2] at h
      cases h
  | some box =>
    have hb := hS.box box hbox
    cases hlab : sideLabel c y ht title subtitle with
    | some p =>
      obtain ⟨t, a⟩ := p
      dsimp only
      have : title = some t ∨ subtitle = some t := by
        unfold sideLabel at hlab
        split at hlab
        · by_cases h1 : c.top = false ∧ y = 0
          · rw [if_pos h1] at hlab
            cases title with
            | some t' => injection hlab with h; injection h with h; subst h; exact Or.inl rfl
            | none =>
              dsimp only at hlab
              split at hlab
              · cases subtitle with
                | some t' => injection hlab with h; injection h with h; subst h; exact Or.inr rfl
                | none => cases hlab
              · cases hlab
          · rw [if_neg h1] at hlab
            dsimp only at hlab
            split at hlab
            · cases subtitle with
              | some t' => injection hlab with h; injection h with h; subst h; exact Or.inr rfl
              | none => cases hlab
            · cases hlab
        · cases hlab
      have hn : Narrow (some t) := by rcases this with h | h <;> rw [← h] <;> assumption
      have h6 : 6 ≤ w := r3 (by rcases this with h | h <;> simp [h])
      exact labeledRow_good c _ hb.middle w t hn h6 a
    | none =>
      dsimp only
      apply wrap
      split
      · obtain ⟨k1, k2⟩ := middleRow_cells c _ hb.middle w content (hc.cutAt _)
        refine Good.of_cells k1 k2 ?_ ?_
        · simp only [List.length_append, only_length, List.length_replicate, window_length]
          omega
        · exact all_append (all_append (all_only hb.middle.left.width)
            (all_append (all_append (all_replicate rfl) (all_window hc _ _)) (all_replicate rfl)))
            (all_only hb.middle.right.width)
      · rename_i hside
        rcases plain with h | h
        · exact h
        · exact absurd h hside

/-- C90: every line of a widget has exactly the widget's width, if the chrome fits and the texts consist
of one-column characters. Missing: chrome that does not fit (`narrow_widget_counterexample` and the
following) and wide characters that are cut in half. -/
theorem line_width_partial (hist : List Sheet) (s : Sheet) (y ht w : Nat)
    (content title subtitle : Option Strip) (hy : y < ht) (hr : Room s w title subtitle)
    (hc : Narrow content) (ht' : Narrow title) (hs' : Narrow subtitle) :
    ((cacheAfter hist s).renderLine y ht w content title subtitle).cellLength = w ∧
    ((cacheAfter hist s).renderLine y ht w content title subtitle).cells.length = w ∧
    ∀ x ∈ ((cacheAfter hist s).renderLine y ht w content title subtitle).cells, x.g.width = 1 := by
  have h := line_good hist s y ht w content title subtitle hy hr hc ht' hs'
  exact ⟨by rw [← h.1.length]; exact h.2.1, h.2.1, h.2.2⟩

end Textual.RenderCache
