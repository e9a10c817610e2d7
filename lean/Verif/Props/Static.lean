import Verif.Lemmas.Static
import Mathlib.Data.List.Induction

/-!
C96-C98: the links and the alignment of a static text.
-/

namespace Textual.Static

open Content (Content WrappedLine Overflow Wrap)
open Strip (AlignH SpacesNarrow)
open RenderCache (Cache Kind cacheAfter cacheAfter_fields cacheAfter_sound NoOutline one only window)

/-! ### Rows without links -/

/-- The columns of a border row have no links. -/
theorem border_row_links (c : Cache) (hS : c.Sound) (ho : c.outlineBox = none) (y ht w : Nat)
    (content title subtitle : Option Strip) (hy : y < ht) (hw : 0 < w)
    (hb : (y = 0 ∧ c.top = true) ∨ (y + 1 = ht ∧ c.bottom = true)) (h1 : Unlinked title) (h2 : Unlinked subtitle) :
    ∀ x ∈ (c.renderLine y ht w content title subtitle).cells, linkOf x = none := by
  have nl : Unlinked none := by rintro t h; cases h
  cases hbox : c.box with
  | none =>
    obtain ⟨n1, _, n3, _⟩ := hS.noBox hbox
    rw [n1, n3] at hb
    rcases hb with hb | hb <;> cases hb.2
  | some box =>
    have hB := hS.box box hbox
    unfold Cache.renderLine
    rw [if_neg (by omega), hbox]
    dsimp only
    by_cases ht0 : y = 0 ∧ c.top = true
    · rw [if_pos ht0, RenderCache.applyOutline_none _ ho]
      apply NoInfo.cells
      split
      · exact renderRow_info _ hB.top _ _ _ h1 nl _ _
      · exact horizontalRow_info _ _ _ h1 _
    · rw [if_neg ht0, if_pos (by rcases hb with hb | hb; exact absurd hb ht0; exact ⟨by omega, hb.2⟩),
        RenderCache.applyOutline_none _ ho]
      apply NoInfo.cells
      split
      · exact renderRow_info _ hB.bottom _ _ _ nl h2 _ _
      · exact horizontalRow_info _ _ _ h2 _

/-- The columns of a row with a label have no links. -/
theorem label_row_links (c : Cache) (hS : c.Sound) (y ht w : Nat) (content title subtitle : Option Strip)
    (hy : y < ht) (hw : 0 < w) (ht0 : c.top = true → 0 < y) (hb0 : c.bottom = true → y + 1 < ht)
    (hl : RenderCache.sideLabel c y ht title subtitle ≠ none) (h1 : Unlinked title) (h2 : Unlinked subtitle) :
    ∀ x ∈ (c.renderLine y ht w content title subtitle).cells, linkOf x = none := by
  rw [RenderCache.renderLine_content c hS y ht w content title subtitle hy hw ht0 hb0]
  have hside : (c.left || c.right) = true := by
    by_contra h
    apply hl
    unfold RenderCache.sideLabel
    rw [if_neg h]
  have hl' : ∀ p, RenderCache.sideLabel c y ht title subtitle = some p → NoInfo p.1.segments := by
    intro p hp
    unfold RenderCache.sideLabel at hp
    rw [if_pos hside] at hp
    split at hp
    · rename_i t e
      injection hp with hp
      subst hp
      split at e
      · exact h1 _ e
      · cases e
    · rename_i e
      rw [Option.map_eq_some_iff] at hp
      obtain ⟨t, ht', rfl⟩ := hp
      split at ht'
      · exact h2 _ ht'
      · cases ht'
  cases hbox : c.box with
  | none =>
    obtain ⟨_, n2, _, n4⟩ := hS.noBox hbox
    rw [n2, n4] at hside
    cases hside
  | some box =>
    cases hp : RenderCache.sideLabel c y ht title subtitle with
    | none => exact absurd hp hl
    | some p =>
      obtain ⟨t, a⟩ := p
      dsimp only
      exact NoInfo.cells (labeledRow_info c _ (hS.box box hbox).middle w t (hl' _ hp) a)

/-- The columns of a plain row carry the links of the line of text shown in it. -/
theorem plain_row_links (hist : List RenderCache.Sheet) (s : RenderCache.Sheet) (y ht w : Nat)
    (content title subtitle : Option Strip) (hp : RenderCache.PlainRow s y ht title subtitle) (hw : 0 < w)
    (ho : NoOutline s) (hc : ∀ t, content = some t → t.WF ∧ t.cellLength = ((cacheAfter hist s).innerSize w ht).1)
    (x : Nat) (cell : StripCell)
    (hx : ((cacheAfter hist s).renderLine y ht w content title subtitle).cells[x]? = some cell) :
    linkOf cell = if one s.border.left.kind.vertical + s.paddingLeft ≤ x then
      (content.bind fun t => t.cells[x - (one s.border.left.kind.vertical + s.paddingLeft)]?).bind linkOf
      else none := by
  have hS := cacheAfter_sound hist s
  obtain ⟨_, _, f3, f4, _⟩ := cacheAfter_fields hist s
  have hcut : RenderCache.CutAt content ((cacheAfter hist s).innerSize w ht).1 := by
    intro t e
    obtain ⟨k1, k2⟩ := hc t e
    exact ⟨k1, onBoundary_beyond k1 (by omega)⟩
  obtain ⟨base, l, r, _, e, hcells, _, _, hbox⟩ :=
    RenderCache.plain_base hist s y ht w content title subtitle hp hw hcut
  rw [e, RenderCache.applyOutline_none _ (RenderCache.noOutline_box ho), hcells] at hx
  have hpad : linkOf (padCell (cacheAfter hist s).padStyle) = none := rfl
  have hl : ∀ z ∈ only s.border.left.kind.vertical l, linkOf z = none := by
    intro z hz
    cases hb : (cacheAfter hist s).box with
    | none =>
      rw [← f3, (hS.noBox hb).2.2.2] at hz
      cases hz
    | some box =>
      unfold only at hz
      split at hz
      · simp only [List.mem_cons, List.not_mem_nil, or_false] at hz
        rw [hz, (hbox box hb).1]
        show (List.lookup "@click" box.middle.left.info) = none
        rw [piece_info (hS.box box hb).middle.left]
        rfl
      · cases hz
  have hr : ∀ z ∈ only s.border.right.kind.vertical r, linkOf z = none := by
    intro z hz
    cases hb : (cacheAfter hist s).box with
    | none =>
      rw [← f4, (hS.noBox hb).2.1] at hz
      cases hz
    | some box =>
      unfold only at hz
      split at hz
      · simp only [List.mem_cons, List.not_mem_nil, or_false] at hz
        rw [hz, (hbox box hb).2]
        show (List.lookup "@click" box.middle.right.info) = none
        rw [piece_info (hS.box box hb).middle.right]
        rfl
      · cases hz
  have hlen : (only s.border.left.kind.vertical l).length = one s.border.left.kind.vertical := by
    unfold only one
    split <;> rfl
  generalize hn : ((cacheAfter hist s).innerSize w ht).1 = n at *
  have hwin : (window content n (padCell (cacheAfter hist s).padStyle)).length = n :=
    RenderCache.window_length _ _ _
  generalize one s.border.left.kind.vertical = o at *
  by_cases h1 : x < o
  · rw [if_neg (by omega)]
    rw [List.append_assoc, List.getElem?_append_left (by omega)] at hx
    exact hl _ (List.mem_of_getElem? hx)
  · rw [List.append_assoc, List.getElem?_append_right (by omega), hlen, List.append_assoc, List.append_assoc] at hx
    by_cases h2 : x < o + s.paddingLeft
    · rw [if_neg (by omega)]
      rw [List.getElem?_append_left (by simp; omega)] at hx
      rw [List.eq_of_mem_replicate (List.mem_of_getElem? hx)]
      exact hpad
    · rw [if_pos (by omega)]
      rw [List.getElem?_append_right (by simp; omega), List.length_replicate,
        show x - o - s.paddingLeft = x - (o + s.paddingLeft) by omega] at hx
      by_cases h3 : x - (o + s.paddingLeft) < n
      · rw [List.getElem?_append_left (by omega)] at hx
        cases content with
        | none =>
          rw [show window none n (padCell (cacheAfter hist s).padStyle) =
            List.replicate n (padCell (cacheAfter hist s).padStyle) from rfl] at hx
          rw [List.eq_of_mem_replicate (List.mem_of_getElem? hx)]
          exact hpad
        | some t =>
          obtain ⟨k1, k2⟩ := hc t rfl
          have hlt : t.cells.length = n := by rw [k1.length, k2]
          rw [show window (some t) n (padCell (cacheAfter hist s).padStyle) = t.cells by
            simp [window, hlt, List.take_of_length_le]] at hx
          rw [Option.bind_some, hx]
          rfl
      · have hrest : linkOf cell = none := by
          rw [List.getElem?_append_right (by omega), hwin] at hx
          rcases List.mem_append.1 (List.mem_of_getElem? hx) with h | h
          · rw [List.eq_of_mem_replicate h]
            exact hpad
          · exact hr _ h
        rw [hrest]
        cases content with
        | none => rfl
        | some t =>
          obtain ⟨k1, k2⟩ := hc t rfl
          rw [Option.bind_some, List.getElem?_eq_none (by rw [k1.length, k2]; omega)]
          rfl

/-! ### Clicking -/

/-- C96: the mouse finds a link in a column exactly if the column shows part of that link, in a widget that
has no title, or shows it in its top border. Missing: with a title in the side borders the links are found a
row above the one they are drawn in (`links_row_counterexample`). -/
theorem links_exact_partial (hist : List RenderCache.Sheet) (s : Sheet) (lines : List WrappedLine)
    (title subtitle : Option Strip) (w h x y : Nat) (row : Strip) (cell : StripCell)
    (ho : NoOutline s.frame) (htop : s.frame.border.top.kind.horizontal = true ∨ title = none)
    (hl : ∀ line ∈ lines, Fit ((cacheAfter hist s.frame).innerSize w h).1 line)
    (h1 : Unlinked title) (h2 : Unlinked subtitle)
    (hrow : (drawLines s (cacheAfter hist s.frame) lines title subtitle w h).rows[y]? = some row)
    (hcell : row.cells[x]? = some cell) :
    findLink (drawLines s (cacheAfter hist s.frame) lines title subtitle w h).links x y = linkOf cell := by
  have hS := cacheAfter_sound hist s.frame
  obtain ⟨f1, f2, f3, f4, f5, f6, f7, f8, _⟩ := cacheAfter_fields hist s.frame
  have hout := RenderCache.noOutline_box (hist := hist) ho
  have hnl : Unlinked none := by rintro t e; cases e
  rw [← f1] at htop
  -- the rows reserved for labels
  generalize hrt : reserve (cacheAfter hist s.frame).top ((cacheAfter hist s.frame).top ||
    (cacheAfter hist s.frame).right || (cacheAfter hist s.frame).bottom || (cacheAfter hist s.frame).left) title = rt
  generalize hrb : reserve (cacheAfter hist s.frame).bottom ((cacheAfter hist s.frame).top ||
    (cacheAfter hist s.frame).right || (cacheAfter hist s.frame).bottom || (cacheAfter hist s.frame).left)
    subtitle = rb
  have hrt0 : rt = 0 := by
    rw [← hrt]
    unfold reserve
    rw [if_neg]
    rintro ⟨a, _, b⟩
    rcases htop with h | h
    · rw [h] at a; cases a
    · rw [h] at b; cases b
  unfold drawLines at hrow ⊢
  dsimp only at hrow ⊢
  rw [hrt, hrb, hrt0] at hrow
  rw [hrt, hrb, hrt0]
  rw [List.getElem?_map] at hrow
  obtain ⟨y', hy', hrow'⟩ := Option.map_eq_some_iff.1 hrow
  clear hrow
  have hrow := hrow'
  clear hrow'
  have hyh : y < h ∧ y = y' := by
    obtain ⟨a, b⟩ := List.getElem?_eq_some_iff.1 hy'
    rw [List.getElem_range] at b
    rw [List.length_range] at a
    exact ⟨a, b⟩
  obtain ⟨hyh, rfl⟩ := hyh
  clear hy'
  have hw : 0 < w := by
    rcases Nat.eq_zero_or_pos w with hw | hw
    · subst hw
      rw [← hrow] at hcell
      unfold Cache.renderLine at hcell
      rw [if_pos (Or.inl rfl)] at hcell
      simp [Strip.new, Strip.cells, segCells] at hcell
    · exact hw
  -- the text
  have hinner : ((cacheAfter hist s.frame).innerSize w h).2 = h - (one (cacheAfter hist s.frame).top +
    one (cacheAfter hist s.frame).bottom) - ((cacheAfter hist s.frame).paddingTop +
    (cacheAfter hist s.frame).paddingBottom) := rfl
  have hlen := alignContent_length s lines ((cacheAfter hist s.frame).innerSize w h).1
    (((cacheAfter hist s.frame).innerSize w h).2 - (0 + rb))
  have hgood := alignContent_width s lines ((cacheAfter hist s.frame).innerSize w h).1
    (((cacheAfter hist s.frame).innerSize w h).2 - (0 + rb)) hl
  generalize alignContent s lines ((cacheAfter hist s.frame).innerSize w h).1
    (((cacheAfter hist s.frame).innerSize w h).2 - (0 + rb)) = al at *
  rw [hinner] at hlen
  unfold linkRegions
  rw [linksFrom_find _ _ _ _ _ _ (fun a ha => (hgood a ha).1), Nat.zero_add]
  have hrest : ∀ k, one (cacheAfter hist s.frame).top + (cacheAfter hist s.frame).paddingTop ≤ k →
      h - (one (cacheAfter hist s.frame).bottom + (cacheAfter hist s.frame).paddingBottom + rb) ≤ k →
      al[k - (one (cacheAfter hist s.frame).top + (cacheAfter hist s.frame).paddingTop)]? = none := by
    intro k k1 k2
    exact List.getElem?_eq_none (by omega)
  have hif : ∀ {p : Prop} [Decidable p] {o : Option Strip}, Unlinked o → Unlinked (if p then o else none) := by
    intro p _ o ho
    split
    · exact ho
    · exact hnl
  have hun1 := hif (p := ((cacheAfter hist s.frame).top || (cacheAfter hist s.frame).right ||
    (cacheAfter hist s.frame).bottom || (cacheAfter hist s.frame).left) = true) h1
  have hun2 := hif (p := ((cacheAfter hist s.frame).top || (cacheAfter hist s.frame).right ||
    (cacheAfter hist s.frame).bottom || (cacheAfter hist s.frame).left) = true) h2
  by_cases hb : (y = 0 ∧ (cacheAfter hist s.frame).top = true) ∨
      (y + 1 = h ∧ (cacheAfter hist s.frame).bottom = true)
  · -- a border row
    rw [← hrow] at hcell
    rw [border_row_links _ hS hout y h w _ _ _ hyh hw hb hun1 hun2 cell (List.mem_of_getElem? hcell)]
    by_cases hc : one (cacheAfter hist s.frame).top + (cacheAfter hist s.frame).paddingTop ≤ y
    · rw [hrest y hc]
      · simp
      · rcases hb with hb | hb
        · rw [hb.2] at hc
          simp only [one] at hc
          simp at hc
          omega
        · rw [hb.2]
          simp only [one]
          simp
          omega
    · rw [if_neg (by omega)]
  · have ht0 : (cacheAfter hist s.frame).top = true → 0 < y := by
      intro e
      by_contra h0
      exact hb (Or.inl ⟨by omega, e⟩)
    have hb0 : (cacheAfter hist s.frame).bottom = true → y + 1 < h := by
      intro e
      by_contra h0
      exact hb (Or.inr ⟨by omega, e⟩)
    by_cases hlab : RenderCache.sideLabel (cacheAfter hist s.frame) y h
        (if ((cacheAfter hist s.frame).top || (cacheAfter hist s.frame).right || (cacheAfter hist s.frame).bottom ||
          (cacheAfter hist s.frame).left) = true then title else none)
        (if ((cacheAfter hist s.frame).top || (cacheAfter hist s.frame).right || (cacheAfter hist s.frame).bottom ||
          (cacheAfter hist s.frame).left) = true then subtitle else none) = none
    · -- a row of text
      have hplain : RenderCache.PlainRow s.frame y h
          (if ((cacheAfter hist s.frame).top || (cacheAfter hist s.frame).right ||
            (cacheAfter hist s.frame).bottom || (cacheAfter hist s.frame).left) = true then title else none)
          (if ((cacheAfter hist s.frame).top || (cacheAfter hist s.frame).right ||
            (cacheAfter hist s.frame).bottom || (cacheAfter hist s.frame).left) = true then subtitle else none) := by
        refine ⟨hyh, by rw [← f1]; exact ht0, by rw [← f2]; exact hb0, ?_⟩
        intro hside
        rw [← f1, ← f2]
        rw [← f3, ← f4] at hside
        unfold RenderCache.sideLabel at hlab
        rw [if_pos hside] at hlab
        split at hlab
        · cases hlab
        · rename_i e
          rw [Option.map_eq_none_iff] at hlab
          constructor
          · intro a b
            rwa [if_pos ⟨a, b⟩] at e
          · intro a b
            rwa [if_pos ⟨a, b⟩] at hlab
      rw [← hrow] at hcell
      have hcont : ∀ t, (if y ≥ one (cacheAfter hist s.frame).top + (cacheAfter hist s.frame).paddingTop + 0 ∧
          y < h - (one (cacheAfter hist s.frame).bottom + (cacheAfter hist s.frame).paddingBottom + rb) then
          al[y - (one (cacheAfter hist s.frame).top + (cacheAfter hist s.frame).paddingTop + 0)]? else none) =
          some t → t.WF ∧ t.cellLength = ((cacheAfter hist s.frame).innerSize w h).1 := by
        intro t e
        split at e
        · exact hgood t (List.mem_of_getElem? e)
        · cases e
      have key := plain_row_links hist s.frame y h w _ _ _ hplain hw ho hcont x cell hcell
      rw [key, ← f3, ← f5]
      by_cases hx : one (cacheAfter hist s.frame).left + (cacheAfter hist s.frame).paddingLeft ≤ x
      · rw [if_pos hx]
        by_cases hy1 : one (cacheAfter hist s.frame).top + (cacheAfter hist s.frame).paddingTop ≤ y
        · rw [if_pos ⟨hy1, hx⟩]
          by_cases hy2 : y < h - (one (cacheAfter hist s.frame).bottom +
              (cacheAfter hist s.frame).paddingBottom + rb)
          · rw [if_pos ⟨hy1, hy2⟩]
            rfl
          · rw [if_neg (by omega), hrest y hy1 (by omega)]
        · rw [if_neg (by omega), if_neg (by omega)]
          rfl
      · rw [if_neg (by omega), if_neg hx]
    · -- a row with a label
      rw [← hrow] at hcell
      rw [label_row_links _ hS y h w _ _ _ hyh hw ht0 hb0 hlab hun1 hun2 cell (List.mem_of_getElem? hcell)]
      by_cases hc : one (cacheAfter hist s.frame).top + (cacheAfter hist s.frame).paddingTop ≤ y
      · rw [hrest y hc]
        · simp
        · -- the label is the subtitle in the last row
          have hside : ((cacheAfter hist s.frame).left || (cacheAfter hist s.frame).right) = true := by
            by_contra h0
            apply hlab
            unfold RenderCache.sideLabel
            rw [if_neg h0]
          have hany : ((cacheAfter hist s.frame).top || (cacheAfter hist s.frame).right ||
              (cacheAfter hist s.frame).bottom || (cacheAfter hist s.frame).left) = true := by
            revert hside
            cases (cacheAfter hist s.frame).left <;> cases (cacheAfter hist s.frame).right <;>
              cases (cacheAfter hist s.frame).top <;> cases (cacheAfter hist s.frame).bottom <;> simp
          have hno : (if (cacheAfter hist s.frame).top = false ∧ y = 0 then title else none) = none := by
            split
            · rename_i h0
              rcases htop with h' | h'
              · rw [h'] at h0; cases h0.1
              · exact h'
            · rfl
          unfold RenderCache.sideLabel at hlab
          rw [if_pos hside, if_pos hany, if_pos hany, hno] at hlab
          dsimp only at hlab
          rw [Option.map_eq_none_iff] at hlab
          have hlast : (cacheAfter hist s.frame).bottom = false ∧ y + 1 = h := by
            by_contra h0
            rw [if_neg h0] at hlab
            exact hlab rfl
          rw [if_pos hlast] at hlab
          have : rb = 1 := by
            rw [← hrb]
            unfold reserve
            rw [if_pos ⟨hlast.1, hany, by cases subtitle; exact absurd rfl hlab; rfl⟩]
          omega
      · rw [if_neg (by omega)]

/-! ### Alignment -/

/-- C97: aligned text fills its area: as many rows as the area has, each as wide as the area. -/
theorem align_fills (s : Sheet) (lines : List WrappedLine) (width height : Nat) (hw : 0 < width)
    (hl : ∀ line ∈ lines, Fit width line) :
    (alignContent s lines width height).length = height ∧
    ∀ row ∈ alignContent s lines width height, row.WF ∧ row.cellLength = width := by
  refine ⟨?_, alignContent_width s lines width height hl⟩
  by_cases h0 : height = 0
  · subst h0
    have := alignContent_length s lines width 0
    omega
  · exact (alignContent_rows s lines width height hw (by omega)).1

/-- The same in terms of the model's alignment and blanks. -/
theorem align_places_aux (s : Sheet) (lines : List WrappedLine) (width height : Nat) (hw : 0 < width)
    (hh : 0 < height) (hwf : ∀ line ∈ lines, line.strip.WF ∧ SpacesNarrow line.strip.segments)
    (hfw : ∀ line ∈ lines, line.strip.cellLength ≤ width) (hfh : lines.length ≤ height) :
    ∃ above below left right block,
      above + lines.length + below = height ∧ SplitV s.alignV above below ∧
      left + block + right = width ∧ SplitH s.alignH left right ∧
      (if s.alignH = .left ∧ s.alignV = .top then block = width
        else (∀ line ∈ lines, line.strip.cellLength ≤ block) ∧
          (lines ≠ [] → ∃ line ∈ lines, line.strip.cellLength = block)) ∧
      (∀ y, y < above ∨ (above + lines.length ≤ y ∧ y < height) →
        ∃ row, (alignContent s lines width height)[y]? = some row ∧
          row.cells = List.replicate width (padCell (padOf s.text))) ∧
      ∀ i line, lines[i]? = some line →
        ∃ row, (alignContent s lines width height)[above + i]? = some row ∧ row.cellLength = width ∧
          (¬(s.textAlign = .justify ∧ line.lineEnd = false) →
            ∃ l r, l + line.strip.cellLength + r = block ∧ SplitH s.textAlign.line l r ∧
              row.cells = List.replicate (left + l) (padCell (padOf s.text)) ++ line.strip.cells ++
                List.replicate (r + right) (padCell (padOf s.text))) := by
  have hfit : ∀ line ∈ lines, Fit width line := fun line hm =>
    ⟨(hwf line hm).1, (hwf line hm).2, onBoundary_beyond (hwf line hm).1 (hfw line hm)⟩
  obtain ⟨_, hrows⟩ := alignContent_rows s lines width height hw hh
  have hv : vOffset s.alignV height lines.length + lines.length ≤ height ∧
      SplitV s.alignV (vOffset s.alignV height lines.length)
        (height - (vOffset s.alignV height lines.length + lines.length)) := by
    cases s.alignV with
    | top => exact ⟨by simp only [vOffset]; omega, rfl⟩
    | middle => simp only [vOffset, SplitV]; omega
    | bottom => simp only [vOffset, SplitV]; omega
  have hmax : maxLength lines ≤ width := by
    unfold maxLength
    rcases foldl_max_mem (lines.map (·.strip.cellLength)) 0 with h | h
    · rw [h]; omega
    · obtain ⟨line, hm, e⟩ := List.mem_map.1 h
      rw [← e]
      exact hfw line hm
  have hmin : min width (maxLength lines) = maxLength lines := by omega
  have hroom := align_room s lines width
  rw [hmin] at hroom hrows
  generalize hbk : (if s.alignH = .left ∧ s.alignV = .top then width else maxLength lines) = block at hroom hrows
  generalize hho : hOffset s.alignH width (maxLength lines) = hOff at hroom hrows
  generalize vOffset s.alignV height lines.length = v at hrows hv
  have hblock : ∀ line ∈ lines, line.strip.cellLength ≤ block := by
    intro line hm
    rw [← hbk]
    split
    · exact hfw line hm
    · exact maxLength_le hm
  refine ⟨v, height - (v + lines.length), hOff, width - (hOff + block), block, by omega, hv.2, by omega, ?_, ?_, ?_, ?_⟩
  · rw [← hho, ← hbk]
    rw [← hho, ← hbk] at hroom
    cases ha : s.alignH with
    | left => rfl
    | center =>
      rw [ha] at hroom
      rw [if_neg (by rintro ⟨e, _⟩; cases e)]
      show (width - maxLength lines) / 2 ≤ width - ((width - maxLength lines) / 2 + maxLength lines) ∧
        width - ((width - maxLength lines) / 2 + maxLength lines) ≤ (width - maxLength lines) / 2 + 1
      omega
    | right =>
      rw [if_neg (by rintro ⟨e, _⟩; cases e)]
      show width - (width - maxLength lines + maxLength lines) = 0
      omega
  · split
    · rename_i h
      rw [← hbk, if_pos h]
    · rename_i h
      refine ⟨hblock, ?_⟩
      intro hne
      rw [← hbk, if_neg h]
      unfold maxLength
      rcases foldl_max_mem (lines.map (·.strip.cellLength)) 0 with h' | h'
      · obtain ⟨line, hm⟩ := List.exists_mem_of_ne_nil _ hne
        have := (foldl_max_le (lines.map (·.strip.cellLength)) 0).2 _ (List.mem_map_of_mem hm)
        exact ⟨line, hm, by omega⟩
      · obtain ⟨line, hm, e⟩ := List.mem_map.1 h'
        exact ⟨line, hm, e⟩
  · intro y hy
    refine ⟨_, hrows y (by omega), ?_⟩
    have e : (if v ≤ y then lines[y - v]? else none) = none := by
      split
      · exact List.getElem?_eq_none (by omega)
      · rfl
    rw [e]
    exact (Strip.blank_good _ _).2.2
  · intro i line hi
    have hm := List.mem_of_getElem? hi
    have hlt := (List.getElem?_eq_some_iff.1 hi).1
    refine ⟨_, hrows (v + i) (by omega), ?_⟩
    rw [if_pos (by omega), show v + i - v = i by omega, hi]
    dsimp only
    have hb := hblock line hm
    obtain ⟨_, k2, k3⟩ := alignLine_spec s width block hOff line (hwf line hm).1 (hwf line hm).2
      (onBoundary_beyond (hwf line hm).1 hb) hroom
    refine ⟨k2, ?_⟩
    intro hj
    refine ⟨Strip.leftGap s.textAlign.line (block - line.strip.cellLength),
      block - line.strip.cellLength - Strip.leftGap s.textAlign.line (block - line.strip.cellLength), ?_, ?_, ?_⟩
    · cases s.textAlign.line <;> simp only [Strip.leftGap] <;> omega
    · cases s.textAlign.line <;> simp only [Strip.leftGap, SplitH] <;> omega
    · rw [k3 hj, List.take_of_length_le (by rw [(hwf line hm).1.length]; exact hb)]

/-- C97: text that fits its area is shown whole. Its lines are consecutive, with the free rows above and
below as `content-align` asks for; they form a block with the free columns left and right as
`content-align` asks for; each line lies in the block as `text-align` asks for, and all other columns are
blank. The block is as wide as the longest line, and with `content-align: left top` as wide as the area.
Justified lines are told apart: only their width is stated here (`Strip.justify_spec` says the rest). -/
theorem align_places (s : Sheet) (lines : List WrappedLine) (width height : Nat) (hw : 0 < width)
    (hh : 0 < height) (hwf : ∀ line ∈ lines, line.strip.WF ∧ SpacesNarrow line.strip.segments)
    (hfw : ∀ line ∈ lines, line.strip.cellLength ≤ width) (hfh : lines.length ≤ height) :
    ∃ above below left right block,
      above + lines.length + below = height ∧ SplitV s.alignV above below ∧
      left + block + right = width ∧ SplitH s.alignH left right ∧
      (if s.alignH = .left ∧ s.alignV = .top then block = width
        else (∀ line ∈ lines, line.strip.cellLength ≤ block) ∧
          (lines ≠ [] → ∃ line ∈ lines, line.strip.cellLength = block)) ∧
      (∀ y, y < above ∨ (above + lines.length ≤ y ∧ y < height) →
        ∃ row, (alignContent s lines width height)[y]? = some row ∧
          row.cells = List.replicate width (padCell (some { fg := s.text.fg, bg := s.text.bg }))) ∧
      ∀ i line, lines[i]? = some line →
        ∃ row, (alignContent s lines width height)[above + i]? = some row ∧ row.cellLength = width ∧
          (¬(s.textAlign = .justify ∧ line.lineEnd = false) →
            ∃ l r, l + line.strip.cellLength + r = block ∧ SplitLine s.textAlign l r ∧
              row.cells = List.replicate (left + l) (padCell (some { fg := s.text.fg, bg := s.text.bg })) ++ line.strip.cells ++
                List.replicate (r + right) (padCell (some { fg := s.text.fg, bg := s.text.bg }))) := by
  obtain ⟨above, below, left, right, block, h1, h2, h3, h4, h5, h6, h7⟩ :=
    align_places_aux s lines width height hw hh hwf hfw hfh
  refine ⟨above, below, left, right, block, h1, h2, h3, h4, h5, h6, fun i line hi => ?_⟩
  obtain ⟨row, hr, hl, hc⟩ := h7 i line hi
  refine ⟨row, hr, hl, fun hj => ?_⟩
  obtain ⟨l, r, e1, e2, e3⟩ := hc hj
  refine ⟨l, r, e1, ?_, e3⟩
  cases ht : s.textAlign <;> rw [ht] at e2 <;> exact e2

/-! ### Clicks and hovering -/

theorem step_regions (l : Links) (e : Event) :
    (step l e).regions = match e with | .drawn r => r | _ => l.regions := by
  cases e with
  | drawn r => rfl
  | mouse k c r g =>
    show (l.onMouse k c r g).regions = l.regions
    unfold Links.onMouse
    split
    · rfl
    · dsimp only
      split
      · split <;> rfl
      · split <;> rfl
      · rfl
  | leave =>
    show l.clearHover.regions = l.regions
    unfold Links.clearHover
    split <;> rfl
  | take => rfl

theorem run_snoc (es : List Event) (e : Event) : run (es ++ [e]) = step (run es) e := by
  unfold run; rw [List.foldl_append]; rfl

theorem run_regions (es : List Event) : (run es).regions = onScreen es := by
  induction es using List.reverseRecOn with
  | nil => rfl
  | append_singleton es e ih =>
    rw [run_snoc, step_regions]
    unfold onScreen
    rw [List.reverse_append]
    cases e with
    | drawn r => rfl
    | mouse k c r g => exact ih
    | leave => exact ih
    | take => exact ih

/-- How an event changes the link that was clicked. -/
theorem step_pending (l : Links) (e : Event) :
    (e = .take ∧ (step l e).pending = none) ∨
    (e ≠ .take ∧ ∃ a, Clicks l.regions e a ∧ (step l e).pending = some a) ∨
    (e ≠ .take ∧ (∀ a, ¬Clicks l.regions e a) ∧ (step l e).pending = l.pending) := by
  cases e with
  | drawn r => exact Or.inr (Or.inr ⟨by simp, (by rintro a ⟨_, _, _, h, _⟩; cases h), rfl⟩)
  | leave =>
    refine Or.inr (Or.inr ⟨by simp, (by rintro a ⟨_, _, _, h, _⟩; cases h), ?_⟩)
    show l.clearHover.pending = _
    unfold Links.clearHover
    split <;> rfl
  | take => exact Or.inl ⟨rfl, rfl⟩
  | mouse k c r g =>
    right
    show (_ ∧ ∃ a, _ ∧ (l.onMouse k c r g).pending = some a) ∨ (_ ∧ _ ∧ (l.onMouse k c r g).pending = l.pending)
    unfold Links.onMouse
    by_cases hin : g.containsPoint c r = false
    · rw [if_pos hin]
      refine Or.inr ⟨by simp, ?_, rfl⟩
      rintro a ⟨_, _, _, h, h', _⟩
      injection h with _ e1 e2 e3
      subst e1 e2 e3
      rw [hin] at h'
      cases h'
    · rw [if_neg hin]
      dsimp only
      cases k with
      | leftDown =>
        dsimp only
        cases hf : findLink l.regions (c - g.x : Int).toNat (r - g.y : Int).toNat with
        | some a => exact Or.inl ⟨by simp, a, ⟨c, r, g, rfl, by simpa using hin, hf⟩, rfl⟩
        | none =>
          refine Or.inr ⟨by simp, ?_, rfl⟩
          rintro a ⟨_, _, _, h, _, h'⟩
          injection h with _ e1 e2 e3
          subst e1 e2 e3
          rw [hf] at h'
          cases h'
      | moved =>
        refine Or.inr ⟨by simp, (by rintro a ⟨_, _, _, h, _⟩; cases h), ?_⟩
        dsimp only
        split <;> rfl
      | other => exact Or.inr ⟨by simp, (by rintro a ⟨_, _, _, h, _⟩; cases h), rfl⟩

/-- C98: an action is waiting exactly if its link was the last one clicked, as the links were on screen at
that moment, and no action was taken since. -/
theorem click_last (events : List Event) (action : String) :
    (run events).pending = some action ↔
      ∃ pre e post, events = pre ++ e :: post ∧ Clicks (onScreen pre) e action ∧
        ∀ p e' q, post = p ++ e' :: q → e' ≠ .take ∧ ∀ a, ¬Clicks (onScreen (pre ++ e :: p)) e' a := by
  induction events using List.reverseRecOn with
  | nil =>
    constructor
    · intro h; cases h
    · rintro ⟨pre, e, post, h, _⟩; simp at h
  | append_singleton es ev ih =>
    rw [run_snoc]
    have hsplit : ∀ {pre : List Event} {e : Event} {post : List Event}, es ++ [ev] = pre ++ e :: post →
        (post = [] ∧ es = pre ∧ ev = e) ∨ ∃ post', post = post' ++ [ev] ∧ es = pre ++ e :: post' := by
      intro pre e post h
      rcases List.eq_nil_or_concat post with rfl | ⟨post', x, rfl⟩
      · have := List.append_inj' h rfl
        exact Or.inl ⟨rfl, this.1, by simpa using this.2⟩
      · rw [List.concat_eq_append] at h ⊢
        have h' : es ++ [ev] = (pre ++ e :: post') ++ [x] := by rw [h]; simp
        have := List.append_inj' h' rfl
        obtain ⟨rfl⟩ : ev = x := by simpa using this.2
        exact Or.inr ⟨post', rfl, this.1⟩
    rcases step_pending (run es) ev with ⟨rfl, h⟩ | ⟨hne, a, hc, h⟩ | ⟨hne, hc, h⟩
    · rw [h]
      constructor
      · intro h'; cases h'
      · rintro ⟨pre, e, post, h1, h2, h3⟩
        rcases hsplit h1 with ⟨_, _, rfl⟩ | ⟨post', rfl, _⟩
        · obtain ⟨_, _, _, h', _⟩ := h2
          cases h'
        · exact absurd rfl (h3 post' .take [] rfl).1
    · rw [h]
      rw [run_regions] at hc
      constructor
      · intro h'
        injection h' with h'
        subst h'
        refine ⟨es, ev, [], rfl, hc, ?_⟩
        intro p e' q h'
        simp at h'
      · rintro ⟨pre, e, post, h1, h2, h3⟩
        rcases hsplit h1 with ⟨_, rfl, rfl⟩ | ⟨post', rfl, rfl⟩
        · obtain ⟨c1, r1, g1, e1, _, f1⟩ := hc
          obtain ⟨c2, r2, g2, e2, _, f2⟩ := h2
          rw [e1] at e2
          injection e2 with _ i1 i2 i3
          subst i1 i2 i3
          rw [f1] at f2
          exact f2
        · exact absurd hc ((h3 post' ev [] rfl).2 a)
    · rw [h, ih]
      rw [run_regions] at hc
      constructor
      · rintro ⟨pre, e, post, rfl, h2, h3⟩
        refine ⟨pre, e, post ++ [ev], by simp, h2, ?_⟩
        intro p e' q h'
        rcases List.eq_nil_or_concat q with rfl | ⟨q', x, rfl⟩
        · have := List.append_inj' (h' : post ++ [ev] = p ++ [e']) rfl
          obtain ⟨rfl⟩ : ev = e' := by simpa using this.2
          rw [this.1] at hc
          exact ⟨hne, hc⟩
        · have h'' : post ++ [ev] = (p ++ e' :: q') ++ [x] := by rw [h']; simp
          exact h3 p e' q' (List.append_inj' h'' rfl).1
      · rintro ⟨pre, e, post, h1, h2, h3⟩
        rcases hsplit h1 with ⟨rfl, rfl, rfl⟩ | ⟨post', rfl, rfl⟩
        · exact absurd h2 (hc action)
        · refine ⟨pre, e, post', rfl, h2, ?_⟩
          rintro p e' q rfl
          exact h3 p e' (q ++ [ev]) (by simp)

/-- How an event changes the link under the pointer. -/
theorem step_hovered (l : Links) (e : Event) :
    (step l e).hovered = match e with
      | .leave => none
      | .mouse .moved c r g =>
        if g.containsPoint c r = true then findLink l.regions (c - g.x : Int).toNat (r - g.y : Int).toNat
        else l.hovered
      | _ => l.hovered := by
  cases e with
  | drawn r => rfl
  | leave =>
    show l.clearHover.hovered = none
    unfold Links.clearHover
    cases h : l.hovered <;> simp [h]
  | take => rfl
  | mouse k c r g =>
    show (l.onMouse k c r g).hovered = _
    unfold Links.onMouse
    by_cases hin : g.containsPoint c r = true
    · rw [if_neg (by simpa using hin)]
      dsimp only
      cases k with
      | leftDown => dsimp only; split <;> rfl
      | moved =>
        dsimp only
        rw [if_pos hin]
        split
        · rfl
        · rename_i h; exact (not_not.1 h).symm
      | other => rfl
    · rw [if_pos (by simpa using hin)]
      cases k with
      | leftDown => rfl
      | moved => dsimp only; rw [if_neg hin]
      | other => rfl

/-- C98: a link is highlighted exactly if the last move of the pointer inside the widget was over it, as
the links were on screen at that moment, and the pointer has not left since. -/
theorem hover_last (events : List Event) (action : String) :
    (run events).hovered = some action ↔
      ∃ pre column row region post, events = pre ++ .mouse .moved column row region :: post ∧
        LinkAt (onScreen pre) region column row action ∧ ∀ e ∈ post, e ≠ .leave ∧ ¬Moves e := by
  induction events using List.reverseRecOn with
  | nil =>
    constructor
    · intro h; cases h
    · rintro ⟨pre, _, _, _, post, h, _⟩; simp at h
  | append_singleton es ev ih =>
    rw [run_snoc, step_hovered]
    have hsplit : ∀ {pre : List Event} {e : Event} {post : List Event}, es ++ [ev] = pre ++ e :: post →
        (post = [] ∧ es = pre ∧ ev = e) ∨ ∃ post', post = post' ++ [ev] ∧ es = pre ++ e :: post' := by
      intro pre e post h
      rcases List.eq_nil_or_concat post with rfl | ⟨post', x, rfl⟩
      · have := List.append_inj' h rfl
        exact Or.inl ⟨rfl, this.1, by simpa using this.2⟩
      · rw [List.concat_eq_append] at h ⊢
        have h' : es ++ [ev] = (pre ++ e :: post') ++ [x] := by rw [h]; simp
        have := List.append_inj' h' rfl
        obtain ⟨rfl⟩ : ev = x := by simpa using this.2
        exact Or.inr ⟨post', rfl, this.1⟩
    have keep : ev ≠ .leave → ¬Moves ev → ((run es).hovered = some action ↔
        ∃ pre column row region post, es ++ [ev] = pre ++ .mouse .moved column row region :: post ∧
          LinkAt (onScreen pre) region column row action ∧ ∀ e ∈ post, e ≠ .leave ∧ ¬Moves e) := by
      intro hne hnm
      rw [ih]
      constructor
      · rintro ⟨pre, c, r, g, post, rfl, h2, h3⟩
        refine ⟨pre, c, r, g, post ++ [ev], by simp, h2, ?_⟩
        intro e he
        rcases List.mem_append.1 he with he | he
        · exact h3 e he
        · simp only [List.mem_cons, List.not_mem_nil, or_false] at he
          subst he
          exact ⟨hne, hnm⟩
      · rintro ⟨pre, c, r, g, post, h1, h2, h3⟩
        rcases hsplit h1 with ⟨rfl, rfl, rfl⟩ | ⟨post', rfl, rfl⟩
        · exact absurd ⟨c, r, g, rfl, h2.1⟩ hnm
        · exact ⟨pre, c, r, g, post', rfl, h2, fun e he => h3 e (List.mem_append_left _ he)⟩
    cases ev with
    | drawn r => exact keep (by simp) (by rintro ⟨_, _, _, h, _⟩; cases h)
    | take => exact keep (by simp) (by rintro ⟨_, _, _, h, _⟩; cases h)
    | leave =>
      dsimp only
      constructor
      · intro h; cases h
      · rintro ⟨pre, c, r, g, post, h1, h2, h3⟩
        rcases hsplit h1 with ⟨_, _, h⟩ | ⟨post', rfl, _⟩
        · cases h
        · exact absurd rfl (h3 .leave (by simp)).1
    | mouse k c r g =>
      cases k with
      | leftDown => exact keep (by simp) (by rintro ⟨_, _, _, h, _⟩; cases h)
      | other => exact keep (by simp) (by rintro ⟨_, _, _, h, _⟩; cases h)
      | moved =>
        dsimp only
        by_cases hin : g.containsPoint c r = true
        · rw [if_pos hin, run_regions]
          constructor
          · intro h
            exact ⟨es, c, r, g, [], rfl, ⟨hin, h⟩, by simp⟩
          · rintro ⟨pre, c', r', g', post, h1, h2, h3⟩
            rcases hsplit h1 with ⟨_, rfl, h⟩ | ⟨post', rfl, _⟩
            · injection h with _ i1 i2 i3
              subst i1 i2 i3
              exact h2.2
            · exact absurd ⟨c, r, g, rfl, hin⟩ (h3 (.mouse .moved c r g) (by simp)).2
        · rw [if_neg hin]
          refine keep (by simp) ?_
          rintro ⟨_, _, _, h, h'⟩
          injection h with _ i1 i2 i3
          subst i1 i2 i3
          exact hin h'

/-- C98: whenever the highlighted link or the waiting action changes because of the mouse, the widget asks
to be drawn again. -/
theorem change_redraws (l : Links) (e : Event) (he : ∀ r, e ≠ .drawn r) (hte : e ≠ .take)
    (h : (step l e).hovered ≠ l.hovered ∨ (step l e).pending ≠ l.pending) : (step l e).dirty = true := by
  cases e with
  | drawn r => exact absurd rfl (he r)
  | take => exact absurd rfl hte
  | leave =>
    show l.clearHover.dirty = true
    have h' : l.clearHover.hovered ≠ l.hovered ∨ l.clearHover.pending ≠ l.pending := h
    unfold Links.clearHover at h' ⊢
    split
    · rfl
    · rename_i hn
      rw [if_neg hn] at h'
      simp at h'
  | mouse k c r g =>
    show (l.onMouse k c r g).dirty = true
    have h' : (l.onMouse k c r g).hovered ≠ l.hovered ∨ (l.onMouse k c r g).pending ≠ l.pending := h
    unfold Links.onMouse at h' ⊢
    by_cases hin : g.containsPoint c r = false
    · rw [if_pos hin] at h'
      simp at h'
    · rw [if_neg hin] at h' ⊢
      dsimp only at h' ⊢
      cases k with
      | leftDown =>
        dsimp only at h' ⊢
        cases hf : findLink l.regions (c - g.x : Int).toNat (r - g.y : Int).toNat with
        | some a => rfl
        | none => rw [hf] at h'; simp at h'
      | moved =>
        dsimp only at h' ⊢
        split
        · rfl
        · rename_i hn
          rw [if_neg hn] at h'
          simp at h'
      | other => simp at h'

end Textual.Static
