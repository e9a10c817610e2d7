import Verif.Lemmas.Made
import Verif.Props.RenderCache

/-! The rows a widget draws know their width, whatever the widths of the characters in them. -/

namespace Textual

open RenderCache

/-- The segments know their width. -/
def MeasSegs (l : List Segment) : Prop := ∀ s ∈ l, s.cellLength = widthOf s.text

theorem MeasSegs.nil : MeasSegs [] := by intro s h; cases h

theorem MeasSegs.cons {s : Segment} {l : List Segment} (h1 : s.cellLength = widthOf s.text) (h2 : MeasSegs l) :
    MeasSegs (s :: l) := by
  intro t ht
  rcases List.mem_cons.1 ht with rfl | ht
  · exact h1
  · exact h2 t ht

theorem MeasSegs.append {a b : List Segment} (h1 : MeasSegs a) (h2 : MeasSegs b) : MeasSegs (a ++ b) := by
  intro t ht
  rcases List.mem_append.1 ht with ht | ht
  · exact h1 t ht
  · exact h2 t ht

theorem MeasSegs.ite {c : Prop} [Decidable c] {a b : List Segment} (h1 : MeasSegs a) (h2 : MeasSegs b) :
    MeasSegs (if c then a else b) := by split <;> assumption

theorem MeasSegs.one {s : Segment} (h1 : s.cellLength = widthOf s.text) : MeasSegs [s] := .cons h1 .nil

theorem new_wf : Strip.new.WF := ⟨by simp [Strip.new], rfl⟩

theorem blank_strip_wf (n : Nat) (st : Option Style) : (Strip.blank n st).WF := by
  unfold Strip.blank
  split
  · exact new_wf
  · exact Strip.ofSegments_wf (MeasSegs.one (Strip.blank_seg_wf _ _))

theorem adjust_wf {s : Strip} (h : s.WF) (n : Nat) (st : Option Style) : (s.adjustCellLength n st).WF := by
  unfold Strip.adjustCellLength
  split
  · exact h
  split
  · exact Strip.crop_wf s h _ _
  · exact Strip.ofSegments_wf (MeasSegs.append h.seg (.one (Strip.blank_seg_wf _ _)))

namespace RenderCache

theorem renderLabel_wf {label : Strip} (hl : label.WF) (fill : Segment) (w : Nat) (a : Strip.AlignH) :
    (renderLabel label fill w a).WF := by
  have rc := repeatCharSegment_wf fill
  unfold renderLabel
  dsimp only
  split
  · exact Strip.ofSegments_wf (MeasSegs.append (.append (.append (.cons (rc _) (.one rfl)) (Strip.crop_wf label hl _ _).seg)
      (.cons rfl (.one rfl))) (.ite (.one (rc _)) .nil))
  · exact Strip.ofSegments_wf (MeasSegs.append (.append (.append (.append (.ite (.one (rc _)) .nil) (.one rfl)) hl.seg)
      (.one rfl)) (.ite (.one (rc _)) .nil))

theorem renderRow_wf {row : Row} (hr : row.Sound) (w : Nat) {t u : Option Strip} (ht : ∀ s, t = some s → s.WF)
    (hu : ∀ s, u = some s → s.WF) (a b : Strip.AlignH) : (renderRow row w t u a b).WF := by
  unfold renderRow
  split
  · split
    · exact Strip.ofSegments_wf (MeasSegs.cons hr.left.wf (.one hr.right.wf))
    split
    · exact Strip.ofSegments_wf (MeasSegs.one hr.left.wf)
    · exact new_wf
  · dsimp only
    refine Strip.ofSegments_wf (MeasSegs.append (.cons hr.left.wf ?_) (.one hr.right.wf))
    cases t with
    | some t => exact (renderLabel_wf (ht t rfl) _ _ _).seg
    | none =>
      cases u with
      | some u => exact (renderLabel_wf (hu u rfl) _ _ _).seg
      | none => exact (repeatSegment_wf _ _).seg

theorem fitLine_wf {content : Option Strip} (h : ∀ s, content = some s → s.WF) (w : Nat) (st : Option Style) :
    (fitLine content w st).WF := by
  cases content with
  | none => exact blank_strip_wf _ _
  | some s => exact adjust_wf (h s rfl) _ _

theorem contentRow_wf (c : Cache) (w : Nat) {content : Option Strip} (h : ∀ s, content = some s → s.WF) :
    (c.contentRow w content).WF := by
  unfold Cache.contentRow
  dsimp only
  split
  · exact fitLine_wf h _ _
  · exact Strip.ofSegments_wf (MeasSegs.append (.append (.ite (.one (Strip.blank_seg_wf _ _)) .nil) (fitLine_wf h _ _).seg)
      (.ite (.one (Strip.blank_seg_wf _ _)) .nil))

theorem middleRow_wf (c : Cache) {row : Row} (hr : row.Sound) (w : Nat) {content : Option Strip}
    (h : ∀ s, content = some s → s.WF) : (c.middleRow row content w).WF := by
  unfold Cache.middleRow
  exact Strip.ofSegments_wf (MeasSegs.append (.append (.append (.append (.ite (.one hr.left.wf) .nil)
    (.ite (.one (Strip.blank_seg_wf _ _)) .nil)) (fitLine_wf h _ _).seg) (.ite (.one (Strip.blank_seg_wf _ _)) .nil))
    (.ite (.one hr.right.wf) .nil))

theorem horizontalRow_wf (row : Row) (w : Nat) {t : Option Strip} (ht : ∀ s, t = some s → s.WF) (a : Strip.AlignH) :
    (horizontalRow row w t a).WF := by
  unfold horizontalRow
  split
  · exact Strip.ofSegments_wf (MeasSegs.one (fillSegment_wf _ _))
  · rename_i label
    have hl := ht label rfl
    dsimp only
    split
    · exact Strip.ofSegments_wf (MeasSegs.append (.append (.append (.one (fillSegment_wf _ _)) (Strip.crop_wf label hl _ _).seg)
        (.one rfl)) (.ite (.one (fillSegment_wf _ _)) .nil))
    · exact Strip.ofSegments_wf (MeasSegs.append (.append (.ite (.one (fillSegment_wf _ _)) .nil) hl.seg)
        (.ite (.one (fillSegment_wf _ _)) .nil))

theorem labeledRow_wf (c : Cache) {row : Row} (hr : row.Sound) (w : Nat) {t : Strip} (ht : t.WF) (a : Strip.AlignH) :
    (c.labeledRow row w t a).WF := by
  unfold Cache.labeledRow
  exact Strip.ofSegments_wf (MeasSegs.append (.append (.ite (.one hr.left.wf) .nil) (renderLabel_wf ht _ _ _).seg)
    (.ite (.one hr.right.wf) .nil))

theorem applyOutline_wf (c : Cache) (hc : c.Sound) {s : Strip} (h : s.WF) (y ht w : Nat) : (c.applyOutline s y ht w).WF := by
  have edge : ∀ {row : Row}, row.Sound → (c.outlineEdge row w).WF := fun hr =>
    Strip.ofSegments_wf (MeasSegs.append (.append (.ite (.one hr.left.wf) .nil) (.ite (.one (fillSegment_wf _ _)) .nil))
      (.ite (.one hr.right.wf) .nil))
  unfold Cache.applyOutline
  split
  · exact h
  · rename_i box e
    have hb := hc.outline box e
    split
    · exact h
    split
    · exact edge hb.top
    split
    · exact edge hb.bottom
    split
    · dsimp only
      exact Strip.ofSegments_wf (MeasSegs.append (.append (.ite (.one hb.middle.left.wf) .nil)
        (adjust_wf (Strip.crop_wf s h _ _) _ _).seg) (.ite (.one hb.middle.right.wf) .nil))
    · exact h

/-- Every row of a widget knows its width. -/
theorem renderLine_wf (c : Cache) (hc : c.Sound) (y ht w : Nat) {content t u : Option Strip}
    (h : ∀ s, content = some s → s.WF) (h1 : ∀ s, t = some s → s.WF) (h2 : ∀ s, u = some s → s.WF) :
    (c.renderLine y ht w content t u).WF := by
  have no : ∀ s : Strip, (none : Option Strip) = some s → s.WF := by rintro s e; cases e
  unfold Cache.renderLine
  split
  · exact new_wf
  split
  · exact applyOutline_wf c hc (contentRow_wf c w h) _ _ _
  · rename_i box e
    have hb := hc.box box e
    split
    · refine applyOutline_wf c hc ?_ _ _ _
      split
      · exact renderRow_wf hb.top _ h1 no _ _
      · exact horizontalRow_wf _ _ h1 _
    split
    · refine applyOutline_wf c hc ?_ _ _ _
      split
      · exact renderRow_wf hb.bottom _ no h2 _ _
      · exact horizontalRow_wf _ _ h2 _
    split
    · split
      · split
        · rename_i l e
          refine labeledRow_wf c hb.middle w (h1 l ?_) _
          split at e
          · exact e
          · cases e
        · split
          · rename_i l e
            refine labeledRow_wf c hb.middle w (h2 l ?_) _
            split at e
            · exact e
            · cases e
          · exact applyOutline_wf c hc (middleRow_wf c hb.middle w h) _ _ _
      · exact applyOutline_wf c hc (contentRow_wf c w h) _ _ _
    · exact applyOutline_wf c hc (blank_strip_wf _ _) _ _ _

end RenderCache

end Textual
