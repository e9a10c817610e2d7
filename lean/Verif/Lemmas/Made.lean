import Verif.Lemmas.Static

/-! Lines made of characters with a property: no operation on lines brings in others than blanks, dots and border pieces. -/

namespace Textual

/-- All characters of the segments have the property. -/
def MadeSegs (P : Grapheme → Prop) (l : List Segment) : Prop := ∀ s ∈ l, ∀ g ∈ s.text, P g

/-- All characters of the line have the property. -/
def Strip.Made (P : Grapheme → Prop) (s : Strip) : Prop := MadeSegs P s.segments

variable {P : Grapheme → Prop}

theorem MadeSegs.nil : MadeSegs P [] := by intro s h; cases h

theorem MadeSegs.cons {s : Segment} {l : List Segment} (h1 : ∀ g ∈ s.text, P g) (h2 : MadeSegs P l) : MadeSegs P (s :: l) := by
  intro t ht
  rcases List.mem_cons.1 ht with rfl | ht
  · exact h1
  · exact h2 t ht

theorem MadeSegs.append {a b : List Segment} (h1 : MadeSegs P a) (h2 : MadeSegs P b) : MadeSegs P (a ++ b) := by
  intro t ht
  rcases List.mem_append.1 ht with ht | ht
  · exact h1 t ht
  · exact h2 t ht

theorem MadeSegs.ite {c : Prop} [Decidable c] {a b : List Segment} (h1 : MadeSegs P a) (h2 : MadeSegs P b) :
    MadeSegs P (if c then a else b) := by split <;> assumption

theorem MadeSegs.one {s : Segment} (h1 : ∀ g ∈ s.text, P g) : MadeSegs P [s] := .cons h1 .nil

theorem made_replicate {n : Nat} {x : Grapheme} (h : P x) : ∀ g ∈ List.replicate n x, P g := by
  intro g hg
  rw [List.eq_of_mem_replicate hg]
  exact h

theorem splitLoop_mem (cut : Nat) : ∀ (t : List Grapheme) (pos : Nat),
    (∀ g ∈ (Segment.splitLoop cut pos t).1, g ∈ t) ∧ ∀ g ∈ (Segment.splitLoop cut pos t).2.1, g ∈ t
  | [], pos => by simp [Segment.splitLoop]
  | g :: gs, pos => by
    have ih := splitLoop_mem cut gs (pos + g.width)
    unfold Segment.splitLoop
    split
    · simp
    · refine ⟨fun x hx => ?_, fun x hx => List.mem_cons_of_mem _ (ih.2 x hx)⟩
      rcases List.mem_cons.1 hx with rfl | hx
      · exact List.mem_cons_self ..
      · exact List.mem_cons_of_mem _ (ih.1 x hx)

theorem splitAt_mem (s : Segment) (cut : Nat) :
    (∀ g ∈ (s.splitAt cut).1.text, g ∈ s.text) ∧ ∀ g ∈ (s.splitAt cut).2.text, g ∈ s.text := by
  unfold Segment.splitAt
  split
  · simp
  · split
    · simp
    · exact splitLoop_mem cut s.text 0

theorem cropSegment_made {seg : Segment} (h : ∀ g ∈ seg.text, P g) (pos start stop : Nat) :
    MadeSegs P (Strip.cropSegment seg pos start stop) := by
  unfold Strip.cropSegment
  dsimp only
  split
  · exact .one h
  split
  · exact .ite .nil (.one fun g hg => h g ((splitAt_mem _ _).1 g hg))
  split
  · exact .ite .nil (.one fun g hg => h g ((splitAt_mem _ _).2 g hg))
  · exact .ite .nil (.one fun g hg => h g ((splitAt_mem _ _).2 g ((splitAt_mem _ _).1 g hg)))

theorem cropLoop_made (start stop : Nat) : ∀ (l : List Segment) (pos : Nat), MadeSegs P l →
    MadeSegs P (Strip.cropLoop start stop pos l)
  | [], _, _ => .nil
  | s :: l, pos, h => by
    have h1 := h s (List.mem_cons_self ..)
    have ih := cropLoop_made start stop l (pos + s.cellLength) fun t ht => h t (List.mem_cons_of_mem _ ht)
    unfold Strip.cropLoop
    dsimp only
    split
    · exact ih
    split
    · exact .nil
    · exact .append (cropSegment_made h1 _ _ _) ih

namespace Strip

theorem Made.crop {s : Strip} (h : s.Made P) (a b : Nat) : (s.crop a b).Made P := by
  unfold Strip.crop
  split
  · exact .nil
  · exact cropLoop_made _ _ _ _ h

theorem Made.blank (hs : P Grapheme.space) (n : Nat) (st : Option Style) : (Strip.blank n st).Made P := by
  unfold Strip.blank
  split
  · exact .nil
  · exact .one (made_replicate hs)

theorem Made.join {l : List Strip} (h : ∀ s ∈ l, s.Made P) : (Strip.join l).Made P := by
  intro s hs
  obtain ⟨t, ht, hs⟩ := List.mem_flatMap.1 hs
  exact h t ht s hs

theorem Made.adjust {s : Strip} (h : s.Made P) (hs : P Grapheme.space) (n : Nat) (st : Option Style) :
    (s.adjustCellLength n st).Made P := by
  unfold adjustCellLength
  split
  · exact h
  split
  · exact h.crop _ _
  · exact .append h (.one (made_replicate hs))

theorem Made.textAlign {s : Strip} (h : s.Made P) (hs : P Grapheme.space) (a : AlignH) (n : Nat) (st : Option Style) :
    (s.textAlign a n st).Made P := by
  unfold Strip.textAlign
  split
  · exact h.crop _ _
  · cases a with
    | left => exact .append h (.one (made_replicate hs))
    | right => exact .cons (made_replicate hs) h
    | center =>
      exact .append (.append (.ite (.one (made_replicate hs)) .nil) h) (.ite (.one (made_replicate hs)) .nil)

theorem justifySegment_made (hs : P Grapheme.space) (ex : List Nat) (st : Option Style) (i : Meta) :
    ∀ (t buf : List Grapheme) (gi : Nat), (∀ g ∈ buf, P g) → (∀ g ∈ t, P g) →
      MadeSegs P (justifySegment ex st i gi buf t).1
  | [], buf, gi, h1, _ => by
    unfold justifySegment
    exact .ite .nil (.one h1)
  | g :: t, buf, gi, h1, h2 => by
    unfold justifySegment
    have ht : ∀ g ∈ t, P g := fun x hx => h2 x (List.mem_cons_of_mem _ hx)
    split
    · exact .append (.ite .nil (.one h1)) (.cons (made_replicate hs)
        (justifySegment_made hs ex st i t [] (gi + 1) (by simp) ht))
    · refine justifySegment_made hs ex st i t _ gi ?_ ht
      intro x hx
      rcases List.mem_append.1 hx with hx | hx
      · exact h1 x hx
      · rw [List.mem_singleton.1 hx]
        exact h2 g (List.mem_cons_self ..)

theorem justifyLoop_made (hs : P Grapheme.space) (ex : List Nat) : ∀ (l : List Segment) (gi : Nat), MadeSegs P l →
    MadeSegs P (justifyLoop ex gi l)
  | [], _, _ => .nil
  | s :: l, gi, h => by
    unfold justifyLoop
    exact .append (justifySegment_made hs ex s.style s.info s.text [] gi (by simp) (h s (List.mem_cons_self ..)))
      (justifyLoop_made hs ex l _ fun t ht => h t (List.mem_cons_of_mem _ ht))

theorem Made.justify {s : Strip} (h : s.Made P) (hs : P Grapheme.space) (n : Nat) (st : Option Style) :
    (s.justify n st).Made P := by
  unfold Strip.justify
  split
  · exact h.crop _ _
  split
  · exact h.textAlign hs _ _ _
  · exact justifyLoop_made hs _ _ _ h

end Strip

namespace Static

theorem alignLine_made (hs : P Grapheme.space) (s : Sheet) (w lw ho : Nat) (line : Content.WrappedLine) (h : line.strip.Made P) :
    (alignLine s w lw ho line).Made P := by
  unfold alignLine
  dsimp only
  have h1 : (if s.textAlign = .justify ∧ line.lineEnd = false then line.strip.justify lw (padOf s.text)
      else line.strip.textAlign s.textAlign.line lw (padOf s.text)).Made P := by
    split
    · exact h.justify hs _ _
    · exact h.textAlign hs _ _ _
  refine Strip.Made.adjust ?_ hs _ _
  split
  · refine Strip.Made.join ?_
    intro t ht
    simp only [List.mem_cons, List.not_mem_nil, or_false] at ht
    rcases ht with rfl | rfl
    · exact Strip.Made.blank hs _ _
    · exact h1
  · exact h1

theorem alignContent_made (hs : P Grapheme.space) (s : Sheet) (lines : List Content.WrappedLine) (w h : Nat)
    (hl : ∀ line ∈ lines, line.strip.Made P) : ∀ row ∈ alignContent s lines w h, row.Made P := by
  unfold alignContent
  split
  · simp
  · intro row hr
    dsimp only at hr
    rcases List.mem_append.1 hr with hr | hr
    · rcases List.mem_append.1 hr with hr | hr
      · rw [List.eq_of_mem_replicate hr]
        exact Strip.Made.blank hs _ _
      · obtain ⟨line, hm, rfl⟩ := List.mem_map.1 hr
        exact alignLine_made hs _ _ _ _ _ (hl line (List.mem_of_mem_take hm))
    · rw [List.eq_of_mem_replicate hr]
      exact Strip.Made.blank hs _ _

end Static

namespace RenderCache

/-- The property holds of all one-column characters (`piece` has only these). -/
def Plain (P : Grapheme → Prop) : Prop := ∀ c, P ⟨c, 1⟩

theorem IsPiece.made {s : Segment} (h : IsPiece s) (hp : Plain P) : ∀ g ∈ s.text, P g := by
  obtain ⟨c, st, rfl⟩ := h
  intro g hg
  simp only [piece, Segment.mk', List.mem_singleton] at hg
  rw [hg]
  exact hp _

theorem repeatFill_made {fill : Segment} (h : IsPiece fill) (hp : Plain P) (d : String) (n : Nat) :
    ∀ g ∈ repeatFill fill d n, P g := by
  obtain ⟨c, st, rfl⟩ := h
  refine made_replicate ?_
  simp only [piece, Segment.mk', List.head?_cons, Option.getD_some]
  exact hp _

theorem repeatChar_made {fill : Segment} (h : IsPiece fill) (hp : Plain P) (n : Nat) :
    ∀ g ∈ (repeatCharSegment fill n).text, P g := by
  unfold repeatCharSegment
  split
  · simp [Segment.mk']
  · exact repeatFill_made h hp _ _

theorem renderLabel_made {label : Strip} (hl : label.Made P) {fill : Segment} (h : IsPiece fill) (hp : Plain P) (w : Nat)
    (a : Strip.AlignH) : (renderLabel label fill w a).Made P := by
  have sp : ∀ st, ∀ g ∈ (Segment.mk' [Grapheme.space] st).text, P g := by
    intro st g hg
    simp only [Segment.mk', List.mem_singleton] at hg
    rw [hg]
    exact hp _
  have el : ∀ st, ∀ g ∈ (Segment.mk' [ellipsis] st).text, P g := by
    intro st g hg
    simp only [Segment.mk', List.mem_singleton] at hg
    rw [hg]
    exact hp _
  unfold renderLabel
  dsimp only
  split
  · exact .append (.append (.append (.cons (repeatChar_made h hp _) (.one (sp _))) (hl.crop _ _))
      (.cons (el _) (.one (sp _)))) (.ite (.one (repeatChar_made h hp _)) .nil)
  · exact .append (.append (.append (.append (.ite (.one (repeatChar_made h hp _)) .nil) (.one (sp _))) hl) (.one (sp _)))
      (.ite (.one (repeatChar_made h hp _)) .nil)

theorem renderRow_made {row : Row} (hr : row.Sound) (hp : Plain P) (w : Nat) {t u : Option Strip}
    (ht : ∀ s, t = some s → s.Made P) (hu : ∀ s, u = some s → s.Made P) (a b : Strip.AlignH) :
    (renderRow row w t u a b).Made P := by
  unfold renderRow
  split
  · split
    · exact .cons (hr.left.made hp) (.one (hr.right.made hp))
    split
    · exact .one (hr.left.made hp)
    · exact .nil
  · dsimp only
    refine .append (.cons (hr.left.made hp) ?_) (.one (hr.right.made hp))
    cases t with
    | some t => exact renderLabel_made (ht t rfl) hr.fill hp _ _
    | none =>
      cases u with
      | some u => exact renderLabel_made (hu u rfl) hr.fill hp _ _
      | none =>
        dsimp only
        unfold repeatSegment
        split
        · exact .nil
        · exact .one (repeatFill_made hr.fill hp _ _)

theorem fitLine_made (hp : Plain P) {content : Option Strip} (h : ∀ s, content = some s → s.Made P) (w : Nat)
    (st : Option Style) : (fitLine content w st).Made P := by
  cases content with
  | none => exact Strip.Made.blank (hp _) _ _
  | some s => exact (h s rfl).adjust (hp _) _ _

theorem blank_made (hp : Plain P) (n : Nat) (st : Option Style) : ∀ g ∈ (Segment.blank n st).text, P g :=
  made_replicate (hp _)

theorem contentRow_made (hp : Plain P) (c : Cache) (w : Nat) {content : Option Strip}
    (h : ∀ s, content = some s → s.Made P) : (c.contentRow w content).Made P := by
  unfold Cache.contentRow
  dsimp only
  split
  · exact fitLine_made hp h _ _
  · exact .append (.append (.ite (.one (blank_made hp _ _)) .nil) (fitLine_made hp h _ _))
      (.ite (.one (blank_made hp _ _)) .nil)

theorem middleRow_made (hp : Plain P) (c : Cache) {row : Row} (hr : row.Sound) (w : Nat) {content : Option Strip}
    (h : ∀ s, content = some s → s.Made P) : (c.middleRow row content w).Made P := by
  unfold Cache.middleRow
  exact .append (.append (.append (.append (.ite (.one (hr.left.made hp)) .nil) (.ite (.one (blank_made hp _ _)) .nil))
    (fitLine_made hp h _ _)) (.ite (.one (blank_made hp _ _)) .nil)) (.ite (.one (hr.right.made hp)) .nil)

theorem fill_made (hp : Plain P) {fill : Segment} (h : IsPiece fill) (n : Nat) : ∀ g ∈ (fillSegment fill n).text, P g :=
  repeatFill_made h hp _ _

theorem horizontalRow_made (hp : Plain P) {row : Row} (hr : row.Sound) (w : Nat) {t : Option Strip}
    (ht : ∀ s, t = some s → s.Made P) (a : Strip.AlignH) : (horizontalRow row w t a).Made P := by
  unfold horizontalRow
  split
  · exact .one (fill_made hp hr.fill _)
  · rename_i label
    have hl := ht label rfl
    dsimp only
    split
    · refine .append (.append (.append (.one (fill_made hp hr.fill _)) (hl.crop _ _)) (.one ?_))
        (.ite (.one (fill_made hp hr.fill _)) .nil)
      intro g hg
      simp only [Segment.mk', List.mem_singleton] at hg
      rw [hg]
      exact hp _
    · exact .append (.append (.ite (.one (fill_made hp hr.fill _)) .nil) hl) (.ite (.one (fill_made hp hr.fill _)) .nil)

theorem labeledRow_made (hp : Plain P) (c : Cache) {row : Row} (hr : row.Sound) (w : Nat) {t : Strip} (ht : t.Made P)
    (a : Strip.AlignH) : (c.labeledRow row w t a).Made P := by
  unfold Cache.labeledRow
  exact .append (.append (.ite (.one (hr.left.made hp)) .nil) (renderLabel_made ht hr.fill hp _ _))
    (.ite (.one (hr.right.made hp)) .nil)

theorem applyOutline_made (hp : Plain P) (c : Cache) (hc : c.Sound) {s : Strip} (h : s.Made P) (y ht w : Nat) :
    (c.applyOutline s y ht w).Made P := by
  have edge : ∀ {row : Row}, row.Sound → (c.outlineEdge row w).Made P := fun hr =>
    .append (.append (.ite (.one (hr.left.made hp)) .nil) (.ite (.one (fill_made hp hr.fill _)) .nil))
      (.ite (.one (hr.right.made hp)) .nil)
  unfold Cache.applyOutline
  split
  · exact h
  · rename_i box e
    have hb := hc.outline box e
    split
    · exact h
    split
    · exact edge hb.top
    split
    · exact edge hb.bottom
    split
    · dsimp only
      exact .append (.append (.ite (.one (hb.middle.left.made hp)) .nil) ((h.crop _ _).adjust (hp _) _ _))
        (.ite (.one (hb.middle.right.made hp)) .nil)
    · exact h

theorem renderLine_made (hp : Plain P) (c : Cache) (hc : c.Sound) (y ht w : Nat) {content t u : Option Strip}
    (h : ∀ s, content = some s → s.Made P) (h1 : ∀ s, t = some s → s.Made P) (h2 : ∀ s, u = some s → s.Made P) :
    (c.renderLine y ht w content t u).Made P := by
  have no : ∀ s : Strip, (none : Option Strip) = some s → s.Made P := by rintro s e; cases e
  unfold Cache.renderLine
  split
  · exact .nil
  split
  · exact applyOutline_made hp c hc (contentRow_made hp c w h) _ _ _
  · rename_i box e
    have hb := hc.box box e
    split
    · refine applyOutline_made hp c hc ?_ _ _ _
      split
      · exact renderRow_made hb.top hp _ h1 no _ _
      · exact horizontalRow_made hp hb.top _ h1 _
    split
    · refine applyOutline_made hp c hc ?_ _ _ _
      split
      · exact renderRow_made hb.bottom hp _ no h2 _ _
      · exact horizontalRow_made hp hb.bottom _ h2 _
    split
    · split
      · split
        · rename_i l e
          refine labeledRow_made hp c hb.middle w (h1 l ?_) _
          split at e
          · exact e
          · cases e
        · split
          · rename_i l e
            refine labeledRow_made hp c hb.middle w (h2 l ?_) _
            split at e
            · exact e
            · cases e
          · exact applyOutline_made hp c hc (middleRow_made hp c hb.middle w h) _ _ _
      · exact applyOutline_made hp c hc (contentRow_made hp c w h) _ _ _
    · exact applyOutline_made hp c hc (Strip.Made.blank (hp _) _ _) _ _ _

end RenderCache

end Textual
