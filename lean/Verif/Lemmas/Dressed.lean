import Verif.Props.OnScreen

/-!
Styles of lines: what holds for the styles something is made of holds for all of its segments.
-/

namespace Textual

/-- All segments have a style of the given kind (no style is the empty style). -/
def Dressed (P : Style → Prop) (l : List Segment) : Prop := ∀ seg ∈ l, P (seg.style.getD {})

namespace Dressed

variable {P : Style → Prop}

theorem nil : Dressed P [] := fun _ h => by cases h

theorem cons {a : Segment} {l : List Segment} (h : P (a.style.getD {})) (hl : Dressed P l) : Dressed P (a :: l) := by
  intro s hs
  rcases List.mem_cons.1 hs with rfl | hs
  · exact h
  · exact hl s hs

theorem append {a b : List Segment} (ha : Dressed P a) (hb : Dressed P b) : Dressed P (a ++ b) := by
  intro s hs
  rcases List.mem_append.1 hs with hs | hs
  · exact ha s hs
  · exact hb s hs

theorem one {a : Segment} (h : P (a.style.getD {})) : Dressed P [a] := cons h nil

theorem when {p : Prop} [Decidable p] {a : Segment} (h : P (a.style.getD {})) : Dressed P (if p then [a] else []) := by
  split
  · exact one h
  · exact nil

theorem cells {l : List Segment} (h : Dressed P l) : ∀ k ∈ segCells l, P (k.style.getD {}) := by
  intro k hk
  obtain ⟨seg, hs, hk⟩ := List.mem_flatMap.1 hk
  rw [(Fade.mem_textCells hk).1]
  exact h seg hs

theorem head {l : List Segment} (h : Dressed P l) (hne : l ≠ []) : P ((l.head?.bind (·.style)).getD {}) := by
  cases l with
  | nil => exact absurd rfl hne
  | cons a l => exact h a (List.mem_cons_self ..)

theorem last {l : List Segment} (h : Dressed P l) (hne : l ≠ []) : P ((l.getLast?.bind (·.style)).getD {}) := by
  rw [List.getLast?_eq_some_getLast hne]
  exact h _ (List.getLast_mem hne)

theorem blank (n : Nat) {st : Option Style} (h : P (st.getD {})) : Dressed P (Strip.blank n st).segments := by
  unfold Strip.blank
  split
  · exact nil
  · exact one h

theorem splitAt (seg : Segment) (cut : Nat) : (seg.splitAt cut).1.style = seg.style ∧ (seg.splitAt cut).2.style = seg.style := by
  unfold Segment.splitAt
  split
  · exact ⟨rfl, rfl⟩
  split
  · exact ⟨rfl, rfl⟩
  · exact ⟨rfl, rfl⟩

theorem cropSegment {seg : Segment} (h : P (seg.style.getD {})) (pos a b : Nat) : Dressed P (Strip.cropSegment seg pos a b) := by
  unfold Strip.cropSegment
  dsimp only
  split
  · exact one h
  split
  · split
    · exact nil
    · exact one (by rw [(splitAt seg _).1]; exact h)
  split
  · split
    · exact nil
    · exact one (by rw [(splitAt seg _).2]; exact h)
  · split
    · exact nil
    · exact one (by rw [(splitAt _ _).1, (splitAt seg _).2]; exact h)

theorem cropLoop (a b : Nat) : ∀ (l : List Segment) (pos : Nat), Dressed P l → Dressed P (Strip.cropLoop a b pos l)
  | [], _, _ => by unfold Strip.cropLoop; exact nil
  | seg :: l, pos, h => by
    have hl : Dressed P l := fun s hs => h s (List.mem_cons_of_mem _ hs)
    unfold Strip.cropLoop
    dsimp only
    split
    · exact cropLoop a b l _ hl
    split
    · exact nil
    · exact append (cropSegment (h seg (List.mem_cons_self ..)) _ _ _) (cropLoop a b l _ hl)

theorem crop {s : Strip} (h : Dressed P s.segments) (a b : Nat) : Dressed P (s.crop a b).segments := by
  unfold Strip.crop
  split
  · exact nil
  · exact cropLoop _ _ _ _ h

theorem join {l : List Strip} (h : ∀ s ∈ l, Dressed P s.segments) : Dressed P (Strip.join l).segments := by
  intro seg hs
  obtain ⟨t, ht, hs⟩ := List.mem_flatMap.1 hs
  exact h t ht seg hs

theorem adjust {s : Strip} (h : Dressed P s.segments) (n : Nat) {st : Option Style} (hp : P (st.getD {})) :
    Dressed P (s.adjustCellLength n st).segments := by
  unfold Strip.adjustCellLength
  split
  · exact h
  split
  · exact h.crop _ _
  · exact append h (one hp)

theorem textAlign {s : Strip} (h : Dressed P s.segments) (al : Strip.AlignH) (n : Nat) {st : Option Style} (hp : P (st.getD {})) :
    Dressed P (s.textAlign al n st).segments := by
  unfold Strip.textAlign
  split
  · exact h.crop _ _
  · cases al with
    | left => exact append h (one hp)
    | right => exact cons hp h
    | center => exact append (append (when hp) h) (when hp)

theorem justifySegment (ex : List Nat) (st : Option Style) (i : Meta) (hp : P (st.getD {})) : ∀ (t : List Grapheme) (gi : Nat)
    (buf : List Grapheme), Dressed P (Strip.justifySegment ex st i gi buf t).1
  | [], gi, buf => by
    unfold Strip.justifySegment
    dsimp only
    split
    · exact nil
    · exact one hp
  | g :: t, gi, buf => by
    unfold Strip.justifySegment
    split
    · dsimp only
      refine append ?_ (cons hp (justifySegment ex st i hp t _ _))
      split
      · exact nil
      · exact one hp
    · exact justifySegment ex st i hp t _ _

theorem justifyLoop (ex : List Nat) : ∀ (l : List Segment) (gi : Nat), Dressed P l → Dressed P (Strip.justifyLoop ex gi l)
  | [], _, _ => by unfold Strip.justifyLoop; exact nil
  | seg :: l, gi, h => by
    unfold Strip.justifyLoop
    dsimp only
    exact append (justifySegment ex _ _ (h seg (List.mem_cons_self ..)) _ _ _)
      (justifyLoop ex l _ fun s hs => h s (List.mem_cons_of_mem _ hs))

theorem justify {s : Strip} (h : Dressed P s.segments) (n : Nat) {st : Option Style} (hp : P (st.getD {})) :
    Dressed P (s.justify n st).segments := by
  unfold Strip.justify
  split
  · exact h.crop _ _
  split
  · exact h.textAlign _ _ hp
  · exact justifyLoop _ _ _ h

/-! ### Wrapped text -/

open Content

theorem crop_ne {s : Strip} (h : s.OneColumn) (hs : 0 < s.cellLength) (n : Nat) (hn : 0 < n) : (s.crop 0 n).segments ≠ [] := by
  intro e
  have := Strip.crop_cells_narrow s h.wf (Static.width_of_made h) 0 n
  have hl := h.wf.length
  unfold Strip.cells at this hl
  rw [e, List.drop_zero] at this
  have := congrArg List.length this
  rw [List.length_take, hl] at this
  change 0 = _ at this
  omega

theorem truncate {s : Strip} (h : Dressed P s.segments) (ho : s.OneColumn) (w : Nat) : Dressed P (truncate s w).segments := by
  have ne : ∀ t : Strip, t.OneColumn → 0 < t.cellLength → t.segments ≠ [] := by
    intro t ht hp e
    have := ht.wf.length
    unfold Strip.cells at this
    rw [e] at this
    change 0 = _ at this
    omega
  unfold Content.truncate
  split
  · exact nil
  split
  · exact h
  split
  · exact one (h.last (ne s ho (by omega)))
  · refine join ?_
    intro t ht
    simp only [List.mem_cons, List.not_mem_nil, or_false] at ht
    rcases ht with rfl | rfl
    · exact h.crop _ _
    · exact one ((h.crop _ _).last (crop_ne ho (by omega) _ (by omega)))

theorem splitLoop {s : Strip} (h : Dressed P s.segments) (w : Nat) : ∀ (n start : Nat), s.cellLength - start ≤ n →
    ∀ t ∈ Content.splitLoop s w start, Dressed P t.segments
  | n, start, hn, t, ht => by
    unfold Content.splitLoop at ht
    split at ht
    · rename_i hc
      rcases List.mem_cons.1 ht with rfl | ht
      · exact h.crop _ _
      · cases n with
        | zero => omega
        | succ n => exact splitLoop h w n _ (by omega) t ht
    · cases ht

/-- The styles a content is made of: its own one, and those its spans and links make of it. -/
structure Made (P : Style → Prop) (c : Content.Content) : Prop where
  base : P (c.style.getD {})
  span : ∀ spans ∈ c.spans, ∀ sp ∈ spans, ∀ st, P st → P (st.apply sp.style)
  link : ∀ link ∈ c.linkStyle, (∃ spans ∈ c.spans, ∃ sp ∈ spans, (sp.info.lookup "@click").isSome) → ∀ st b, P st → P (applyLinkStyle st link b)

theorem spanStyle {c : Content.Content} (hm : Made P c) {spans : List Span} (h : ∃ l ∈ c.spans, ∀ sp ∈ spans, sp ∈ l) (pos : Nat) :
    P (Content.spanStyle (c.style.getD {}) spans pos) := by
  obtain ⟨l, hl, h⟩ := h
  unfold Content.spanStyle
  suffices ∀ (spans : List Span) (b : Style), P b → (∀ sp ∈ spans, sp ∈ l) →
      P (spans.foldl (fun acc s => if s.covers pos then acc.apply s.style else acc) b) from this _ _ hm.base h
  intro spans
  induction spans with
  | nil => intro b hb _; exact hb
  | cons sp spans ih =>
    intro b hb hs
    refine ih _ ?_ fun x hx => hs x (List.mem_cons_of_mem _ hx)
    dsimp only
    split
    · exact hm.span l hl sp (hs sp (List.mem_cons_self ..)) b hb
    · exact hb

theorem clicks {c : Content.Content} {spans l : List Span} (hl : l ∈ c.spans) (h : ∀ sp ∈ spans, sp ∈ l) (pos : Nat)
    (hc : ((spanMeta spans pos).lookup "@click").isSome) : ∃ spans ∈ c.spans, ∃ sp ∈ spans, (sp.info.lookup "@click").isSome := by
  unfold spanMeta at hc
  suffices ∀ (spans : List Span) (b : Meta), (∀ sp ∈ spans, sp ∈ l) →
      ((spans.foldl (fun acc s => if s.covers pos then extendMeta acc s.info else acc) b).lookup "@click").isSome →
      (b.lookup "@click").isSome ∨ ∃ sp ∈ spans, (sp.info.lookup "@click").isSome by
    rcases this spans [] h hc with h1 | ⟨sp, h1, h2⟩
    · cases h1
    · exact ⟨l, hl, sp, h sp h1, h2⟩
  intro spans
  induction spans with
  | nil => intro b _ h; exact .inl h
  | cons sp spans ih =>
    intro b hs h
    rcases ih _ (fun x hx => hs x (List.mem_cons_of_mem _ hx)) h with h1 | ⟨x, h1, h2⟩
    · dsimp only at h1
      split at h1
      · unfold extendMeta at h1
        cases e : sp.info.lookup "@click" with
        | some v => exact .inr ⟨sp, List.mem_cons_self .., by rw [e]; rfl⟩
        | none =>
          rw [List.lookup_append, e] at h1
          exact .inl h1
      · exact .inl h1
    · exact .inr ⟨x, List.mem_cons_of_mem _ h1, h2⟩

theorem renderFrom {c : Content.Content} (hm : Made P c) {spans : List Span} (h : ∃ l ∈ c.spans, ∀ sp ∈ spans, sp ∈ l)
    (ls ll : Nat) : ∀ (fuel pos : Nat) (rest : List Grapheme) (segs : List Segment),
    c.renderFrom spans ls ll fuel pos rest = some segs → Dressed P segs
  | 0, pos, rest, segs, e => by
    unfold Content.renderFrom at e
    split at e
    · cases e; exact nil
    · cases e
  | fuel + 1, pos, rest, segs, e => by
    unfold Content.renderFrom at e
    split at e
    · cases e; exact nil
    · dsimp only at e
      split at e
      · cases e
      · obtain ⟨segs', h1, rfl⟩ := Option.map_eq_some_iff.1 e
        refine append ?_ (renderFrom hm h ls ll fuel _ _ segs' h1)
        unfold mkSegment
        split
        · exact nil
        · refine one ?_
          have hst : P (c.withLink (Content.spanStyle (c.style.getD {}) spans (ls + pos)) (spanMeta spans (ls + pos))) := by
            unfold Content.withLink
            split
            · rename_i action link e1 e2
              obtain ⟨l, hl, hs⟩ := h
              exact hm.link link e2 (clicks hl hs _ (by rw [e1]; rfl)) _ _ (spanStyle hm ⟨l, hl, hs⟩ _)
            · exact spanStyle hm h _
          show P ((if _ then none else some _ : Option Style).getD {})
          split
          · rename_i he
            rw [style_eq_empty he] at hst
            exact hst
          · exact hst

theorem renderLine {c : Content.Content} (hm : Made P c) {spans : List Span} (hs : c.spans = some spans) (ls : Nat)
    (line : List Grapheme) (s : Strip) (e : c.renderLine spans ls line = some s) : Dressed P s.segments := by
  unfold Content.renderLine at e
  split at e
  · cases e; exact nil
  · dsimp only at e
    split at e
    · cases e; exact one hm.base
    · obtain ⟨segs, h1, rfl⟩ := Option.map_eq_some_iff.1 e
      exact renderFrom hm ⟨spans, hs, fun sp h => List.mem_of_mem_filter h⟩ _ _ _ _ _ segs h1

theorem renderRanges {c : Content.Content} (hm : Made P c) {spans : List Span} (hs : c.spans = some spans) (ls : Nat)
    (line : List Grapheme) : ∀ (ranges : List (Nat × Nat)) (l : List Strip), c.renderRanges spans ls line ranges = some l →
    ∀ s ∈ l, Dressed P s.segments
  | [], l, e, s, h => by unfold Content.renderRanges at e; cases e; cases h
  | (a, b) :: rest, l, e, s, h => by
    unfold Content.renderRanges at e
    split at e
    · cases e
    · split at e
      · cases e
      · rename_i s' e'
        obtain ⟨l', h1, rfl⟩ := Option.map_eq_some_iff.1 e
        rcases List.mem_cons.1 h with rfl | h
        · exact renderLine hm hs _ _ s e'
        · exact renderRanges hm hs ls line rest l' h1 s h

theorem wrapOne {c : Content.Content} (hm : Made P c) (ws : Grapheme → Bool) (width : Nat) (o : Overflow) (m : Wrap) (ls : Nat)
    (line : List Grapheme) (h : Ones line) (l : List WrappedLine) (e : c.wrapOne ws width o m ls line = some l) :
    ∀ x ∈ l, Dressed P x.strip.segments := by
  unfold Content.wrapOne at e
  split at e
  · cases e
    intro x hx
    rw [List.mem_singleton.1 hx]
    exact nil
  cases m with
  | noWrap =>
    dsimp only at e
    obtain ⟨s, h1, rfl⟩ := Option.map_eq_some_iff.1 e
    have hs : Dressed P s.segments ∧ s.OneColumn := by
      unfold Content.fullLine at h1
      split at h1
      · rename_i sp e2
        exact ⟨renderLine hm e2 _ _ s h1, renderLine_one c _ _ _ h s h1⟩
      · cases h1; exact ⟨one hm.base, .text h _⟩
    cases o with
    | fold =>
      refine markLast_all (P := fun s => Dressed P s.segments) ?_
      unfold splitByWidth
      split
      · intro t ht; rw [List.mem_singleton.1 ht]; exact nil
      split
      · intro t ht; rw [List.mem_singleton.1 ht]; exact nil
      · exact splitLoop hs.1 width _ 0 (Nat.le_refl _)
    | clip => intro x hx; rw [List.mem_singleton.1 hx]; exact hs.1.crop _ _
    | ellipsis => intro x hx; rw [List.mem_singleton.1 hx]; exact hs.1.truncate hs.2 _
  | wrap =>
    dsimp only at e
    obtain ⟨l', h1, rfl⟩ := Option.map_eq_some_iff.1 e
    have hl : ∀ s ∈ l', Dressed P s.segments ∧ s.OneColumn := by
      split at h1
      · rename_i sp e2
        unfold Content.wrapLineSpans at h1
        split at h1
        · cases h1
        · exact fun s hs => ⟨renderRanges hm e2 _ _ _ l' h1 s hs, renderRanges_one c _ _ _ h _ l' h1 s hs⟩
      · cases h1
        intro s hs
        obtain ⟨t, ht, rfl⟩ := List.mem_map.1 hs
        exact ⟨one hm.base, .text (wrapWords_ones width _ [] 0 (fun x hx => by cases hx)
          (wordsLoop_ones ws line [] (fun x hx => by cases hx) h) t ht) _⟩
    refine markLast_all (P := fun s => Dressed P s.segments) ?_
    intro t ht
    obtain ⟨s, hs, rfl⟩ := List.mem_map.1 ht
    split
    · exact (hl s hs).1.truncate (hl s hs).2 _
    · exact (hl s hs).1

/-- The lines made of a text have the styles of the text, its spans and links. -/
theorem wrapFull {c : Content.Content} (hm : Made P c) (h : ∀ g ∈ c.text, g.text ≠ "\n" → g.width = 1) (ws : Grapheme → Bool)
    (width : Nat) (o : Overflow) (m : Wrap) (l : List WrappedLine) (e : c.wrapFull ws width o m = some l) :
    ∀ x ∈ l, Dressed P x.strip.segments := by
  have one : ∀ x ∈ [(⟨Strip.new, true⟩ : WrappedLine)], Dressed P x.strip.segments := by
    intro x hx; rw [List.mem_singleton.1 hx]; exact nil
  unfold Content.wrapFull at e
  split at e
  · cases e; exact one
  · obtain ⟨r, h1, rfl⟩ := Option.map_eq_some_iff.1 e
    split
    · exact one
    · exact wrapLines_all c ws width o m (fun s => Dressed P s.segments) _ _
        (fun line hm' start l e => wrapOne hm ws width o m start line (splitLines_ones c.text h line hm') l e) r h1

/-! ### The lines of a widget -/

open RenderCache

/-- The styles of the pieces of a row of a border. -/
def Row (P : Style → Prop) (r : RenderCache.Row) : Prop := Dressed P [r.left, r.fill, r.right]

theorem Row.left {r : RenderCache.Row} (h : Row P r) : P (r.left.style.getD {}) := h _ (by simp)
theorem Row.fill {r : RenderCache.Row} (h : Row P r) : P (r.fill.style.getD {}) := h _ (by simp)
theorem Row.right {r : RenderCache.Row} (h : Row P r) : P (r.right.style.getD {}) := h _ (by simp)

/-- The styles of the pieces of a border. -/
structure Box (P : Style → Prop) (b : RenderCache.Box) : Prop where
  top : Row P b.top
  middle : Row P b.middle
  bottom : Row P b.bottom

/-- A label to be drawn in the border. -/
structure Label (P : Style → Prop) (t : Strip) : Prop where
  dressed : Dressed P t.segments
  one : t.OneColumn
  pos : 0 < t.cellLength

theorem Label.ne {t : Strip} (h : Label P t) : t.segments ≠ [] := by
  intro e
  have := h.one.wf.length
  unfold Strip.cells at this
  rw [e] at this
  have hp := h.pos
  change 0 = _ at this
  omega

theorem repeatChar {s : Segment} (h : P (s.style.getD {})) {n : Nat} (hn : 0 < n) :
    P ((repeatCharSegment s n).style.getD {}) := by
  unfold repeatCharSegment
  rw [if_neg (by omega)]
  exact h

theorem whenChar {s : Segment} (h : P (s.style.getD {})) (n : Nat) :
    Dressed P (if n > 0 then [repeatCharSegment s n] else []) := by
  split
  · rename_i hn; exact one (repeatChar h hn)
  · exact nil

theorem renderLabel {t : Strip} (h : Label P t) {fill : Segment} (hf : P (fill.style.getD {})) (w : Nat) (hw : 6 ≤ w)
    (al : Strip.AlignH) : Dressed P (RenderCache.renderLabel t fill w al).segments := by
  unfold RenderCache.renderLabel
  dsimp only
  have hh := h.dressed.head h.ne
  split
  · refine append (append (append ?_ (h.dressed.crop _ _)) ?_) (whenChar hf _)
    · exact cons (repeatChar hf (by decide)) (one hh)
    · exact cons ((h.dressed.crop _ _).last (crop_ne h.one h.pos _ (by omega))) (one hh)
  · exact append (append (append (append (whenChar hf _) (one hh)) h.dressed) (one hh)) (whenChar hf _)

theorem renderRow {row : RenderCache.Row} (hr : Row P row) (w : Nat) {title subtitle : Option Strip}
    (ht : ∀ t ∈ title, Label P t) (hs : ∀ t ∈ subtitle, Label P t) (hw : title ≠ none ∨ subtitle ≠ none → 8 ≤ w)
    (a b : Strip.AlignH) : Dressed P (RenderCache.renderRow row w title subtitle a b).segments := by
  unfold RenderCache.renderRow
  split
  · split
    · exact cons hr.left (one hr.right)
    split
    · exact one hr.left
    · exact nil
  · dsimp only
    refine cons hr.left (append ?_ (one hr.right))
    cases title with
    | some t => exact renderLabel (ht t rfl) hr.fill _ (by have := hw (.inl (by simp)); omega) _
    | none =>
      cases subtitle with
      | some t => exact renderLabel (hs t rfl) hr.fill _ (by have := hw (.inr (by simp)); omega) _
      | none =>
        dsimp only
        unfold repeatSegment
        split
        · exact nil
        · exact one hr.fill

theorem fillSegment {s : Segment} (h : P (s.style.getD {})) (n : Nat) : P ((fillSegment s n).style.getD {}) := h

theorem horizontalRow {row : RenderCache.Row} (hr : Row P row) (w : Nat) {label : Option Strip}
    (hl : ∀ t ∈ label, Label P t) (hw : label ≠ none → 8 ≤ w) (al : Strip.AlignH) :
    Dressed P (RenderCache.horizontalRow row w label al).segments := by
  unfold RenderCache.horizontalRow
  cases label with
  | none => exact one (fillSegment hr.fill _)
  | some t =>
    have h := hl t rfl
    have := hw (by simp)
    dsimp only
    split
    · refine append (append (append (one (fillSegment hr.fill _)) (h.dressed.crop _ _)) (one ?_)) (when (fillSegment hr.fill _))
      exact (h.dressed.crop _ _).last (crop_ne h.one h.pos _ (by omega))
    · exact append (append (when (fillSegment hr.fill _)) h.dressed) (when (fillSegment hr.fill _))

theorem fitLine {content : Option Strip} (h : ∀ s ∈ content, Dressed P s.segments) (w : Nat) {st : Option Style}
    (hp : P (st.getD {})) : Dressed P (RenderCache.fitLine content w st).segments := by
  cases content with
  | none => exact blank _ hp
  | some s => exact (h s rfl).adjust _ hp

/-- The styles of everything in the render cache. -/
structure CacheOf (P : Style → Prop) (c : Cache) : Prop where
  pad : P (c.padStyle.getD {})
  box : ∀ b ∈ c.box, Box P b
  outline : ∀ b ∈ c.outlineBox, Box P b

theorem contentRow {c : Cache} (hc : CacheOf P c) (w : Nat) {content : Option Strip} (h : ∀ s ∈ content, Dressed P s.segments) :
    Dressed P (c.contentRow w content).segments := by
  unfold Cache.contentRow
  dsimp only
  split
  · exact fitLine h _ hc.pad
  · exact append (append (when hc.pad) (fitLine h _ hc.pad)) (when hc.pad)

theorem middleRow {c : Cache} (hc : CacheOf P c) {row : RenderCache.Row} (hr : Row P row) (w : Nat) {content : Option Strip}
    (h : ∀ s ∈ content, Dressed P s.segments) : Dressed P (c.middleRow row content w).segments := by
  unfold Cache.middleRow
  dsimp only
  exact append (append (append (append (when hr.left) (when hc.pad)) (fitLine h _ hc.pad)) (when hc.pad)) (when hr.right)

theorem labeledRow {c : Cache} {row : RenderCache.Row} (hr : Row P row) (w : Nat) (hw : 8 ≤ w) {t : Strip}
    (h : Label P t) (al : Strip.AlignH) : Dressed P (c.labeledRow row w t al).segments := by
  unfold Cache.labeledRow
  dsimp only
  have := one_le c.left
  have := one_le c.right
  exact append (append (when hr.left) (renderLabel h hr.fill _ (by omega) _)) (when hr.right)

theorem outlineEdge {c : Cache} {row : RenderCache.Row} (hr : Row P row) (w : Nat) : Dressed P (c.outlineEdge row w).segments := by
  unfold Cache.outlineEdge
  dsimp only
  exact append (append (when hr.left) (when (fillSegment hr.fill _))) (when hr.right)

theorem applyOutline {c : Cache} (hc : CacheOf P c) {s : Strip} (h : Dressed P s.segments) (y ht w : Nat) :
    Dressed P (c.applyOutline s y ht w).segments := by
  unfold Cache.applyOutline
  split
  · exact h
  · rename_i b e
    have hb := hc.outline b e
    split
    · exact h
    split
    · exact outlineEdge hb.top _
    split
    · exact outlineEdge hb.bottom _
    split
    · dsimp only
      exact append (append (when hb.middle.left) ((h.crop _ _).adjust _ hc.pad)) (when hb.middle.right)
    · exact h

theorem renderLineOf {c : Cache} (hc : CacheOf P c) (y ht w : Nat) {content title subtitle : Option Strip}
    (h : ∀ s ∈ content, Dressed P s.segments) (h1 : ∀ t ∈ title, Label P t) (h2 : ∀ t ∈ subtitle, Label P t)
    (hw : title ≠ none ∨ subtitle ≠ none → 8 ≤ w) : Dressed P (c.renderLine y ht w content title subtitle).segments := by
  have no : ∀ t ∈ (none : Option Strip), Label P t := fun t h => by cases h
  unfold Cache.renderLine
  split
  · exact nil
  split
  · exact applyOutline hc (contentRow hc _ h) _ _ _
  · rename_i b e
    have hb := hc.box b e
    split
    · refine applyOutline hc ?_ _ _ _
      split
      · exact renderRow hb.top _ h1 no (fun h => hw (.inl (h.resolve_right (by simp)))) _ _
      · exact horizontalRow hb.top _ h1 (fun h => hw (.inl h)) _
    split
    · refine applyOutline hc ?_ _ _ _
      split
      · exact renderRow hb.bottom _ no h2 (fun h => hw (.inr (h.resolve_left (by simp)))) _ _
      · exact horizontalRow hb.bottom _ h2 (fun h => hw (.inr h)) _
    split
    · split
      · split
        · rename_i t e'
          split at e'
          · exact labeledRow hb.middle _ (hw (.inl (by rw [e']; simp))) (h1 t e') _
          · cases e'
        · split
          · rename_i t e'
            split at e'
            · exact labeledRow hb.middle _ (hw (.inr (by rw [e']; simp))) (h2 t e') _
            · cases e'
          · exact applyOutline hc (middleRow hc hb.middle _ h) _ _ _
      · exact applyOutline hc (contentRow hc _ h) _ _ _
    · exact applyOutline hc (blank _ hc.pad) _ _ _

/-! ### The rows of a text widget -/

open Static

theorem alignLine {s : Static.Sheet} (hp : P ((padOf s.text).getD {})) (w lw h : Nat) {line : WrappedLine}
    (hl : Dressed P line.strip.segments) : Dressed P (alignLine s w lw h line).segments := by
  unfold Static.alignLine
  dsimp only
  refine adjust ?_ _ hp
  have : Dressed P (if s.textAlign = .justify ∧ line.lineEnd = false then line.strip.justify lw (padOf s.text)
      else line.strip.textAlign s.textAlign.line lw (padOf s.text)).segments := by
    split
    · exact hl.justify _ hp
    · exact hl.textAlign _ _ hp
  split
  · refine join ?_
    intro t ht
    simp only [List.mem_cons, List.not_mem_nil, or_false] at ht
    rcases ht with rfl | rfl
    · exact blank _ hp
    · exact this
  · exact this

theorem alignContent {s : Static.Sheet} (hp : P ((padOf s.text).getD {})) {lines : List WrappedLine}
    (hl : ∀ line ∈ lines, Dressed P line.strip.segments) (w h : Nat) : ∀ t ∈ alignContent s lines w h, Dressed P t.segments := by
  unfold Static.alignContent
  split
  · intro t ht; cases ht
  · dsimp only
    intro t ht
    rcases List.mem_append.1 ht with ht | ht
    · rcases List.mem_append.1 ht with ht | ht
      · rw [List.eq_of_mem_replicate ht]; exact blank _ hp
      · obtain ⟨line, hm, rfl⟩ := List.mem_map.1 ht
        exact alignLine hp _ _ _ (hl line (List.mem_of_mem_take hm))
    · rw [List.eq_of_mem_replicate ht]; exact blank _ hp

/-- All styles in the rows of a text widget are of a kind if those are it is made of. -/
theorem rows {s : Static.Sheet} (hp : P ((padOf s.text).getD {})) {c : Cache} (hc : CacheOf P c) {lines : List WrappedLine}
    (hl : ∀ line ∈ lines, Dressed P line.strip.segments) {title subtitle : Option Strip} (h1 : ∀ t ∈ title, Label P t)
    (h2 : ∀ t ∈ subtitle, Label P t) (w h : Nat) (hw : title ≠ none ∨ subtitle ≠ none → 8 ≤ w) :
    ∀ row ∈ (drawLines s c lines title subtitle w h).rows, Dressed P row.segments := by
  intro row hrow
  unfold drawLines at hrow
  dsimp only at hrow
  obtain ⟨y, -, rfl⟩ := List.mem_map.1 hrow
  refine renderLineOf hc y h w ?_ ?_ ?_ ?_
  · intro t ht
    split at ht
    · exact alignContent hp hl _ _ t (List.mem_of_getElem? ht)
    · cases ht
  · intro t ht
    split at ht
    · exact h1 t ht
    · cases ht
  · intro t ht
    split at ht
    · exact h2 t ht
    · cases ht
  · intro hne
    refine hw ?_
    rcases hne with hne | hne
    · split at hne
      · exact .inl hne
      · exact absurd rfl hne
    · split at hne
      · exact .inr hne
      · exact absurd rfl hne

end Dressed

end Textual
