import Verif.Lemmas.Content

/-! Lemmas about lines with spans. -/

namespace Textual.Content

theorem blen_nil : blen [] = 0 := rfl

theorem blen_cons (g : Grapheme) (t : List Grapheme) : blen (g :: t) = gbytes g + blen t := by simp [blen]

theorem blen_append (a b : List Grapheme) : blen (a ++ b) = blen a + blen b := by simp [blen]

theorem Solid.sub {a b : List Grapheme} (h : Solid b) (hs : ∀ g ∈ a, g ∈ b) : Solid a := fun g hg => h g (hs g hg)

theorem blen_pos {t : List Grapheme} (h : Solid t) (hne : t ≠ []) : 0 < blen t := by
  cases t with
  | nil => exact absurd rfl hne
  | cons g t => rw [blen_cons]; have := h g (by simp); omega

/-! ### The styles at an offset -/

theorem spanMeta_eq (spans : List Span) (pos : Nat) : spanMeta spans pos = metaAt spans pos := by
  have key : ∀ (l : List Span) (acc : Meta),
      l.foldl (fun acc s => if s.covers pos then extendMeta acc s.info else acc) acc =
        (((covering l pos).map (·.info)).reverse.flatten) ++ acc := by
    intro l
    induction l with
    | nil => intro acc; simp [covering]
    | cons s l ih =>
      intro acc
      rw [List.foldl_cons, ih]
      by_cases h : s.start ≤ pos ∧ pos < s.stop
      · have hc : s.covers pos = true := by simp [Span.covers, h.1, h.2]
        have e : covering (s :: l) pos = s :: covering l pos := by simp [covering, h]
        rw [if_pos hc, e]
        simp [extendMeta]
      · have hc : ¬ s.covers pos = true := by simpa [Span.covers] using h
        have e : covering (s :: l) pos = covering l pos := by
          unfold covering; rw [List.filter_cons_of_neg]; simpa using h
        rw [if_neg hc, e]
  unfold spanMeta metaAt
  rw [key]; simp

theorem spanStyle_eq (base : Style) (spans : List Span) (pos : Nat) :
    spanStyle base spans pos = ((covering spans pos).map (·.style)).foldl Style.apply base := by
  unfold spanStyle
  induction spans generalizing base with
  | nil => rfl
  | cons s l ih =>
    rw [List.foldl_cons, ih]
    by_cases h : s.start ≤ pos ∧ pos < s.stop
    · have hc : s.covers pos = true := by simp [Span.covers, h.1, h.2]
      have e : covering (s :: l) pos = s :: covering l pos := by simp [covering, h]
      rw [if_pos hc, e]; rfl
    · have hc : ¬ s.covers pos = true := by simpa [Span.covers] using h
      have e : covering (s :: l) pos = covering l pos := by
        unfold covering; rw [List.filter_cons_of_neg]; simpa using h
      rw [if_neg hc, e]

theorem styleAt_eq (c : Content) (spans : List Span) (pos : Nat) :
    c.withLink (spanStyle (c.style.getD {}) spans pos) (spanMeta spans pos) = c.styleAt spans pos := by
  rw [spanStyle_eq, spanMeta_eq]
  unfold Content.withLink Content.styleAt metaAt
  dsimp only
  split
  · rename_i h1 h2
    rw [h1, h2]
    dsimp only
    congr 1
    rw [Bool.eq_iff_iff]; simp
  · rename_i h
    split
    · rename_i h1 h2
      exact absurd h2 (h _ _ h1)
    · rfl

theorem styleAt_covering {c : Content} {s1 s2 : List Span} {p1 p2 : Nat}
    (h : covering s1 p1 = covering s2 p2) :
    c.styleAt s1 p1 = c.styleAt s2 p2 ∧ metaAt s1 p1 = metaAt s2 p2 := by
  unfold Content.styleAt metaAt
  rw [h]
  exact ⟨rfl, rfl⟩

/-! ### Annotated text -/

theorem annotate_append (c : Content) (spans : List Span) : ∀ (a b : List Grapheme) (pos : Nat),
    c.annotate spans pos (a ++ b) = c.annotate spans pos a ++ c.annotate spans (pos + blen a) b
  | [], b, pos => by simp [Content.annotate, blen_nil]
  | g :: a, b, pos => by
    simp only [List.cons_append, Content.annotate]
    rw [annotate_append c spans a b, blen_cons, Nat.add_assoc]

theorem annotate_map (c : Content) (spans : List Span) : ∀ (a : List Grapheme) (pos : Nat),
    (c.annotate spans pos a).map (·.1) = a
  | [], _ => rfl
  | g :: a, pos => by simp [Content.annotate, annotate_map c spans a]

theorem annotate_length (c : Content) (spans : List Span) (a : List Grapheme) (pos : Nat) :
    (c.annotate spans pos a).length = a.length := by
  rw [← List.length_map (f := (·.1)), annotate_map]

theorem annotate_congr (c : Content) {s1 s2 : List Span} : ∀ (a : List Grapheme) (pos : Nat), Solid a →
    (∀ o, pos ≤ o → o < pos + blen a → covering s1 o = covering s2 o) →
    c.annotate s1 pos a = c.annotate s2 pos a
  | [], _, _, _ => rfl
  | g :: a, pos, hs, h => by
    have hg := hs g (by simp)
    have := styleAt_covering (c := c) (h pos (by omega) (by rw [blen_cons]; omega))
    simp only [Content.annotate]
    rw [this.1, this.2, annotate_congr c a (pos + gbytes g) (hs.sub (by simp +contextual))
      (fun o h1 h2 => h o (by omega) (by rw [blen_cons]; omega))]

theorem annotate_const (c : Content) {spans : List Span} (p0 : Nat) : ∀ (a : List Grapheme) (pos : Nat), Solid a →
    (∀ o, pos ≤ o → o < pos + blen a → covering spans o = covering spans p0) →
    c.annotate spans pos a = a.map fun g => (g, c.styleAt spans p0, metaAt spans p0)
  | [], _, _, _ => rfl
  | g :: a, pos, hs, h => by
    have hg := hs g (by simp)
    have := styleAt_covering (c := c) (h pos (by omega) (by rw [blen_cons]; omega))
    simp only [Content.annotate, List.map_cons]
    rw [this.1, this.2, annotate_const c p0 a (pos + gbytes g) (hs.sub (by simp +contextual))
      (fun o h1 h2 => h o (by omega) (by rw [blen_cons]; omega))]

theorem annotate_nil_spans (c : Content) (t : List Grapheme) (pos : Nat) :
    c.annotate [] pos t = t.map fun g => (g, c.style.getD {}, []) := by
  induction t generalizing pos with
  | nil => rfl
  | cons g t ih =>
    simp only [Content.annotate, List.map_cons, ih]
    simp [Content.styleAt, metaAt, covering]

theorem annotate_take (c : Content) (spans : List Span) (t : List Grapheme) (pos k : Nat) :
    c.annotate spans pos (t.take k) = (c.annotate spans pos t).take k := by
  induction t generalizing pos k with
  | nil => simp [Content.annotate]
  | cons g t ih =>
    cases k with
    | zero => rfl
    | succ k => simp [Content.annotate, ih]

theorem annotate_drop (c : Content) (spans : List Span) (t : List Grapheme) (pos k : Nat) :
    c.annotate spans (pos + blen (t.take k)) (t.drop k) = (c.annotate spans pos t).drop k := by
  induction t generalizing pos k with
  | nil => simp [Content.annotate]
  | cons g t ih =>
    cases k with
    | zero => simp [blen_nil]
    | succ k =>
      simp only [List.take_succ_cons, List.drop_succ_cons, blen_cons, Content.annotate]
      rw [← ih (pos + gbytes g) k, Nat.add_assoc]

/-! ### Segments of a line -/

/-- Spans start and end between characters of a piece of text that starts at byte `start`. -/
def AlignedAt (spans : List Span) (start : Nat) (line : List Grapheme) : Prop :=
  ∀ s ∈ spans, ∀ x, x = s.start ∨ x = s.stop → start < x → x < start + blen line →
    ∃ k, x = start + blen (line.take k)

theorem Aligned.at {spans : List Span} {text : List Grapheme} (h : Aligned spans text) :
    AlignedAt spans 0 text := by
  intro s hs x hx h1 h2
  obtain ⟨k, hk⟩ := h s hs x hx (by omega)
  exact ⟨k, by omega⟩

theorem blen_take_le (t : List Grapheme) (k : Nat) : blen (t.take k) ≤ blen t := by
  conv_rhs => rw [← List.take_append_drop k t, blen_append]
  omega

theorem AlignedAt.piece {spans : List Span} {start : Nat} {a b d : List Grapheme}
    (h : AlignedAt spans start (a ++ (b ++ d))) : AlignedAt spans (start + blen a) b := by
  intro s hs x hx h1 h2
  obtain ⟨k, hk⟩ := h s hs x hx (by omega) (by rw [blen_append, blen_append]; omega)
  rw [List.take_append] at hk
  by_cases hka : k ≤ a.length
  · have : k - a.length = 0 := by omega
    rw [this, List.take_zero, List.append_nil] at hk
    have := blen_take_le a k
    omega
  · rw [List.take_of_length_le (by omega : a.length ≤ k), blen_append, List.take_append, blen_append] at hk
    by_cases hkb : k - a.length ≤ b.length
    · have : k - a.length - b.length = 0 := by omega
      rw [this, List.take_zero, blen_nil] at hk
      exact ⟨k - a.length, by omega⟩
    · rw [List.take_of_length_le (by omega : b.length ≤ k - a.length)] at hk
      omega

theorem AlignedAt.slice {spans : List Span} {start : Nat} {line : List Grapheme}
    (h : AlignedAt spans start line) (i j : Nat) (hij : i ≤ j) :
    AlignedAt spans (start + blen (line.take i)) ((line.take j).drop i) := by
  apply AlignedAt.piece (d := line.drop j)
  have : line.take i ++ ((line.take j).drop i ++ line.drop j) = line := by
    rw [← List.append_assoc]
    have e : line.take i = (line.take j).take i := by rw [List.take_take, Nat.min_eq_left hij]
    rw [e, List.take_append_drop, List.take_append_drop]
  rw [this]; exact h

theorem AlignedAt.mono {s1 s2 : List Span} {start : Nat} {line : List Grapheme} (h : AlignedAt s2 start line)
    (hs : ∀ s ∈ s1, s ∈ s2) : AlignedAt s1 start line := fun s hs1 => h s (hs s hs1)

theorem splitBytes_append : ∀ (a r : List Grapheme), Solid a → splitBytes (blen a) (a ++ r) = some (a, r)
  | [], r, _ => by unfold splitBytes; rfl
  | g :: a, r, hs => by
    have hp := hs g (by simp)
    rw [blen_cons]
    obtain ⟨k, hk⟩ : ∃ k, gbytes g + blen a = k + 1 := ⟨gbytes g + blen a - 1, by omega⟩
    rw [hk, List.cons_append, splitBytes, if_pos (by omega)]
    have : k + 1 - gbytes g = blen a := by omega
    rw [this, splitBytes_append a r (hs.sub (by simp +contextual))]
    rfl

/-- One step of `nextChange`. -/
def changeStep (lineStart absPos next : Nat) (s : Span) : Nat :=
  let next := if s.start > absPos ∧ s.start - lineStart < next then s.start - lineStart else next
  if s.stop > absPos ∧ s.stop - lineStart < next then s.stop - lineStart else next

theorem changeStep_spec (ls pos next : Nat) (s : Span) (h : pos < next) :
    let r := changeStep ls (ls + pos) next s
    pos < r ∧ r ≤ next ∧ (ls + pos < s.start → ls + r ≤ s.start) ∧ (ls + pos < s.stop → ls + r ≤ s.stop) ∧
      (r = next ∨ ls + r = s.start ∨ ls + r = s.stop) := by
  dsimp only
  unfold changeStep
  dsimp only
  by_cases h1 : s.start > ls + pos ∧ s.start - ls < next
  · rw [if_pos h1]
    split <;> refine ⟨?_, ?_, ?_, ?_, ?_⟩ <;> omega
  · rw [if_neg h1]
    split <;> refine ⟨?_, ?_, ?_, ?_, ?_⟩ <;> omega

theorem changeFold_spec (ls pos : Nat) : ∀ (l : List Span) (next : Nat), pos < next →
    pos < l.foldl (changeStep ls (ls + pos)) next ∧ l.foldl (changeStep ls (ls + pos)) next ≤ next ∧
      (∀ s ∈ l, (ls + pos < s.start → ls + l.foldl (changeStep ls (ls + pos)) next ≤ s.start) ∧
        (ls + pos < s.stop → ls + l.foldl (changeStep ls (ls + pos)) next ≤ s.stop)) ∧
      (l.foldl (changeStep ls (ls + pos)) next = next ∨
        ∃ s ∈ l, ls + l.foldl (changeStep ls (ls + pos)) next = s.start ∨
          ls + l.foldl (changeStep ls (ls + pos)) next = s.stop)
  | [], next, h => ⟨h, Nat.le_refl _, by simp, Or.inl rfl⟩
  | s :: l, next, h => by
    obtain ⟨h1, h2, h3, h4, h5⟩ := changeStep_spec ls pos next s h
    obtain ⟨i1, i2, i3, i4⟩ := changeFold_spec ls pos l (changeStep ls (ls + pos) next s) h1
    rw [List.foldl_cons]
    refine ⟨i1, by omega, ?_, ?_⟩
    · intro x hx
      rcases List.mem_cons.1 hx with rfl | hx
      · exact ⟨fun h => by have := h3 h; omega, fun h => by have := h4 h; omega⟩
      · exact i3 x hx
    · rcases i4 with h' | ⟨x, hx, h'⟩
      · rw [h']
        rcases h5 with h5 | h5
        · exact Or.inl h5
        · exact Or.inr ⟨s, by simp, h5⟩
      · exact Or.inr ⟨x, by simp [hx], h'⟩

theorem nextChange_eq (spans : List Span) (ls absPos len : Nat) :
    nextChange spans ls absPos len = spans.foldl (changeStep ls absPos) len := rfl

/-- The glyphs of a list of segments. -/
def segGlyphs (segs : List Segment) : List Glyph :=
  segs.flatMap fun seg => seg.text.map fun g => (g, seg.style.getD {}, seg.info)

theorem segGlyphs_append (a b : List Segment) : segGlyphs (a ++ b) = segGlyphs a ++ segGlyphs b := by
  simp [segGlyphs]

theorem style_eq_empty {s : Style} (h : s.isEmpty = true) : s = {} := by
  cases s
  simp only [Style.isEmpty, Bool.and_eq_true, Option.isNone_iff_eq_none, Bool.not_eq_true'] at h
  simp_all

theorem mkSegment_glyphs (a : List Grapheme) (st : Style) (m : Meta) :
    segGlyphs (mkSegment a st m) = a.map fun g => (g, st, m) := by
  unfold mkSegment
  by_cases ha : a = []
  · simp [ha, segGlyphs]
  · by_cases hs : st.isEmpty = true
    · have : a.isEmpty = false := by simpa using ha
      have he := style_eq_empty hs
      subst he
      simp only [this, hs, segGlyphs, Segment.mk']
      simp
    · have : a.isEmpty = false := by simpa using ha
      simp only [this, hs, segGlyphs, Segment.mk']
      simp

theorem mkSegment_wf (a : List Grapheme) (st : Style) (m : Meta) :
    ∀ x ∈ mkSegment a st m, x.cellLength = widthOf x.text := by
  unfold mkSegment
  intro x hx
  split at hx
  · simp at hx
  · simp only [List.mem_singleton] at hx
    subst hx; rfl

theorem renderFrom_spec (c : Content) {spans : List Span} {ls : Nat} {line : List Grapheme}
    (hs : Solid line) (ha : AlignedAt spans ls line) : ∀ (fuel : Nat) (pre rest : List Grapheme),
    line = pre ++ rest → rest.length ≤ fuel →
    ∃ segs, c.renderFrom spans ls (blen line) fuel (blen pre) rest = some segs ∧
      segGlyphs segs = c.annotate spans (ls + blen pre) rest ∧
      ∀ x ∈ segs, x.cellLength = widthOf x.text
  | 0, pre, rest, ht, hf => by
    have : rest = [] := List.eq_nil_of_length_eq_zero (by omega)
    subst this
    refine ⟨[], ?_, rfl, by simp⟩
    unfold Content.renderFrom
    rw [if_pos (by rw [ht]; simp)]
  | fuel + 1, pre, rest, ht, hf => by
    by_cases hr : rest = []
    · subst hr
      refine ⟨[], ?_, rfl, by simp⟩
      unfold Content.renderFrom
      rw [if_pos (by rw [ht]; simp)]
    · have hsr : Solid rest := hs.sub (by rw [ht]; simp +contextual)
      have hpos : blen pre < blen line := by
        rw [ht, blen_append]
        have := blen_pos hsr hr
        omega
      obtain ⟨e1, e2, e3, e4⟩ := changeFold_spec ls (blen pre) spans (blen line) hpos
      rw [← nextChange_eq] at e1 e2 e3 e4
      have hmin : min (nextChange spans ls (ls + blen pre) (blen line)) (blen line) =
          nextChange spans ls (ls + blen pre) (blen line) := by omega
      generalize hst : nextChange spans ls (ls + blen pre) (blen line) = stop at e1 e2 e3 e4 hmin
      obtain ⟨k, hk⟩ : ∃ k, stop = blen (line.take k) := by
        rcases Nat.lt_or_ge stop (blen line) with hlt | hge
        · rcases e4 with h | ⟨s, hmem, h | h⟩
          · omega
          · obtain ⟨k, hk⟩ := ha s hmem _ (Or.inl h) (by omega) (by omega)
            exact ⟨k, by omega⟩
          · obtain ⟨k, hk⟩ := ha s hmem _ (Or.inr h) (by omega) (by omega)
            exact ⟨k, by omega⟩
        · exact ⟨line.length, by rw [List.take_length]; omega⟩
      have hkp : pre.length < k := by
        by_contra hle
        have : line.take k = pre.take k := by
          rw [ht, List.take_append_of_le_length (by omega)]
        rw [this] at hk
        have := blen_take_le pre k
        omega
      have htake : line.take k = pre ++ rest.take (k - pre.length) := by
        rw [ht, List.take_append, List.take_of_length_le (by omega)]
      obtain ⟨a, r, hrest, hab⟩ : ∃ a r, rest = a ++ r ∧ blen pre + blen a = stop :=
        ⟨rest.take (k - pre.length), rest.drop (k - pre.length), (List.take_append_drop _ _).symm, by
          rw [hk, htake, blen_append]⟩
      have hsa : Solid a := hsr.sub (by rw [hrest]; simp +contextual)
      have hane : a ≠ [] := by
        intro h; subst h; rw [blen_nil] at hab; omega
      have hlen : 0 < a.length := List.length_pos_iff.2 hane
      obtain ⟨segs, s1, s2, s3⟩ := renderFrom_spec c hs ha fuel (pre ++ a) r
        (by rw [ht, hrest]; simp) (by rw [hrest] at hf; simp at hf; omega)
      refine ⟨mkSegment a (c.styleAt spans (ls + blen pre)) (metaAt spans (ls + blen pre)) ++ segs, ?_, ?_, ?_⟩
      · unfold Content.renderFrom
        rw [if_neg (by omega)]
        dsimp only
        rw [hst, hmin, styleAt_eq, spanMeta_eq]
        have : stop - blen pre = blen a := by omega
        rw [this, hrest, splitBytes_append a r hsa]
        dsimp only
        rw [show stop = blen (pre ++ a) by rw [blen_append]; omega, s1]
        rfl
      · rw [segGlyphs_append, mkSegment_glyphs, s2, hrest, annotate_append, blen_append, ← Nat.add_assoc]
        congr 1
        symm
        apply annotate_const c (ls + blen pre) a _ hsa
        intro o h1 h2
        unfold covering
        apply List.filter_congr
        intro s hmem
        have := e3 s hmem
        simp only [decide_eq_decide]
        omega
      · intro x hx
        rcases List.mem_append.1 hx with hx | hx
        · exact mkSegment_wf _ _ _ x hx
        · exact s3 x hx

theorem plainStrip_glyphs (c : Content) (line : List Grapheme) :
    glyphs (c.plainStrip line) = line.map fun g => (g, c.style.getD {}, []) := by
  simp [glyphs, Content.plainStrip, Strip.ofSegments, Segment.mk']

theorem ofSegments_glyphs (segs : List Segment) : glyphs (Strip.ofSegments segs) = segGlyphs segs := rfl

theorem glyphs_text (s : Strip) : (glyphs s).map (·.1) = textOf s := by
  unfold glyphs textOf
  rw [List.map_flatMap]
  congr 1
  funext seg
  rw [List.map_map]
  exact List.map_id _

theorem wf_width {s : Strip} (h : s.WF) : s.cellLength = widthOf (textOf s) := by
  rw [h.total]
  unfold textOf widthOf
  rw [List.map_flatMap]
  have : ∀ l : List Segment, (∀ x ∈ l, x.cellLength = widthOf x.text) →
      (l.map (·.cellLength)).sum = (l.flatMap fun a => a.text.map (·.width)).sum := by
    intro l
    induction l with
    | nil => simp
    | cons x l ih =>
      intro hl
      rw [List.map_cons, List.sum_cons, List.flatMap_cons, List.sum_append, ih (fun y hy => hl y (by simp [hy])),
        hl x (by simp)]
      rfl
  exact this _ h.seg

theorem plainStrip_wf (c : Content) (line : List Grapheme) : (c.plainStrip line).WF :=
  ⟨by simp [Content.plainStrip, Strip.ofSegments, Segment.mk'], rfl⟩

/-- A line of a content is drawn with exactly its characters, each in the style of its offset. -/
theorem renderLine_spec (c : Content) {spans : List Span} {ls : Nat} {line : List Grapheme}
    (hs : Solid line) (ha : AlignedAt spans ls line) :
    ∃ s, c.renderLine spans ls line = some s ∧ glyphs s = c.annotate spans ls line ∧ s.WF := by
  unfold Content.renderLine
  by_cases hl : line = []
  · subst hl
    exact ⟨Strip.new, rfl, rfl, ⟨by simp [Strip.new], rfl⟩⟩
  · rw [if_neg (by simpa using hl)]
    dsimp only
    have hcov : ∀ o, ls ≤ o → o < ls + blen line →
        covering (spans.filter fun s => decide (s.start < ls + blen line) && decide (ls < s.stop)) o =
          covering spans o := by
      intro o h1 h2
      unfold covering
      rw [List.filter_filter]
      apply List.filter_congr
      intro s _
      rw [Bool.eq_iff_iff]
      simp only [Bool.and_eq_true, decide_eq_true_eq]
      omega
    by_cases hr : (spans.filter fun s => decide (s.start < ls + blen line) && decide (ls < s.stop)) = []
    · rw [if_pos (by rw [hr]; rfl)]
      refine ⟨_, rfl, ?_, plainStrip_wf c line⟩
      rw [plainStrip_glyphs, ← annotate_nil_spans c line ls]
      apply annotate_congr c line ls hs
      intro o h1 h2
      rw [← hcov o h1 h2, hr]
    · rw [if_neg (by simpa using hr)]
      obtain ⟨segs, h1, h2, h3⟩ := renderFrom_spec c hs (ha.mono fun s h => (List.mem_filter.1 h).1) line.length []
        line rfl (Nat.le_refl _)
      rw [blen_nil] at h1
      rw [h1]
      refine ⟨_, rfl, ?_, ⟨h3, rfl⟩⟩
      rw [ofSegments_glyphs, h2, blen_nil]
      exact annotate_congr c line ls hs hcov

/-! ### Lines of a text -/

theorem splitLines_decomp : ∀ (t : List Grapheme),
    ((∀ g ∈ t, g.text ≠ "\n") ∧ splitLines t = [t]) ∨
    (∃ line nl t', t = line ++ nl :: t' ∧ nl.text = "\n" ∧ (∀ g ∈ line, g.text ≠ "\n") ∧
      splitLines t = line :: splitLines t')
  | [] => Or.inl ⟨by simp, rfl⟩
  | g :: gs => by
    by_cases hg : g.text = "\n"
    · exact Or.inr ⟨[], g, gs, rfl, hg, by simp, by rw [splitLines, if_pos hg]⟩
    · rcases splitLines_decomp gs with ⟨h1, h2⟩ | ⟨line, nl, t', h1, h2, h3, h4⟩
      · refine Or.inl ⟨?_, by rw [splitLines, if_neg hg, h2]⟩
        intro x hx
        rcases List.mem_cons.1 hx with rfl | hx
        · exact hg
        · exact h1 x hx
      · refine Or.inr ⟨g :: line, nl, t', by rw [h1]; rfl, h2, ?_, by rw [splitLines, if_neg hg, h4]⟩
        intro x hx
        rcases List.mem_cons.1 hx with rfl | hx
        · exact hg
        · exact h3 x hx

theorem gbytes_newline {g : Grapheme} (h : g.text = "\n") : gbytes g = 1 := by
  unfold gbytes; rw [h]; decide

theorem linesFrom_spec (c : Content) (spans : List Span) : ∀ (n : Nat) (t : List Grapheme) (start : Nat),
    t.length ≤ n → Solid t → AlignedAt spans start t →
    ∃ r, c.linesFrom spans start (splitLines t) = some r ∧ r.map textOf = splitLines t ∧
      r.flatMap glyphs = (c.annotate spans start t).filter (fun g => decide (g.1.text ≠ "\n")) ∧
      ∀ s ∈ r, s.WF := by
  have hkeep : ∀ (line : List Grapheme) (start : Nat), (∀ g ∈ line, g.text ≠ "\n") →
      (c.annotate spans start line).filter (fun g => decide (g.1.text ≠ "\n")) = c.annotate spans start line := by
    intro line start h
    rw [List.filter_eq_self]
    intro x hx
    have : x.1 ∈ line := by
      rw [← annotate_map c spans line start]
      exact List.mem_map_of_mem hx
    simpa using h _ this
  intro n
  induction n with
  | zero =>
    intro t start hn hs ha
    have : t = [] := List.eq_nil_of_length_eq_zero (by omega)
    subst this
    exact ⟨[Strip.new], rfl, rfl, rfl, by
      intro s hs; simp only [List.mem_singleton] at hs; subst hs; exact ⟨by simp [Strip.new], rfl⟩⟩
  | succ n ih =>
    intro t start hn hs ha
    rcases splitLines_decomp t with ⟨h1, h2⟩ | ⟨line, nl, t', h1, h2, h3, h4⟩
    · obtain ⟨s, r1, r2, r3⟩ := renderLine_spec c hs ha
      refine ⟨[s], ?_, ?_, ?_, by simpa using r3⟩
      · rw [h2]; simp [Content.linesFrom, r1]
      · rw [h2]
        simp only [List.map_cons, List.map_nil, ← glyphs_text, r2, annotate_map]
      · rw [hkeep t start h1]; simp [r2]
    · subst h1
      have hsl : Solid line := hs.sub (by simp +contextual)
      have hsr : Solid t' := hs.sub (by simp +contextual)
      have hal : AlignedAt spans start line := by
        have := AlignedAt.piece (start := start) (a := []) (b := line) (d := nl :: t') ha
        simpa [blen_nil] using this
      have har : AlignedAt spans (start + blen line + 1) t' := by
        have := AlignedAt.piece (start := start) (a := line ++ [nl]) (b := t') (d := []) (by simpa using ha)
        rw [blen_append, blen_cons, blen_nil, gbytes_newline h2] at this
        simpa [Nat.add_assoc] using this
      obtain ⟨s, r1, r2, r3⟩ := renderLine_spec c hsl hal
      obtain ⟨r, i1, i2, i3, i4⟩ := ih t' (start + blen line + 1) (by simp at hn; omega) hsr har
      refine ⟨s :: r, ?_, ?_, ?_, ?_⟩
      · rw [h4, Content.linesFrom, r1]; simp [i1]
      · rw [h4, List.map_cons, i2, ← glyphs_text, r2, annotate_map]
      · rw [annotate_append, List.filter_append, hkeep line start h3, List.flatMap_cons, r2, i3]
        simp only [Content.annotate]
        rw [List.filter_cons_of_neg (by simp [h2]), gbytes_newline h2]
      · intro x hx
        rcases List.mem_cons.1 hx with rfl | hx
        · exact r3
        · exact i4 x hx

end Textual.Content
