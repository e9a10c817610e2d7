import Verif.Lemmas.ContentWrap
import Verif.Props.Strip
import Verif.Props.Color

/-!
# Text content

C59 width of wrapped lines, C60 wrapping keeps the visible text, C61 line end marks, C62 styles of
lines, C63 ellipsis, C64 height, C65 fewest lines, C66 folding, C67 links.
-/

namespace Textual.Content

/-! ### Examples -/

/-- A narrow character. -/
def ch (s : String) : Grapheme := ⟨s, 1⟩

/-- A newline. -/
def nl : Grapheme := ⟨"\n", 0⟩

/-- ASCII white space. -/
def asciiWs (g : Grapheme) : Bool := g.text == " " || g.text == "\n" || g.text == "\t"

/-- `"ab cd\ne"`. -/
def sampleText : List Grapheme := [ch "a", ch "b", ch " ", ch "c", ch "d", nl, ch "e"]

/-- `"ab cd\ne"` with `b cd\ne` in bold. -/
def sampleSpans : Content := { text := sampleText, spans := some [⟨1, 7, { bold := true }, []⟩] }

theorem sampleText_solid : Solid sampleText := by unfold Solid; decide

theorem sampleSpans_aligned : Aligned [⟨1, 7, { bold := true }, []⟩] sampleText := by
  intro s hs x hx hlt
  simp only [List.mem_singleton] at hs
  subst hs
  rcases hx with rfl | rfl
  · exact ⟨1, by decide⟩
  · exact absurd hlt (by decide)

/-! ### C64 -/

theorem splitLines_length : ∀ t : List Grapheme,
    (splitLines t).length = t.countP (fun g => decide (g.text = "\n")) + 1
  | [] => rfl
  | g :: t => by
    have ih := splitLines_length t
    unfold splitLines
    split
    · rename_i h; simp [h, ih]
    · rename_i h
      split
      · rename_i e; rw [e] at ih; simp at ih
      · rename_i l ls e; rw [e] at ih; simp [h] at ih ⊢; exact ih

/-- The height is the number of newlines plus one. -/
theorem height_eq (c : Content) : c.height = c.text.countP (fun g => decide (g.text = "\n")) + 1 := by
  unfold Content.height
  rw [splitLines_length]
  omega

/-- Cutting at the newlines and joining with newlines gives the text back, and no line holds a newline. -/
theorem splitLines_join (nl : Grapheme) : ∀ t : List Grapheme, (∀ g ∈ t, g.text = "\n" → g = nl) →
    [nl].intercalate (splitLines t) = t ∧ ∀ l ∈ splitLines t, ∀ g ∈ l, g.text ≠ "\n"
  | [], _ => ⟨rfl, by simp [splitLines]⟩
  | g :: t, h => by
    obtain ⟨ih1, ih2⟩ := splitLines_join nl t (fun x hx => h x (by simp [hx]))
    unfold splitLines
    split
    · rename_i hg
      refine ⟨?_, ?_⟩
      · have := h g (by simp) hg
        subst this
        cases e : splitLines t with
        | nil => exact absurd e (splitLines_ne_nil t)
        | cons l ls =>
          rw [e] at ih1
          rw [← ih1]
          simp [List.intercalate, List.intersperse]
      · intro l hl
        rcases List.mem_cons.1 hl with rfl | hl
        · simp
        · exact ih2 l hl
    · rename_i hg
      cases e : splitLines t with
      | nil => exact absurd e (splitLines_ne_nil t)
      | cons l ls =>
        rw [e] at ih1 ih2
        dsimp only
        refine ⟨?_, ?_⟩
        · rw [← ih1]
          cases ls <;> simp [List.intercalate, List.intersperse]
        · intro x hx
          rcases List.mem_cons.1 hx with rfl | hx
          · intro y hy
            rcases List.mem_cons.1 hy with rfl | hy
            · exact hg
            · exact ih2 l (by simp) y hy
          · exact ih2 x (by simp [hx])

example : [nl].intercalate (splitLines sampleText) = sampleText := (splitLines_join nl sampleText (by decide)).1

/-! ### C62 -/

theorem linesFrom_styled (c : Content) (spans : List Span) : ∀ (n : Nat) (t : List Grapheme) (start : Nat),
    t.length ≤ n → Solid t → AlignedAt spans start t →
    ∃ r, c.linesFrom spans start (splitLines t) = some r ∧
      r.map glyphs = splitGlyphs (c.annotate spans start t) ∧ ∀ s ∈ r, s.WF
  | n, t, start, hn, hs, ha => by
    rcases splitLines_decomp t with ⟨h1, h2⟩ | ⟨line, nl, t', h1, h2, h3, h4⟩
    · obtain ⟨s, r1, r2, r3⟩ := renderLine_spec c hs ha
      refine ⟨[s], ?_, ?_, by simpa using r3⟩
      · rw [h2]; simp [Content.linesFrom, r1]
      · rw [splitGlyphs_single _ (annotate_plain c spans start h1)]; simp [r2]
    · cases n with
      | zero => rw [h1] at hn; simp at hn
      | succ n =>
        subst h1
        have hsl : Solid line := hs.sub (by simp +contextual)
        have hsr : Solid t' := hs.sub (by simp +contextual)
        have hal : AlignedAt spans start line := by
          have := AlignedAt.piece (start := start) (a := []) (b := line) (d := nl :: t') ha
          simpa [blen_nil] using this
        have har : AlignedAt spans (start + blen line + 1) t' := by
          have := AlignedAt.piece (start := start) (a := line ++ [nl]) (b := t') (d := []) (by simpa using ha)
          rw [blen_append, blen_cons, blen_nil, gbytes_newline h2] at this
          simpa [Nat.add_assoc] using this
        obtain ⟨s, s1, s2, s3⟩ := renderLine_spec c hsl hal
        obtain ⟨r, r1, r2, r3⟩ := linesFrom_styled c spans n t' (start + blen line + 1) (by simp at hn; omega)
          hsr har
        refine ⟨s :: r, ?_, ?_, ?_⟩
        · rw [h4, Content.linesFrom, s1]
          dsimp only
          rw [r1]; rfl
        · rw [splitGlyphs_annotate c spans start h2 h3, List.map_cons, s2, r2]
        · intro x hx
          rcases List.mem_cons.1 hx with rfl | hx
          · exact s3
          · exact r3 x hx

theorem plain_lines (c : Content) : ∀ (n : Nat) (t : List Grapheme) (start : Nat), t.length ≤ n →
    ((splitLines t).map c.plainStrip).map glyphs = splitGlyphs (c.annotate [] start t)
  | n, t, start, hn => by
    have hp : ∀ line start, glyphs (c.plainStrip line) = c.annotate [] start line := by
      intro line start
      rw [plainStrip_glyphs, annotate_nil_spans]
    rcases splitLines_decomp t with ⟨h1, h2⟩ | ⟨line, nl, t', h1, h2, h3, h4⟩
    · rw [h2, splitGlyphs_single _ (annotate_plain c [] start h1)]
      simp [hp t start]
    · cases n with
      | zero => rw [h1] at hn; simp at hn
      | succ n =>
        subst h1
        rw [h4, splitGlyphs_annotate c [] start h2 h3, List.map_cons, List.map_cons, hp line start,
          plain_lines c n t' _ (by simp at hn; omega)]

/-- The lines of a content are the text cut at its newlines, and every character has the style the
spans over its byte give it. -/
theorem lines_styled (c : Content) (hs : Solid c.text) (ha : Aligned (c.spans.getD []) c.text) :
    ∃ r, c.lines = some r ∧ r.map glyphs = splitGlyphs c.annotated ∧ r.length = c.height ∧ ∀ s ∈ r, s.WF := by
  have hlen : ∀ r : List Strip, r.map glyphs = splitGlyphs c.annotated → r.length = c.height := by
    intro r h
    have hl := congrArg List.length h
    rw [List.length_map] at hl
    rw [hl]
    have hp := congrArg List.length (plain_lines { c with } c.text.length c.text 0 (Nat.le_refl _))
    have : ∀ (A B : List Glyph), A.map (·.1) = B.map (·.1) → (splitGlyphs A).length = (splitGlyphs B).length := by
      intro A
      induction A with
      | nil => intro B h; cases B with
        | nil => rfl
        | cons _ _ => simp at h
      | cons a A ih =>
        intro B h
        cases B with
        | nil => simp at h
        | cons b B =>
          simp only [List.map_cons, List.cons.injEq] at h
          have := ih B h.2
          unfold splitGlyphs
          rw [h.1]
          split
          · simp [this]
          · cases ea : splitGlyphs A <;> cases eb : splitGlyphs B <;> simp_all
    unfold Content.annotated
    rw [this _ (c.annotate [] 0 c.text) (by rw [annotate_map, annotate_map]), ← hp]
    simp only [List.length_map]
    unfold Content.height
    rw [splitLines_length]
    omega
  unfold Content.lines
  split
  · rename_i h
    have h : c.text = [] := by simpa using h
    have : [Strip.new].map glyphs = splitGlyphs c.annotated := by
      unfold Content.annotated; rw [h]; rfl
    exact ⟨_, rfl, this, hlen _ this, by simp; exact ⟨by simp [Strip.new], rfl⟩⟩
  · cases hsp : c.spans with
    | some spans =>
      rw [hsp] at ha
      obtain ⟨r, r1, r2, r3⟩ := linesFrom_styled c spans c.text.length c.text 0 (Nat.le_refl _) hs ha.at
      have : r.map glyphs = splitGlyphs c.annotated := by unfold Content.annotated; rw [hsp]; exact r2
      exact ⟨r, r1, this, hlen _ this, r3⟩
    | none =>
      have : ((splitLines c.text).map c.plainStrip).map glyphs = splitGlyphs c.annotated := by
        unfold Content.annotated
        rw [hsp]
        exact plain_lines c c.text.length c.text 0 (Nat.le_refl _)
      refine ⟨_, rfl, this, hlen _ this, ?_⟩
      intro s hs
      obtain ⟨l, _, rfl⟩ := List.mem_map.1 hs
      exact plainStrip_wf c l

example : ∃ r, sampleSpans.lines = some r ∧ r.map glyphs = splitGlyphs sampleSpans.annotated ∧
    r.length = sampleSpans.height ∧ ∀ s ∈ r, s.WF :=
  lines_styled sampleSpans sampleText_solid sampleSpans_aligned

/-! ### C60 and C61 -/

/-- One source line in wrap mode. -/
theorem wrapOne_wrap (c : Content) {ws : Grapheme → Bool} (hsp : ws Grapheme.space = true) (width : Nat)
    {o : Overflow} (ho : o ≠ .ellipsis) (start : Nat) (line : List Grapheme) (hs : Solid line)
    (ha : AlignedAt (c.spans.getD []) start line) (hv : VisibleWords ws line) :
    ∃ l, c.wrapOne ws width o .wrap start line = some (markLast l) ∧
      inkedGlyphs ws (l.flatMap glyphs) = inkedGlyphs ws (c.annotate (c.spans.getD []) start line) ∧
      (line = [] ∨ (∃ g ∈ line, ws g = false) → l ≠ []) ∧ ∀ s ∈ l, s.WF := by
  unfold Content.wrapOne
  by_cases hl : line = []
  · subst hl
    exact ⟨[Strip.new], rfl, rfl, by simp, by simp; exact ⟨by simp [Strip.new], rfl⟩⟩
  · rw [if_neg (by simpa using hl)]
    dsimp only
    have hid : ∀ l : List Strip, l.map (fun s => if o = .ellipsis then truncate s width else s) = l := by
      intro l
      simp [ho]
    have hne : ∀ l : List Strip,
        inkedGlyphs ws (l.flatMap glyphs) = inkedGlyphs ws (c.annotate (c.spans.getD []) start line) →
        (line = [] ∨ (∃ g ∈ line, ws g = false) → l ≠ []) := by
      intro l h1 h2 h3
      subst h3
      rcases h2 with h2 | ⟨g, g1, g2⟩
      · exact hl h2
      · rw [← annotate_map c (c.spans.getD []) line start] at g1
        obtain ⟨x, x1, x2⟩ := List.mem_map.1 g1
        have : x ∈ inkedGlyphs ws (c.annotate (c.spans.getD []) start line) := by
          unfold inkedGlyphs
          rw [List.mem_filter]
          exact ⟨x1, by simp [x2, g2]⟩
        rw [← h1] at this
        simp [inkedGlyphs] at this
    cases hsps : c.spans with
    | none =>
      rw [hsps] at hne
      have h1 := wrapLine_spec c hsp width start hv
      refine ⟨c.wrapLine ws width line, by simp only [Option.map_some, hid], h1, hne _ h1, ?_⟩
      intro s hs
      obtain ⟨l, _, rfl⟩ := List.mem_map.1 hs
      exact plainStrip_wf c l
    | some spans =>
      rw [hsps] at hne ha
      obtain ⟨out, o1, o2, o3⟩ := wrapLineSpans_spec c width hs ha hv
      refine ⟨out, ?_, o2, hne _ o2, o3⟩
      rw [Option.getD_some] at o1
      dsimp only
      rw [o1]
      simp only [Option.map_some, hid]

/-- Wrapping shows every character that is not white space once, in order and in its style. -/
theorem wrap_keeps_text (c : Content) {ws : Grapheme → Bool} (hsp : ws Grapheme.space = true) (width : Nat)
    (hw : 0 < width) {o : Overflow} (ho : o ≠ .ellipsis) (hnl : ∀ g ∈ c.text, g.text = "\n" → ws g = true)
    (hs : Solid c.text) (ha : Aligned (c.spans.getD []) c.text) (hv : VisibleWords ws c.text) :
    ∃ r, c.wrapFull ws width o .wrap = some r ∧
      inkedGlyphs ws (r.flatMap fun l => glyphs l.strip) = inkedGlyphs ws c.annotated := by
  obtain ⟨r, r1, r2⟩ := wrapLines_ink c ws width o .wrap (c.spans.getD []) (by
    intro start line h1 h2 h3
    obtain ⟨l, l1, l2, _, _⟩ := wrapOne_wrap c hsp width ho start line h1 h2 h3
    refine ⟨_, l1, ?_⟩
    rw [← l2]
    have := markLast_strips l
    conv_rhs => rw [← this, List.flatMap_map]) c.text.length c.text 0 (Nat.le_refl _) hs ha.at hnl hv
  unfold Content.wrapFull
  rw [if_neg (by omega), r1]
  refine ⟨_, rfl, ?_⟩
  unfold Content.annotated
  rw [← r2]
  cases r <;> rfl

/-- C61 for wrapping: between two end marks stands exactly one source line, unless a source line consists
of white space only (see `wrap_blank_counterexample`). -/
theorem wrap_paragraphs_partial (c : Content) {ws : Grapheme → Bool} (hsp : ws Grapheme.space = true)
    (width : Nat) (hw : 0 < width) {o : Overflow} (ho : o ≠ .ellipsis)
    (hnl : ∀ g ∈ c.text, g.text = "\n" → ws g = true)
    (hs : Solid c.text) (ha : Aligned (c.spans.getD []) c.text) (hv : VisibleWords ws c.text)
    (hb : ∀ l ∈ splitLines c.text, l = [] ∨ ∃ g ∈ l, ws g = false) :
    ∃ r, c.wrapFull ws width o .wrap = some r ∧
      (paragraphs r).map (fun p => inkedGlyphs ws (p.flatMap glyphs)) =
        (splitGlyphs c.annotated).map (inkedGlyphs ws) := by
  obtain ⟨r, r1, r2, _, r3⟩ := wrapLines_paragraphs c ws width o .wrap (inkedGlyphs ws) (c.spans.getD [])
    (fun line => VisibleWords ws line ∧ (line = [] ∨ ∃ g ∈ line, ws g = false)) (fun _ => True) (by
    intro start line h1 h2 h3 _
    obtain ⟨l, l1, l2, l3, _⟩ := wrapOne_wrap c hsp width ho start line h1 h2 h3.1
    exact ⟨l, l1, l3 h3.2, by simp, l2⟩) c.text.length c.text 0 (Nat.le_refl _) hs ha.at
    (fun l hl => ⟨visibleWords_lines _ c.text (Nat.le_refl _) hnl hv l hl, hb l hl⟩)
  unfold Content.wrapFull
  rw [if_neg (by omega), r1]
  refine ⟨r, ?_, r3⟩
  simp [r2]

theorem sample_visible : VisibleWords asciiWs sampleText := by
  have : words asciiWs sampleText = [[ch "a", ch "b"], [ch "c", ch "d"], [ch "e"]] := by decide
  unfold VisibleWords
  rw [this]
  decide

example : ∃ r, sampleSpans.wrapFull asciiWs 3 .fold .wrap = some r ∧
    inkedGlyphs asciiWs (r.flatMap fun l => glyphs l.strip) = inkedGlyphs asciiWs sampleSpans.annotated :=
  wrap_keeps_text sampleSpans (by decide) 3 (by decide) (by decide) (by decide) sampleText_solid
    sampleSpans_aligned sample_visible

example : ∃ r, sampleSpans.wrapFull asciiWs 3 .fold .wrap = some r ∧
    (paragraphs r).map (fun p => inkedGlyphs asciiWs (p.flatMap glyphs)) =
      (splitGlyphs sampleSpans.annotated).map (inkedGlyphs asciiWs) :=
  wrap_paragraphs_partial sampleSpans (by decide) 3 (by decide) (by decide) (by decide) sampleText_solid
    sampleSpans_aligned sample_visible (by decide)

/-- A line of blanks between two lines disappears when wrapped: three lines, two paragraphs. -/
theorem wrap_blank_counterexample :
    let c : Content := { text := [ch "a", nl, ch " ", nl, ch "b"] }
    c.height = 3 ∧ (c.wrapFull asciiWs 5 .fold .wrap).map (fun r => (paragraphs r).length) = some 2 := by
  decide

/-- A word without width (a joiner, say) is lost when the next word starts a line. -/
theorem wrap_zero_width_counterexample :
    let c : Content := { text := [⟨"\u200d", 0⟩, ch " ", ch "b"] }
    (c.wrapFull asciiWs 5 .fold .wrap).map (fun r => r.map (textOf ·.strip)) = some [[ch "b"]] := by
  decide

/-! ### C59 -/

theorem plainStrip_width (c : Content) (line : List Grapheme) : (c.plainStrip line).cellLength = widthOf line := by
  simp [Content.plainStrip, Strip.ofSegments, Segment.mk']

theorem truncate_id {s : Strip} {width : Nat} (h : s.cellLength ≤ width) (hw : 0 < width) : truncate s width = s := by
  unfold truncate
  rw [if_neg (by omega), if_pos h]

theorem wrapLines_all (c : Content) (ws : Grapheme → Bool) (width : Nat) (o : Overflow) (m : Wrap)
    (P : Strip → Prop) : ∀ (ls : List (List Grapheme)) (start : Nat),
    (∀ line ∈ ls, ∀ start l, c.wrapOne ws width o m start line = some l → ∀ x ∈ l, P x.strip) →
    ∀ r, c.wrapLines ws width o m start ls = some r → ∀ x ∈ r, P x.strip
  | [], start, _, r, hr, x, hx => by
    simp only [Content.wrapLines, Option.some.injEq] at hr
    subst hr; simp at hx
  | line :: ls, start, h, r, hr, x, hx => by
    rw [Content.wrapLines] at hr
    cases e : c.wrapOne ws width o m start line with
    | none => rw [e] at hr; simp at hr
    | some a =>
      rw [e] at hr
      dsimp only at hr
      obtain ⟨b, b1, b2⟩ := Option.map_eq_some_iff.1 hr
      subst b2
      rcases List.mem_append.1 hx with hx | hx
      · exact h line (by simp) start a e x hx
      · exact wrapLines_all c ws width o m P ls _ (fun l hl => h l (by simp [hl])) b b1 x hx

theorem wrapLines_aligned (c : Content) (ws : Grapheme → Bool) (width : Nat) (o : Overflow) (m : Wrap)
    (spans : List Span) (ok : List Grapheme → Prop) (P : Strip → Prop)
    (hone : ∀ (start : Nat) (line : List Grapheme), Solid line → AlignedAt spans start line → ok line →
      ∀ l, c.wrapOne ws width o m start line = some l → ∀ x ∈ l, P x.strip) :
    ∀ (n : Nat) (t : List Grapheme) (start : Nat), t.length ≤ n → Solid t → AlignedAt spans start t →
      (∀ l ∈ splitLines t, ok l) →
      ∀ r, c.wrapLines ws width o m start (splitLines t) = some r → ∀ x ∈ r, P x.strip
  | n, t, start, hn, hs, ha, hok, r, hr, x, hx => by
    rcases splitLines_decomp t with ⟨h1, h2⟩ | ⟨line, nl, t', h1, h2, h3, h4⟩
    · rw [h2] at hr hok
      rw [Content.wrapLines] at hr
      cases e : c.wrapOne ws width o m start t with
      | none => rw [e] at hr; simp at hr
      | some a =>
        rw [e] at hr
        simp only [Content.wrapLines, Option.map_some, List.append_nil, Option.some.injEq] at hr
        subst hr
        exact hone start t hs ha (hok t (by simp)) a e x hx
    · cases n with
      | zero => rw [h1] at hn; simp at hn
      | succ n =>
        subst h1
        have hsl : Solid line := hs.sub (by simp +contextual)
        have hsr : Solid t' := hs.sub (by simp +contextual)
        have hal : AlignedAt spans start line := by
          have := AlignedAt.piece (start := start) (a := []) (b := line) (d := nl :: t') ha
          simpa [blen_nil] using this
        have har : AlignedAt spans (start + blen line + 1) t' := by
          have := AlignedAt.piece (start := start) (a := line ++ [nl]) (b := t') (d := []) (by simpa using ha)
          rw [blen_append, blen_cons, blen_nil, gbytes_newline h2] at this
          simpa [Nat.add_assoc] using this
        rw [h4] at hr hok
        rw [Content.wrapLines] at hr
        cases e : c.wrapOne ws width o m start line with
        | none => rw [e] at hr; simp at hr
        | some a =>
          rw [e] at hr
          dsimp only at hr
          obtain ⟨b, b1, b2⟩ := Option.map_eq_some_iff.1 hr
          subst b2
          rcases List.mem_append.1 hx with hx | hx
          · exact hone start line hsl hal (hok line (by simp)) a e x hx
          · exact wrapLines_aligned c ws width o m spans ok P hone n t' _ (by simp at hn; omega) hsr har
              (fun l hl => hok l (by simp [hl])) b b1 x hx

theorem markLast_all {P : Strip → Prop} {l : List Strip} (h : ∀ s ∈ l, P s) : ∀ x ∈ markLast l, P x.strip := by
  intro x hx
  have : x.strip ∈ (markLast l).map (·.strip) := List.mem_map_of_mem hx
  rw [markLast_strips] at this
  exact h _ this

/-- Wrapped plain text never exceeds the width (if no single character does). -/
theorem wrap_plain_fits (c : Content) (hp : c.spans = none) (ws : Grapheme → Bool) (width : Nat) (hw : 0 < width)
    (o : Overflow) (hg : ∀ g ∈ c.text, g.width ≤ width) (r : List WrappedLine)
    (hr : c.wrapFull ws width o .wrap = some r) : ∀ l ∈ r, l.strip.cellLength ≤ width := by
  unfold Content.wrapFull at hr
  rw [if_neg (by omega)] at hr
  obtain ⟨r', h1, h2⟩ := Option.map_eq_some_iff.1 hr
  have hall := wrapLines_all c ws width o .wrap (fun s => s.cellLength ≤ width) (splitLines c.text) 0 (by
    intro line hline start l hl
    have hg' : ∀ g ∈ line, g.width ≤ width := fun g hgl => hg g (splitLines_mem _ _ hline g hgl)
    unfold Content.wrapOne at hl
    split at hl
    · simp only [Option.some.injEq] at hl
      subst hl
      simp [Strip.new]
    · rw [hp] at hl
      dsimp only [Option.map_some] at hl
      simp only [Option.some.injEq] at hl
      subst hl
      refine markLast_all (P := fun s => s.cellLength ≤ width) ?_
      intro s hs
      obtain ⟨t, t1, rfl⟩ := List.mem_map.1 hs
      obtain ⟨u, u1, rfl⟩ := List.mem_map.1 t1
      have hu : (c.plainStrip u).cellLength ≤ width := by
        rw [plainStrip_width]
        exact wrapWords_fits width hw (words ws line) [] 0 rfl (Nat.zero_le _)
          (fun w hwd g hgw => hg' g ((words_mem hwd).2 g hgw).2) u u1
      split
      · rw [truncate_id hu hw]; exact hu
      · exact hu) r' h1
  subst h2
  split
  · simp [Strip.new]
  · exact hall

/-- `"abcd ef gh"`. -/
def longText : List Grapheme :=
  [ch "a", ch "b", ch "c", ch "d", ch " ", ch "e", ch "f", ch " ", ch "g", ch "h"]

example : ∀ r, ({ text := longText } : Content).wrapFull asciiWs 3 .fold .wrap = some r →
    ∀ l ∈ r, l.strip.cellLength ≤ 3 :=
  wrap_plain_fits _ rfl asciiWs 3 (by decide) .fold (by decide)

/-- A word that is longer than the width is not broken in content with markup. -/
theorem wrap_spans_long_word_counterexample :
    let c : Content := { text := longText, spans := some [] }
    (c.wrapFull asciiWs 3 .fold .wrap).map (fun r => r.map (·.strip.cellLength)) = some [4, 2, 2] := by
  decide

/-- Blanks in a row count as one in content with markup: the line is wider than the width. -/
theorem wrap_spans_blanks_counterexample :
    let c : Content := { text := [ch " ", ch " ", ch "a", ch " ", ch " ", ch "b"], spans := some [] }
    (c.wrapFull asciiWs 3 .fold .wrap).map (fun r => r.map (·.strip.cellLength)) = some [6] := by
  decide

/-- A single character wider than the line does not fit. -/
theorem wrap_wide_counterexample :
    let c : Content := { text := [⟨"日", 2⟩] }
    (c.wrapFull asciiWs 1 .fold .wrap).map (fun r => r.map (·.strip.cellLength)) = some [2] := by
  decide

theorem renderRanges_fits (c : Content) {spans : List Span} {ls : Nat} {line : List Grapheme} {width : Nat}
    (hs : Solid line) (ha : AlignedAt spans ls line) : ∀ (r : List (Nat × Nat)),
    (∀ q ∈ r, widthOf (slice line q.1 q.2) ≤ width) → ∀ out, c.renderRanges spans ls line r = some out →
    ∀ s ∈ out, s.cellLength ≤ width
  | [], _, out, h, s, hs' => by
    simp only [Content.renderRanges, Option.some.injEq] at h
    subst h; simp at hs'
  | (a, b) :: r, hq, out, h, s, hs' => by
    rw [Content.renderRanges] at h
    split at h
    · simp at h
    · rename_i hab
      have hab : a ≤ b ∧ b ≤ line.length := by omega
      obtain ⟨t, r1, r2, r3⟩ := renderLine_spec c (hs.sub (a := (line.take b).drop a)
        (fun g hg => List.mem_of_mem_take (List.mem_of_mem_drop hg))) (ha.slice a b hab.1)
      rw [r1] at h
      dsimp only at h
      obtain ⟨out', o1, o2⟩ := Option.map_eq_some_iff.1 h
      subst o2
      rcases List.mem_cons.1 hs' with rfl | hs'
      · have := hq (a, b) (by simp)
        rw [wf_width r3, ← glyphs_text, r2, annotate_map]
        exact this
      · exact renderRanges_fits c hs ha r (fun q hq' => hq q (by simp [hq'])) out' o1 s hs'

/-- Wrapped text with markup does not exceed the width if no word does and the words stand apart by single
blanks. Missing from C59: see the counterexamples above. -/
theorem wrap_spans_fits_partial (c : Content) {ws : Grapheme → Bool} {spans : List Span}
    (hp : c.spans = some spans) (width : Nat) (hw : 0 < width) (o : Overflow) (hs : Solid c.text)
    (ha : Aligned spans c.text)
    (hl : ∀ line ∈ splitLines c.text, Tidy ws line ∧ ∀ w ∈ words ws line, 0 < widthOf w ∧ widthOf w ≤ width)
    (r : List WrappedLine) (hr : c.wrapFull ws width o .wrap = some r) :
    ∀ l ∈ r, l.strip.cellLength ≤ width := by
  have one : ∀ (start : Nat) (line : List Grapheme), Solid line → AlignedAt spans start line →
      (Tidy ws line ∧ ∀ w ∈ words ws line, 0 < widthOf w ∧ widthOf w ≤ width) →
      ∀ l, c.wrapOne ws width o .wrap start line = some l → ∀ x ∈ l, x.strip.cellLength ≤ width := by
    rintro start line hs ha ⟨ht, hwd⟩ l hl
    unfold Content.wrapOne at hl
    split at hl
    · simp only [Option.some.injEq] at hl
      subst hl
      simp [Strip.new]
    · rw [hp] at hl
      dsimp only at hl
      obtain ⟨out, o1, o2⟩ := Option.map_eq_some_iff.1 hl
      subst o2
      refine markLast_all (P := fun s => s.cellLength ≤ width) ?_
      intro s hs'
      obtain ⟨u, u1, rfl⟩ := List.mem_map.1 hs'
      have hu : u.cellLength ≤ width := by
        unfold Content.wrapLineSpans at o1
        split at o1
        · simp at o1
        · rename_i r0 h0
          refine renderRanges_fits c hs ha r0 ?_ out o1 u u1
          have hpl := positions_placed ws line line.length line 0 (Nat.le_refl _) rfl
          refine spanLoop_fits ht.2.1 ht.2.2 (words ws line) line 0 [] (positions line 0 (words ws line)) 0 0
            rfl hpl hwd ?_ (fun h => by omega) r0 h0
          intro _ p ps hps
          rw [hps] at hpl
          cases hww : words ws line with
          | nil => rw [hww] at hpl; exact hpl.elim
          | cons w wds =>
            rw [hww] at hpl
            obtain ⟨gap, tail, g1, g2, g3, _⟩ := hpl
            cases gap with
            | nil => rw [g3]; rfl
            | cons x gap =>
              have e1 := ht.1 x (by rw [g1]; rfl)
              have e2 := g2 x (by simp)
              rw [e1] at e2; simp at e2
      split
      · rw [truncate_id hu hw]; exact hu
      · exact hu
  have main := wrapLines_aligned c ws width o .wrap spans
    (fun line => Tidy ws line ∧ ∀ w ∈ words ws line, 0 < widthOf w ∧ widthOf w ≤ width)
    (fun s => s.cellLength ≤ width) one
  unfold Content.wrapFull at hr
  rw [if_neg (by omega)] at hr
  obtain ⟨r', h1, h2⟩ := Option.map_eq_some_iff.1 hr
  have := main c.text.length c.text 0 (Nat.le_refl _) hs ha.at hl r' h1
  subst h2
  split
  · simp [Strip.new]
  · exact this

theorem sampleSpans_tidy : ∀ line ∈ splitLines sampleText, Tidy asciiWs line ∧
    ∀ w ∈ words asciiWs line, 0 < widthOf w ∧ widthOf w ≤ 2 := by
  have : splitLines sampleText = [[ch "a", ch "b", ch " ", ch "c", ch "d"], [ch "e"]] := by decide
  rw [this]
  intro line hl
  rcases List.mem_cons.1 hl with rfl | hl
  · refine ⟨⟨by decide, ?_, by decide⟩, by decide⟩
    simp only [List.isChain_cons_cons, List.isChain_singleton]
    decide
  · simp only [List.mem_singleton] at hl
    subst hl
    exact ⟨⟨by decide, .singleton _, by decide⟩, by decide⟩

example : ∀ r, sampleSpans.wrapFull asciiWs 2 .fold .wrap = some r → ∀ l ∈ r, l.strip.cellLength ≤ 2 :=
  wrap_spans_fits_partial sampleSpans rfl 2 (by decide) .fold sampleText_solid sampleSpans_aligned
    sampleSpans_tidy

/-! ### C63 -/

theorem boundary_start (s : Strip) : OnBoundary s.cells 0 := by
  unfold Strip.cells
  induction s.segments with
  | nil => intro c hc; simp [segCells] at hc
  | cons x xs ih =>
    rw [segCells_cons]
    intro c hc
    cases e : textCells x.style x.info x.text with
    | nil => rw [e, List.nil_append] at hc; exact ih c hc
    | cons y ys =>
      rw [e] at hc
      exact boundary_zero x.style x.info x.text c (by rw [e]; simpa using hc)

/-- Truncation with an ellipsis: a line that fits is kept; a longer one becomes exactly `width` columns,
its first `width - 1` columns and an ellipsis, unless that cuts a wide character. -/
theorem truncate_spec_partial (s : Strip) (h : s.WF) (width : Nat) (hw : 0 < width)
    (hb : OnBoundary s.cells (width - 1)) :
    (s.cellLength ≤ width → truncate s width = s) ∧
    (width < s.cellLength → (truncate s width).cellLength = width ∧ (truncate s width).WF ∧
      ∃ st, (truncate s width).cells = s.cells.take (width - 1) ++ [⟨ellipsis, 0, st, []⟩]) := by
  refine ⟨fun hl => truncate_id hl hw, fun hl => ?_⟩
  unfold truncate
  rw [if_neg (by omega), if_neg (by omega)]
  have hone : ∀ st, (Strip.ofSegments [Segment.mk' [ellipsis] st]).cells = [⟨ellipsis, 0, st, []⟩] := fun st => rfl
  have hwf1 : ∀ st, (Strip.ofSegments [Segment.mk' [ellipsis] st]).WF := fun st =>
    Strip.ofSegments_wf (by simp [Segment.mk'])
  by_cases h1 : width = 1
  · rw [if_pos h1]
    refine ⟨by rw [h1]; rfl, hwf1 _, lastStyle s, ?_⟩
    rw [hone, h1]; rfl
  · rw [if_neg h1]
    dsimp only
    have h0 : OnBoundary s.cells 0 := boundary_start s
    have hc := Strip.crop_cells_partial s h 0 (width - 1) h0 hb
    have hwf := Strip.crop_wf s h 0 (width - 1)
    have hj : (Strip.join [s.crop 0 (width - 1), Strip.ofSegments [Segment.mk' [ellipsis]
        (lastStyle (s.crop 0 (width - 1)))]]).WF := Strip.join_wf _ (by
      intro x hx
      rcases List.mem_cons.1 hx with rfl | hx
      · exact hwf
      · simp only [List.mem_singleton] at hx; subst hx; exact hwf1 _)
    have hcells : (Strip.join [s.crop 0 (width - 1), Strip.ofSegments [Segment.mk' [ellipsis]
        (lastStyle (s.crop 0 (width - 1)))]]).cells =
        s.cells.take (width - 1) ++ [⟨ellipsis, 0, lastStyle (s.crop 0 (width - 1)), []⟩] := by
      rw [Strip.join_cells]
      simp only [List.flatMap_cons, List.flatMap_nil, List.append_nil, hone, hc, List.drop_zero]
    refine ⟨?_, hj, _, hcells⟩
    rw [← hj.length, hcells, List.length_append, List.length_take, h.length]
    simp
    omega

/-- A wide character at the cut makes the result too wide. -/
theorem truncate_wide_counterexample :
    (truncate (Strip.ofSegments [Segment.mk' [⟨"日", 2⟩, ⟨"本", 2⟩] none]) 2).cellLength = 3 := by decide

example : (truncate Strip.sample 4).cellLength = 4 :=
  ((truncate_spec_partial Strip.sample Strip.sample_wf 4 (by decide) (Strip.sample_boundary (by decide))).2
    (by decide)).1

/-! ### C66 -/

theorem splitLoop_cells (s : Strip) (h : s.WF) (width : Nat) (hw : 0 < width)
    (hn : ∀ c ∈ s.cells, c.g.width = 1) : ∀ (n start : Nat), s.cellLength - start ≤ n →
    (splitLoop s width start).flatMap Strip.cells = s.cells.drop start ∧
    (∀ p ∈ splitLoop s width start, p.WF ∧ 0 < p.cellLength ∧ p.cellLength ≤ width) ∧
    (∀ (i : Nat) p, (splitLoop s width start)[i]? = some p → i + 1 < (splitLoop s width start).length →
      p.cellLength = width)
  | n, start, hle => by
    rw [splitLoop]
    split
    · rename_i hc
      cases n with
      | zero => omega
      | succ n =>
        obtain ⟨i1, i2, i3⟩ := splitLoop_cells s h width hw hn n (min (start + width) s.cellLength) (by omega)
        have hcr := Strip.crop_cells_narrow s h hn start (min (start + width) s.cellLength)
        have hwf := Strip.crop_wf s h start (min (start + width) s.cellLength)
        have hlen : (s.crop start (min (start + width) s.cellLength)).cellLength =
            min (start + width) s.cellLength - start := by
          rw [← hwf.length, hcr, List.length_drop, List.length_take, h.length]
          omega
        refine ⟨?_, ?_, ?_⟩
        · rw [List.flatMap_cons, i1, hcr, ← drop_split s.cells (by omega)]
        · intro p hp
          rcases List.mem_cons.1 hp with rfl | hp
          · exact ⟨hwf, by omega, by omega⟩
          · exact i2 p hp
        · intro i p hp hi
          cases i with
          | zero =>
            simp only [List.getElem?_cons_zero, Option.some.injEq] at hp
            subst hp
            rw [hlen]
            have hne : splitLoop s width (min (start + width) s.cellLength) ≠ [] := by
              intro e; rw [e] at hi; simp at hi
            rw [splitLoop] at hne
            split at hne
            · omega
            · exact absurd rfl hne
          | succ i => exact i3 i p (by simpa using hp) (by simpa using hi)
    · rename_i hc
      refine ⟨?_, by simp, by simp⟩
      rw [List.drop_of_length_le (by rw [h.length]; omega)]
      rfl

/-- Folding a line of narrow characters cuts it into pieces of exactly the width, the last one shorter,
that hold all its columns in order. -/
theorem fold_spec_partial (s : Strip) (h : s.WF) (width : Nat) (hw : 0 < width) (hs : 0 < s.cellLength)
    (hn : ∀ c ∈ s.cells, c.g.width = 1) :
    (splitByWidth s width).flatMap Strip.cells = s.cells ∧
    (∀ p ∈ splitByWidth s width, p.WF ∧ 0 < p.cellLength ∧ p.cellLength ≤ width) ∧
    (∀ (i : Nat) p, (splitByWidth s width)[i]? = some p → i + 1 < (splitByWidth s width).length →
      p.cellLength = width) := by
  unfold splitByWidth
  rw [if_neg (by omega), if_neg (by omega)]
  obtain ⟨h1, h2⟩ := splitLoop_cells s h width hw hn (s.cellLength - 0) 0 (Nat.le_refl _)
  exact ⟨by rw [h1, List.drop_zero], h2⟩

/-- A wide character across the fold makes the piece too wide. -/
theorem fold_wide_counterexample :
    (splitByWidth (Strip.ofSegments [Segment.mk' [ch "a", ⟨"日", 2⟩, ch "b"] none]) 2).map (·.cellLength) =
      [3, 1] := by
  unfold splitByWidth
  rw [if_neg (by decide), if_neg (by decide), splitLoop, dif_pos (by decide), splitLoop, dif_pos (by decide),
    splitLoop, dif_neg (by decide)]
  decide

example : (splitByWidth (Strip.ofSegments [Segment.mk' longText none]) 4).flatMap Strip.cells =
    (Strip.ofSegments [Segment.mk' longText none]).cells :=
  (fold_spec_partial _ (Strip.ofSegments_wf (by decide)) 4 (by decide) (by decide) (by decide)).1

theorem splitAt_mem (seg : Segment) (cut : Nat) : ∀ g, g ∈ (seg.splitAt cut).1.text ∨ g ∈ (seg.splitAt cut).2.text →
    g ∈ seg.text := by
  intro g hg
  unfold Segment.splitAt at hg
  split at hg
  · simpa using hg
  · split at hg
    · simpa using hg
    · have := (splitLoop_spec cut seg.text 0).1
      dsimp only at hg
      rw [← this]
      simpa using hg

theorem cropSegment_mem (seg : Segment) (pos a b : Nat) : ∀ x ∈ Strip.cropSegment seg pos a b,
    ∀ g ∈ x.text, g ∈ seg.text := by
  intro x hx g hg
  unfold Strip.cropSegment at hx
  dsimp only at hx
  split at hx
  · simp only [List.mem_singleton] at hx; subst hx; exact hg
  · split at hx
    · split at hx
      · simp at hx
      · simp only [List.mem_singleton] at hx; subst hx; exact splitAt_mem _ _ g (Or.inl hg)
    · split at hx
      · split at hx
        · simp at hx
        · simp only [List.mem_singleton] at hx; subst hx; exact splitAt_mem _ _ g (Or.inr hg)
      · split at hx
        · simp at hx
        · simp only [List.mem_singleton] at hx; subst hx
          exact splitAt_mem _ _ g (Or.inr (splitAt_mem _ _ g (Or.inl hg)))

theorem cropLoop_mem (a b : Nat) : ∀ (segs : List Segment) (pos : Nat), ∀ x ∈ Strip.cropLoop a b pos segs,
    ∀ g ∈ x.text, ∃ seg ∈ segs, g ∈ seg.text
  | [], _, x, hx, g, hg => by simp [Strip.cropLoop] at hx
  | seg :: segs, pos, x, hx, g, hg => by
    unfold Strip.cropLoop at hx
    dsimp only at hx
    have ih := cropLoop_mem a b segs (pos + seg.cellLength)
    split at hx
    · obtain ⟨y, y1, y2⟩ := ih x hx g hg
      exact ⟨y, by simp [y1], y2⟩
    · split at hx
      · simp at hx
      · rcases List.mem_append.1 hx with hx | hx
        · exact ⟨seg, by simp, cropSegment_mem seg pos a b x hx g hg⟩
        · obtain ⟨y, y1, y2⟩ := ih x hx g hg
          exact ⟨y, by simp [y1], y2⟩

theorem crop_mem (s : Strip) (a b : Nat) : ∀ g ∈ textOf (s.crop a b), g ∈ textOf s := by
  intro g hg
  unfold Strip.crop at hg
  split at hg
  · simp [textOf, Strip.new] at hg
  · unfold textOf at hg ⊢
    rw [List.mem_flatMap] at hg ⊢
    obtain ⟨x, x1, x2⟩ := hg
    exact cropLoop_mem _ _ _ _ x x1 g x2

theorem splitLoop_mem (s : Strip) (width : Nat) : ∀ (n start : Nat), s.cellLength - start ≤ n →
    ∀ p ∈ splitLoop s width start, ∀ g ∈ textOf p, g ∈ textOf s
  | n, start, hle, p, hp, g, hg => by
    rw [splitLoop] at hp
    split at hp
    · rename_i hc
      cases n with
      | zero => omega
      | succ n =>
        rcases List.mem_cons.1 hp with rfl | hp
        · exact crop_mem s _ _ g hg
        · exact splitLoop_mem s width n _ (by omega) p hp g hg
    · simp at hp

/-- A column of narrow text is a character. -/
theorem narrow_glyphs (s : Strip) (h : ∀ g ∈ textOf s, g.width = 1) :
    glyphs s = s.cells.map fun c => (c.g, c.style.getD {}, c.info) := by
  unfold textOf at h
  unfold glyphs Strip.cells segCells
  rw [List.map_flatMap]
  have : ∀ segs : List Segment, (∀ g ∈ segs.flatMap (·.text), g.width = 1) →
      (segs.flatMap fun seg => seg.text.map fun g => (g, seg.style.getD {}, seg.info)) =
      segs.flatMap fun a => (textCells a.style a.info a.text).map fun c => (c.g, c.style.getD {}, c.info) := by
    intro segs
    induction segs with
    | nil => intro _; rfl
    | cons seg segs ih =>
      intro h
      rw [List.flatMap_cons, List.flatMap_cons, ih (fun g hg => h g (by simp only [List.flatMap_cons, List.mem_append]; exact Or.inr hg))]
      congr 1
      have h' : ∀ g ∈ seg.text, g.width = 1 := fun g hg => h g (by simp [hg])
      unfold textCells
      generalize seg.text = t at h'
      induction t with
      | nil => rfl
      | cons g t ih2 =>
        rw [List.map_cons, ih2 (fun x hx => h' x (by simp [hx])), List.flatMap_cons, List.map_append, h' g (by simp)]
        rfl
  exact this s.segments h

theorem narrow_cells (s : Strip) (h : ∀ g ∈ textOf s, g.width = 1) : ∀ c ∈ s.cells, c.g.width = 1 := by
  intro c hc
  unfold Strip.cells segCells textCells at hc
  simp only [List.mem_flatMap, List.mem_map] at hc
  obtain ⟨seg, s1, g, g1, k, _, rfl⟩ := hc
  exact h g (by unfold textOf; rw [List.mem_flatMap]; exact ⟨seg, s1, g1⟩)

theorem fullLine_spec (c : Content) (start : Nat) (line : List Grapheme) (hs : Solid line)
    (ha : AlignedAt (c.spans.getD []) start line) :
    ∃ s, c.fullLine start line = some s ∧ glyphs s = c.annotate (c.spans.getD []) start line ∧ s.WF := by
  unfold Content.fullLine
  cases h : c.spans with
  | none => exact ⟨_, rfl, by rw [plainStrip_glyphs, Option.getD_none, annotate_nil_spans], plainStrip_wf c line⟩
  | some spans =>
    rw [h] at ha
    obtain ⟨s, s1, s2, s3⟩ := renderLine_spec c hs ha
    exact ⟨s, s1, s2, s3⟩

theorem splitByWidth_ne_nil (s : Strip) (width : Nat) : splitByWidth s width ≠ [] := by
  unfold splitByWidth
  split
  · simp
  · split
    · simp
    · rw [splitLoop, dif_pos (by omega)]; simp

/-- One source line without wrapping. -/
theorem wrapOne_noWrap (c : Content) (ws : Grapheme → Bool) (width : Nat) (o : Overflow) (start : Nat)
    (line : List Grapheme) (hs : Solid line) (ha : AlignedAt (c.spans.getD []) start line) :
    ∃ s l, c.wrapOne ws width o .noWrap start line = some (markLast l) ∧ l ≠ [] ∧
      glyphs s = c.annotate (c.spans.getD []) start line ∧ s.WF ∧
      l = if line = [] then [Strip.new] else match o with
        | .fold => splitByWidth s width
        | .clip => [s.crop 0 width]
        | .ellipsis => [truncate s width] := by
  obtain ⟨s, s1, s2, s3⟩ := fullLine_spec c start line hs ha
  unfold Content.wrapOne
  by_cases hl : line = []
  · subst hl
    exact ⟨s, [Strip.new], rfl, by simp, s2, s3, rfl⟩
  · rw [if_neg (by simpa using hl)]
    simp only [if_neg hl]
    rw [s1]
    cases o with
    | fold => exact ⟨s, splitByWidth s width, rfl, splitByWidth_ne_nil s width, s2, s3, rfl⟩
    | clip => exact ⟨s, [s.crop 0 width], rfl, by simp, s2, s3, rfl⟩
    | ellipsis => exact ⟨s, [truncate s width], rfl, by simp, s2, s3, rfl⟩

/-- C61 without wrapping: there are as many paragraphs as source lines, whatever the overflow mode. -/
theorem noWrap_paragraphs (c : Content) (ws : Grapheme → Bool) (width : Nat) (hw : 0 < width) (o : Overflow)
    (hs : Solid c.text) (ha : Aligned (c.spans.getD []) c.text) :
    ∃ r, c.wrapFull ws width o .noWrap = some r ∧ (paragraphs r).length = c.height := by
  obtain ⟨r, r1, r2, _, r3⟩ := wrapLines_paragraphs c ws width o .noWrap (fun _ => ()) (c.spans.getD [])
    (fun _ => True) (fun _ => True) (by
    intro start line h1 h2 _ _
    obtain ⟨s, l, l1, l2, _⟩ := wrapOne_noWrap c ws width o start line h1 h2
    exact ⟨l, l1, l2, by simp, rfl⟩) c.text.length c.text 0 (Nat.le_refl _) hs ha.at (by simp)
  unfold Content.wrapFull
  rw [if_neg (by omega), r1]
  refine ⟨r, by simp [r2], ?_⟩
  obtain ⟨ls, l1, l2, l3, _⟩ := lines_styled c hs ha
  have := congrArg List.length r3
  rw [List.length_map, List.length_map] at this
  rw [this, ← l3, ← List.length_map (f := glyphs) (as := ls), l2]
  rfl

/-- Folding without wrapping keeps the text of narrow characters exactly: the pieces of each source line
hold all its characters, blanks included, each in its style, and none is wider than the width. -/
theorem noWrap_fold_partial (c : Content) (ws : Grapheme → Bool) (width : Nat) (hw : 0 < width)
    (hs : Solid c.text) (ha : Aligned (c.spans.getD []) c.text)
    (hn : ∀ g ∈ c.text, g.text ≠ "\n" → g.width = 1) :
    ∃ r, c.wrapFull ws width .fold .noWrap = some r ∧
      (paragraphs r).map (fun p => p.flatMap glyphs) = splitGlyphs c.annotated ∧
      ∀ l ∈ r, l.strip.cellLength ≤ width := by
  obtain ⟨r, r1, r2, r4, r3⟩ := wrapLines_paragraphs c ws width .fold .noWrap (fun x => x) (c.spans.getD [])
    (fun line => ∀ g ∈ line, g ∈ c.text) (fun s => s.cellLength ≤ width) (by
    intro start line h1 h2 hmem hnl
    obtain ⟨s, l, l1, l2, l3, l4, l5⟩ := wrapOne_noWrap c ws width .fold start line h1 h2
    have htext : textOf s = line := by rw [← glyphs_text, l3, annotate_map]
    have hnarrow : ∀ g ∈ textOf s, g.width = 1 := by
      rw [htext]
      exact fun g hg => hn g (hmem g hg) (hnl g hg)
    by_cases hl : line = []
    · subst hl
      rw [if_pos rfl] at l5
      subst l5
      exact ⟨_, l1, l2, by simp [Strip.new], rfl⟩
    · rw [if_neg hl] at l5
      dsimp only at l5
      have hpos : 0 < s.cellLength := by
        rw [wf_width l4, htext]
        cases line with
        | nil => exact absurd rfl hl
        | cons g gs =>
          rw [widthOf_cons, hnarrow g (by rw [htext]; simp)]
          omega
      obtain ⟨f1, f2, f3⟩ := fold_spec_partial s l4 width hw hpos (narrow_cells s hnarrow)
      refine ⟨l, l1, l2, ?_, ?_⟩
      · rw [l5]; exact fun p hp => (f2 p hp).2.2
      · rw [← l3, narrow_glyphs s hnarrow, ← f1, l5, List.map_flatMap]
        have hsub : ∀ p ∈ splitByWidth s width, glyphs p = p.cells.map fun c => (c.g, c.style.getD {}, c.info) := by
          intro p hp
          apply narrow_glyphs
          intro g hg
          apply hnarrow
          unfold splitByWidth at hp
          rw [if_neg (by omega), if_neg (by omega)] at hp
          exact splitLoop_mem s width _ 0 (Nat.le_refl _) p hp g hg
        rw [List.flatMap_def, List.flatMap_def, List.map_congr_left hsub]) c.text.length c.text 0 (Nat.le_refl _) hs ha.at
    (fun l hl g hg => splitLines_mem _ l hl g hg)
  unfold Content.wrapFull
  rw [if_neg (by omega), r1]
  refine ⟨r, by simp [r2], ?_, r4⟩
  rw [r3]
  exact List.map_id _

example : ∃ r, sampleSpans.wrapFull asciiWs 2 .fold .noWrap = some r ∧
    (paragraphs r).map (fun p => p.flatMap glyphs) = splitGlyphs sampleSpans.annotated ∧
    ∀ l ∈ r, l.strip.cellLength ≤ 2 :=
  noWrap_fold_partial sampleSpans asciiWs 2 (by decide) sampleText_solid sampleSpans_aligned (by decide)

example : ∃ r, sampleSpans.wrapFull asciiWs 2 .clip .noWrap = some r ∧ (paragraphs r).length = 2 :=
  noWrap_paragraphs sampleSpans asciiWs 2 (by decide) .clip sampleText_solid sampleSpans_aligned

/-! ### Style of the ellipsis -/

/-- Cropping narrow text from the left edge ends with a segment that has text. -/
theorem cropLoop_last {stop : Nat} : ∀ (segs : List Segment) (pos : Nat),
    (∀ x ∈ segs, x.cellLength = widthOf x.text) → (∀ x ∈ segs, ∀ g ∈ x.text, g.width = 1) → pos < stop →
    stop ≤ pos + (segs.map (·.cellLength)).sum →
    ∃ init x, Strip.cropLoop 0 stop pos segs = init ++ [x] ∧ x.text ≠ []
  | [], pos, _, _, h1, h2 => by simp at h2; omega
  | seg :: segs, pos, hwf, hn, h1, h2 => by
    have ih := cropLoop_last (stop := stop) segs (pos + seg.cellLength) (fun x hx => hwf x (by simp [hx]))
      (fun x hx => hn x (by simp [hx]))
    unfold Strip.cropLoop
    dsimp only
    by_cases h0 : pos + seg.cellLength ≤ 0
    · rw [if_pos h0]
      exact ih (by omega) (by simp at h2; omega)
    · rw [if_neg h0, if_neg (by omega)]
      by_cases hend : pos + seg.cellLength < stop
      · obtain ⟨init, x, e1, e2⟩ := ih hend (by simp at h2; omega)
        exact ⟨Strip.cropSegment seg pos 0 stop ++ init, x, by rw [e1, List.append_assoc], e2⟩
      · have hrest : Strip.cropLoop 0 stop (pos + seg.cellLength) segs = [] := by
          cases segs with
          | nil => rfl
          | cons s2 segs =>
            unfold Strip.cropLoop
            dsimp only
            rw [if_neg (by omega), if_pos (by omega)]
        rw [hrest, List.append_nil]
        have hcl := hwf seg (by simp)
        have hlen : widthOf seg.text = seg.text.length := by
          have := hn seg (by simp)
          unfold widthOf
          rw [List.map_congr_left (g := fun _ => 1) (fun g hg => this g hg)]
          simp
        have hne : seg.text ≠ [] := by
          intro e; rw [e] at hlen hcl; simp [widthOf] at hcl; omega
        unfold Strip.cropSegment
        dsimp only
        split
        · exact ⟨[], seg, rfl, hne⟩
        · rename_i hc
          rw [if_pos (by omega)]
          have hl : min (stop - pos) seg.cellLength = stop - pos := by omega
          have hl2 : stop - pos < seg.cellLength := by
            by_contra hh
            exact hc ⟨by omega, by omega⟩
          have htext : (seg.splitAt (min (stop - pos) seg.cellLength)).1.text ≠ [] := by
            rw [hl]
            unfold Segment.splitAt
            rw [if_neg (by omega), if_neg (by omega)]
            dsimp only
            cases ht : seg.text with
            | nil => exact absurd ht hne
            | cons g gs =>
              unfold Segment.splitLoop
              rw [if_neg (by omega)]
              simp
          rw [if_neg (by simpa using htext)]
          exact ⟨[], _, rfl, htext⟩

/-- In narrow text the ellipsis has the style of the last character kept. -/
theorem truncate_style (s : Strip) (h : s.WF) (hn : ∀ g ∈ textOf s, g.width = 1) (width : Nat) (hw : 2 ≤ width)
    (hl : width < s.cellLength) :
    (truncate s width).cells =
      s.cells.take (width - 1) ++ [⟨ellipsis, 0, s.cells[width - 2]?.bind (·.style), []⟩] := by
  have hnc := narrow_cells s hn
  have hcells := Strip.crop_cells_narrow s h hnc 0 (width - 1)
  rw [List.drop_zero] at hcells
  unfold truncate
  rw [if_neg (by omega), if_neg (by omega), if_neg (by omega)]
  dsimp only
  rw [Strip.join_cells]
  simp only [List.flatMap_cons, List.flatMap_nil, List.append_nil, hcells]
  congr 1
  show [(⟨ellipsis, 0, lastStyle (s.crop 0 (width - 1)), []⟩ : StripCell)] = _
  congr 2
  have hsegs : (s.crop 0 (width - 1)).segments = Strip.cropLoop 0 (width - 1) 0 s.segments := by
    unfold Strip.crop
    rw [if_neg (by omega), Nat.min_eq_left (by omega)]
    rfl
  obtain ⟨init, x, e1, e2⟩ := cropLoop_last (stop := width - 1) s.segments 0 h.seg
    (fun x hx g hg => hn g (by unfold textOf; rw [List.mem_flatMap]; exact ⟨x, hx, hg⟩)) (by omega)
    (by rw [← h.total]; omega)
  have hst : lastStyle (s.crop 0 (width - 1)) = x.style := by
    unfold lastStyle
    rw [hsegs, e1]
    simp
  have hxw : ∀ g ∈ x.text, g.width = 1 := by
    intro g hg
    apply hn
    apply crop_mem s 0 (width - 1)
    unfold textOf
    rw [hsegs, e1, List.mem_flatMap]
    exact ⟨x, by simp, hg⟩
  have hlast : (s.crop 0 (width - 1)).cells.getLast? = (textCells x.style x.info x.text).getLast? := by
    unfold Strip.cells
    rw [hsegs, e1, segCells_append]
    have : segCells [x] = textCells x.style x.info x.text := by simp [segCells]
    rw [this, List.getLast?_append]
    cases hx : x.text with
    | nil => exact absurd hx e2
    | cons g gs =>
      have : (textCells x.style x.info (g :: gs)).getLast? ≠ none := by
        rw [Ne, List.getLast?_eq_none_iff]
        intro e
        have := congrArg List.length e
        rw [textCells_length, widthOf_cons, hxw g (by rw [hx]; simp)] at this
        simp at this
      cases hh : (textCells x.style x.info (g :: gs)).getLast? with
      | none => exact absurd hh this
      | some _ => rfl
  rw [hcells, List.getLast?_take] at hlast
  rw [if_neg (by omega), show width - 1 - 1 = width - 2 by omega] at hlast
  have hsome : ∃ c, s.cells[width - 2]? = some c := by
    refine ⟨s.cells[width - 2]'(by rw [h.length]; omega), List.getElem?_eq_getElem _⟩
  obtain ⟨cc, hcc⟩ := hsome
  rw [hcc] at hlast
  simp only [Option.some_or] at hlast
  have hmem := List.mem_of_getLast? hlast.symm
  have : cc.style = x.style := by
    unfold textCells at hmem
    simp only [List.mem_flatMap, List.mem_map] at hmem
    obtain ⟨_, _, _, _, rfl⟩ := hmem
    rfl
  rw [hst, hcc, ← this]
  rfl

example : (truncate (Strip.ofSegments [Segment.mk' [ch "a", ch "b"] (some { bold := true }),
      Segment.mk' [ch "c", ch "d"] none]) 3).cells[2]? = some ⟨ellipsis, 0, some { bold := true }, []⟩ := by
  rw [truncate_style _ (Strip.ofSegments_wf (by decide)) (by decide) 3 (by decide) (by decide)]
  rfl

/-! ### C65 -/

/-- Wrapping plain text in which every word fits leaves every word whole, in order. -/
theorem wrap_words_intact (c : Content) (hp : c.spans = none) {ws : Grapheme → Bool}
    (hsp : ws Grapheme.space = true) (width : Nat) (hw : 0 < width) {o : Overflow} (ho : o ≠ .ellipsis)
    (hone : ∀ g ∈ c.text, g.text ≠ "\n")
    (hv : ∀ w ∈ words ws c.text, 0 < widthOf w ∧ widthOf w ≤ width) :
    ∃ r, c.wrapFull ws width o .wrap = some r ∧ r.flatMap (fun l => words ws (textOf l.strip)) = words ws c.text ∧
      ∀ P : List (List (List Grapheme)), P.flatten = words ws c.text →
        (∀ g ∈ P, g ≠ [] ∧ joinedWidth g ≤ width) → r.length ≤ max P.length 1 := by
  have hsplit : splitLines c.text = [c.text] := by
    rcases splitLines_decomp c.text with ⟨_, h⟩ | ⟨line, nl, t', h1, h2, _⟩
    · exact h
    · exact absurd h2 (hone nl (by rw [h1]; simp))
  have hid : ∀ l : List Strip, l.map (fun s => if o = .ellipsis then truncate s width else s) = l := by
    intro l; simp [ho]
  have htext : ∀ l, textOf (c.plainStrip l) = l := by
    intro l; simp [textOf, Content.plainStrip, Strip.ofSegments, Segment.mk']
  unfold Content.wrapFull
  rw [if_neg (by omega), hsplit]
  simp only [Content.wrapLines, Content.wrapOne]
  by_cases he : c.text = []
  · rw [he]
    refine ⟨[⟨Strip.new, true⟩], by simp, rfl, ?_⟩
    intro P _ _
    simp
  · rw [if_neg (by simpa using he), hp]
    simp only [Option.map_some, List.append_nil, hid]
    refine ⟨_, rfl, ?_⟩
    have hintact := wrapWords_intact ws hsp width (words ws c.text) [] 0 rfl (by simp)
      (fun w hw => ⟨(hv w hw).1, (hv w hw).2, (words_mem hw).1, fun g hg => ((words_mem hw).2 g hg).1⟩)
    have e1 : (markLast (c.wrapLine ws width c.text)).flatMap (fun l => words ws (textOf l.strip)) =
        words ws c.text := by
      rw [← List.flatMap_map (f := fun x : WrappedLine => x.strip) (g := fun s => words ws (textOf s)), markLast_strips]
      unfold Content.wrapLine
      rw [List.flatMap_map]
      simp only [htext]
      rw [hintact]
      simp [words, wordsLoop]
    have hlen : (markLast (c.wrapLine ws width c.text)).length = (wrapWords width [] 0 (words ws c.text)).length := by
      rw [← List.length_map (f := fun x : WrappedLine => x.strip), markLast_strips]
      simp [Content.wrapLine]
    have e2 : ∀ P : List (List (List Grapheme)), P.flatten = words ws c.text →
        (∀ g ∈ P, g ≠ [] ∧ joinedWidth g ≤ width) →
        (markLast (c.wrapLine ws width c.text)).length ≤ P.length := by
      intro P hP hg
      rw [hlen]
      cases hww : words ws c.text with
      | nil => simp [wrapWords]
      | cons w wds =>
        rw [hww] at hP hv
        have hwd : ∀ x ∈ w :: wds, x ≠ [] := fun x hx => (words_mem (by rw [hww]; exact hx)).1
        rw [wrapWords, if_pos rfl, if_pos (hv w (by simp)).2]
        rw [wrapWords_count width wds w (widthOf w) (hv w (by simp)).1 (hwd w (by simp))
          (fun x hx => ⟨(hv x (by simp [hx])).1, (hv x (by simp [hx])).2, hwd x (by simp [hx])⟩)]
        exact lineCount_minimal width P w wds hP hg
    split
    · rename_i hemp
      refine ⟨?_, ?_⟩
      · rw [← e1, List.isEmpty_iff.1 hemp]; rfl
      · intro P _ _; simp
    · refine ⟨e1, ?_⟩
      intro P h1 h2
      have := e2 P h1 h2
      omega

/-- `"ab cd e"`: two lines at width five, and no arrangement needs fewer. -/
def wordsText : List Grapheme := [ch "a", ch "b", ch " ", ch "c", ch "d", ch " ", ch "e"]

example : ∃ r, ({ text := wordsText } : Content).wrapFull asciiWs 5 .fold .wrap = some r ∧
    r.flatMap (fun l => words asciiWs (textOf l.strip)) = words asciiWs wordsText ∧
      ∀ P : List (List (List Grapheme)), P.flatten = words asciiWs wordsText →
        (∀ g ∈ P, g ≠ [] ∧ joinedWidth g ≤ 5) → r.length ≤ max P.length 1 :=
  wrap_words_intact { text := wordsText } rfl (by decide) 5 (by decide) (by decide) (by decide)
    (by
      have : words asciiWs wordsText = [[ch "a", ch "b"], [ch "c", ch "d"], [ch "e"]] := by decide
      show ∀ w ∈ words asciiWs wordsText, _
      rw [this]; decide)

/-! ### C67 -/

/-- Link styling keeps the attributes of the text and adds those of the link; links that are not hovered
are underlined; a hovered link has the attributes of both link styles. -/
theorem link_attributes (base : Style) (link : LinkStyle) (hovered : Bool) :
    let r := applyLinkStyle base link hovered
    (r.bold = true ↔ base.bold = true ∨ link.style.bold = true ∨ hovered = true ∧ link.styleHover.bold = true) ∧
    (r.dim = true ↔ base.dim = true ∨ link.style.dim = true ∨ hovered = true ∧ link.styleHover.dim = true) ∧
    (r.italic = true ↔ base.italic = true ∨ link.style.italic = true ∨
      hovered = true ∧ link.styleHover.italic = true) ∧
    (r.strike = true ↔ base.strike = true ∨ link.style.strike = true ∨
      hovered = true ∧ link.styleHover.strike = true) ∧
    (r.reverse = true ↔ base.reverse = true ∨ link.style.reverse = true ∨
      hovered = true ∧ link.styleHover.reverse = true) ∧
    (r.underline = true ↔ hovered = false ∨ link.style.underline = true ∨ link.styleHover.underline = true) := by
  cases hovered <;> simp [applyLinkStyle, mergeHover]

/-- Hovering an underlined link can remove the underline the text had of its own. -/
theorem link_hover_underline_counterexample :
    (applyLinkStyle { underline := true } {} true).underline = false := by decide

/-- The background of a link: the hover background if hovered and set, else the link background, laid over
the background of the text; without either the background of the text. -/
theorem link_background (base : Style) (link : LinkStyle) (hovered : Bool) :
    let wanted := if hovered then link.backgroundHover.or link.background else link.background
    let r := (applyLinkStyle base link hovered).bg
    (wanted = none → r = base.bg) ∧
    (∀ l, wanted = some l → 1 ≤ l.a ∨ base.bg = none → r = some l) ∧
    (∀ l b, wanted = some l → base.bg = some b → l.Valid → b.Valid → 0 ≤ l.a →
      ∃ x, r = some x ∧ RgbaColor.Between x b l) := by
  dsimp only
  generalize hwd : (if hovered = true then link.backgroundHover.or link.background else link.background) = wanted
  have hr : (applyLinkStyle base link hovered).bg = linkBackground wanted base.bg := by
    unfold applyLinkStyle; dsimp only; rw [hwd]
  rw [hr]
  refine ⟨?_, ?_, ?_⟩
  · rintro rfl; rfl
  · rintro l rfl h
    unfold linkBackground
    cases hb : base.bg with
    | none => rfl
    | some b =>
      rcases h with h | h
      · dsimp only; rw [if_neg (by simpa using h)]
      · rw [hb] at h; simp at h
  · rintro l b rfl hb h1 h2 h3
    rw [hb]
    unfold linkBackground
    dsimp only
    split
    · exact ⟨_, rfl, RgbaColor.blendOver_between h1 h2 h3⟩
    · exact ⟨l, rfl, by simp only [RgbaColor.Between]; omega⟩

/-- The colour of a link: an opaque colour is used as it is, a translucent one is laid over the background
of the link. -/
theorem link_foreground (base : Style) (link : LinkStyle) (hovered : Bool) (color : RgbaColor)
    (hc : (if hovered then link.colorHover.or link.color else link.color) = some color) (ha : color.auto = false) :
    let r := applyLinkStyle base link hovered
    (1 ≤ color.a → r.fg = some color) ∧
    (∀ b, r.bg = some b → color.Valid → b.Valid → 0 ≤ color.a → ∃ x, r.fg = some x ∧ RgbaColor.Between x b color) := by
  dsimp only
  have hr : (applyLinkStyle base link hovered).fg =
      linkForeground (some color) (applyLinkStyle base link hovered).bg base := by
    unfold applyLinkStyle; dsimp only; rw [hc]
  refine ⟨?_, ?_⟩
  · intro h
    rw [hr]
    unfold linkForeground
    dsimp only
    rw [if_neg (by simp [ha]), if_neg (by simpa using h)]
  · intro b hb h1 h2 h3
    rw [hr, hb]
    unfold linkForeground
    dsimp only
    rw [if_neg (by simp [ha])]
    split
    · exact ⟨_, rfl, RgbaColor.blendOver_between h1 h2 h3⟩
    · exact ⟨color, rfl, by simp only [RgbaColor.Between]; omega⟩

/-- A half transparent red link colour over blue. -/
def sampleLink : LinkStyle :=
  { color := some { r := 255, g := 0, b := 0, a := 1 / 2 }, background := some { r := 0, g := 0, b := 255, a := 1 } }

example : (applyLinkStyle {} sampleLink false).bg = some { r := 0, g := 0, b := 255, a := 1 } :=
  (link_background {} sampleLink false).2.1 _ rfl (Or.inl (by decide +kernel))

example : ∃ x, (applyLinkStyle {} sampleLink false).fg = some x ∧
    RgbaColor.Between x { r := 0, g := 0, b := 255, a := 1 } { r := 255, g := 0, b := 0, a := 1 / 2 } :=
  (link_foreground {} sampleLink false _ rfl rfl).2 _ rfl (by unfold RgbaColor.Valid; decide) (by unfold RgbaColor.Valid; decide)
    (by decide +kernel)

end Textual.Content
