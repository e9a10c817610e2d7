import Verif.Lemmas.ContentSpans

/-! Lemmas about wrapping lines with spans. -/

namespace Textual.Content

/-! ### Word positions -/

/-- The words of `rest` (which starts at index `k` of the line) stand at the given positions. -/
def Placed (ws : Grapheme → Bool) : List Grapheme → Nat → List (List Grapheme) → List (Nat × Nat) → Prop
  | rest, _, [], [] => ∀ g ∈ rest, ws g = true
  | rest, k, w :: wds, p :: ps => ∃ gap tail, rest = gap ++ (w ++ tail) ∧ (∀ g ∈ gap, ws g = true) ∧
      p = (k + gap.length, k + gap.length + w.length) ∧ Placed ws tail (k + gap.length + w.length) wds ps
  | _, _, _, _ => False

theorem wordsLoop_open (ws : Grapheme → Bool) : ∀ (rest cur : List Grapheme), cur ≠ [] →
    wordsLoop ws cur rest = (cur ++ rest.takeWhile fun g => !ws g) :: words ws (rest.dropWhile fun g => !ws g)
  | [], cur, h => by simp [wordsLoop, words, h]
  | g :: gs, cur, h => by
    unfold wordsLoop
    by_cases hw : ws g = true
    · rw [if_pos hw]
      have e1 : (g :: gs).takeWhile (fun g => !ws g) = [] := by simp [hw]
      have e2 : (g :: gs).dropWhile (fun g => !ws g) = g :: gs := by simp [hw]
      rw [e1, e2]
      have : words ws (g :: gs) = wordsLoop ws [] gs := by
        unfold words; rw [wordsLoop, if_pos hw]; simp
      rw [this]; simp [h]
    · rw [if_neg hw, wordsLoop_open ws gs (cur ++ [g]) (by simp)]
      simp [hw]

theorem words_cases (ws : Grapheme → Bool) (rest : List Grapheme) :
    (words ws rest = [] ∧ ∀ g ∈ rest, ws g = true) ∨
    ∃ gap w tail, rest = gap ++ (w ++ tail) ∧ (∀ g ∈ gap, ws g = true) ∧ w ≠ [] ∧ (∀ g ∈ w, ws g = false) ∧
      words ws rest = w :: words ws tail := by
  induction rest with
  | nil => exact Or.inl ⟨rfl, by simp⟩
  | cons g gs ih =>
    by_cases hw : ws g = true
    · have e : words ws (g :: gs) = words ws gs := by
        unfold words; rw [wordsLoop, if_pos hw]; simp
      rw [e]
      rcases ih with ⟨h1, h2⟩ | ⟨gap, w, tail, h1, h2, h3, h4, h5⟩
      · refine Or.inl ⟨h1, ?_⟩
        intro x hx
        rcases List.mem_cons.1 hx with rfl | hx
        · exact hw
        · exact h2 x hx
      · refine Or.inr ⟨g :: gap, w, tail, by rw [h1]; rfl, ?_, h3, h4, h5⟩
        intro x hx
        rcases List.mem_cons.1 hx with rfl | hx
        · exact hw
        · exact h2 x hx
    · refine Or.inr ⟨[], g :: gs.takeWhile fun g => !ws g, gs.dropWhile fun g => !ws g, ?_, by simp, by simp, ?_, ?_⟩
      · simp
      · intro x hx
        rcases List.mem_cons.1 hx with rfl | hx
        · simpa using hw
        · have := List.all_eq_true.1 (List.all_takeWhile (l := gs) (p := fun g => !ws g)) x hx
          simpa using this
      · unfold words
        rw [wordsLoop, if_neg hw, wordsLoop_open ws gs _ (by simp)]
        simp [words]

theorem findAt_gap {ws : Grapheme → Bool} {w tail : List Grapheme} (hne : w ≠ []) (hw : ∀ g ∈ w, ws g = false) :
    ∀ gap : List Grapheme, (∀ g ∈ gap, ws g = true) → findAt w (gap ++ (w ++ tail)) = some gap.length
  | [], _ => by
    cases w with
    | nil => exact absurd rfl hne
    | cons x w =>
      rw [List.nil_append, List.cons_append, findAt, if_pos]
      · rfl
      · simp
  | g :: gap, h => by
    rw [List.cons_append, findAt, if_neg, findAt_gap hne hw gap (fun x hx => h x (by simp [hx]))]
    · rfl
    · cases w with
      | nil => exact absurd rfl hne
      | cons x w =>
        have h1 := hw x (by simp)
        have h2 := h g (by simp)
        have : x ≠ g := by
          intro e; rw [e, h2] at h1; simp at h1
        simp [this]

theorem positions_placed (ws : Grapheme → Bool) (line : List Grapheme) : ∀ (n : Nat) (rest : List Grapheme) (k : Nat),
    rest.length ≤ n → line.drop k = rest → Placed ws rest k (words ws rest) (positions line k (words ws rest))
  | n, rest, k, hn, hd => by
    rcases words_cases ws rest with ⟨h1, h2⟩ | ⟨gap, w, tail, h1, h2, h3, h4, h5⟩
    · rw [h1]; exact h2
    · rw [h5, positions, hd]
      have hf : findAt w rest = some gap.length := by rw [h1]; exact findAt_gap h3 h4 gap h2
      rw [hf]
      have hlen : 0 < w.length := List.length_pos_iff.2 h3
      cases n with
      | zero =>
        rw [h1] at hn
        simp only [List.length_append] at hn
        omega
      | succ n =>
        refine ⟨gap, tail, h1, h2, rfl, positions_placed ws line n tail _ ?_ ?_⟩
        · rw [h1] at hn; simp at hn; omega
        · rw [Nat.add_assoc, ← List.drop_drop, hd, h1, ← List.append_assoc]
          rw [show gap.length + w.length = (gap ++ w).length by simp, List.drop_left]

/-! ### The ranges of the wrapped lines -/

/-- The glyphs in a range that are not white space. -/
def inkedRange (ws : Grapheme → Bool) (A : List Glyph) (p : Nat × Nat) : List Glyph :=
  inkedGlyphs ws ((A.take p.2).drop p.1)

theorem inkedGlyphs_append (ws : Grapheme → Bool) (a b : List Glyph) :
    inkedGlyphs ws (a ++ b) = inkedGlyphs ws a ++ inkedGlyphs ws b := by simp [inkedGlyphs]

theorem inkedGlyphs_nil_of {ws : Grapheme → Bool} {X : List Glyph} (h : ∀ g ∈ X.map (·.1), ws g = true) :
    inkedGlyphs ws X = [] := by
  unfold inkedGlyphs
  rw [List.filter_eq_nil_iff]
  intro x hx
  have := h x.1 (List.mem_map_of_mem hx)
  simp [this]

theorem drop_split {α : Type} (A : List α) {a b : Nat} (h : a ≤ b) :
    A.drop a = (A.take b).drop a ++ A.drop b := by
  conv_lhs => rw [← List.take_append_drop b A]
  rw [List.drop_append]
  rcases Nat.le_total b A.length with hb | hb
  · rw [List.length_take, Nat.min_eq_left hb, Nat.sub_eq_zero_of_le h, List.drop_zero]
  · rw [List.drop_of_length_le hb]; simp

theorem inked_drop_split (ws : Grapheme → Bool) (A : List Glyph) {a b : Nat} (h : a ≤ b) :
    inkedGlyphs ws (A.drop a) = inkedRange ws A (a, b) ++ inkedGlyphs ws (A.drop b) := by
  rw [drop_split A h, inkedGlyphs_append]
  rfl

theorem gap_inked {ws : Grapheme → Bool} {A : List Glyph} {k n : Nat} {gap tail : List Grapheme}
    (hA : (A.map (·.1)).drop k = gap ++ tail) (hg : ∀ g ∈ gap, ws g = true) (hn : n = k + gap.length) :
    inkedRange ws A (k, n) = [] := by
  apply inkedGlyphs_nil_of
  rw [List.map_drop, List.map_take, hn]
  intro g hgm
  have : ((A.map (·.1)).take (k + gap.length)).drop k = gap := by
    rw [List.drop_take, hA]
    simp
  rw [this] at hgm
  exact hg g hgm

theorem spanLoop_spec {ws : Grapheme → Bool} (A : List Glyph) (width : Nat) :
    ∀ (wds : List (List Grapheme)) (rest : List Grapheme) (k : Nat) (done ps : List (Nat × Nat))
      (segStart curW : Nat),
    (A.map (·.1)).drop k = rest → k ≤ A.length → Placed ws rest k wds ps → (∀ w ∈ wds, 0 < widthOf w) →
    (curW = 0 → segStart ≤ A.length ∧
      (ps = [] → inkedGlyphs ws (A.drop segStart) = []) ∧
      (∀ p ps', ps = p :: ps' → segStart ≤ p.1 ∧ inkedRange ws A (segStart, p.1) = [])) →
    (0 < curW → segStart ≤ k ∧ ∃ d x, done = d ++ [(x, k)]) →
    ∃ r, spanLoop A.length width (done ++ ps) segStart curW done.length wds = some r ∧
      r.flatMap (inkedRange ws A) = inkedGlyphs ws (A.drop segStart) ∧
      ∀ q ∈ r, q.1 ≤ q.2 ∧ q.2 ≤ A.length
  | [], rest, k, done, ps, segStart, curW, hrest, hk, hpl, hpos, hz, hn => by
    cases ps with
    | cons p ps => exact hpl.elim
    | nil =>
      have hall : ∀ g ∈ rest, ws g = true := hpl
      unfold spanLoop
      rcases Nat.eq_zero_or_pos curW with h0 | h0
      · rw [if_neg (by omega)]
        exact ⟨[], rfl, ((hz h0).2.1 rfl).symm, by simp⟩
      · obtain ⟨h1, d, x, h2⟩ := hn h0
        rw [if_pos ⟨h0, by rw [h2]; simp⟩]
        have hl : (done ++ []).getLast? = some (x, k) := by rw [h2]; simp
        rw [hl]
        dsimp only
        have hend : inkedGlyphs ws (A.drop k) = [] := by
          apply inkedGlyphs_nil_of
          rw [List.map_drop, hrest]
          exact hall
        split
        · refine ⟨_, rfl, ?_, by simp; omega⟩
          rw [inked_drop_split ws A h1, hend]
          simp
        · have : segStart = k := by omega
          rw [this]
          exact ⟨[], rfl, hend.symm, by simp⟩
  | w :: wds, rest, k, done, ps, segStart, curW, hrest, hk, hpl, hpos, hz, hn => by
    cases ps with
    | nil => exact hpl.elim
    | cons p ps =>
      obtain ⟨gap, tail, hr, hgap, hp, hpl'⟩ := hpl
      have hw := hpos w (by simp)
      have hpos' : ∀ w ∈ wds, 0 < widthOf w := fun x hx => hpos x (by simp [hx])
      have hlen : k + gap.length + w.length ≤ A.length := by
        have : ((A.map (·.1)).drop k).length = (gap ++ (w ++ tail)).length := by rw [hrest, hr]
        simp at this
        omega
      have htail : (A.map (·.1)).drop (k + gap.length + w.length) = tail := by
        rw [Nat.add_assoc, ← List.drop_drop, hrest, hr, ← List.append_assoc,
          show gap.length + w.length = (gap ++ w).length by simp, List.drop_left]
      have hgk : inkedRange ws A (k, p.1) = [] :=
        gap_inked (tail := w ++ tail) (by rw [hrest, hr]) hgap (by rw [hp])
      have hp1 : p.1 = k + gap.length := by rw [hp]
      have hp2 : p.2 = k + gap.length + w.length := by rw [hp]
      have hdone : done ++ p :: ps = (done ++ [p]) ++ ps := by simp
      have hlen' : done.length + 1 = (done ++ [p]).length := by simp
      have hi : (done ++ p :: ps)[done.length]? = some p := by simp
      -- recursion when the word is put on the current line
      have fit : ∀ (seg W : Nat), seg ≤ p.2 → 0 < W →
          ∃ r, spanLoop A.length width (done ++ p :: ps) seg W (done.length + 1) wds = some r ∧
            r.flatMap (inkedRange ws A) = inkedGlyphs ws (A.drop seg) ∧ ∀ q ∈ r, q.1 ≤ q.2 ∧ q.2 ≤ A.length := by
        intro seg W h1 h2
        rw [hdone, hlen']
        refine spanLoop_spec A width wds tail (k + gap.length + w.length) (done ++ [p]) ps seg W htail hlen hpl' hpos'
          (fun h => by omega) (fun _ => ⟨by omega, done, p.1, by rw [hp]⟩)
      -- recursion after a word that is too long
      obtain ⟨next, hnext, hnle, hnz, hnext2⟩ : ∃ next, ((∃ q, (done ++ p :: ps)[done.length + 1]? = some q ∧ q.1 = next) ∨
            ((done ++ p :: ps)[done.length + 1]? = none ∧ A.length = next)) ∧ next ≤ A.length ∧
          ((ps = [] → inkedGlyphs ws (A.drop next) = []) ∧
            (∀ q ps', ps = q :: ps' → next ≤ q.1 ∧ inkedRange ws A (next, q.1) = [])) ∧
          inkedGlyphs ws (A.drop p.2) = inkedGlyphs ws (A.drop next) := by
        cases ps with
        | nil =>
          refine ⟨A.length, Or.inr ⟨by simp, rfl⟩, Nat.le_refl _, ⟨fun _ => by simp [inkedGlyphs], by simp⟩, ?_⟩
          cases wds with
          | cons _ _ => exact hpl'.elim
          | nil =>
            have hall : ∀ g ∈ tail, ws g = true := hpl'
            rw [hp2, inkedGlyphs_nil_of (X := A.drop (k + gap.length + w.length))
              (by rw [List.map_drop, htail]; exact hall)]
            simp [inkedGlyphs]
        | cons q ps =>
          cases wds with
          | nil => exact hpl'.elim
          | cons v wds =>
            obtain ⟨gap', tail', hr', hgap', hq, _⟩ := hpl'
            have hq1 : q.1 = k + gap.length + w.length + gap'.length := by rw [hq]
            have hql : q.1 ≤ A.length := by
              have : ((A.map (·.1)).drop (k + gap.length + w.length)).length =
                (gap' ++ (v ++ tail')).length := by rw [htail, hr']
              simp at this
              omega
            have he : ((A.map (·.1)).take q.1).drop q.1 = [] := by
              apply List.drop_of_length_le; simp; omega
            refine ⟨q.1, Or.inl ⟨q, by simp, rfl⟩, hql, ⟨by simp, ?_⟩, ?_⟩
            · intro q' ps' h
              simp only [List.cons.injEq] at h
              obtain ⟨rfl, _⟩ := h
              refine ⟨Nat.le_refl _, inkedGlyphs_nil_of ?_⟩
              rw [List.map_drop, List.map_take, he]; simp
            · rw [inked_drop_split ws A (show p.2 ≤ q.1 by omega),
                gap_inked (A := A) (k := p.2) (n := q.1) (gap := gap') (tail := v ++ tail')
                  (by rw [hp2, htail, hr']) hgap' (by omega)]
              simp
      have long : ∃ r, spanLoop A.length width (done ++ p :: ps) next 0 (done.length + 1) wds = some r ∧
            r.flatMap (inkedRange ws A) = inkedGlyphs ws (A.drop next) ∧ ∀ q ∈ r, q.1 ≤ q.2 ∧ q.2 ≤ A.length := by
        rw [hdone, hlen']
        exact spanLoop_spec A width wds tail (k + gap.length + w.length) (done ++ [p]) ps next 0 htail hlen hpl' hpos'
          (fun _ => ⟨hnle, hnz⟩) (fun h => by omega)
      unfold spanLoop
      dsimp only
      by_cases h0 : curW = 0
      · rw [if_pos h0]
        obtain ⟨hz1, _, hz2⟩ := hz h0
        obtain ⟨hz3, hz4⟩ := hz2 p ps rfl
        by_cases hfit : widthOf w ≤ width
        · rw [if_pos hfit]
          exact fit segStart _ (by omega) hw
        · rw [if_neg hfit, hi]
          dsimp only
          obtain ⟨r, l1, l2, l3⟩ := long
          rw [show ∀ x : Nat, x = next → spanLoop A.length width (done ++ p :: ps) x 0 (done.length + 1) wds = some r
            from fun x hx => by rw [hx, l1]]
          on_goal 2 => rcases hnext with ⟨q, e1, e2⟩ | ⟨e1, e2⟩ <;> rw [e1] <;> exact e2
          refine ⟨p :: r, rfl, ?_, ?_⟩
          · rw [List.flatMap_cons, l2, inked_drop_split ws A hz3, hz4, inked_drop_split ws A
              (show p.1 ≤ p.2 by omega), hnext2]
            simp
          · intro q hq
            rcases List.mem_cons.1 hq with rfl | hq
            · omega
            · exact l3 q hq
      · rw [if_neg h0]
        obtain ⟨hs1, d, x, hd⟩ := hn (by omega)
        by_cases hfit : curW + (1 + widthOf w) ≤ width
        · rw [if_pos hfit]
          exact fit segStart _ (by omega) (by omega)
        · rw [if_neg hfit, if_pos (by rw [hd]; simp)]
          have hprev : (done ++ p :: ps)[done.length - 1]? = some (x, k) := by
            rw [hd]; simp
          rw [hprev, hi]
          dsimp only [Option.map_some]
          have hgap2 : inkedGlyphs ws (A.drop segStart) =
              inkedRange ws A (segStart, k) ++ inkedGlyphs ws (A.drop p.1) := by
            rw [inked_drop_split ws A hs1, inked_drop_split ws A (show k ≤ p.1 by omega), hgk]
            simp
          by_cases hle : widthOf w ≤ width
          · rw [if_pos hle]
            obtain ⟨r, l1, l2, l3⟩ := fit p.1 (widthOf w) (by omega) hw
            rw [l1]
            refine ⟨(segStart, k) :: r, rfl, ?_, ?_⟩
            · rw [List.flatMap_cons, l2, hgap2]
            · intro q hq
              rcases List.mem_cons.1 hq with rfl | hq
              · exact ⟨hs1, hk⟩
              · exact l3 q hq
          · rw [if_neg hle]
            obtain ⟨r, l1, l2, l3⟩ := long
            rw [show ∀ x : Nat, x = next → spanLoop A.length width (done ++ p :: ps) x 0 (done.length + 1) wds = some r
              from fun x hx => by rw [hx, l1]]
            on_goal 2 => rcases hnext with ⟨q, e1, e2⟩ | ⟨e1, e2⟩ <;> rw [e1] <;> exact e2
            refine ⟨(segStart, k) :: p :: r, rfl, ?_, ?_⟩
            · rw [List.flatMap_cons, List.flatMap_cons, l2, hgap2,
                inked_drop_split ws A (show p.1 ≤ p.2 by omega), hnext2]
            · intro q hq
              rcases List.mem_cons.1 hq with rfl | hq
              · exact ⟨hs1, hk⟩
              · rcases List.mem_cons.1 hq with rfl | hq
                · omega
                · exact l3 q hq

theorem renderRanges_spec (c : Content) {spans : List Span} {ls : Nat} {line : List Grapheme}
    (hs : Solid line) (ha : AlignedAt spans ls line) : ∀ (r : List (Nat × Nat)),
    (∀ q ∈ r, q.1 ≤ q.2 ∧ q.2 ≤ line.length) →
    ∃ out, c.renderRanges spans ls line r = some out ∧
      out.map glyphs = r.map (fun q => ((c.annotate spans ls line).take q.2).drop q.1) ∧
      ∀ s ∈ out, s.WF
  | [], _ => ⟨[], rfl, rfl, by simp⟩
  | (a, b) :: r, h => by
    have hq := h (a, b) (by simp)
    dsimp only at hq
    obtain ⟨s, r1, r2, r3⟩ := renderLine_spec c (hs.sub (a := (line.take b).drop a)
      (fun g hg => List.mem_of_mem_take (List.mem_of_mem_drop hg))) (ha.slice a b hq.1)
    obtain ⟨out, o1, o2, o3⟩ := renderRanges_spec c hs ha r (fun q hq => h q (by simp [hq]))
    refine ⟨s :: out, ?_, ?_, ?_⟩
    · rw [Content.renderRanges, if_neg (by omega), r1]
      dsimp only
      rw [o1]; rfl
    · rw [List.map_cons, List.map_cons, o2, r2]
      congr 1
      have e : line.take a = (line.take b).take a := by rw [List.take_take, Nat.min_eq_left hq.1]
      rw [e, annotate_drop, annotate_take]
    · intro x hx
      rcases List.mem_cons.1 hx with rfl | hx
      · exact r3
      · exact o3 x hx

/-- Wrapping a line with spans keeps every character that is not white space, in order, in its style. -/
theorem wrapLineSpans_spec (c : Content) {ws : Grapheme → Bool} {spans : List Span} {ls : Nat}
    {line : List Grapheme} (width : Nat) (hs : Solid line) (ha : AlignedAt spans ls line)
    (hv : VisibleWords ws line) :
    ∃ out, c.wrapLineSpans ws width spans ls line = some out ∧
      inkedGlyphs ws (out.flatMap glyphs) = inkedGlyphs ws (c.annotate spans ls line) ∧ ∀ s ∈ out, s.WF := by
  have hpl := positions_placed ws line line.length line 0 (Nat.le_refl _) rfl
  have hz : inkedRange ws (c.annotate spans ls line) (0, 0) = [] := by simp [inkedRange, inkedGlyphs]
  obtain ⟨r, h1, h2, h3⟩ := spanLoop_spec (c.annotate spans ls line) width (words ws line) line 0 []
    (positions line 0 (words ws line)) 0 0 (by rw [annotate_map]; rfl) (Nat.zero_le _) hpl hv (by
      intro _
      refine ⟨Nat.zero_le _, ?_, ?_⟩
      · intro hps
        rw [hps] at hpl
        cases hw : words ws line with
        | nil =>
          rw [hw] at hpl
          apply inkedGlyphs_nil_of
          rw [List.drop_zero, annotate_map]
          exact hpl
        | cons _ _ => rw [hw] at hpl; exact hpl.elim
      · intro p ps hps
        refine ⟨Nat.zero_le _, ?_⟩
        rw [hps] at hpl
        cases hw : words ws line with
        | nil => rw [hw] at hpl; exact hpl.elim
        | cons w wds =>
          rw [hw] at hpl
          obtain ⟨gap, tail, g1, g2, g3, _⟩ := hpl
          exact gap_inked (gap := gap) (tail := w ++ tail) (by rw [annotate_map]; exact g1) g2 (by rw [g3]))
    (fun h => by omega)
  rw [annotate_length] at h1 h3
  simp only [List.nil_append, List.length_nil] at h1
  obtain ⟨out, o1, o2, o3⟩ := renderRanges_spec c hs ha r h3
  refine ⟨out, ?_, ?_, o3⟩
  · unfold Content.wrapLineSpans
    rw [h1]
    exact o1
  · have e : out.flatMap glyphs = (out.map glyphs).flatten := by rw [List.flatMap_def]
    rw [e, o2, ← List.flatMap_def]
    rw [List.drop_zero] at h2
    rw [← h2]
    unfold inkedGlyphs
    rw [List.filter_flatMap]
    rfl

/-- The same for plain text. -/
theorem wrapLine_spec (c : Content) {ws : Grapheme → Bool} (hsp : ws Grapheme.space = true)
    {line : List Grapheme} (width ls : Nat) (hv : VisibleWords ws line) :
    inkedGlyphs ws ((c.wrapLine ws width line).flatMap glyphs) = inkedGlyphs ws (c.annotate [] ls line) := by
  rw [annotate_nil_spans]
  unfold Content.wrapLine
  have h := wrapWords_inked ws hsp width (words ws line) [] 0 rfl (by simp)
    (fun w hw => ⟨hv w hw, fun g hg => ((words_mem hw).2 g hg).1⟩)
  rw [words_flatten] at h
  have e : ∀ t : List Grapheme, inkedGlyphs ws (t.map fun g => (g, c.style.getD {}, [])) =
      (inked ws t).map fun g => (g, c.style.getD {}, []) := by
    intro t
    unfold inkedGlyphs inked
    rw [List.filter_map]
    rfl
  rw [List.flatMap_map]
  have e2 : ((wrapWords width [] 0 (words ws line)).flatMap fun a => glyphs (c.plainStrip a)) =
      (wrapWords width [] 0 (words ws line)).flatten.map fun g => (g, c.style.getD {}, []) := by
    rw [List.map_flatten, List.flatMap_def]
    congr 1
    apply List.map_congr_left
    intro a _
    exact plainStrip_glyphs c a
  rw [e2, e, e, h]
  simp [inked]

/-! ### Paragraphs -/

theorem splitGlyphs_single : ∀ (A : List Glyph), (∀ x ∈ A, x.1.text ≠ "\n") → splitGlyphs A = [A]
  | [], _ => rfl
  | x :: A, h => by
    rw [splitGlyphs, if_neg (h x (by simp)), splitGlyphs_single A (fun y hy => h y (by simp [hy]))]

theorem splitGlyphs_append : ∀ (A : List Glyph) (n : Glyph) (B : List Glyph), (∀ x ∈ A, x.1.text ≠ "\n") →
    n.1.text = "\n" → splitGlyphs (A ++ n :: B) = A :: splitGlyphs B
  | [], n, B, _, hn => by rw [List.nil_append, splitGlyphs, if_pos hn]
  | x :: A, n, B, h, hn => by
    rw [List.cons_append, splitGlyphs, if_neg (h x (by simp)),
      splitGlyphs_append A n B (fun y hy => h y (by simp [hy])) hn]

theorem annotate_plain (c : Content) (spans : List Span) (start : Nat) {line : List Grapheme}
    (h : ∀ g ∈ line, g.text ≠ "\n") : ∀ x ∈ c.annotate spans start line, x.1.text ≠ "\n" := by
  intro x hx
  have : x.1 ∈ line := by
    rw [← annotate_map c spans line start]
    exact List.mem_map_of_mem hx
  exact h _ this

/-- Styled text cut at its newlines, line by line. -/
theorem splitGlyphs_annotate (c : Content) (spans : List Span) (start : Nat) {line t : List Grapheme}
    {nl : Grapheme} (hn : nl.text = "\n") (h : ∀ g ∈ line, g.text ≠ "\n") :
    splitGlyphs (c.annotate spans start (line ++ nl :: t)) =
      c.annotate spans start line :: splitGlyphs (c.annotate spans (start + blen line + 1) t) := by
  rw [annotate_append, Content.annotate, splitGlyphs_append _ _ _ (annotate_plain c spans start h) hn,
    gbytes_newline hn]

theorem paragraphs_markLast : ∀ (l : List Strip) (r : List WrappedLine), l ≠ [] →
    paragraphs (markLast l ++ r) = l :: paragraphs r
  | [], _, h => absurd rfl h
  | [s], r, _ => by simp [markLast, paragraphs]
  | s :: t :: l, r, _ => by
    have ih := paragraphs_markLast (t :: l) r (by simp)
    simp only [markLast, List.cons_append, paragraphs, Bool.false_eq_true, if_false, ih]

theorem markLast_strips : ∀ (l : List Strip), (markLast l).map (·.strip) = l
  | [] => rfl
  | [s] => rfl
  | s :: t :: l => by
    have := markLast_strips (t :: l)
    simp only [markLast, List.map_cons, this]

/-- A function on source lines that keeps some reading of each line keeps it for the whole text. -/
theorem wrapLines_paragraphs (c : Content) (ws : Grapheme → Bool) (width : Nat) (o : Overflow) (m : Wrap)
    {β : Type} (view : List Glyph → β)
    (spans : List Span) (ok : List Grapheme → Prop) (P : Strip → Prop)
    (hone : ∀ (start : Nat) (line : List Grapheme), Solid line → AlignedAt spans start line → ok line →
      (∀ g ∈ line, g.text ≠ "\n") →
      ∃ l, c.wrapOne ws width o m start line = some (markLast l) ∧ l ≠ [] ∧ (∀ s ∈ l, P s) ∧
        view (l.flatMap glyphs) = view (c.annotate spans start line)) :
    ∀ (n : Nat) (t : List Grapheme) (start : Nat), t.length ≤ n → Solid t → AlignedAt spans start t →
      (∀ l ∈ splitLines t, ok l) →
      ∃ r, c.wrapLines ws width o m start (splitLines t) = some r ∧ r ≠ [] ∧ (∀ l ∈ r, P l.strip) ∧
        (paragraphs r).map (fun p => view (p.flatMap glyphs)) =
          (splitGlyphs (c.annotate spans start t)).map view
  | n, t, start, hn, hs, ha, hok => by
    have hstrips : ∀ l : List Strip, (∀ s ∈ l, P s) → ∀ x ∈ markLast l, P x.strip := by
      intro l hl x hx
      have : x.strip ∈ (markLast l).map (·.strip) := List.mem_map_of_mem hx
      rw [markLast_strips] at this
      exact hl _ this
    have hnem : ∀ l : List Strip, l ≠ [] → markLast l ≠ [] := by
      intro l hl e
      have := markLast_strips l
      rw [e] at this
      exact hl this.symm
    rcases splitLines_decomp t with ⟨h1, h2⟩ | ⟨line, nl, t', h1, h2, h3, h4⟩
    · obtain ⟨l, l1, l2, l3, l4⟩ := hone start t hs ha (hok t (by rw [h2]; simp)) h1
      refine ⟨markLast l, ?_, hnem l l2, hstrips l l3, ?_⟩
      · rw [h2]; simp [Content.wrapLines, l1]
      · have := paragraphs_markLast l [] l2
        rw [List.append_nil] at this
        rw [this, splitGlyphs_single _ (annotate_plain c spans start h1)]
        simp [paragraphs, l4]
    · cases n with
      | zero => rw [h1] at hn; simp at hn
      | succ n =>
        subst h1
        have hsl : Solid line := hs.sub (by simp +contextual)
        have hsr : Solid t' := hs.sub (by simp +contextual)
        have hal : AlignedAt spans start line := by
          have := AlignedAt.piece (start := start) (a := []) (b := line) (d := nl :: t') ha
          simpa [blen_nil] using this
        have har : AlignedAt spans (start + blen line + 1) t' := by
          have := AlignedAt.piece (start := start) (a := line ++ [nl]) (b := t') (d := []) (by simpa using ha)
          rw [blen_append, blen_cons, blen_nil, gbytes_newline h2] at this
          simpa [Nat.add_assoc] using this
        rw [h4] at hok ⊢
        obtain ⟨l, l1, l2, l3, l4⟩ := hone start line hsl hal (hok line (by simp)) h3
        obtain ⟨r, r1, r2, r3, r4⟩ := wrapLines_paragraphs c ws width o m view spans ok P hone n t'
          (start + blen line + 1) (by simp at hn; omega) hsr har (fun x hx => hok x (by simp [hx]))
        refine ⟨markLast l ++ r, ?_, by simp [hnem l l2], ?_, ?_⟩
        · rw [Content.wrapLines, l1]
          dsimp only
          rw [r1]; rfl
        · intro x hx
          rcases List.mem_append.1 hx with hx | hx
          · exact hstrips l l3 x hx
          · exact r3 x hx
        · rw [paragraphs_markLast l r l2, splitGlyphs_annotate c spans start h2 h3, List.map_cons,
            List.map_cons, l4, r4]

/-- Lines that keep their ink keep the ink of the whole text, also when some lines vanish. -/
theorem wrapLines_ink (c : Content) (ws : Grapheme → Bool) (width : Nat) (o : Overflow) (m : Wrap)
    (spans : List Span)
    (hone : ∀ (start : Nat) (line : List Grapheme), Solid line → AlignedAt spans start line →
      VisibleWords ws line →
      ∃ l, c.wrapOne ws width o m start line = some l ∧
        inkedGlyphs ws (l.flatMap fun x => glyphs x.strip) = inkedGlyphs ws (c.annotate spans start line)) :
    ∀ (n : Nat) (t : List Grapheme) (start : Nat), t.length ≤ n → Solid t → AlignedAt spans start t →
      (∀ g ∈ t, g.text = "\n" → ws g = true) → VisibleWords ws t →
      ∃ r, c.wrapLines ws width o m start (splitLines t) = some r ∧
        inkedGlyphs ws (r.flatMap fun x => glyphs x.strip) = inkedGlyphs ws (c.annotate spans start t)
  | n, t, start, hn, hs, ha, hnl, hv => by
    rcases splitLines_decomp t with ⟨h1, h2⟩ | ⟨line, nl, t', h1, h2, h3, h4⟩
    · obtain ⟨l, l1, l2⟩ := hone start t hs ha hv
      refine ⟨l, ?_, l2⟩
      rw [h2]; simp [Content.wrapLines, l1]
    · cases n with
      | zero => rw [h1] at hn; simp at hn
      | succ n =>
        subst h1
        have hsl : Solid line := hs.sub (by simp +contextual)
        have hsr : Solid t' := hs.sub (by simp +contextual)
        have hal : AlignedAt spans start line := by
          have := AlignedAt.piece (start := start) (a := []) (b := line) (d := nl :: t') ha
          simpa [blen_nil] using this
        have har : AlignedAt spans (start + blen line + 1) t' := by
          have := AlignedAt.piece (start := start) (a := line ++ [nl]) (b := t') (d := []) (by simpa using ha)
          rw [blen_append, blen_cons, blen_nil, gbytes_newline h2] at this
          simpa [Nat.add_assoc] using this
        have hws : ws nl = true := hnl nl (by simp) h2
        have hwords := words_gap hws line t'
        have hv1 : VisibleWords ws line := fun w hw => hv w (by rw [hwords]; simp [hw])
        have hv2 : VisibleWords ws t' := fun w hw => hv w (by rw [hwords]; simp [hw])
        obtain ⟨l, l1, l2⟩ := hone start line hsl hal hv1
        obtain ⟨r, r1, r2⟩ := wrapLines_ink c ws width o m spans hone n t'
          (start + blen line + 1) (by simp at hn; omega) hsr har (fun g hg => hnl g (by simp [hg])) hv2
        rw [h4]
        refine ⟨l ++ r, ?_, ?_⟩
        · rw [Content.wrapLines, l1]
          dsimp only
          rw [r1]; rfl
        · rw [List.flatMap_append, inkedGlyphs_append, l2, r2, annotate_append, Content.annotate,
            inkedGlyphs_append, gbytes_newline h2]
          congr 1
          simp [inkedGlyphs, hws]

/-- The words of a source line have a column if those of the text have. -/
theorem visibleWords_lines {ws : Grapheme → Bool} : ∀ (n : Nat) (t : List Grapheme), t.length ≤ n →
    (∀ g ∈ t, g.text = "\n" → ws g = true) → VisibleWords ws t → ∀ l ∈ splitLines t, VisibleWords ws l
  | n, t, hn, hnl, hv, l, hl => by
    rcases splitLines_decomp t with ⟨h1, h2⟩ | ⟨line, nl, t', h1, h2, h3, h4⟩
    · rw [h2] at hl; simp at hl; rw [hl]; exact hv
    · cases n with
      | zero => rw [h1] at hn; simp at hn
      | succ n =>
        subst h1
        have hwords := words_gap (hnl nl (by simp) h2) line t'
        rw [h4] at hl
        rcases List.mem_cons.1 hl with rfl | hl
        · exact fun w hw => hv w (by rw [hwords]; simp [hw])
        · exact visibleWords_lines n t' (by simp at hn; omega) (fun g hg => hnl g (by simp [hg]))
            (fun w hw => hv w (by rw [hwords]; simp [hw])) l hl

theorem splitLines_mem : ∀ (t : List Grapheme), ∀ l ∈ splitLines t, ∀ g ∈ l, g ∈ t
  | [], l, hl, g, hg => by simp [splitLines] at hl; simp [hl] at hg
  | x :: t, l, hl, g, hg => by
    have ih := splitLines_mem t
    unfold splitLines at hl
    split at hl
    · rcases List.mem_cons.1 hl with rfl | hl
      · simp at hg
      · exact List.mem_cons_of_mem _ (ih l hl g hg)
    · split at hl
      · simp only [List.mem_singleton] at hl; rw [hl] at hg; simp at hg; simp [hg]
      · rename_i l0 ls heq
        rw [heq] at ih
        rcases List.mem_cons.1 hl with rfl | hl
        · rcases List.mem_cons.1 hg with rfl | hg
          · simp
          · exact List.mem_cons_of_mem _ (ih l0 (by simp) g hg)
        · exact List.mem_cons_of_mem _ (ih l (by simp [hl]) g hg)

/-! ### Widths of the ranges -/

/-- The part of a line between two indices. -/
def slice (line : List Grapheme) (a b : Nat) : List Grapheme := (line.take b).drop a

theorem slice_split (line : List Grapheme) {a b d : Nat} (h1 : a ≤ b) (h2 : b ≤ d) :
    slice line a d = slice line a b ++ slice line b d := by
  unfold slice
  have := drop_split (line.take d) h1
  rw [this, List.take_take, Nat.min_eq_left h2]

theorem gap_width {ws : Grapheme → Bool} {gap : List Grapheme} (hg : ∀ g ∈ gap, ws g = true)
    (hc : gap.IsChain (fun a b => ws a = false ∨ ws b = false)) (hw : ∀ g ∈ gap, ws g = true → g.width ≤ 1) :
    widthOf gap ≤ 1 := by
  match gap with
  | [] => simp [widthOf]
  | [g] => simpa [widthOf] using hw g (by simp) (hg g (by simp))
  | a :: b :: l =>
    rw [List.isChain_cons_cons] at hc
    have ha := hg a (by simp)
    have hb := hg b (by simp)
    rcases hc.1 with h | h
    · rw [ha] at h; simp at h
    · rw [hb] at h; simp at h

theorem spanLoop_fits {ws : Grapheme → Bool} {line : List Grapheme} {width : Nat}
    (hc : line.IsChain (fun a b => ws a = false ∨ ws b = false)) (hsp : ∀ g ∈ line, ws g = true → g.width ≤ 1) :
    ∀ (wds : List (List Grapheme)) (rest : List Grapheme) (k : Nat) (done ps : List (Nat × Nat))
      (segStart curW : Nat),
    line.drop k = rest → Placed ws rest k wds ps → (∀ w ∈ wds, 0 < widthOf w ∧ widthOf w ≤ width) →
    (curW = 0 → ∀ p ps', ps = p :: ps' → segStart = p.1) →
    (0 < curW → segStart ≤ k ∧ (∃ d x, done = d ++ [(x, k)]) ∧ widthOf (slice line segStart k) ≤ curW ∧ curW ≤ width) →
    ∀ r, spanLoop line.length width (done ++ ps) segStart curW done.length wds = some r →
      ∀ q ∈ r, widthOf (slice line q.1 q.2) ≤ width
  | [], rest, k, done, ps, segStart, curW, hrest, hpl, hpos, hz, hn => by
    cases ps with
    | cons p ps => exact hpl.elim
    | nil =>
      intro r hr
      unfold spanLoop at hr
      rcases Nat.eq_zero_or_pos curW with h0 | h0
      · rw [if_neg (by omega)] at hr
        simp only [Option.some.injEq] at hr
        subst hr; simp
      · obtain ⟨h1, ⟨d, x, h2⟩, h3, h4⟩ := hn h0
        rw [if_pos ⟨h0, by rw [h2]; simp⟩] at hr
        have hl : (done ++ []).getLast? = some (x, k) := by rw [h2]; simp
        rw [hl] at hr
        dsimp only at hr
        split at hr
        · simp only [Option.some.injEq] at hr
          subst hr
          intro q hq
          simp only [List.mem_singleton] at hq
          subst hq
          exact Nat.le_trans h3 h4
        · simp only [Option.some.injEq] at hr
          subst hr; simp
  | w :: wds, rest, k, done, ps, segStart, curW, hrest, hpl, hpos, hz, hn => by
    cases ps with
    | nil => exact hpl.elim
    | cons p ps =>
      obtain ⟨gap, tail, hr, hgap, hp, hpl'⟩ := hpl
      obtain ⟨hw, hwle⟩ := hpos w (by simp)
      have hpos' : ∀ w ∈ wds, 0 < widthOf w ∧ widthOf w ≤ width := fun x hx => hpos x (by simp [hx])
      have hline : line = line.take k ++ (gap ++ (w ++ tail)) := by
        rw [← hr, ← hrest, List.take_append_drop]
      have hkl : k ≤ line.length := by
        rcases Nat.lt_or_ge line.length k with h | h
        · rw [List.drop_of_length_le (by omega)] at hrest
          rw [← hrest] at hr
          have := congrArg List.length hr
          simp at this
          have hw0 : w = [] := List.eq_nil_of_length_eq_zero (by omega)
          rw [hw0] at hw
          simp [widthOf] at hw
        · exact h
      have htail : line.drop (k + gap.length + w.length) = tail := by
        rw [Nat.add_assoc, ← List.drop_drop, hrest, hr, ← List.append_assoc,
          show gap.length + w.length = (gap ++ w).length by simp, List.drop_left]
      have hgw : widthOf (slice line k p.1) ≤ 1 := by
        have e : slice line k p.1 = gap := by
          unfold slice
          rw [hp, List.drop_take, hrest, hr]
          simp
        rw [e]
        refine gap_width hgap ?_ (fun g hg => hsp g (by rw [hline]; simp [hg]))
        have : gap <:+: line := ⟨line.take k, w ++ tail, by rw [List.append_assoc]; exact hline.symm⟩
        exact hc.infix this
      have hww : slice line p.1 p.2 = w := by
        unfold slice
        rw [hp]
        dsimp only
        rw [List.drop_take, ← List.drop_drop, hrest, hr, List.drop_left]
        simp
      have hp1 : p.1 = k + gap.length := by rw [hp]
      have hp2 : p.2 = k + gap.length + w.length := by rw [hp]
      have hdone : done ++ p :: ps = (done ++ [p]) ++ ps := by simp
      have hlen' : done.length + 1 = (done ++ [p]).length := by simp
      have hi : (done ++ p :: ps)[done.length]? = some p := by simp
      have fit : ∀ (seg W : Nat), seg ≤ p.2 → 0 < W → widthOf (slice line seg p.2) ≤ W → W ≤ width →
          ∀ r, spanLoop line.length width (done ++ p :: ps) seg W (done.length + 1) wds = some r →
            ∀ q ∈ r, widthOf (slice line q.1 q.2) ≤ width := by
        intro seg W h1 h2 h3 h4
        rw [hdone, hlen']
        exact spanLoop_fits hc hsp wds tail (k + gap.length + w.length) (done ++ [p]) ps seg W htail hpl' hpos'
          (fun h => by omega) (fun _ => ⟨by omega, ⟨done, p.1, by rw [hp]⟩, by rw [← hp2]; exact h3, h4⟩)
      intro r hr'
      unfold spanLoop at hr'
      dsimp only at hr'
      by_cases h0 : curW = 0
      · rw [if_pos h0, if_pos hwle] at hr'
        have := hz h0 p ps rfl
        exact fit segStart _ (by omega) hw (by rw [this, hww]) hwle r hr'
      · rw [if_neg h0] at hr'
        obtain ⟨hs1, ⟨d, x, hd⟩, hs3, hs4⟩ := hn (by omega)
        by_cases hfit : curW + (1 + widthOf w) ≤ width
        · rw [if_pos hfit] at hr'
          refine fit segStart _ (by omega) (by omega) ?_ hfit r hr'
          rw [slice_split line (b := p.1) (by omega) (by omega), slice_split line (a := segStart) (b := k) (by omega)
            (by omega), widthOf_append, widthOf_append, hww]
          omega
        · rw [if_neg hfit, if_pos (by rw [hd]; simp)] at hr'
          have hprev : (done ++ p :: ps)[done.length - 1]? = some (x, k) := by
            rw [hd]; simp
          rw [hprev, hi] at hr'
          dsimp only [Option.map_some] at hr'
          rw [if_pos hwle] at hr'
          obtain ⟨r', e1, e2⟩ := Option.map_eq_some_iff.1 hr'
          subst e2
          intro q hq
          rcases List.mem_cons.1 hq with rfl | hq
          · exact Nat.le_trans hs3 hs4
          · exact fit p.1 (widthOf w) (by omega) hw (by rw [hww]) hwle r' e1 q hq

end Textual.Content
