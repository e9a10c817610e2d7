import Mathlib.Tactic.Ring
import Verif.Props.Strip

/-! C12: justified text. -/

namespace Textual.Strip

/-- The specification: the `k`-th space of the line becomes `1 + es[k]` spaces of the same style and
everything else is kept. -/
def widenSpaces : List Nat → List StripCell → List StripCell
  | _, [] => []
  | es, c :: cs =>
    if c.g.text = " " then
      List.replicate (1 + es.headD 0) { c with g := Grapheme.space, col := 0 } ++ widenSpaces es.tail cs
    else c :: widenSpaces es cs

/-- A space character takes one column. -/
def SpacesNarrow (segs : List Segment) : Prop :=
  ∀ s ∈ segs, ∀ g ∈ s.text, g.text = " " → g.width = 1

theorem buildSegment_cells (t : List Grapheme) (st : Option Style) (i : Meta) :
    segCells [buildSegment t st i] = textCells st i t := by
  simp [segCells, buildSegment, Segment.mk']

theorem optBuild_cells (t : List Grapheme) (st : Option Style) (i : Meta) :
    segCells (if t.isEmpty then [] else [buildSegment t st i]) = textCells st i t := by
  split
  · rename_i h; simp only [List.isEmpty_iff] at h; simp [h, segCells, textCells]
  · exact buildSegment_cells t st i

theorem optBuild_wf (t : List Grapheme) (st : Option Style) (i : Meta) :
    ∀ x ∈ (if t.isEmpty then [] else [buildSegment t st i]), x.cellLength = widthOf x.text := by
  intro x hx
  split at hx
  · simp at hx
  · simp at hx; subst hx; rfl

theorem widenSpaces_nonspace (es : List Nat) (a b : List StripCell) (h : ∀ c ∈ a, c.g.text ≠ " ") :
    widenSpaces es (a ++ b) = a ++ widenSpaces es b := by
  induction a with
  | nil => rfl
  | cons c cs ih =>
    rw [List.cons_append, widenSpaces, if_neg (h c (by simp)), ih (fun c hc => h c (by simp [hc]))]
    rfl

theorem textCells_cons (st i) (g : Grapheme) (gs : List Grapheme) :
    textCells st i (g :: gs) = textCells st i [g] ++ textCells st i gs := by simp [textCells]

theorem justifySegment_spec (extras : List Nat) (st : Option Style) (i : Meta) (gs : List Grapheme) :
    ∀ (gi : Nat) (buffer : List Grapheme), (∀ g ∈ gs, g.text = " " → g.width = 1) →
    (justifySegment extras st i gi buffer gs).2 = gi + gs.countP (·.text == " ") ∧
    segCells (justifySegment extras st i gi buffer gs).1 =
      textCells st i buffer ++ widenSpaces (extras.drop gi) (textCells st i gs) ∧
    (∀ x ∈ (justifySegment extras st i gi buffer gs).1, x.cellLength = widthOf x.text) := by
  induction gs with
  | nil =>
    intro gi buffer _
    refine ⟨by simp [justifySegment], ?_, optBuild_wf _ _ _⟩
    simp only [justifySegment, optBuild_cells]
    simp [textCells, widenSpaces]
  | cons g gs ih =>
    intro gi buffer hn
    have hgs : ∀ g ∈ gs, g.text = " " → g.width = 1 := fun x hx => hn x (by simp [hx])
    simp only [justifySegment]
    split
    · rename_i hsp
      have hsp' : g.text = " " := by simpa using hsp
      have := ih (gi + 1) [] hgs
      simp only
      refine ⟨?_, ?_, ?_⟩
      · rw [this.1, List.countP_cons]; simp [hsp']; omega
      · rw [segCells_append, optBuild_cells, ← List.singleton_append, segCells_append,
          buildSegment_cells, this.2.1]
        congr 1
        rw [textCells_cons st i g gs]
        have hone : textCells st i [g] = [⟨g, 0, st, i⟩] := by
          simp [textCells, hn g (by simp) hsp']
        rw [hone, List.singleton_append, widenSpaces, if_pos hsp', textCells_spaces]
        have hd : (extras.drop gi).headD 0 = extras[gi]?.getD 0 := by
          rw [← List.head?_drop, List.headD_eq_head?_getD]
        have ht : (extras.drop gi).tail = extras.drop (gi + 1) := by
          rw [List.tail_drop]
        rw [hd, ht]
        simp [textCells]
      · intro x hx
        rcases List.mem_append.1 hx with hx | hx
        · exact optBuild_wf _ _ _ x hx
        · rcases List.mem_cons.1 hx with hx | hx
          · subst hx; rfl
          · exact this.2.2 x hx
    · rename_i hsp
      have hsp' : g.text ≠ " " := by simpa using hsp
      have := ih gi (buffer ++ [g]) hgs
      refine ⟨?_, ?_, this.2.2⟩
      · rw [this.1, List.countP_cons]; simp [hsp']
      · rw [this.2.1, textCells_append, textCells_cons st i g gs, widenSpaces_nonspace,
          List.append_assoc]
        intro c hc
        simp only [textCells, List.flatMap_cons, List.flatMap_nil, List.append_nil, List.mem_map] at hc
        obtain ⟨_, _, rfl⟩ := hc
        exact hsp'

theorem widenSpaces_append (a b : List StripCell) : ∀ (es : List Nat),
    widenSpaces es (a ++ b) =
      widenSpaces es a ++ widenSpaces (es.drop (a.countP (·.g.text == " "))) b := by
  induction a with
  | nil => intro es; simp [widenSpaces]
  | cons c cs ih =>
    intro es
    simp only [List.cons_append, widenSpaces]
    split
    · rename_i h
      rw [ih, List.append_assoc, List.countP_cons]
      simp only [h, BEq.rfl, if_true, ← List.drop_one, List.drop_drop, Nat.add_comm]
    · rename_i h
      rw [ih, List.countP_cons, List.cons_append]
      simp [h]

theorem textCells_spaceCount (st i) (gs : List Grapheme) (hn : ∀ g ∈ gs, g.text = " " → g.width = 1) :
    (textCells st i gs).countP (·.g.text == " ") = gs.countP (·.text == " ") := by
  induction gs with
  | nil => rfl
  | cons g gs ih =>
    rw [textCells_cons, List.countP_append, ih (fun x hx => hn x (by simp [hx])), List.countP_cons]
    by_cases h : g.text = " "
    · simp [textCells, hn g (by simp) h, h]; omega
    · simp [textCells, h, List.countP_eq_zero]

theorem justifyLoop_spec (extras : List Nat) (segs : List Segment) : ∀ gi, SpacesNarrow segs →
    segCells (justifyLoop extras gi segs) = widenSpaces (extras.drop gi) (segCells segs) ∧
    (∀ x ∈ justifyLoop extras gi segs, x.cellLength = widthOf x.text) := by
  induction segs with
  | nil => intro gi _; simp [justifyLoop, segCells, widenSpaces]
  | cons s ss ih =>
    intro gi hn
    have hs := hn s (by simp)
    have h1 := justifySegment_spec extras s.style s.info s.text gi [] hs
    have h2 := ih (justifySegment extras s.style s.info gi [] s.text).2
      (fun x hx => hn x (by simp [hx]))
    simp only [justifyLoop]
    constructor
    · rw [segCells_append, h1.2.1, h2.1, h1.1, segCells_cons, widenSpaces_append,
        textCells_spaceCount _ _ _ hs, List.drop_drop]
      simp [textCells]
    · intro x hx
      rcases List.mem_append.1 hx with hx | hx
      · exact h1.2.2 x hx
      · exact h2.2 x hx

theorem gapCount_cells (segs : List Segment) (hn : SpacesNarrow segs) :
    (segCells segs).countP (·.g.text == " ") = gapCount segs := by
  induction segs with
  | nil => rfl
  | cons s ss ih =>
    rw [segCells_cons, List.countP_append, textCells_spaceCount _ _ _ (hn s (by simp)),
      ih (fun x hx => hn x (by simp [hx]))]
    simp [gapCount]

/-- The extra spaces given to gap `k`. -/
theorem extraPerGap_eq (n gaps : Nat) (hg : 0 < gaps) :
    extraPerGap n gaps = (List.range gaps).map fun k => (n + k) / gaps := by
  induction n with
  | zero =>
    apply List.ext_getElem?
    intro k
    by_cases hk : k < gaps
    · simp [extraPerGap, hk, Nat.div_eq_of_lt hk]
    · simp [extraPerGap, List.getElem?_eq_none, hk]
  | succ n ih =>
    have hstep : extraPerGap (n + 1) gaps =
        (extraPerGap n gaps).modify (gaps - 1 - n % gaps) (· + 1) := by
      simp [extraPerGap, List.range_succ]
    rw [hstep, ih]
    apply List.ext_getElem?
    intro k
    rw [List.getElem?_modify]
    by_cases hk : k < gaps
    · simp only [List.getElem?_map, List.getElem?_range hk, Option.map_some, Option.map_eq_map]
      congr 1
      have hmod := Nat.mod_lt n hg
      have hd := Nat.div_add_mod n gaps
      by_cases he : gaps - 1 - n % gaps = k
      · rw [if_pos he]
        have h1 : (n + k) / gaps = n / gaps := by
          rw [show n + k = (n % gaps + k) + gaps * (n / gaps) by omega, Nat.add_mul_div_left _ _ hg,
            Nat.div_eq_of_lt (by omega), Nat.zero_add]
        have h2 : (n + 1 + k) / gaps = n / gaps + 1 := by
          have hs : n + 1 + k = gaps * (n / gaps + 1) := by rw [Nat.mul_add]; omega
          rw [hs, Nat.mul_div_cancel_left _ hg]
        rw [h1, h2]
      · rw [if_neg he]
        rcases Nat.lt_or_ge (n % gaps + 1 + k) gaps with hlt | hge
        · have h1 : (n + k) / gaps = n / gaps := by
            rw [show n + k = (n % gaps + k) + gaps * (n / gaps) by omega, Nat.add_mul_div_left _ _ hg,
              Nat.div_eq_of_lt (by omega), Nat.zero_add]
          have h2 : (n + 1 + k) / gaps = n / gaps := by
            rw [show n + 1 + k = (n % gaps + 1 + k) + gaps * (n / gaps) by omega,
              Nat.add_mul_div_left _ _ hg, Nat.div_eq_of_lt (by omega), Nat.zero_add]
          rw [h1, h2]
        · have h1 : (n + k) / gaps = n / gaps + 1 := by
            have e1 : n + k = (n % gaps + k - gaps) + gaps * (n / gaps + 1) := by
              rw [Nat.mul_add]; omega
            have h0 : (n % gaps + k - gaps) / gaps = 0 := Nat.div_eq_of_lt (by omega)
            rw [e1, Nat.add_mul_div_left _ _ hg, h0, Nat.zero_add]
          have h2 : (n + 1 + k) / gaps = n / gaps + 1 := by
            have e2 : n + 1 + k = (n % gaps + 1 + k - gaps) + gaps * (n / gaps + 1) := by
              rw [Nat.mul_add]; omega
            have h0 : (n % gaps + 1 + k - gaps) / gaps = 0 := Nat.div_eq_of_lt (by omega)
            rw [e2, Nat.add_mul_div_left _ _ hg, h0, Nat.zero_add]
          rw [h1, h2]
    · simp [List.getElem?_eq_none, hk]

theorem extraPerGap_sum (n gaps : Nat) (hg : 0 < gaps) : (extraPerGap n gaps).sum = n := by
  have key : ∀ (l : List Nat) (k : Nat), k < l.length → (l.modify k (· + 1)).sum = l.sum + 1 := by
    intro l
    induction l with
    | nil => intro k h; simp at h
    | cons x xs ih =>
      intro k h
      cases k with
      | zero => simp; omega
      | succ k => simp at h; simp [ih k h]; omega
  induction n with
  | zero => simp [extraPerGap]
  | succ n ih =>
    have hstep : extraPerGap (n + 1) gaps =
        (extraPerGap n gaps).modify (gaps - 1 - n % gaps) (· + 1) := by
      simp [extraPerGap, List.range_succ]
    rw [hstep, key, ih]
    rw [extraPerGap_eq n gaps hg]; simp; omega

theorem widenSpaces_length (cs : List StripCell) : ∀ es : List Nat,
    es.length = cs.countP (·.g.text == " ") → (widenSpaces es cs).length = cs.length + es.sum := by
  induction cs with
  | nil => intro es h; simp at h; simp [widenSpaces, h]
  | cons c cs ih =>
    intro es h
    simp only [widenSpaces]
    by_cases hc : c.g.text = " "
    · rw [if_pos hc]
      match es, h with
      | [], h => simp [hc] at h
      | e :: es, h =>
        simp [hc] at h
        simp [ih es h]; omega
    · rw [if_neg hc]
      simp [hc] at h
      simp [ih es h]; omega

/-- C12: a line shorter than the width with at least one space is justified by widening its spaces:
the result has exactly the width, every space of the line gets `es[k]` extra spaces, these differ by
at most one from each other, the larger ones come last, and nothing else changes. -/
theorem justify_spec (s : Strip) (h : s.WF) (hn : SpacesNarrow s.segments) (width : Nat)
    (st : Option Style) (hw : s.cellLength < width) (hg : ∃ c ∈ s.cells, c.g.text = " ") :
    (s.justify width st).cellLength = width ∧
    ∃ es : List Nat, es.length = s.cells.countP (·.g.text == " ") ∧
      es.sum = width - s.cellLength ∧
      es.Pairwise (fun a b => a ≤ b ∧ b ≤ a + 1) ∧
      (s.justify width st).cells = widenSpaces es s.cells := by
  have hgap := gapCount_cells s.segments hn
  have hpos : 0 < gapCount s.segments := by
    rw [← hgap, List.countP_pos_iff]
    obtain ⟨c, hc, ht⟩ := hg
    exact ⟨c, hc, by simp [ht]⟩
  have hcells : (s.justify width st).cells =
      widenSpaces (extraPerGap (width - s.cellLength) (gapCount s.segments)) s.cells := by
    unfold justify
    rw [if_neg (by omega), if_neg (by omega)]
    have := (justifyLoop_spec (extraPerGap (width - s.cellLength) (gapCount s.segments)) s.segments 0 hn).1
    rw [List.drop_zero] at this
    exact this
  have hwf : (s.justify width st).WF := by
    unfold justify
    rw [if_neg (by omega), if_neg (by omega)]
    exact ofSegments_wf (justifyLoop_spec _ s.segments 0 hn).2
  have hlen : (extraPerGap (width - s.cellLength) (gapCount s.segments)).length =
      s.cells.countP (·.g.text == " ") := by
    rw [extraPerGap_eq _ _ hpos, List.length_map, List.length_range]; exact hgap.symm
  have hsum := extraPerGap_sum (width - s.cellLength) _ hpos
  refine ⟨?_, _, hlen, hsum, ?_, hcells⟩
  · rw [← hwf.length, hcells, widenSpaces_length _ _ hlen, hsum, h.length]; omega
  · rw [extraPerGap_eq _ _ hpos, List.pairwise_map]
    apply List.Pairwise.imp_of_mem _ (List.pairwise_lt_range (n := gapCount s.segments))
    intro a b ha hb hab
    simp only [List.mem_range] at ha hb
    constructor
    · exact Nat.div_le_div_right (by omega)
    · rw [← Nat.add_div_right _ hpos]
      exact Nat.div_le_div_right (by omega)

/-- C12: a line without spaces is padded on the right. -/
theorem justify_word (s : Strip) (h : s.WF) (hn : SpacesNarrow s.segments) (width : Nat)
    (st : Option Style) (hw : s.cellLength < width) (hg : ∀ c ∈ s.cells, c.g.text ≠ " ") :
    (s.justify width st).cellLength = width ∧
    (s.justify width st).cells = s.cells ++ List.replicate (width - s.cellLength) (padCell st) := by
  have hgap := gapCount_cells s.segments hn
  have h0 : gapCount s.segments = 0 := by
    rw [← hgap, List.countP_eq_zero]
    intro c hc
    simpa using hg c hc
  have hl := h.length
  have hb : OnBoundary s.cells width := by
    intro c hc
    rw [List.getElem?_eq_none (by omega)] at hc
    exact absurd hc (by simp)
  have key := textAlign_spec_partial s h .left width st hb
  unfold justify
  rw [if_neg (by omega), if_pos h0]
  refine ⟨key.1, ?_⟩
  rw [key.2.2, List.take_of_length_le (by omega)]
  simp [leftGap]

/-- C12: a line that is too long is cut to the width (when the cut is not inside a wide grapheme). -/
theorem justify_long_partial (s : Strip) (h : s.WF) (width : Nat) (st : Option Style)
    (hw : width ≤ s.cellLength) (hb : OnBoundary s.cells width) :
    (s.justify width st).cellLength = width ∧ (s.justify width st).cells = s.cells.take width := by
  unfold justify
  rw [if_pos hw]
  have hz := divide_join_partial.onBoundary_zero s
  constructor
  · rw [crop_length_partial s h _ _ hz hb]; omega
  · rw [crop_cells_partial s h _ _ hz hb, List.drop_zero]

/-- "ab c de", 7 columns, justified to 10. -/
def words : Strip := ofSegments [Segment.mk'
  [⟨"a", 1⟩, ⟨"b", 1⟩, ⟨" ", 1⟩, ⟨"c", 1⟩, ⟨" ", 1⟩, ⟨"d", 1⟩, ⟨"e", 1⟩] none]

example : (words.justify 10 none).cellLength = 10 :=
  (justify_spec words ⟨by decide, rfl⟩ (by unfold SpacesNarrow; decide) 10 none (by decide) (by decide)).1
example : (words.justify 10 none).cells.map (·.g.text) =
    ["a", "b", " ", " ", "c", " ", " ", " ", "d", "e"] := by decide

end Textual.Strip
