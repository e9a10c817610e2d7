import Mathlib.Tactic.Common
import Verif.Model.Strip

/-!
The terminal columns a strip covers (the specification side of C08-C13) and lemmas about them.
-/

namespace Textual

/-- One terminal column of a line: column `col` of grapheme `g`, with its style and metadata. -/
structure StripCell where
  g : Grapheme
  col : Nat
  style : Option Style
  info : Meta
deriving DecidableEq, Repr

/-- The columns covered by a text. -/
def textCells (style : Option Style) (info : Meta) (text : List Grapheme) : List StripCell :=
  text.flatMap fun g => (List.range g.width).map fun c => ⟨g, c, style, info⟩

/-- The columns covered by a sequence of segments. -/
def segCells (segs : List Segment) : List StripCell :=
  segs.flatMap fun s => textCells s.style s.info s.text

/-- Position `k` of a line does not lie inside a wide grapheme. -/
def OnBoundary (cells : List StripCell) (k : Nat) : Prop :=
  ∀ c, cells[k]? = some c → c.col = 0

namespace Strip

/-- The columns a strip covers, left to right. -/
def cells (s : Strip) : List StripCell := segCells s.segments

/-- The cached lengths are right. Every public constructor establishes this
(see `*_wf` in Props/Strip.lean). -/
structure WF (s : Strip) : Prop where
  seg : ∀ x ∈ s.segments, x.cellLength = widthOf x.text
  total : s.cellLength = (s.segments.map (·.cellLength)).sum

end Strip

theorem widthOf_append (a b : List Grapheme) : widthOf (a ++ b) = widthOf a + widthOf b := by
  simp [widthOf]

theorem textCells_append (st i) (a b : List Grapheme) :
    textCells st i (a ++ b) = textCells st i a ++ textCells st i b := by
  simp [textCells]

theorem textCells_length (st i) (a : List Grapheme) : (textCells st i a).length = widthOf a := by
  induction a with
  | nil => rfl
  | cons g gs ih =>
    have : textCells st i (g :: gs) = textCells st i [g] ++ textCells st i gs := by simp [textCells]
    rw [this, List.length_append, ih]
    simp [textCells, widthOf]

theorem segCells_append (a b : List Segment) : segCells (a ++ b) = segCells a ++ segCells b := by
  simp [segCells]

theorem segCells_cons (a : Segment) (b : List Segment) :
    segCells (a :: b) = textCells a.style a.info a.text ++ segCells b := by
  simp [segCells]

theorem segCells_length (segs : List Segment) (h : ∀ x ∈ segs, x.cellLength = widthOf x.text) :
    (segCells segs).length = (segs.map (·.cellLength)).sum := by
  induction segs with
  | nil => rfl
  | cons s ss ih =>
    rw [segCells_cons, List.length_append, textCells_length, ih (fun x hx => h x (by simp [hx]))]
    simp [h s]

theorem Strip.WF.length {s : Strip} (h : s.WF) : s.cells.length = s.cellLength := by
  rw [h.total]; exact segCells_length _ h.seg

theorem Strip.ofSegments_wf {segs : List Segment} (h : ∀ x ∈ segs, x.cellLength = widthOf x.text) :
    (Strip.ofSegments segs).WF := ⟨h, rfl⟩

theorem OnBoundary.drop {l : List StripCell} {n k : Nat} (h : OnBoundary l (n + k)) :
    OnBoundary (l.drop n) k := by
  intro c hc
  rw [List.getElem?_drop] at hc
  exact h c hc

theorem OnBoundary.left {a b : List StripCell} {k : Nat} (h : OnBoundary (a ++ b) k) :
    OnBoundary a k := by
  intro c hc
  apply h c
  rw [List.getElem?_append_left (List.getElem?_eq_some_iff.1 hc).1]
  exact hc

theorem OnBoundary.right {a b : List StripCell} {k : Nat} (h : OnBoundary (a ++ b) (a.length + k)) :
    OnBoundary b k := by
  intro c hc
  apply h c
  rw [List.getElem?_append_right (by omega)]
  simpa using hc

theorem boundary_zero (st : Option Style) (i : Meta) (gs : List Grapheme) :
    OnBoundary (textCells st i gs) 0 := by
  induction gs with
  | nil => intro c hc; simp [textCells] at hc
  | cons g gs ih =>
    intro c hc
    have hsplit : textCells st i (g :: gs) = textCells st i [g] ++ textCells st i gs := by
      simp [textCells]
    have hgl : (textCells st i [g]).length = g.width := by simp [textCells_length, widthOf]
    rw [hsplit] at hc
    rcases Nat.eq_zero_or_pos g.width with h0 | hp
    · rw [List.getElem?_append_right (by omega)] at hc
      exact ih c (by simpa using hc)
    · rw [List.getElem?_append_left (by omega)] at hc
      simp [textCells, hp] at hc
      rw [← hc]

theorem splitLoop_spec (cut : Nat) (gs : List Grapheme) : ∀ pos,
    (Segment.splitLoop cut pos gs).1 ++ (Segment.splitLoop cut pos gs).2.1 = gs ∧
    (Segment.splitLoop cut pos gs).2.2 = pos + widthOf (Segment.splitLoop cut pos gs).1 := by
  induction gs with
  | nil => intro pos; simp [Segment.splitLoop, widthOf]
  | cons g gs ih =>
    intro pos
    simp only [Segment.splitLoop]
    split
    · simp [widthOf]
    · have := ih (pos + g.width)
      refine ⟨by simp [this.1], ?_⟩
      rw [this.2]
      simp [widthOf]; omega

theorem splitLoop_width (cut : Nat) (st : Option Style) (i : Meta) (gs : List Grapheme) : ∀ pos,
    pos ≤ cut → OnBoundary (textCells st i gs) (cut - pos) →
    widthOf (Segment.splitLoop cut pos gs).1 = min (cut - pos) (widthOf gs) := by
  induction gs with
  | nil => intro pos _ _; simp [Segment.splitLoop, widthOf]
  | cons g gs ih =>
    intro pos hp hb
    simp only [Segment.splitLoop]
    split
    · have : cut - pos = 0 := by omega
      simp [widthOf, this]
    · rename_i hlt
      have hsplit : textCells st i (g :: gs) = textCells st i [g] ++ textCells st i gs := by
        simp [textCells]
      have hgl : (textCells st i [g]).length = g.width := by simp [textCells_length, widthOf]
      have hle : pos + g.width ≤ cut := by
        by_contra hc
        have hk : cut - pos < g.width := by omega
        have := hb ⟨g, cut - pos, st, i⟩ (by
          rw [hsplit, List.getElem?_append_left (by omega)]
          simp [textCells, hk])
        simp at this
        omega
      rw [hsplit] at hb
      have hb' : OnBoundary (textCells st i gs) (cut - (pos + g.width)) := by
        apply OnBoundary.right (a := textCells st i [g])
        rw [hgl]
        have : g.width + (cut - (pos + g.width)) = cut - pos := by omega
        rw [this]; exact hb
      have := ih (pos + g.width) hle hb'
      simp only [widthOf, List.map_cons, List.sum_cons] at this ⊢
      rw [this]; omega

/-- Cutting a segment never invalidates the cached lengths. -/
theorem splitAt_ok (s : Segment) (cut : Nat) (h : s.cellLength = widthOf s.text) :
    (s.splitAt cut).1.cellLength = widthOf (s.splitAt cut).1.text ∧
    (s.splitAt cut).2.cellLength = widthOf (s.splitAt cut).2.text ∧
    (s.splitAt cut).1.text ++ (s.splitAt cut).2.text = s.text ∧
    (s.splitAt cut).1.style = s.style ∧ (s.splitAt cut).2.style = s.style ∧
    (s.splitAt cut).1.info = s.info ∧ (s.splitAt cut).2.info = s.info := by
  unfold Segment.splitAt
  split
  · simp [widthOf, h]
  · split
    · simp [widthOf, h]
    · have := splitLoop_spec cut s.text 0
      refine ⟨by simpa using this.2, ?_, this.1, rfl, rfl, rfl, rfl⟩
      have hw := congrArg widthOf this.1
      rw [widthOf_append] at hw
      show s.cellLength - (Segment.splitLoop cut 0 s.text).2.2 =
        widthOf (Segment.splitLoop cut 0 s.text).2.1
      rw [this.2, h]
      omega

theorem splitAt_cells (s : Segment) (cut : Nat) (h : s.cellLength = widthOf s.text)
    (hb : OnBoundary (textCells s.style s.info s.text) cut) :
    textCells s.style s.info (s.splitAt cut).1.text = (textCells s.style s.info s.text).take cut ∧
    textCells s.style s.info (s.splitAt cut).2.text = (textCells s.style s.info s.text).drop cut := by
  have hl := textCells_length s.style s.info s.text
  unfold Segment.splitAt
  split
  · rename_i h0; subst h0; simp [textCells]
  · split
    · rename_i h1 h2
      constructor
      · rw [List.take_of_length_le (by omega)]
      · rw [List.drop_of_length_le (by omega)]; rfl
    · have hs := splitLoop_spec cut s.text 0
      have hw := splitLoop_width cut s.style s.info s.text 0 (by omega) (by simpa using hb)
      have hlen : (textCells s.style s.info (Segment.splitLoop cut 0 s.text).1).length = cut := by
        rw [textCells_length, hw]; omega
      simp only
      constructor
      · conv_rhs => rw [← hs.1, textCells_append]
        rw [List.take_left' hlen]
      · conv_rhs => rw [← hs.1, textCells_append]
        rw [List.drop_left' hlen]

namespace Strip

theorem cropSegment_wf (seg : Segment) (pos a b : Nat) (h : seg.cellLength = widthOf seg.text) :
    ∀ x ∈ cropSegment seg pos a b, x.cellLength = widthOf x.text := by
  intro x hx
  unfold cropSegment at hx
  simp only at hx
  have h1 := splitAt_ok seg (a - pos) h
  split at hx
  · simp at hx; subst hx; exact h
  · split at hx
    · split at hx
      · simp at hx
      · simp at hx; subst hx; exact (splitAt_ok seg _ h).1
    · split at hx
      · split at hx
        · simp at hx
        · simp at hx; subst hx; exact h1.2.1
      · split at hx
        · simp at hx
        · simp at hx; subst hx; exact (splitAt_ok _ _ h1.2.1).1

theorem isEmpty_cells {st : Option Style} {i : Meta} {seg : Segment} (hs : seg.style = st)
    (hi : seg.info = i) :
    segCells (if seg.text.isEmpty then [] else [seg]) = textCells st i seg.text := by
  split
  · rename_i h
    simp only [List.isEmpty_iff] at h
    simp [h, segCells, textCells]
  · simp [segCells, hs, hi]

theorem cropSegment_cells (seg : Segment) (pos a b : Nat) (h : seg.cellLength = widthOf seg.text)
    (hab : a < b) (hpb : pos < b)
    (ha : OnBoundary (textCells seg.style seg.info seg.text) (a - pos))
    (hb : OnBoundary (textCells seg.style seg.info seg.text) (b - pos)) :
    segCells (cropSegment seg pos a b) =
      ((textCells seg.style seg.info seg.text).take (b - pos)).drop (a - pos) := by
  have hl := textCells_length seg.style seg.info seg.text
  have hmin : (textCells seg.style seg.info seg.text).take (min (b - pos) seg.cellLength) =
      (textCells seg.style seg.info seg.text).take (b - pos) := by
    rcases Nat.le_total (b - pos) seg.cellLength with hle | hle
    · rw [Nat.min_eq_left hle]
    · rw [Nat.min_eq_right hle, List.take_of_length_le (by omega), List.take_of_length_le (by omega)]
  have hbm : OnBoundary (textCells seg.style seg.info seg.text) (min (b - pos) seg.cellLength) := by
    rcases Nat.le_total (b - pos) seg.cellLength with hle | hle
    · rw [Nat.min_eq_left hle]; exact hb
    · intro c hc
      rw [Nat.min_eq_right hle, List.getElem?_eq_none (by omega)] at hc
      exact absurd hc (by simp)
  have k1 := splitAt_ok seg (a - pos) h
  have c1 := splitAt_cells seg (a - pos) h ha
  unfold cropSegment
  simp only
  split
  · rename_i hc
    rw [hc.1, List.drop_zero, ← hmin, hc.2, List.take_of_length_le (by omega)]
    simp [segCells]
  · split
    · rename_i h0
      have k2 := splitAt_ok seg (min (b - pos) seg.cellLength) h
      have c2 := splitAt_cells seg _ h hbm
      rw [isEmpty_cells k2.2.2.2.1 k2.2.2.2.2.2.1, c2.1, hmin, h0, List.drop_zero]
    · split
      · rename_i h0
        rw [isEmpty_cells k1.2.2.2.2.1 k1.2.2.2.2.2.2, c1.2, ← hmin, h0,
          List.take_of_length_le (l := textCells _ _ _) (by omega)]
      · have k3 := splitAt_ok (seg.splitAt (a - pos)).2
          (min (b - pos) seg.cellLength - (a - pos)) k1.2.1
        have c3 := splitAt_cells (seg.splitAt (a - pos)).2
          (min (b - pos) seg.cellLength - (a - pos)) k1.2.1
        rw [k1.2.2.2.2.1, k1.2.2.2.2.2.2] at c3
        rw [isEmpty_cells (k3.2.2.2.1.trans k1.2.2.2.2.1) (k3.2.2.2.2.2.1.trans k1.2.2.2.2.2.2)]
        rcases Nat.le_total (a - pos) (min (b - pos) seg.cellLength) with hle | hle
        · have hd := c3 (by
            rw [c1.2]
            apply OnBoundary.drop
            have : a - pos + (min (b - pos) seg.cellLength - (a - pos)) = min (b - pos) seg.cellLength := by
              omega
            rw [this]; exact hbm)
          rw [hd.1, c1.2, ← hmin, List.drop_take]
        · have hz : min (b - pos) seg.cellLength - (a - pos) = 0 := by omega
          rw [hz]
          rw [← hmin, List.drop_of_length_le (by simp; omega)]
          simp [Segment.splitAt, textCells]

theorem cropLoop_wf (a b : Nat) (segs : List Segment) : ∀ pos,
    (∀ x ∈ segs, x.cellLength = widthOf x.text) →
    ∀ x ∈ cropLoop a b pos segs, x.cellLength = widthOf x.text := by
  induction segs with
  | nil => intro pos _ x hx; simp [cropLoop] at hx
  | cons s ss ih =>
    intro pos h x hx
    simp only [cropLoop] at hx
    have hss : ∀ y ∈ ss, y.cellLength = widthOf y.text := fun y hy => h y (by simp [hy])
    split at hx
    · exact ih _ hss x hx
    · split at hx
      · simp at hx
      · rcases List.mem_append.1 hx with hx | hx
        · exact cropSegment_wf s pos a b (h s (by simp)) x hx
        · exact ih _ hss x hx

theorem cropLoop_cells (a b : Nat) (hab : a < b) (segs : List Segment) : ∀ pos,
    (∀ x ∈ segs, x.cellLength = widthOf x.text) →
    (pos ≤ a → OnBoundary (segCells segs) (a - pos)) →
    (pos ≤ b → OnBoundary (segCells segs) (b - pos)) →
    segCells (cropLoop a b pos segs) = ((segCells segs).take (b - pos)).drop (a - pos) := by
  induction segs with
  | nil => intro pos _ _ _; simp [cropLoop, segCells]
  | cons s ss ih =>
    intro pos h ha hb
    simp only [cropLoop]
    have hs := h s (by simp)
    have hss : ∀ y ∈ ss, y.cellLength = widthOf y.text := fun y hy => h y (by simp [hy])
    have hl := textCells_length s.style s.info s.text
    rw [← hs] at hl
    rw [segCells_cons] at ha hb ⊢
    have ha' : pos + s.cellLength ≤ a → OnBoundary (segCells ss) (a - (pos + s.cellLength)) := by
      intro hle
      apply OnBoundary.right (a := textCells s.style s.info s.text)
      have : (textCells s.style s.info s.text).length + (a - (pos + s.cellLength)) = a - pos := by omega
      rw [this]; exact ha (by omega)
    have hb' : pos + s.cellLength ≤ b → OnBoundary (segCells ss) (b - (pos + s.cellLength)) := by
      intro hle
      apply OnBoundary.right (a := textCells s.style s.info s.text)
      have : (textCells s.style s.info s.text).length + (b - (pos + s.cellLength)) = b - pos := by omega
      rw [this]; exact hb (by omega)
    have ihs := ih (pos + s.cellLength) hss ha' hb'
    split
    · rename_i hle
      have e1 : b - pos - s.cellLength = b - (pos + s.cellLength) := by omega
      have e2 : a - pos - s.cellLength = a - (pos + s.cellLength) := by omega
      rw [ihs, List.take_append, List.drop_append,
        List.take_of_length_le (l := textCells s.style s.info s.text) (by omega),
        List.drop_of_length_le (l := textCells s.style s.info s.text) (by omega), hl,
        List.nil_append, e1, e2]
    · split
      · rename_i hgt hge
        have : b - pos = 0 := by omega
        rw [this]; simp [segCells]
      · rename_i hgt hge
        have hak : OnBoundary (textCells s.style s.info s.text) (a - pos) := by
          rcases Nat.le_total pos a with hle | hle
          · exact (ha hle).left
          · rw [Nat.sub_eq_zero_of_le hle]
            intro c hc
            cases ht : s.text with
            | nil => simp [ht, textCells] at hc
            | cons g gs =>
              exact boundary_zero _ _ _ c hc
        rw [segCells_append, ihs, cropSegment_cells s pos a b hs hab (by omega) hak
          (hb (by omega)).left, List.take_append, List.drop_append, hl]
        congr 1
        rw [List.length_take, hl]
        rcases Nat.le_total (b - pos) s.cellLength with hle | hle
        · have : b - pos - s.cellLength = 0 := by omega
          have h2 : b - (pos + s.cellLength) = 0 := by omega
          rw [this, h2]; simp
        · have e1 : b - pos - s.cellLength = b - (pos + s.cellLength) := by omega
          have e2 : a - pos - s.cellLength = a - (pos + s.cellLength) := by omega
          rw [Nat.min_eq_right hle, e1, e2]

end Strip

end Textual
