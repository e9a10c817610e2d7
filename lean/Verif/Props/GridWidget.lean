import Verif.Model.GridWidget
import Verif.Props.GridRegions
import Verif.Props.Keyline
import Mathlib.Tactic.Common
import Mathlib.Tactic.Linarith

/-! Grid widgets: C156 (lines) and C157 (mouse). -/

namespace Textual.GridWidget

open Layout (Placement LChild AlignH AlignV applyAlignment)
open Layout.Grid
open Keyline (KCanvas Lines Increasing mergedLines occupant differ Hseg)
open Scroller (Sheet inner Mouse)

/-! ### Positions of the lines -/

/-- A span of tracks ends where its last track ends. -/
theorem span_end {g : Int} {ts : List Track} (h : Chained g ts) {i n : Nat} (hn : 0 < n) (hin : i + n ≤ ts.length) :
    ∃ t ∈ ts, spanStart ts i + spanLength ts i n g = t.offset + t.size := by
  obtain ⟨_, ss, rfl⟩ := h
  rw [layTracks_length] at hin
  obtain ⟨m, rfl⟩ : ∃ m, n = m + 1 := ⟨n - 1, by omega⟩
  have hlt : i + m < ss.length := by omega
  have hg := layTracks_get g 0 ss (i + m)
  rw [List.getElem?_eq_getElem hlt, Option.map_some] at hg
  refine ⟨_, List.mem_of_getElem? hg, ?_⟩
  rw [spanLength_eq g 0 ss i (m + 1) hn (by omega)]
  unfold spanStart
  rw [layTracks_get, List.getElem?_eq_getElem (show i < ss.length by omega)]
  simp only [Option.map_some, Option.getD_some]
  have e : (ss.take (i + m + 1)).sum = (ss.take i).sum + ((ss.drop i).take (m + 1)).sum := by
    rw [Nat.add_assoc, List.take_add, List.sum_append]
  have e2 : (ss.take (i + m + 1)).sum = (ss.take (i + m)).sum + ss[i + m] := by
    rw [List.take_succ_eq_append_getElem hlt, List.sum_append, List.sum_singleton]
  push_cast
  linarith

theorem spanStart_nonneg {g : Int} {ts : List Track} (h : Chained g ts) (hg : 0 ≤ g) (i : Nat) : 0 ≤ spanStart ts i := by
  obtain ⟨hpos, ss, rfl⟩ := h
  have hss : ∀ n ∈ ss, 1 ≤ n := by
    intro n hn
    rw [← layTracks_sizes g 0 ss] at hn
    obtain ⟨t, ht, rfl⟩ := List.mem_map.1 hn
    exact hpos t ht
  unfold spanStart
  rw [layTracks_get]
  cases ss[i]? with
  | none => simp
  | some s =>
    have h1 := sum_nonneg_of_pos (ss.take i) fun n hn => hss n (List.mem_of_mem_take hn)
    have h2 : (0 : Int) ≤ i * g := mul_nonneg (by omega) hg
    simp only [Option.map_some, Option.getD_some]
    linarith

theorem positions_length (ts : List Track) (w : Int) (h : ts ≠ []) : (linePositions ts w).length = ts.length + 1 := by
  unfold linePositions
  obtain ⟨t, ht⟩ : ∃ t, ts.getLast? = some t := ⟨_, List.getLast?_eq_some_getLast h⟩
  rw [ht]
  simp

theorem list_length (ps : List Int) (w : Int) : (lineList ps w).length = ps.length := by simp [lineList]

/-- Tracks and the lines between them: `lines[i]` is not after track `i` starts, and the line behind a span
comes after its end. -/
structure Ruled (ts : List Track) (g : Int) (L : List Nat) : Prop where
  length : L.length = ts.length + 1
  inc : Increasing L
  first : L[0]?.getD 0 = 0
  spans : ∀ i n, 0 < n → i + n ≤ ts.length →
    ((L[i]?.getD 0 : Nat) : Int) ≤ spanStart ts i ∧
      spanStart ts i + spanLength ts i n g + 1 ≤ ((L[i + n]?.getD 0 : Nat) : Int)

theorem ruled {g : Int} {ts : List Track} (h : Chained g ts) (hg : 1 ≤ g) (hne : ts ≠ []) (w : Int)
    (fits : ∀ t ∈ ts, t.offset + t.size ≤ w - 2) : Ruled ts g (lineList (linePositions ts (w - 2)) w) ∧
      (lineList (linePositions ts (w - 2)) w)[ts.length]?.getD 0 = (w - 1).toNat := by
  have hlen : 0 < ts.length := List.length_pos_iff.2 hne
  have hl := positions_length ts (w - 2) hne
  have hget : ∀ i, i < ts.length → ((lineList (linePositions ts (w - 2)) w)[i]?.getD 0 : Nat) = (spanStart ts i).toNat := by
    intro i hi
    unfold lineList
    rw [List.getElem?_mapIdx]
    have e : (linePositions ts (w - 2))[i]? = some (spanStart ts i) := by
      unfold linePositions
      rw [List.getElem?_append_left (by simpa using hi), List.getElem?_map]
      unfold spanStart
      rw [List.getElem?_eq_getElem hi]
      simp
    rw [e, Option.map_some, Option.getD_some, hl]
    have h0 := spanStart_nonneg h (by omega) i
    split
    · subst i
      obtain ⟨_, ss, rfl⟩ := h
      rw [layTracks_length] at hi
      unfold spanStart
      rw [layTracks_get, List.getElem?_eq_getElem hi]
      simp
    · rw [if_neg (by omega), max_eq_left h0]
  have hend : ((lineList (linePositions ts (w - 2)) w)[ts.length]?.getD 0 : Nat) = (w - 1).toNat := by
    unfold lineList
    rw [List.getElem?_mapIdx]
    obtain ⟨x, hx⟩ : ∃ x, (linePositions ts (w - 2))[ts.length]? = some x :=
      ⟨_, List.getElem?_eq_getElem (by omega)⟩
    rw [hx, Option.map_some, Option.getD_some, hl, if_neg (by omega), if_pos (by omega)]
    omega
  have hspan : ∀ i n, 0 < n → i + n ≤ ts.length →
      (((lineList (linePositions ts (w - 2)) w)[i]?.getD 0 : Nat) : Int) ≤ spanStart ts i ∧
      spanStart ts i + spanLength ts i n g + 1 ≤ (((lineList (linePositions ts (w - 2)) w)[i + n]?.getD 0 : Nat) : Int) := by
    intro i n hn hin
    have h0 := spanStart_nonneg h (by omega) i
    refine ⟨by rw [hget i (by omega)]; omega, ?_⟩
    by_cases hlt : i + n < ts.length
    · rw [hget _ hlt]
      have := span_before h (by omega) hn (Nat.le_refl _) hlt
      have := spanStart_nonneg h (by omega) (i + n)
      omega
    · have : i + n = ts.length := by omega
      rw [this, hend]
      obtain ⟨t, ht, e⟩ := span_end h hn hin
      have := fits t ht
      omega
  refine ⟨⟨by rw [list_length, hl], ⟨by rw [list_length, hl]; omega, ?_⟩, ?_, hspan⟩, hend⟩
  · intro i j hij hj
    rw [list_length, hl] at hj
    have hs := hspan i (j - i) (by omega) (by omega)
    rw [show i + (j - i) = j by omega] at hs
    have := span_pos h (by omega : 0 ≤ g) (i := i) (n := j - i) (by omega) (by omega)
    omega
  · rw [hget 0 hlen]
    obtain ⟨_, ss, rfl⟩ := h
    rw [layTracks_length] at hlen
    unfold spanStart
    rw [layTracks_get, List.getElem?_eq_getElem hlen]
    simp

/-! ### Lines and cells -/

theorem inc_lt {L : List Nat} (h : Increasing L) {i j : Nat} (hi : i < L.length)
    (hlt : L[i]?.getD 0 < L[j]?.getD 0) : i < j := by
  by_contra hn
  rcases Nat.lt_or_eq_of_le (Nat.not_lt.1 hn) with h1 | h1
  · have := h.2 j i h1 hi; omega
  · subst h1; omega

/-- No line runs through the inside of cells with one occupant. -/
theorem no_segment {R C : List Nat} {o : Nat → Nat → Option Nat} (hR : Increasing R) (hC : Increasing C)
    {r rn c cn : Nat} (hrn : r + rn < R.length) (hcn : c + cn < C.length) (id : Nat)
    (hid : ∀ i j, r ≤ i → i < r + rn → c ≤ j → j < c + cn → o i j = some id) {a b : Nat}
    (ha1 : C[c]?.getD 0 ≤ a) (ha2 : a < C[c + cn]?.getD 0) (hb1 : R[r]?.getD 0 < b) (hb2 : b < R[r + rn]?.getD 0) :
    ¬ Hseg R C o a b := by
  rintro ⟨i, j, hi, hj, e, ⟨h1, h2⟩, h3⟩
  have k1 := inc_lt hR (i := r) (j := i) (by omega) (by omega)
  have k2 := inc_lt hR (i := i) (j := r + rn) hi (by omega)
  have k3 := inc_lt hC (i := c) (j := j + 1) (by omega) (by omega)
  have k4 := inc_lt hC (i := j) (j := c + cn) (by omega) (by omega)
  rcases h3 with (h3 | h3) | h3
  · omega
  · omega
  · exact h3 (by rw [hid (i - 1) j (by omega) (by omega) (by omega) (by omega),
      hid i j (by omega) (by omega) (by omega) (by omega)])

/-- The band of positions that holds `y`. -/
theorem band {L : List Nat} (h : Increasing L) (y : Nat) (h1 : L[0]?.getD 0 ≤ y) (h2 : y < L[L.length - 1]?.getD 0) :
    ∃ i, i < L.length - 1 ∧ L[i]?.getD 0 ≤ y ∧ y < L[i + 1]?.getD 0 := by
  by_contra hn
  push Not at hn
  have : ∀ i, i ≤ L.length - 1 → L[i]?.getD 0 ≤ y := by
    intro i
    induction i with
    | zero => intro _; exact h1
    | succ i ih => intro hi; exact hn i (by omega) (ih (by omega))
  have := this (L.length - 1) (Nat.le_refl _)
  omega

/-- A sequence that begins and ends with different values changes somewhere. -/
theorem changes {α : Type} (f : Nat → α) (i j : Nat) (hij : i ≤ j) (h : f i ≠ f j) :
    ∃ k, i < k ∧ k ≤ j ∧ f (k - 1) ≠ f k := by
  by_contra hn
  push Not at hn
  obtain ⟨m, rfl⟩ : ∃ m, j = i + m := ⟨j - i, by omega⟩
  have : ∀ n, n ≤ m → f i = f (i + n) := by
    intro n
    induction n with
    | zero => intro _; rfl
    | succ n ih =>
      intro hle
      rw [ih (by omega)]
      have := hn (i + (n + 1)) (by omega) (by omega)
      rwa [show i + (n + 1) - 1 = i + n by omega] at this
  exact h (this m (Nat.le_refl _))

/-- Between two occupants in one band there is a line. -/
theorem segment_between {R C : List Nat} {o : Nat → Nat → Option Nat} (hR : Increasing R)
    {i1 i2 j a : Nat} (h12 : i1 < i2) (hi2 : i2 < R.length - 1) (hj : j < C.length - 1) (hd : o i1 j ≠ o i2 j)
    (ha1 : C[j]?.getD 0 ≤ a) (ha2 : a < C[j + 1]?.getD 0) :
    ∃ b, R[i1 + 1]?.getD 0 ≤ b ∧ b ≤ R[i2]?.getD 0 ∧ Hseg R C o a b := by
  obtain ⟨k, k1, k2, k3⟩ := changes (fun i => o i j) i1 i2 (by omega) hd
  refine ⟨R[k]?.getD 0, ?_, ?_, k, j, by omega, hj, rfl, ⟨ha1, ha2⟩, Or.inr k3⟩
  · rcases Nat.lt_or_eq_of_le (show i1 + 1 ≤ k by omega) with h | h
    · exact Nat.le_of_lt (hR.2 _ _ h (by omega))
    · rw [h]
  · rcases Nat.lt_or_eq_of_le k2 with h | h
    · exact Nat.le_of_lt (hR.2 _ _ h (by omega))
    · rw [h]

/-! ### The whole picture -/

/-- What the lines need: keylines, no alignment, gutters of at least one cell, room for the tracks, children
that stay in their cells and are told apart. -/
structure Tidy (l : Look) (cs : List LChild) (r : Region) : Prop where
  keyline : ∃ lt, l.keyline = some lt ∧ (lt = 1 ∨ lt = 2 ∨ lt = 3)
  plain : l.alignH = .left ∧ l.alignV = .top
  gutterH : 1 ≤ resolveScalar l.parent.grid.gutterH (r.width - 2)
  gutterV : 1 ≤ resolveScalar l.parent.grid.gutterV (r.height - 2)
  margins : ∀ c ∈ cs, NonNegMargins c
  heights : ∀ c ∈ cs, c.style.height = none ∨ ∃ v, c.style.height = some ⟨v, .fraction⟩
  distinct : (cs.map (·.index)).Nodup
  columnsFit : ∀ t ∈ columnTracks l.parent cs
      (rowCount l.parent.grid (columnCount l.minColumn l.parent.grid (r.width - 2)) cs.length)
      (columnCount l.minColumn l.parent.grid (r.width - 2)) (r.width - 2)
      (resolveScalar l.parent.grid.gutterH (r.width - 2)), t.offset + t.size ≤ r.width - 2
  rowsFit : ∀ t ∈ rowTracks l.parent cs
      (rowCount l.parent.grid (columnCount l.minColumn l.parent.grid (r.width - 2)) cs.length)
      (columnCount l.minColumn l.parent.grid (r.width - 2)) (r.height - 2)
      (resolveScalar l.parent.grid.gutterV (r.height - 2)), t.offset + t.size ≤ r.height - 2
  some_columns : 0 < columnCount l.minColumn l.parent.grid (r.width - 2)
  some_rows : 0 < rowCount l.parent.grid (columnCount l.minColumn l.parent.grid (r.width - 2)) cs.length

/-- The picture in terms of positions and cells. -/
structure Picture (l : Look) (cs : List LChild) (r : Region) (k : KCanvas) where
  C : List Nat
  R : List Nat
  o : Nat → Nat → Option Nat
  hC : Increasing C
  hR : Increasing R
  hC0 : C[0]?.getD 0 = 0
  hR0 : R[0]?.getD 0 = 0
  hCn : C[C.length - 1]?.getD 0 = (r.width - 1).toNat
  hRn : R[R.length - 1]?.getD 0 = (r.height - 1).toNat
  width : 3 ≤ r.width
  height : 3 ≤ r.height
  drawn : ∀ x y, x < r.width.toNat → y < r.height.toNat →
    (k.drawn x y = none ↔ (¬ Hseg R C o x y ∧ ¬ (0 < x ∧ Hseg R C o (x - 1) y)) ∧
      ¬ Hseg C R (fun c r => o r c) y x ∧ ¬ (0 < y ∧ Hseg C R (fun c r => o r c) (y - 1) x))
  cells : ∀ (i : Nat) (q : Placement), (placements l cs r)[i]? = some q → ∃ s : Spot,
    0 < s.rowSpan ∧ 0 < s.colSpan ∧ s.row + s.rowSpan < R.length ∧ s.col + s.colSpan < C.length ∧
    (∀ a b, s.Covers a b → o a b = some q.childIndex) ∧
    ∀ x y, In q.region x y →
      ((C[s.col]?.getD 0 : Nat) : Int) < x - r.x ∧ x - r.x < ((C[s.col + s.colSpan]?.getD 0 : Nat) : Int) ∧
      ((R[s.row]?.getD 0 : Nat) : Int) < y - r.y ∧ y - r.y < ((R[s.row + s.rowSpan]?.getD 0 : Nat) : Int)
  distinct : ∀ (i j : Nat) (p q : Placement), i ≠ j → (placements l cs r)[i]? = some p → (placements l cs r)[j]? = some q →
    p.childIndex ≠ q.childIndex

theorem drawn_segments (w h lt : Nat) (hlt : lt = 1 ∨ lt = 2 ∨ lt = 3) (C R : List Nat) (occ : List (List (Option Nat)))
    (hC : Increasing C) (hR : Increasing R) (x y : Nat) (hx : x < w) (hy : y < h) :
    ((KCanvas.new w h lt).addGridWithOccupancy C R occ).drawn x y = none ↔
      (¬ Hseg R C (occupant occ) x y ∧ ¬ (0 < x ∧ Hseg R C (occupant occ) (x - 1) y)) ∧
      ¬ Hseg C R (fun c r => occupant occ r c) y x ∧ ¬ (0 < y ∧ Hseg C R (fun c r => occupant occ r c) (y - 1) x) := by
  have hd := Keyline.drawn_glyph_partial w h lt hlt [.merged C R occ] (by
    intro o ho
    rw [List.mem_singleton] at ho
    subst ho
    exact ⟨hC, hR⟩) x y hx hy
  have hl := Keyline.allLines_iff [.merged C R occ]
  simp only [List.mem_singleton, exists_eq_left, Keyline.Op.lines] at hl
  simp only [List.foldl_cons, List.foldl_nil, Keyline.Op.run] at hd
  have hq : (Keyline.allLines [.merged C R occ]).quad lt x y = ⟨0, 0, 0, 0⟩ ↔
      (¬ Hseg R C (occupant occ) x y ∧ ¬ (0 < x ∧ Hseg R C (occupant occ) (x - 1) y)) ∧
      ¬ Hseg C R (fun c r => occupant occ r c) y x ∧ ¬ (0 < y ∧ Hseg C R (fun c r => occupant occ r c) (y - 1) x) := by
    have l0 : lt ≠ 0 := by omega
    have lh := fun a b => (hl a b).1.trans (Keyline.merged_h_Hseg C R occ a b)
    have lv := fun a b => (hl a b).2.trans (Keyline.merged_v_Hseg C R occ a b)
    simp only [Lines.quad, Keyline.Quad.mk.injEq, ite_eq_right_iff, l0, imp_false, lh, lv]
    exact ⟨fun ⟨a, b, c, d⟩ => ⟨⟨b, d⟩, c, a⟩, fun ⟨⟨b, d⟩, c, a⟩ => ⟨a, b, c, d⟩⟩
  rw [← hq]
  rcases hd with ⟨h1, h2⟩ | ⟨h1, c, h2, _⟩
  · exact ⟨fun _ => h1, fun _ => h2⟩
  · rw [h2]
    exact ⟨fun e => (by cases e), fun e => absurd e h1⟩

theorem occupant_cells (f : Nat → Nat → Option Nat) (rows cols i j : Nat) (hi : i < rows) (hj : j < cols) :
    occupant ((List.range rows).map fun i => (List.range cols).map fun j => f i j) i j = f i j := by
  unfold occupant
  simp [hi, hj]

theorem picture (l : Look) (cs : List LChild) (r : Region) (lt : Nat) (hk : l.keyline = some lt) (hne : cs ≠ [])
    (h : Tidy l cs r) : ∃ k, keylines lt l cs r = some k ∧ Nonempty (Picture l cs r k) := by
  obtain ⟨lt', hk', hlt⟩ := h.keyline
  rw [hk] at hk'; cases hk'
  have hcl := (columnTracks_chained l.parent cs
      (rowCount l.parent.grid (columnCount l.minColumn l.parent.grid (r.width - 2)) cs.length)
      (columnCount l.minColumn l.parent.grid (r.width - 2)) (r.width - 2)
      (resolveScalar l.parent.grid.gutterH (r.width - 2)))
  have hrl := (rowTracks_chained l.parent cs
      (rowCount l.parent.grid (columnCount l.minColumn l.parent.grid (r.width - 2)) cs.length)
      (columnCount l.minColumn l.parent.grid (r.width - 2)) (r.height - 2)
      (resolveScalar l.parent.grid.gutterV (r.height - 2)))
  have cfit := h.columnsFit
  have rfit := h.rowsFit
  have gH := h.gutterH
  have gV := h.gutterV
  have nC := h.some_columns
  have nR := h.some_rows
  have hw : 3 ≤ r.width := by
    obtain ⟨t, ht⟩ : ∃ t, (columnTracks l.parent cs
      (rowCount l.parent.grid (columnCount l.minColumn l.parent.grid (r.width - 2)) cs.length)
      (columnCount l.minColumn l.parent.grid (r.width - 2)) (r.width - 2)
      (resolveScalar l.parent.grid.gutterH (r.width - 2)))[0]? = some t := ⟨_, List.getElem?_eq_getElem (by omega)⟩
    have ht' := List.mem_of_getElem? ht
    have h1 := cfit t ht'
    have h2 := hcl.1.1 t ht'
    have h3 := spanStart_nonneg hcl.1 (by omega) 0
    unfold spanStart at h3
    rw [ht] at h3
    simp only [Option.map_some, Option.getD_some] at h3
    omega
  have hh : 3 ≤ r.height := by
    obtain ⟨t, ht⟩ : ∃ t, (rowTracks l.parent cs
      (rowCount l.parent.grid (columnCount l.minColumn l.parent.grid (r.width - 2)) cs.length)
      (columnCount l.minColumn l.parent.grid (r.width - 2)) (r.height - 2)
      (resolveScalar l.parent.grid.gutterV (r.height - 2)))[0]? = some t := ⟨_, List.getElem?_eq_getElem (by omega)⟩
    have ht' := List.mem_of_getElem? ht
    have h1 := rfit t ht'
    have h2 := hrl.1.1 t ht'
    have h3 := spanStart_nonneg hrl.1 (by omega) 0
    unfold spanStart at h3
    rw [ht] at h3
    simp only [Option.map_some, Option.getD_some] at h3
    omega
  have ea : layoutArea true r = ⟨r.x, r.y, r.width - 2, r.height - 2⟩ := by
    simp only [layoutArea, if_true]
    rw [max_eq_left (by omega), max_eq_left (by omega)]
  have hpl : placements l cs r = (Layout.Grid.arrange l.minColumn l.parent cs ⟨r.x, r.y, r.width - 2, r.height - 2⟩).map
      (·.move 1 1) := by
    unfold placements
    simp only [hk, Option.isSome_some, if_true, ea]
    unfold applyAlignment
    rw [if_pos h.plain]
  unfold keylines
  rw [if_neg (by simpa using hne)]
  simp only [ea]
  unfold Layout.Grid.arrange at hpl
  rw [if_neg (by simpa using hne)] at hpl
  simp only at hpl
  generalize hcols : columnCount l.minColumn l.parent.grid (r.width - 2) = cols at *
  generalize hrows : rowCount l.parent.grid cols cs.length = rows at *
  generalize hgh : resolveScalar l.parent.grid.gutterH (r.width - 2) = gh at *
  generalize hgv : resolveScalar l.parent.grid.gutterV (r.height - 2) = gv at *
  generalize hct : columnTracks l.parent cs rows cols (r.width - 2) gh = cts at *
  generalize hrt : rowTracks l.parent cs rows cols (r.height - 2) gv = rts at *
  have cne : cts ≠ [] := by rw [← List.length_pos_iff]; omega
  have rne : rts ≠ [] := by rw [← List.length_pos_iff]; omega
  obtain ⟨ruC, endC⟩ := ruled hcl.1 gH cne r.width cfit
  obtain ⟨ruR, endR⟩ := ruled hrl.1 gV rne r.height rfit
  have pl1 := positions_length cts (r.width - 2) cne
  have pl2 := positions_length rts (r.height - 2) rne
  rw [if_neg (by omega)]
  refine ⟨_, rfl, ⟨{
    C := lineList (linePositions cts (r.width - 2)) r.width
    R := lineList (linePositions rts (r.height - 2)) r.height
    o := occupant ((List.range rows).map fun i => (List.range cols).map fun j => cellOccupancy cs rows cols i j)
    hC := ruC.inc, hR := ruR.inc, hC0 := ruC.first, hR0 := ruR.first
    hCn := by rw [ruC.length]; exact endC
    hRn := by rw [ruR.length]; exact endR
    width := hw, height := hh
    drawn := fun x y hx hy => drawn_segments _ _ lt hlt _ _ _ ruC.inc ruR.inc x y hx hy
    cells := ?_, distinct := ?_ }⟩⟩
  · intro i q hq
    rw [hpl] at hq
    simp only [List.getElem?_map, Option.map_eq_some_iff] at hq
    obtain ⟨q', ⟨⟨c, s⟩, hs, rfl⟩, rfl⟩ := hq
    obtain ⟨p1, _, s1, s2, s3, s4⟩ := placed_inside rows cols cs i c s hs
    have hcm := List.mem_of_getElem? p1
    refine ⟨s, s1, s2, by rw [ruR.length]; omega, by rw [ruC.length]; omega, ?_, ?_⟩
    · intro a b hab
      have hab' := hab
      simp only [Spot.Covers] at hab'
      rw [occupant_cells _ _ _ _ _ (by omega) (by omega), cellOccupancy_iff]
      exact ⟨c, s, List.mem_of_getElem? hs, rfl, hab⟩
    · intro x y hin
      have hin' : In (childPlacement c (childRegion s cts rts ⟨r.x, r.y, r.width - 2, r.height - 2⟩ gh gv)).region
          (x - 1) (y - 1) := by
        simp only [In, Placement.move] at hin ⊢
        omega
      obtain ⟨h1, h2, h3, h4⟩ := childPlacement_in c _ (h.margins c hcm) (x - 1) (y - 1) hin'
      have h4 := h4 (h.heights c hcm)
      obtain ⟨c1, c2⟩ := ruC.spans s.col s.colSpan s2 (by omega)
      obtain ⟨r1, r2⟩ := ruR.spans s.row s.rowSpan s1 (by omega)
      simp only [childRegion] at h1 h2 h3 h4
      refine ⟨by omega, by omega, by omega, by omega⟩
  · intro i j p q hij hp hq
    rw [hpl] at hp hq
    simp only [List.getElem?_map, Option.map_eq_some_iff] at hp hq
    obtain ⟨p', ⟨⟨c, s⟩, hs, rfl⟩, rfl⟩ := hp
    obtain ⟨q', ⟨⟨d, t⟩, ht, rfl⟩, rfl⟩ := hq
    have e1 := (placed_inside rows cols cs i c s hs).1
    have e2 := (placed_inside rows cols cs j d t ht).1
    show c.index ≠ d.index
    intro e
    have f1 : (cs.map (·.index))[i]? = some c.index := by rw [List.getElem?_map, e1]; rfl
    have f2 : (cs.map (·.index))[j]? = some c.index := by rw [List.getElem?_map, e2, e]; rfl
    have hi := (List.getElem?_eq_some_iff.1 f1).1
    exact hij ((List.getElem?_inj hi h.distinct).1 (f1.trans f2.symm))

theorem render_eq (s : Sheet) (l : Look) (cs : List LChild) (r : Region) (lt : Nat) (hk : l.keyline = some lt)
    (hne : cs ≠ []) (h : Tidy l cs (inner s r)) : ∃ k, render s l cs r = ⟨placements l cs (inner s r), some k⟩ ∧
      Nonempty (Picture l cs (inner s r) k) := by
  obtain ⟨k, h1, ⟨pic⟩⟩ := picture l cs (inner s r) lt hk hne h
  refine ⟨k, ?_, ⟨pic⟩⟩
  unfold render
  have hw := pic.width
  have hh := pic.height
  rw [if_neg]
  · simp [hk, h1]
  · intro hn
    unfold inner at hw hh
    rw [if_pos hn] at hw hh
    omega

/-- C156: no line is drawn over a child. -/
theorem lines_clear_partial (s : Sheet) (l : Look) (cs : List LChild) (r : Region) (hne : cs ≠ [])
    (h : Tidy l cs (inner s r)) : ∃ k, (render s l cs r).lines = some k ∧
      ∀ q ∈ (render s l cs r).children, ∀ x y, In q.region x y →
        In (inner s r) x y ∧ k.drawn (x - (inner s r).x).toNat (y - (inner s r).y).toNat = none := by
  obtain ⟨lt, hk, _⟩ := h.keyline
  obtain ⟨k, e, ⟨pic⟩⟩ := render_eq s l cs r lt hk hne h
  rw [e]
  refine ⟨k, rfl, ?_⟩
  intro q hq x y hin
  obtain ⟨i, hi⟩ := List.getElem?_of_mem hq
  obtain ⟨sp, s1, s2, s3, s4, hcov, hpos⟩ := pic.cells i q hi
  obtain ⟨p1, p2, p3, p4⟩ := hpos x y hin
  have hw := pic.width
  have hh := pic.height
  have eC : pic.C[sp.col + sp.colSpan]?.getD 0 ≤ pic.C[pic.C.length - 1]?.getD 0 := by
    rcases Nat.lt_or_eq_of_le (show sp.col + sp.colSpan ≤ pic.C.length - 1 by omega) with g | g
    · exact Nat.le_of_lt (pic.hC.2 _ _ g (by omega))
    · rw [g]
  have eR : pic.R[sp.row + sp.rowSpan]?.getD 0 ≤ pic.R[pic.R.length - 1]?.getD 0 := by
    rcases Nat.lt_or_eq_of_le (show sp.row + sp.rowSpan ≤ pic.R.length - 1 by omega) with g | g
    · exact Nat.le_of_lt (pic.hR.2 _ _ g (by omega))
    · rw [g]
  rw [pic.hCn] at eC
  rw [pic.hRn] at eR
  refine ⟨⟨by omega, by omega, by omega, by omega⟩, ?_⟩
  obtain ⟨X, hX⟩ : ∃ X : Nat, (X : Int) = x - (inner s r).x := ⟨(x - (inner s r).x).toNat, by omega⟩
  obtain ⟨Y, hY⟩ : ∃ Y : Nat, (Y : Int) = y - (inner s r).y := ⟨(y - (inner s r).y).toNat, by omega⟩
  rw [← hX, ← hY, Int.toNat_natCast, Int.toNat_natCast]
  rw [← hX] at p1 p2
  rw [← hY] at p3 p4
  rw [pic.drawn X Y (by omega) (by omega)]
  have hid : ∀ i j, sp.row ≤ i → i < sp.row + sp.rowSpan → sp.col ≤ j → j < sp.col + sp.colSpan →
      pic.o i j = some q.childIndex := fun i j h1 h2 h3 h4 => hcov i j ⟨h1, h2, h3, h4⟩
  refine ⟨⟨?_, ?_⟩, ?_, ?_⟩
  · exact no_segment pic.hR pic.hC s3 s4 _ hid (by omega) (by omega) (by omega) (by omega)
  · exact fun g => no_segment pic.hR pic.hC s3 s4 _ hid (by omega) (by omega) (by omega) (by omega) g.2
  · exact no_segment pic.hC pic.hR s4 s3 q.childIndex (fun i j h1 h2 h3 h4 => hid j i h3 h4 h1 h2)
      (by omega) (by omega) (by omega) (by omega)
  · exact fun g => no_segment pic.hC pic.hR s4 s3 q.childIndex (fun i j h1 h2 h3 h4 => hid j i h3 h4 h1 h2)
      (by omega) (by omega) (by omega) (by omega) g.2

/-- C156: whoever walks straight from one child to another crosses a line. -/
theorem lines_separate_partial (s : Sheet) (l : Look) (cs : List LChild) (r : Region) (hne : cs ≠ [])
    (h : Tidy l cs (inner s r)) : ∃ k, (render s l cs r).lines = some k ∧
      ∀ (i j : Nat) (p q : Placement), i ≠ j → (render s l cs r).children[i]? = some p →
        (render s l cs r).children[j]? = some q →
        (∀ x1 x2 y, In p.region x1 y → In q.region x2 y → x1 < x2 → ∃ x, x1 < x ∧ x < x2 ∧
          k.drawn (x - (inner s r).x).toNat (y - (inner s r).y).toNat ≠ none) ∧
        (∀ x y1 y2, In p.region x y1 → In q.region x y2 → y1 < y2 → ∃ y, y1 < y ∧ y < y2 ∧
          k.drawn (x - (inner s r).x).toNat (y - (inner s r).y).toNat ≠ none) := by
  obtain ⟨lt, hk, _⟩ := h.keyline
  obtain ⟨k, e, ⟨pic⟩⟩ := render_eq s l cs r lt hk hne h
  rw [e]
  refine ⟨k, rfl, ?_⟩
  intro i j p q hij hp hq
  have hdis := pic.distinct i j p q hij hp hq
  obtain ⟨sp, s1, s2, s3, s4, scov, spos⟩ := pic.cells i p hp
  obtain ⟨tp, t1, t2, t3, t4, tcov, tpos⟩ := pic.cells j q hq
  have hw := pic.width
  have hh := pic.height
  have top : ∀ {L : List Nat} (_ : Increasing L) (n : Nat), n < L.length → L[n]?.getD 0 ≤ L[L.length - 1]?.getD 0 := by
    intro L hL n hn
    rcases Nat.lt_or_eq_of_le (show n ≤ L.length - 1 by omega) with g | g
    · exact Nat.le_of_lt (hL.2 _ _ g (by omega))
    · rw [g]
  have mono : ∀ {L : List Nat} (_ : Increasing L) (m n : Nat), m ≤ n → n < L.length → L[m]?.getD 0 ≤ L[n]?.getD 0 := by
    intro L hL m n hmn hn
    rcases Nat.lt_or_eq_of_le hmn with g | g
    · exact Nat.le_of_lt (hL.2 _ _ g hn)
    · rw [g]
  refine ⟨?_, ?_⟩
  · intro x1 x2 y h1 h2 hlt
    obtain ⟨a1, a2, a3, a4⟩ := spos x1 y h1
    obtain ⟨b1, b2, b3, b4⟩ := tpos x2 y h2
    obtain ⟨Y, hY⟩ : ∃ Y : Nat, (Y : Int) = y - (inner s r).y := ⟨(y - (inner s r).y).toNat, by omega⟩
    rw [← hY] at a3 a4 b3 b4
    have tR := top pic.hR (sp.row + sp.rowSpan) s3
    have tC := top pic.hC (tp.col + tp.colSpan) t4
    obtain ⟨ri, r1, r2, r3⟩ := band pic.hR Y (by rw [pic.hR0]; omega) (by omega)
    have g1 := inc_lt pic.hR (i := sp.row) (j := ri + 1) (by omega) (by omega)
    have g2 := inc_lt pic.hR (i := ri) (j := sp.row + sp.rowSpan) (by omega) (by omega)
    have g3 := inc_lt pic.hR (i := tp.row) (j := ri + 1) (by omega) (by omega)
    have g4 := inc_lt pic.hR (i := ri) (j := tp.row + tp.rowSpan) (by omega) (by omega)
    have hcols : sp.col + sp.colSpan ≤ tp.col := by
      have g5 := inc_lt pic.hC (i := sp.col) (j := tp.col + tp.colSpan) (by omega) (by omega)
      by_contra hn
      have c1 := scov ri (max sp.col tp.col) ⟨by omega, by omega, by omega, by omega⟩
      have c2 := tcov ri (max sp.col tp.col) ⟨by omega, by omega, by omega, by omega⟩
      rw [c1] at c2
      exact hdis (Option.some.inj c2)
    have c1 := scov ri (sp.col + sp.colSpan - 1) ⟨by omega, by omega, by omega, by omega⟩
    have c2 := tcov ri tp.col ⟨by omega, by omega, by omega, by omega⟩
    obtain ⟨b, e1, e2, e3⟩ := segment_between (C := pic.R) (o := fun c r => pic.o r c) pic.hC
      (i1 := sp.col + sp.colSpan - 1) (i2 := tp.col) (j := ri) (a := Y) (by omega) (by omega) r1
      (by simp only [c1, c2]; intro e; exact hdis (Option.some.inj e)) r2 r3
    rw [show sp.col + sp.colSpan - 1 + 1 = sp.col + sp.colSpan by omega] at e1
    have e4 := mono pic.hC tp.col (tp.col + tp.colSpan) (by omega) t4
    refine ⟨(inner s r).x + b, by omega, by omega, ?_⟩
    rw [← hY, Int.toNat_natCast, show (inner s r).x + (b : Int) - (inner s r).x = b by omega, Int.toNat_natCast]
    intro hn
    rw [pic.drawn b Y (by rw [pic.hCn] at tC; omega) (by rw [pic.hRn] at tR; omega)] at hn
    exact hn.2.1 e3
  · intro x y1 y2 h1 h2 hlt
    obtain ⟨a1, a2, a3, a4⟩ := spos x y1 h1
    obtain ⟨b1, b2, b3, b4⟩ := tpos x y2 h2
    obtain ⟨X, hX⟩ : ∃ X : Nat, (X : Int) = x - (inner s r).x := ⟨(x - (inner s r).x).toNat, by omega⟩
    rw [← hX] at a1 a2 b1 b2
    have tR := top pic.hR (tp.row + tp.rowSpan) t3
    have tC := top pic.hC (sp.col + sp.colSpan) s4
    obtain ⟨ci, r1, r2, r3⟩ := band pic.hC X (by rw [pic.hC0]; omega) (by omega)
    have g1 := inc_lt pic.hC (i := sp.col) (j := ci + 1) (by omega) (by omega)
    have g2 := inc_lt pic.hC (i := ci) (j := sp.col + sp.colSpan) (by omega) (by omega)
    have g3 := inc_lt pic.hC (i := tp.col) (j := ci + 1) (by omega) (by omega)
    have g4 := inc_lt pic.hC (i := ci) (j := tp.col + tp.colSpan) (by omega) (by omega)
    have hrows : sp.row + sp.rowSpan ≤ tp.row := by
      have g5 := inc_lt pic.hR (i := sp.row) (j := tp.row + tp.rowSpan) (by omega) (by omega)
      by_contra hn
      have c1 := scov (max sp.row tp.row) ci ⟨by omega, by omega, by omega, by omega⟩
      have c2 := tcov (max sp.row tp.row) ci ⟨by omega, by omega, by omega, by omega⟩
      rw [c1] at c2
      exact hdis (Option.some.inj c2)
    have c1 := scov (sp.row + sp.rowSpan - 1) ci ⟨by omega, by omega, by omega, by omega⟩
    have c2 := tcov tp.row ci ⟨by omega, by omega, by omega, by omega⟩
    obtain ⟨b, e1, e2, e3⟩ := segment_between (C := pic.C) (o := pic.o) pic.hR
      (i1 := sp.row + sp.rowSpan - 1) (i2 := tp.row) (j := ci) (a := X) (by omega) (by omega) r1
      (by simp only [c1, c2]; intro e; exact hdis (Option.some.inj e)) r2 r3
    rw [show sp.row + sp.rowSpan - 1 + 1 = sp.row + sp.rowSpan by omega] at e1
    have e4 := mono pic.hR tp.row (tp.row + tp.rowSpan) (by omega) t3
    refine ⟨(inner s r).y + b, by omega, by omega, ?_⟩
    rw [← hX, Int.toNat_natCast, show (inner s r).y + (b : Int) - (inner s r).y = b by omega, Int.toNat_natCast]
    intro hn
    rw [pic.drawn X b (by rw [pic.hCn] at tC; omega) (by rw [pic.hRn] at tR; omega)] at hn
    exact hn.1.1 e3

/-- One edge of the frame. -/
theorem edge {R C : List Nat} {o : Nat → Nat → Option Nat} (hR : Increasing R) (hC : Increasing C)
    (hC0 : C[0]?.getD 0 = 0) {n : Nat} (hn : C[C.length - 1]?.getD 0 = n) (n0 : 0 < n) {a b : Nat} (ha : a ≤ n)
    (hb : b = R[0]?.getD 0 ∨ b = R[R.length - 1]?.getD 0) :
    Hseg R C o a b ∨ (0 < a ∧ Hseg R C o (a - 1) b) := by
  have hl := hR.1
  have seg : ∀ a, a < n → Hseg R C o a b := by
    intro a ha
    obtain ⟨j, j1, j2, j3⟩ := band hC a (by omega) (by omega)
    rcases hb with hb | hb
    · exact ⟨0, j, by omega, j1, hb.symm, ⟨j2, j3⟩, Or.inl (Or.inl rfl)⟩
    · exact ⟨R.length - 1, j, by omega, j1, hb.symm, ⟨j2, j3⟩, Or.inl (Or.inr rfl)⟩
  rcases Nat.lt_or_eq_of_le ha with h | h
  · exact Or.inl (seg a h)
  · exact Or.inr ⟨by omega, seg _ (by omega)⟩

/-- C156: a line goes all around the grid. -/
theorem lines_frame_partial (s : Sheet) (l : Look) (cs : List LChild) (r : Region) (hne : cs ≠ [])
    (h : Tidy l cs (inner s r)) : ∃ k, (render s l cs r).lines = some k ∧
      ∀ x y : Nat, (x : Int) < (inner s r).width → (y : Int) < (inner s r).height →
        ((x : Int) = 0 ∨ (x : Int) = (inner s r).width - 1 ∨ (y : Int) = 0 ∨ (y : Int) = (inner s r).height - 1) →
        k.drawn x y ≠ none := by
  obtain ⟨lt, hk, _⟩ := h.keyline
  obtain ⟨k, e, ⟨pic⟩⟩ := render_eq s l cs r lt hk hne h
  rw [e]
  refine ⟨k, rfl, ?_⟩
  intro x y hx hy hedge hn
  have hw := pic.width
  have hh := pic.height
  rw [pic.drawn x y (by omega) (by omega)] at hn
  have horizontal : (y : Int) = 0 ∨ (y : Int) = (inner s r).height - 1 → False := by
    intro hy'
    have := edge (o := pic.o) pic.hR pic.hC pic.hC0 pic.hCn (by omega) (a := x) (b := y) (by omega)
      (by rw [pic.hR0, pic.hRn]; omega)
    rcases this with g | g
    · exact hn.1.1 g
    · exact hn.1.2 g
  have vertical : (x : Int) = 0 ∨ (x : Int) = (inner s r).width - 1 → False := by
    intro hx'
    have := edge (o := fun c r => pic.o r c) pic.hC pic.hR pic.hR0 pic.hRn (by omega) (a := y) (b := x) (by omega)
      (by rw [pic.hC0, pic.hCn]; omega)
    rcases this with g | g
    · exact hn.2.1 g
    · exact hn.2.2 g
  rcases hedge with g | g | g | g
  · exact vertical (Or.inl g)
  · exact vertical (Or.inr g)
  · exact horizontal (Or.inl g)
  · exact horizontal (Or.inr g)

/-- Flexible tracks leave room for all (for the hypothesis `columnsFit`). -/
theorem fr_fits (specs : List Layout.Scalar) (count : Nat) (available gutter : Int) (hg : 0 ≤ gutter)
    (h : FrTracks specs count available gutter) :
    ∀ t ∈ resolveTracks specs count available gutter, t.offset + t.size ≤ available := by
  have hs := distribute_fills_partial specs count available gutter h
  have hp := distributeSpace_pos specs count available gutter
  have hl := distributeSpace_length specs count available gutter
  intro t ht
  obtain ⟨i, hi⟩ := List.getElem?_of_mem ht
  unfold resolveTracks at hi
  rw [layTracks_get] at hi
  generalize distributeSpace specs count available gutter = ss at *
  obtain ⟨x, hx, rfl⟩ := Option.map_eq_some_iff.1 hi
  obtain ⟨hlt, rfl⟩ := List.getElem?_eq_some_iff.1 hx
  have e : ss.sum = (ss.take (i + 1)).sum + (ss.drop (i + 1)).sum := by
    rw [← List.sum_append, List.take_append_drop]
  rw [List.take_succ_eq_append_getElem hlt, List.sum_append, List.sum_singleton] at e
  have h1 := sum_nonneg_of_pos (ss.drop (i + 1)) fun n hn => hp n (List.mem_of_mem_drop hn)
  have h2 : (i : Int) * gutter ≤ ((count : Int) - 1) * gutter := mul_le_mul_of_nonneg_right (by omega) hg
  simp only
  linarith

/-! ### Examples and counterexamples for C156 -/

/-- Three children, the last two columns wide, in a grid of two columns with lines. -/
def exLook : Look :=
  { parent := { grid := { columns := some 2, gutterH := ⟨1, .cells⟩, gutterV := ⟨1, .cells⟩ } }, keyline := some 1 }
def exKids : List LChild := [exChild 0 1 1, exChild 1 1 1, exChild 2 1 2]

example : Tidy exLook exKids (inner { chromeLeft := 2, chromeTop := 1 } ⟨1, 0, 25, 14⟩) where
  keyline := ⟨1, rfl, by omega⟩
  plain := ⟨rfl, rfl⟩
  gutterH := by decide +kernel
  gutterV := by decide +kernel
  margins := by unfold NonNegMargins; decide +kernel
  heights := by
    intro c hc
    simp only [exKids, List.mem_cons, List.not_mem_nil, or_false] at hc
    rcases hc with rfl | rfl | rfl <;> exact Or.inl rfl
  distinct := by decide +kernel
  columnsFit := by decide +kernel
  rowsFit := by decide +kernel
  some_columns := by decide +kernel
  some_rows := by decide +kernel

example : (render { chromeLeft := 2, chromeTop := 1 } exLook exKids ⟨1, 0, 25, 14⟩).children.map (·.region) =
    [⟨4, 2, 10, 5⟩, ⟨15, 2, 10, 5⟩, ⟨4, 8, 21, 5⟩] := by decide +kernel

/-- A line is drawn over a child. -/
def Struck (d : Drawn) (r : Region) : Prop :=
  ∃ k, d.lines = some k ∧ ∃ q ∈ d.children, ∃ x y, In q.region x y ∧ k.drawn (x - r.x).toNat (y - r.y).toNat ≠ none

theorem struck_of {d : Drawn} {r : Region} (i : Nat) (q : Placement) (x y : Int) (hq : d.children[i]? = some q)
    (hin : In q.region x y) (h : (d.lines.bind fun k => k.drawn (x - r.x).toNat (y - r.y).toNat).isSome = true) :
    Struck d r := by
  obtain ⟨c, hc⟩ := Option.isSome_iff_exists.1 h
  obtain ⟨k, hk, hk2⟩ := Option.bind_eq_some_iff.1 hc
  exact ⟨k, hk, q, List.mem_of_getElem? hq, x, y, hin, by simp [hk2]⟩

/-- C156 (the part missing from the theorems above): without a gutter the lines go through the children. -/
theorem gutter_counterexample :
    Struck (render {} { exLook with parent := { grid := { columns := some 2 } } } exKids ⟨0, 0, 22, 12⟩) ⟨0, 0, 22, 12⟩ :=
  struck_of 0 ⟨0, ⟨1, 1, 10, 5⟩⟩ 10 3 (by decide +kernel) (by unfold In; decide) (by decide +kernel)

/-- C156: children aligned to the right are covered by the frame. -/
theorem align_counterexample : Struck (render {} { exLook with alignH := .right } exKids ⟨0, 0, 23, 13⟩) ⟨0, 0, 23, 13⟩ :=
  struck_of 1 ⟨1, ⟨14, 1, 10, 5⟩⟩ 22 3 (by decide +kernel) (by unfold In; decide) (by decide +kernel)

/-- C156: a child taller than its row is crossed by the line below the row. -/
theorem tall_counterexample :
    Struck (render {} exLook [⟨0, { height := some ⟨8, .cells⟩ }, 1, 1, fun _ => 1⟩, exChild 1 1 1, exChild 2 1 1]
      ⟨0, 0, 23, 13⟩) ⟨0, 0, 23, 13⟩ :=
  struck_of 0 ⟨0, ⟨1, 1, 10, 8⟩⟩ 3 6 (by decide +kernel) (by unfold In; decide) (by decide +kernel)

/-- C156: the lines of a plain horizontal container hide the outermost cells of its children. -/
theorem plain_counterexample : ∃ k, rowLines 1 [⟨0, ⟨0, 0, 10, 5⟩⟩, ⟨1, ⟨10, 0, 10, 5⟩⟩] ⟨0, 0, 20, 5⟩ = some k ∧
    k.drawn 3 0 ≠ none ∧ k.drawn 0 3 ≠ none ∧ k.drawn 10 3 ≠ none := by
  refine ⟨_, rfl, ?_⟩
  decide +kernel

/-! ### The mouse -/

theorem contains_iff (r : Region) (x y : Int) (hx : 0 ≤ x ∧ x < 65536) (hy : 0 ≤ y ∧ y < 65536) :
    r.containsPoint x y = true ↔ In r x y := by
  unfold Region.containsPoint In satAdd
  simp only [Bool.and_eq_true, decide_eq_true_eq]
  omega

theorem ask_mem {f : Nat → Bool} {ps : List Placement} {q : Placement} (h : q ∈ Pane.ask f ps) : q ∈ ps := by
  induction ps with
  | nil => simp [Pane.ask] at h
  | cons a ps ih =>
    unfold Pane.ask at h
    split at h
    · simp at h; simp [h]
    · rcases List.mem_cons.1 h with h | h
      · simp [h]
      · simp [ih h]

theorem filter_single {ps : List Placement} {f : Placement → Bool} {i : Nat} {q : Placement} (h : ps[i]? = some q)
    (hq : f q = true) (hu : ∀ j p, ps[j]? = some p → f p = true → j = i) : ps.filter f = [q] := by
  induction ps generalizing i with
  | nil => simp at h
  | cons a ps ih =>
    cases i with
    | zero =>
      simp at h
      subst h
      have : ps.filter f = [] := by
        rw [List.filter_eq_nil_iff]
        intro p hp hf
        obtain ⟨j, hj⟩ := List.getElem?_of_mem hp
        have := hu (j + 1) p (by simpa using hj) hf
        omega
      simp [hq, this]
    | succ i =>
      have ha : f a = false := by
        by_contra hn
        have := hu 0 a (by simp) (by simpa using hn)
        omega
      rw [List.filter_cons, ha]
      simp only [Bool.false_eq_true, if_false]
      refine ih (i := i) (by simpa using h) fun j p hj hf => ?_
      have := hu (j + 1) p (by simpa using hj) hf
      omega

/-- C157: in a grid without border and padding, the event goes to the child drawn under the pointer, and to it alone;
the region the child is told is the one it was drawn in. Elsewhere nobody gets it. -/
theorem mouse_partial (s : Sheet) (l : Look) (cs : List LChild) (r : Region) (m : Mouse) (answers : Nat → Bool)
    (hcol : 0 ≤ m.column ∧ m.column < 65536) (hrow : 0 ≤ m.row ∧ m.row < 65536) (hplain : inner s r = r) :
    (∀ q ∈ onMouse l cs m r answers, q ∈ (render s l cs r).children ∧ In q.region m.column m.row ∧ In r m.column m.row) ∧
    (∀ (i : Nat) (q : Placement), (render s l cs r).children[i]? = some q → In q.region m.column m.row →
      In r m.column m.row →
      (∀ (j : Nat) (p : Placement), (render s l cs r).children[j]? = some p → In p.region m.column m.row → j = i) →
      onMouse l cs m r answers = [q]) := by
  by_cases hin : In r m.column m.row
  · have hc := (contains_iff r _ _ hcol hrow).2 hin
    have hr : ¬ (r.width ≤ 0 ∨ r.height ≤ 0) := by
      obtain ⟨h1, h2, h3, h4⟩ := hin
      omega
    have e : (render s l cs r).children = placements l cs r := by
      unfold render
      rw [if_neg hr, hplain]
    rw [e]
    have em : onMouse l cs m r answers =
        Pane.ask answers ((placements l cs r).filter fun c => c.region.containsPoint m.column m.row) := by
      unfold onMouse
      rw [if_neg (by simp [hc])]
    rw [em]
    refine ⟨?_, ?_⟩
    · intro q hq
      have h1 := ask_mem hq
      rw [List.mem_filter] at h1
      exact ⟨h1.1, (contains_iff _ _ _ hcol hrow).1 h1.2, hin⟩
    · intro i q hq hqi _ hu
      rw [filter_single hq ((contains_iff _ _ _ hcol hrow).2 hqi) fun j p hp hf => hu j p hp ((contains_iff _ _ _ hcol hrow).1 hf)]
      simp [Pane.ask]
  · have hc : r.containsPoint m.column m.row = false := by
      rw [← Bool.not_eq_true, contains_iff _ _ _ hcol hrow]
      exact hin
    refine ⟨?_, ?_⟩
    · intro q hq
      unfold onMouse at hq
      rw [if_pos hc] at hq
      simp at hq
    · intro _ _ _ _ h
      exact absurd h hin

/-- C157: the children of a ruled grid do not overlap, so there is never a choice to make. -/
theorem tidy_apart (l : Look) (cs : List LChild) (s : Sheet) (r : Region) (hne : cs ≠ []) (h : Tidy l cs (inner s r))
    (x y : Int) (i j : Nat) (p q : Placement) (hp : (render s l cs r).children[i]? = some p)
    (hq : (render s l cs r).children[j]? = some q) (hip : In p.region x y) (hiq : In q.region x y) : i = j := by
  obtain ⟨lt, hk, _⟩ := h.keyline
  obtain ⟨k, e, ⟨pic⟩⟩ := render_eq s l cs r lt hk hne h
  rw [e] at hp hq
  by_contra hij
  have hdis := pic.distinct i j p q hij hp hq
  obtain ⟨sp, s1, s2, s3, s4, scov, spos⟩ := pic.cells i p hp
  obtain ⟨tp, t1, t2, t3, t4, tcov, tpos⟩ := pic.cells j q hq
  obtain ⟨a1, a2, a3, a4⟩ := spos x y hip
  obtain ⟨b1, b2, b3, b4⟩ := tpos x y hiq
  have g1 := inc_lt pic.hR (i := sp.row) (j := tp.row + tp.rowSpan) (by omega) (by omega)
  have g2 := inc_lt pic.hR (i := tp.row) (j := sp.row + sp.rowSpan) (by omega) (by omega)
  have g3 := inc_lt pic.hC (i := sp.col) (j := tp.col + tp.colSpan) (by omega) (by omega)
  have g4 := inc_lt pic.hC (i := tp.col) (j := sp.col + sp.colSpan) (by omega) (by omega)
  have c1 := scov (max sp.row tp.row) (max sp.col tp.col) ⟨by omega, by omega, by omega, by omega⟩
  have c2 := tcov (max sp.row tp.row) (max sp.col tp.col) ⟨by omega, by omega, by omega, by omega⟩
  rw [c1] at c2
  exact hdis (Option.some.inj c2)

example : onMouse exLook exKids ⟨.down, 15, 3, false⟩ ⟨0, 0, 23, 13⟩ (fun _ => false) = [⟨1, ⟨12, 1, 10, 5⟩⟩] := by
  decide +kernel
example : inner {} ⟨0, 0, 23, 13⟩ = (⟨0, 0, 23, 13⟩ : Region) := by decide +kernel

/-- C157: with padding (here four cells on the left and two above) the event goes to a child other than the one drawn
under the pointer. -/
theorem padded_mouse_counterexample : ∃ (s : Sheet) (l : Look) (cs : List LChild) (r : Region) (m : Mouse)
    (q p : Placement), (∀ c ∈ (render s l cs r).children, In c.region m.column m.row ↔ c = q) ∧
      q ∈ (render s l cs r).children ∧ In (inner s r) m.column m.row ∧
      onMouse l cs m r (fun _ => true) = [p] ∧ p.childIndex ≠ q.childIndex := by
  refine ⟨{ chromeLeft := 4, chromeTop := 2 }, { parent := { grid := { columns := some 2 } } },
    [exChild 0 1 1, exChild 1 1 1], ⟨0, 0, 24, 12⟩, ⟨.down, 13, 5, false⟩, ⟨0, ⟨4, 2, 10, 10⟩⟩, ⟨1, ⟨12, 0, 12, 12⟩⟩, ?_⟩
  unfold In
  decide +kernel

end Textual.GridWidget
