import Verif.Spec.Grid
import Mathlib.Tactic.Common
import Mathlib.Tactic.Push

/-! C24, C45: placement of children on the cells of a grid. -/

namespace Textual.Layout.Grid

theorem findNextFree_free {occ : Occ} {rows cols row col : Nat} {r c : Nat}
    (h : findNextFree occ rows cols row col = some (r, c)) :
    occ r c = false ∧ ∀ r' c', c' < cols → ¬ Before r' c' row col → Before r' c' r c → occ r' c' = true := by
  induction row, col using findNextFree.induct (occ := occ) (rows := rows) (cols := cols) with
  | case1 row col h1 h2 h3 ih =>
    rw [findNextFree, if_pos h1, if_pos h2, if_pos h3] at h
    refine ⟨(ih h).1, fun r' c' hc hb ha => ?_⟩
    by_cases he : r' = row ∧ c' = col
    · rw [he.1, he.2]; exact h3
    · exact (ih h).2 r' c' hc (by unfold Before at *; omega) ha
  | case2 row col h1 h2 h3 =>
    rw [findNextFree, if_pos h1, if_pos h2, if_neg h3] at h
    cases h
    exact ⟨by simpa using h3, fun r' c' _ hb ha => absurd ha hb⟩
  | case3 row col h1 h2 ih =>
    rw [findNextFree, if_pos h1, if_neg h2] at h
    exact ⟨(ih h).1, fun r' c' hc hb ha => (ih h).2 r' c' hc (by unfold Before at *; omega) ha⟩
  | case4 row col h1 =>
    rw [findNextFree, if_neg h1] at h; cases h

theorem findNextFree_none {occ : Occ} {rows cols row col : Nat}
    (h : findNextFree occ rows cols row col = none) :
    ∀ r' c', r' < rows → c' < cols → ¬ Before r' c' row col → occ r' c' = true := by
  induction row, col using findNextFree.induct (occ := occ) (rows := rows) (cols := cols) with
  | case1 row col h1 h2 h3 ih =>
    rw [findNextFree, if_pos h1, if_pos h2, if_pos h3] at h
    intro r' c' hr hc hb
    by_cases he : r' = row ∧ c' = col
    · rw [he.1, he.2]; exact h3
    · exact ih h r' c' hr hc (by unfold Before at *; omega)
  | case2 row col h1 h2 h3 =>
    rw [findNextFree, if_pos h1, if_pos h2, if_neg h3] at h
    cases h
  | case3 row col h1 h2 ih =>
    rw [findNextFree, if_pos h1, if_neg h2] at h
    exact fun r' c' hr hc hb => ih h r' c' hr hc (by unfold Before at *; omega)
  | case4 row col h1 =>
    intro r' c' hr hc hb; unfold Before at hb; omega

theorem canFit_iff {occ : Occ} {rows cols : Nat} {s : Spot} :
    canFit occ rows cols s.row s.col s.rowSpan s.colSpan = true ↔
      s.row + s.rowSpan ≤ rows ∧ s.col + s.colSpan ≤ cols ∧ ∀ r c, s.Covers r c → occ r c = false := by
  unfold canFit
  by_cases h : s.row + s.rowSpan > rows ∨ s.col + s.colSpan > cols
  · rw [if_pos h]; constructor
    · simp
    · intro h'; omega
  · rw [if_neg h]
    simp only [List.all_eq_true, List.mem_range'_1, Bool.not_eq_true', and_imp, Spot.Covers]
    constructor
    · intro h'; exact ⟨by omega, by omega, fun r c a b d e => h' r a b c d e⟩
    · intro h' r a b c d e; exact h'.2.2 r c a b d e

theorem canFit_wanted {occ : Occ} {rows cols : Nat} {ch : LChild} {r c : Nat} (hr : r < rows) (hc : c < cols) :
    canFit occ rows cols r c (min (spans ch).1 (rows - r)) (min (spans ch).2 (cols - c)) = true ↔
      ∀ r' c', (wanted rows cols ch r c).Covers r' c' → occ r' c' = false := by
  have h := canFit_iff (occ := occ) (rows := rows) (cols := cols) (s := wanted rows cols ch r c)
  simp only [wanted, spans] at *
  rw [h]
  exact ⟨fun h => h.2.2, fun h => ⟨by omega, by omega, h⟩⟩

/-- The search gives the first place in reading order, from the cursor on, where the child fits. -/
theorem findSpot_some {occ : Occ} {rows cols : Nat} {ch : LChild} {row col : Nat} {s : Spot} {rc : Nat × Nat}
    (h : findSpot occ rows cols (spans ch).1 (spans ch).2 row col = (some s, rc)) :
    s.row < rows ∧ s.col < cols ∧ ¬ Before s.row s.col row col ∧ s = wanted rows cols ch s.row s.col ∧
      rc = advance cols s.row s.col ∧ (∀ r c, s.Covers r c → occ r c = false) ∧
      ∀ r c, c < cols → ¬ Before r c row col → Before r c s.row s.col →
        ∃ r' c', (wanted rows cols ch r c).Covers r' c' ∧ occ r' c' = true := by
  induction row, col using findSpot.induct (occ := occ) (rows := rows) (cols := cols) (rowSpan := (spans ch).1)
    (colSpan := (spans ch).2) with
  | case1 row col r c hf cs rs hfit =>
    have hb := findNextFree_bound hf
    have hfree := findNextFree_free hf
    rw [findSpot] at h
    split at h
    · rename_i r1 c1 h1
      rw [hf] at h1; cases h1
      rw [if_pos hfit] at h
      cases h
      refine ⟨hb.1, hb.2.1, by unfold Before; simp only; omega, rfl, rfl, ?_, ?_⟩
      · exact (canFit_wanted hb.1 hb.2.1).1 hfit
      · intro r' c' hc' hnb ha
        refine ⟨r', c', ?_, hfree.2 r' c' hc' hnb ha⟩
        simp only [wanted, Spot.Covers] at *
        unfold Before at *
        omega
    · rename_i h1; rw [hf] at h1; cases h1
  | case2 row col r c hf cs rs hfit ih =>
    have hb := findNextFree_bound hf
    have hfree := findNextFree_free hf
    rw [findSpot] at h
    split at h
    · rename_i r1 c1 h1
      rw [hf] at h1; cases h1
      rw [if_neg hfit] at h
      obtain ⟨i1, i2, i3, i4, i5, i6, i7⟩ := ih h
      have hadv : ∀ r' c', c' < cols → (¬ Before r' c' (advance cols r c).1 (advance cols r c).2 ↔
          Before r c r' c') := by
        intro r' c' hc'
        unfold advance Before
        split <;> simp only <;> omega
      refine ⟨i1, i2, ?_, i4, i5, i6, ?_⟩
      · rw [hadv _ _ i2] at i3
        unfold Before at *; omega
      · intro r' c' hc' hnb ha
        by_cases hbe : Before r c r' c'
        · exact i7 r' c' hc' ((hadv _ _ hc').2 hbe) ha
        · by_cases he : r' = r ∧ c' = c
          · obtain ⟨rfl, rfl⟩ := he
            by_contra hno
            apply hfit
            refine (canFit_wanted hb.1 hb.2.1).2 fun r1 c1 hcov => ?_
            by_contra ho
            exact hno ⟨r1, c1, hcov, by simpa using ho⟩
          · refine ⟨r', c', ?_, hfree.2 r' c' hc' hnb (by unfold Before at *; omega)⟩
            simp only [wanted, Spot.Covers]
            unfold Before at *
            omega
    · rename_i h1; rw [hf] at h1; cases h1
  | case3 row col hf =>
    rw [findSpot] at h
    split at h
    · rename_i r1 c1 h1; rw [hf] at h1; cases h1
    · cases h

/-- The search fails only when the child fits nowhere from the cursor on. -/
theorem findSpot_none {occ : Occ} {rows cols : Nat} {ch : LChild} {row col : Nat} {rc : Nat × Nat}
    (h : findSpot occ rows cols (spans ch).1 (spans ch).2 row col = (none, rc)) :
    ∀ r c, r < rows → c < cols → ¬ Before r c row col →
      ∃ r' c', (wanted rows cols ch r c).Covers r' c' ∧ occ r' c' = true := by
  induction row, col using findSpot.induct (occ := occ) (rows := rows) (cols := cols) (rowSpan := (spans ch).1)
    (colSpan := (spans ch).2) with
  | case1 row col r c hf cs rs hfit =>
    rw [findSpot] at h
    split at h
    · rename_i r1 c1 h1
      rw [hf] at h1; cases h1
      rw [if_pos hfit] at h
      cases h
    · rename_i h1; rw [hf] at h1; cases h1
  | case2 row col r c hf cs rs hfit ih =>
    have hb := findNextFree_bound hf
    have hfree := findNextFree_free hf
    rw [findSpot] at h
    split at h
    · rename_i r1 c1 h1
      rw [hf] at h1; cases h1
      rw [if_neg hfit] at h
      intro r' c' hr' hc' hnb
      by_cases hbe : Before r c r' c'
      · refine ih h r' c' hr' hc' ?_
        unfold advance Before at *
        split <;> simp only <;> omega
      · by_cases he : r' = r ∧ c' = c
        · obtain ⟨rfl, rfl⟩ := he
          by_contra hno
          apply hfit
          refine (canFit_wanted hb.1 hb.2.1).2 fun r1 c1 hcov => ?_
          by_contra ho
          exact hno ⟨r1, c1, hcov, by simpa using ho⟩
        · refine ⟨r', c', ?_, hfree.2 r' c' hc' hnb (by unfold Before at *; omega)⟩
          simp only [wanted, Spot.Covers]
          unfold Before at *
          omega
    · rename_i h1; rw [hf] at h1; cases h1
  | case3 row col hf =>
    intro r' c' hr' hc' hnb
    refine ⟨r', c', ?_, findNextFree_none hf r' c' hr' hc' hnb⟩
    simp only [wanted, Spot.Covers]
    omega

theorem occupy_iff {occ : Occ} {rows cols : Nat} {s : Spot} (h1 : s.row + s.rowSpan ≤ rows)
    (h2 : s.col + s.colSpan ≤ cols) (r c : Nat) :
    occupy occ rows cols s.row s.col s.rowSpan s.colSpan r c = true ↔ s.Covers r c ∨ occ r c = true := by
  unfold occupy Spot.Covers
  by_cases h : s.row ≤ r ∧ r < min (s.row + s.rowSpan) rows ∧ s.col ≤ c ∧ c < min (s.col + s.colSpan) cols
  · rw [if_pos h]; simp; left; omega
  · rw [if_neg h]
    constructor
    · exact Or.inr
    · rintro (h' | h')
      · exact absurd ⟨h'.1, by omega, h'.2.2.1, by omega⟩ h
      · exact h'

theorem wanted_in {rows cols : Nat} {ch : LChild} {r c : Nat} (hr : r < rows) (hc : c < cols) :
    (wanted rows cols ch r c).row + (wanted rows cols ch r c).rowSpan ≤ rows ∧
      (wanted rows cols ch r c).col + (wanted rows cols ch r c).colSpan ≤ cols ∧
      0 < (wanted rows cols ch r c).rowSpan ∧ 0 < (wanted rows cols ch r c).colSpan := by
  simp only [wanted]; omega

theorem not_before_advance {cols r c r' c' : Nat} (hc' : c' < cols) :
    ¬ Before r' c' (advance cols r c).1 (advance cols r c).2 ↔ Before r c r' c' := by
  unfold advance Before
  split <;> simp only <;> omega

/-- All about the k-th placed child, from any state of the search. -/
theorem placeLoop_get (rows cols : Nat) (cs : List LChild) : ∀ (occ : Occ) (row col k : Nat) (ch : LChild) (s : Spot),
    (placeLoop rows cols occ row col cs)[k]? = some (ch, s) →
    cs[k]? = some ch ∧ s = wanted rows cols ch s.row s.col ∧ s.row < rows ∧ s.col < cols ∧
    ¬ Before s.row s.col row col ∧
    (∀ r c, s.Covers r c → occ r c = false ∧
      ∀ t ∈ (placeLoop rows cols occ row col cs).take k, ¬ t.2.Covers r c) ∧
    (∀ t ∈ (placeLoop rows cols occ row col cs).take k, Before t.2.row t.2.col s.row s.col) ∧
    (∀ r c, c < cols → ¬ Before r c row col →
      (∀ t ∈ (placeLoop rows cols occ row col cs).take k, Before t.2.row t.2.col r c) →
      Before r c s.row s.col → ∃ r' c', (wanted rows cols ch r c).Covers r' c' ∧
        (occ r' c' = true ∨ ∃ t ∈ (placeLoop rows cols occ row col cs).take k, t.2.Covers r' c')) := by
  induction cs with
  | nil => intro occ row col k ch s h; simp [placeLoop] at h
  | cons d ds ih =>
    intro occ row col k ch s h
    rw [placeLoop] at h ⊢
    cases hf : findSpot occ rows cols (spans d).1 (spans d).2 row col with
    | mk o rc =>
    obtain ⟨r1, c1⟩ := rc
    cases o with
    | none => simp [hf] at h
    | some s0 =>
      simp only [hf] at h ⊢
      obtain ⟨f1, f2, f3, f4, f5, f6, f7⟩ := findSpot_some hf
      have hin := wanted_in (ch := d) f1 f2
      rw [← f4] at hin
      cases k with
      | zero =>
        simp only [List.getElem?_cons_zero, Option.some.injEq, Prod.mk.injEq] at h
        obtain ⟨rfl, rfl⟩ := h
        refine ⟨rfl, f4, f1, f2, f3, fun r c hc => ⟨f6 r c hc, by simp⟩, by simp, ?_⟩
        intro r c hc hnb _ hb
        obtain ⟨r', c', hw, ho⟩ := f7 r c hc hnb hb
        exact ⟨r', c', hw, Or.inl ho⟩
      | succ k =>
        simp only [List.getElem?_cons_succ] at h
        by_cases hstop : r1 ≥ rows
        · rw [if_pos hstop] at h; simp at h
        · rw [if_neg hstop] at h ⊢
          obtain ⟨i1, i2, i3, i4, i5, i6, i7, i8⟩ := ih _ _ _ _ _ _ h
          have hocc := fun r c => occupy_iff (occ := occ) (rows := rows) (cols := cols) (s := s0) hin.1 hin.2.1 r c
          have hadv : r1 = (advance cols s0.row s0.col).1 ∧ c1 = (advance cols s0.row s0.col).2 := by
            rw [← f5]; exact ⟨rfl, rfl⟩
          rw [hadv.1, hadv.2, not_before_advance i4] at i5
          refine ⟨by simpa using i1, i2, i3, i4, ?_, ?_, ?_, ?_⟩
          · unfold Before at *; omega
          · intro r c hc
            obtain ⟨j1, j2⟩ := i6 r c hc
            have j1' : ¬ (occupy occ rows cols s0.row s0.col s0.rowSpan s0.colSpan r c = true) := by simp [j1]
            rw [hocc] at j1'
            push Not at j1'
            refine ⟨by simpa using j1'.2, ?_⟩
            intro t ht
            simp only [List.take_succ_cons, List.mem_cons] at ht
            rcases ht with rfl | ht
            · exact j1'.1
            · exact j2 t ht
          · intro t ht
            simp only [List.take_succ_cons, List.mem_cons] at ht
            rcases ht with rfl | ht
            · exact i5
            · exact i7 t ht
          · intro r c hc hnb hall hb
            have h0 := hall (d, s0) (by simp)
            obtain ⟨r', c', hw, ho⟩ := i8 r c hc (by rw [hadv.1, hadv.2, not_before_advance hc]; exact h0)
              (fun t ht => hall t (by simp [ht])) hb
            refine ⟨r', c', hw, ?_⟩
            rcases ho with ho | ⟨t, ht, hcov⟩
            · rw [hocc] at ho
              rcases ho with ho | ho
              · exact Or.inr ⟨(d, s0), by simp, ho⟩
              · exact Or.inl ho
            · exact Or.inr ⟨t, by simp [ht], hcov⟩

/-- The child at which placement stops fits nowhere after the placed ones. -/
theorem placeLoop_stop (rows cols : Nat) (cs : List LChild) : ∀ (occ : Occ) (row col : Nat) (ch : LChild),
    cs[(placeLoop rows cols occ row col cs).length]? = some ch →
    ∀ r c, r < rows → c < cols → ¬ Before r c row col →
      (∀ t ∈ placeLoop rows cols occ row col cs, Before t.2.row t.2.col r c) →
      ∃ r' c', (wanted rows cols ch r c).Covers r' c' ∧
        (occ r' c' = true ∨ ∃ t ∈ placeLoop rows cols occ row col cs, t.2.Covers r' c') := by
  induction cs with
  | nil => intro occ row col ch h; simp [placeLoop] at h
  | cons d ds ih =>
    intro occ row col ch h
    rw [placeLoop] at h ⊢
    cases hf : findSpot occ rows cols (spans d).1 (spans d).2 row col with
    | mk o rc =>
    obtain ⟨r1, c1⟩ := rc
    cases o with
    | none =>
      simp only [hf] at h ⊢
      simp only [List.length_nil, List.getElem?_cons_zero, Option.some.injEq] at h
      subst h
      intro r c hr hc hnb _
      obtain ⟨r', c', hw, ho⟩ := findSpot_none hf r c hr hc hnb
      exact ⟨r', c', hw, Or.inl ho⟩
    | some s0 =>
      simp only [hf] at h ⊢
      obtain ⟨f1, f2, f3, f4, f5, f6, f7⟩ := findSpot_some hf
      have hin := wanted_in (ch := d) f1 f2
      rw [← f4] at hin
      have hadv : r1 = (advance cols s0.row s0.col).1 ∧ c1 = (advance cols s0.row s0.col).2 := by
        rw [← f5]; exact ⟨rfl, rfl⟩
      intro r c hr hc hnb hall
      have h0 := hall (d, s0) (by simp)
      by_cases hstop : r1 ≥ rows
      · exfalso
        rw [hadv.1] at hstop
        unfold advance Before at *
        split at hstop <;> simp only at * <;> omega
      · rw [if_neg hstop] at h hall ⊢
        simp only [List.length_cons, List.getElem?_cons_succ] at h
        have hocc := fun r c => occupy_iff (occ := occ) (rows := rows) (cols := cols) (s := s0) hin.1 hin.2.1 r c
        obtain ⟨r', c', hw, ho⟩ := ih _ _ _ _ h r c hr hc (by rw [hadv.1, hadv.2, not_before_advance hc]; exact h0)
          (fun t ht => hall t (by simp [ht]))
        refine ⟨r', c', hw, ?_⟩
        rcases ho with ho | ⟨t, ht, hcov⟩
        · rw [hocc] at ho
          rcases ho with ho | ho
          · exact Or.inr ⟨(d, s0), by simp, ho⟩
          · exact Or.inl ho
        · exact Or.inr ⟨t, by simp [ht], hcov⟩

/-- The cells of the placed children of a grid (`arrange` on `cols` columns and `rows` rows). -/
abbrev placed (rows cols : Nat) (cs : List LChild) : List (LChild × Spot) :=
  placeLoop rows cols (fun _ _ => false) 0 0 cs

/-- C24: the placed children are the first children in order, each on its wanted cells inside the grid. -/
theorem placed_inside (rows cols : Nat) (cs : List LChild) (k : Nat) (ch : LChild) (s : Spot)
    (h : (placed rows cols cs)[k]? = some (ch, s)) :
    cs[k]? = some ch ∧ s = wanted rows cols ch s.row s.col ∧ 0 < s.rowSpan ∧ 0 < s.colSpan ∧
      s.row + s.rowSpan ≤ rows ∧ s.col + s.colSpan ≤ cols := by
  obtain ⟨i1, i2, i3, i4, _⟩ := placeLoop_get rows cols cs _ _ _ k ch s h
  have := wanted_in (ch := ch) i3 i4
  rw [← i2] at this
  exact ⟨i1, i2, this.2.2.1, this.2.2.2, this.1, this.2.1⟩

theorem mem_take_of_lt {α : Type} {l : List α} {i k : Nat} {x : α} (h : l[i]? = some x) (hik : i < k) :
    x ∈ l.take k := by
  have : (l.take k)[i]? = some x := by rw [List.getElem?_take_of_lt hik]; exact h
  exact List.mem_of_getElem? this

/-- C24: no cell is given to two children. -/
theorem placed_disjoint (rows cols : Nat) (cs : List LChild) (i k : Nat) (hik : i < k) (c d : LChild) (s t : Spot)
    (hs : (placed rows cols cs)[i]? = some (c, s)) (ht : (placed rows cols cs)[k]? = some (d, t)) :
    s.Disjoint t := by
  obtain ⟨_, _, _, _, _, i6, _⟩ := placeLoop_get rows cols cs _ _ _ k d t ht
  intro r c' ⟨h1, h2⟩
  exact (i6 r c' h2).2 _ (mem_take_of_lt hs hik) h1

/-- C24: children appear in reading order. -/
theorem placed_order (rows cols : Nat) (cs : List LChild) (i k : Nat) (hik : i < k) (c d : LChild) (s t : Spot)
    (hs : (placed rows cols cs)[i]? = some (c, s)) (ht : (placed rows cols cs)[k]? = some (d, t)) :
    Before s.row s.col t.row t.col := by
  obtain ⟨_, _, _, _, _, _, i7, _⟩ := placeLoop_get rows cols cs _ _ _ k d t ht
  exact i7 _ (mem_take_of_lt hs hik)

/-- C24: a child takes the first place after the children before it where its cells are free. -/
theorem placed_first_fit (rows cols : Nat) (cs : List LChild) (k : Nat) (ch : LChild) (s : Spot)
    (h : (placed rows cols cs)[k]? = some (ch, s)) (r c : Nat) (hc : c < cols)
    (hafter : ∀ t ∈ (placed rows cols cs).take k, Before t.2.row t.2.col r c) (hb : Before r c s.row s.col) :
    ∃ t ∈ (placed rows cols cs).take k, ¬ (wanted rows cols ch r c).Disjoint t.2 := by
  obtain ⟨_, _, _, _, _, _, _, i8⟩ := placeLoop_get rows cols cs _ _ _ k ch s h
  obtain ⟨r', c', hw, ho⟩ := i8 r c hc (by unfold Before; omega) hafter hb
  rcases ho with ho | ⟨t, ht, hcov⟩
  · simp at ho
  · exact ⟨t, ht, fun hd => hd r' c' ⟨hw, hcov⟩⟩

/-- C45: a child is left out only if, after the children before it, there is no place where its cells are
free. -/
theorem dropped_has_no_place (rows cols : Nat) (cs : List LChild) (ch : LChild)
    (h : cs[(placed rows cols cs).length]? = some ch) (r c : Nat) (hr : r < rows) (hc : c < cols)
    (hafter : ∀ t ∈ placed rows cols cs, Before t.2.row t.2.col r c) :
    ∃ t ∈ placed rows cols cs, ¬ (wanted rows cols ch r c).Disjoint t.2 := by
  obtain ⟨r', c', hw, ho⟩ := placeLoop_stop rows cols cs _ _ _ ch h r c hr hc (by unfold Before; omega) hafter
  rcases ho with ho | ⟨t, ht, hcov⟩
  · simp at ho
  · exact ⟨t, ht, fun hd => hd r' c' ⟨hw, hcov⟩⟩

/-- C45: on a grid with enough cells, children that span one cell are all placed, row by row. -/
theorem placed_unit_partial (rows cols : Nat) (cs : List LChild) (hcols : 0 < cols) (hn : cs.length ≤ rows * cols)
    (hu : ∀ c ∈ cs, c.style.rowSpan ≤ 1 ∧ c.style.columnSpan ≤ 1) (k : Nat) (ch : LChild) (hk : cs[k]? = some ch) :
    (placed rows cols cs)[k]? = some (ch, ⟨k / cols, k % cols, 1, 1⟩) := by
  induction k using Nat.strongRecOn generalizing ch with
  | _ k ih =>
    have hlt := (List.getElem?_eq_some_iff.1 hk).1
    have hrow : k / cols < rows := Nat.div_lt_of_lt_mul (by rw [Nat.mul_comm]; omega)
    have hcol : k % cols < cols := Nat.mod_lt _ hcols
    have hwant : ∀ r c, r < rows → c < cols → wanted rows cols ch r c = ⟨r, c, 1, 1⟩ := by
      intro r c hr hc
      have := hu ch (List.mem_of_getElem? hk)
      simp only [wanted, Spot.mk.injEq, true_and]
      omega
    have hbefore : ∀ i, i < k → Before (i / cols) (i % cols) (k / cols) (k % cols) := by
      intro i hi
      have h1 : i / cols ≤ k / cols := Nat.div_le_div_right (by omega)
      have e1 := Nat.div_add_mod i cols
      have e2 := Nat.div_add_mod k cols
      unfold Before
      by_cases he : i / cols = k / cols
      · rw [he] at e1; omega
      · omega
    have htake : ∀ t ∈ (placed rows cols cs).take k, ∃ i, i < k ∧ t.2 = ⟨i / cols, i % cols, 1, 1⟩ := by
      intro t ht
      obtain ⟨i, hi⟩ := List.getElem?_of_mem ht
      have hik : i < k := by
        have h1 := (List.getElem?_eq_some_iff.1 hi).1
        have h2 := List.length_take_le k (placed rows cols cs)
        omega
      rw [List.getElem?_take_of_lt hik] at hi
      have := ih i hik cs[i] (List.getElem?_eq_getElem (by omega))
      rw [this] at hi
      cases hi
      exact ⟨i, hik, rfl⟩
    have hno : ∀ t ∈ (placed rows cols cs).take k, (wanted rows cols ch (k / cols) (k % cols)).Disjoint t.2 := by
      intro t ht
      obtain ⟨i, hik, he⟩ := htake t ht
      have hb := hbefore i hik
      rw [he, hwant _ _ hrow hcol]
      intro r c
      simp only [Spot.Covers]
      unfold Before at hb
      omega
    cases hp : (placed rows cols cs)[k]? with
    | none =>
      exfalso
      have hlen : (placed rows cols cs).length = k := by
        have h1 := List.getElem?_eq_none_iff.1 hp
        by_contra hne
        have hj : (placed rows cols cs).length < k := by omega
        have h2 := ih _ hj cs[(placed rows cols cs).length] (List.getElem?_eq_getElem (by omega))
        simp at h2
      have htk : (placed rows cols cs).take k = placed rows cols cs := List.take_of_length_le (by omega)
      rw [htk] at htake hno
      obtain ⟨t, ht, hd⟩ := dropped_has_no_place rows cols cs ch (by rw [hlen]; exact hk) (k / cols) (k % cols)
        hrow hcol (fun t ht => by obtain ⟨i, hik, he⟩ := htake t ht; rw [he]; exact hbefore i hik)
      exact hd (hno t ht)
    | some cs' =>
      obtain ⟨ch', s⟩ := cs'
      obtain ⟨i1, i2, i3, i4, _, _, i7, _⟩ := placeLoop_get rows cols cs _ _ _ k ch' s hp
      rw [hk] at i1; cases i1
      have hs := hwant s.row s.col i3 i4
      rw [hs] at i2
      have hge : ¬ Before s.row s.col (k / cols) (k % cols) := by
        cases k with
        | zero => simp [Before]
        | succ j =>
          have hj := ih j (by omega) cs[j] (List.getElem?_eq_getElem (by omega))
          have h1 := placed_order rows cols cs j (j + 1) (by omega) _ _ _ _ hj hp
          simp only at h1
          have e1 := Nat.div_add_mod j cols
          have e2 := Nat.div_add_mod (j + 1) cols
          have m1 := Nat.mod_lt j hcols
          unfold Before at *
          by_cases hw : j % cols + 1 = cols
          · have : (j + 1) / cols = j / cols + 1 := by
              rw [Nat.div_eq_iff hcols]
              constructor
              · rw [Nat.add_mul, Nat.mul_comm, Nat.one_mul]; omega
              · rw [Nat.add_mul, Nat.mul_comm, Nat.one_mul]; omega
            have : cols * ((j + 1) / cols) = cols * (j / cols) + cols := by rw [this, Nat.mul_add, Nat.mul_one]
            omega
          · have : (j + 1) / cols = j / cols := by
              rw [Nat.div_eq_iff hcols]
              constructor
              · rw [Nat.mul_comm]; omega
              · rw [Nat.mul_comm]; omega
            rw [this] at e2
            omega
      have hle : ¬ Before (k / cols) (k % cols) s.row s.col := by
        intro hb
        obtain ⟨t, ht, hd⟩ := placed_first_fit rows cols cs k ch s hp (k / cols) (k % cols) hcol
          (fun t ht => by obtain ⟨i, hik, he⟩ := htake t ht; rw [he]; exact hbefore i hik) hb
        exact hd (hno t ht)
      have : s.row = k / cols ∧ s.col = k % cols := by unfold Before at *; omega
      rw [i2, this.1, this.2]

/-- Without an explicit number of rows there are always enough cells for children that span one cell. -/
theorem rowCount_enough (g : GridStyle) (cols n : Nat) (hg : g.rows = none) (hc : 0 < cols) :
    n ≤ rowCount g cols n * cols := by
  unfold rowCount
  rw [hg]
  simp only [show cols ≠ 0 by omega, if_false]
  have := Nat.div_add_mod (n + cols - 1) cols
  have := Nat.mod_lt (n + cols - 1) hc
  rw [Nat.mul_comm]
  omega

/-- C45: a grid without explicit number of rows shows every child, when all span one cell. -/
theorem arrange_shows_all_partial (mc : Option Nat) (p : Parent) (cs : List LChild) (available : Region)
    (hg : p.grid.rows = none) (hc : 0 < columnCount mc p.grid available.width)
    (hu : ∀ c ∈ cs, c.style.rowSpan ≤ 1 ∧ c.style.columnSpan ≤ 1) :
    (arrange mc p cs available).map (·.childIndex) = cs.map (·.index) := by
  unfold arrange
  split
  · rename_i h; simp at h; subst h; rfl
  · apply List.ext_getElem?
    intro k
    simp only [List.map_map, List.getElem?_map]
    have hall := placed_unit_partial _ _ cs hc (rowCount_enough p.grid _ cs.length hg hc) hu k
    cases hk : cs[k]? with
    | none =>
      have : (placed (rowCount p.grid (columnCount mc p.grid available.width) cs.length)
          (columnCount mc p.grid available.width) cs)[k]? = none := by
        cases hp : (placed (rowCount p.grid (columnCount mc p.grid available.width) cs.length)
          (columnCount mc p.grid available.width) cs)[k]? with
        | none => rfl
        | some x =>
          have := (placeLoop_get _ _ cs _ _ _ k x.1 x.2 hp).1
          rw [hk] at this; cases this
      rw [this]; rfl
    | some ch => rw [hall ch hk]; rfl

/-- Children for the examples: index, row span, column span. -/
def exChild (i rs cs : Nat) : LChild :=
  ⟨i, { columnSpan := cs, rowSpan := rs }, 1, 1, fun _ => 1⟩

/-- C45 is false with spans: the number of rows is computed from the number of children, not from the cells
they take. Two columns, spans 2, 2 and 1: the third child is not shown. -/
theorem shows_all_spans_counterexample :
    (arrange none { grid := { columns := some 2 } } [exChild 0 1 2, exChild 1 1 2, exChild 2 1 1]
      ⟨0, 0, 80, 24⟩).map (·.childIndex) = [0, 1] := by
  decide +kernel

-- Spans: cut off at the edge (second child), skipping places that are taken (fourth child).
example : (placed 3 3 [exChild 0 1 2, exChild 1 2 2, exChild 2 1 1, exChild 3 1 9]).map (·.2) =
    [⟨0, 0, 1, 2⟩, ⟨0, 2, 2, 1⟩, ⟨1, 0, 1, 1⟩, ⟨2, 0, 1, 3⟩] := by decide +kernel
example : (placed 2 3 [exChild 0 1 1, exChild 1 1 1, exChild 2 0 1, exChild 3 1 1]).map (·.2) =
    [⟨0, 0, 1, 1⟩, ⟨0, 1, 1, 1⟩, ⟨0, 2, 1, 1⟩, ⟨1, 0, 1, 1⟩] := by decide +kernel
example : (arrange (some 20) { grid := {} } [exChild 0 1 1, exChild 1 1 1, exChild 2 1 1] ⟨0, 0, 50, 24⟩) =
    [⟨0, ⟨0, 0, 25, 12⟩⟩, ⟨1, ⟨25, 0, 25, 12⟩⟩, ⟨2, ⟨0, 12, 25, 12⟩⟩] := by decide +kernel

end Textual.Layout.Grid
