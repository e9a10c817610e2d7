import Verif.Props.GridTracks

/-! C46, C47: regions of grid children, cells told to the keyline drawing. -/

namespace Textual.Layout.Grid

/-! ### Regions of cells -/

/-- Tracks laid one after the other with a gutter between. -/
def Chained (gutter : Int) (ts : List Track) : Prop :=
  (∀ t ∈ ts, 1 ≤ t.size) ∧ ∃ ss, ts = layTracks gutter 0 ss

theorem resolveTracks_chained (specs : List Scalar) (count : Nat) (available gutter : Int) :
    Chained gutter (resolveTracks specs count available gutter) ∧
      (resolveTracks specs count available gutter).length = count :=
  ⟨⟨(resolveTracks_chain specs count available gutter).2.2.1, _, rfl⟩,
    (resolveTracks_chain specs count available gutter).1⟩

theorem content_chained (specs : List Scalar) (count : Nat) (available gutter : Int) (content : List Int)
    (hc : content.length = count) :
    Chained gutter (resolveTracksWithContent specs count available gutter content) ∧
      (resolveTracksWithContent specs count available gutter content).length = count := by
  unfold resolveTracksWithContent
  split
  · simp only
    refine ⟨⟨?_, _, rfl⟩, ?_⟩
    · intro t ht
      have := List.mem_map_of_mem (f := (·.size)) ht
      rw [layTracks_sizes] at this
      obtain ⟨s, _, h⟩ := List.mem_map.1 this
      rw [← h]; omega
    · rw [layTracks_length]
      split <;> simp [hc]
  · exact resolveTracks_chained _ _ _ _

theorem columnTracks_chained (p : Parent) (cs : List LChild) (rows cols : Nat) (available gutter : Int) :
    Chained gutter (columnTracks p cs rows cols available gutter) ∧
      (columnTracks p cs rows cols available gutter).length = cols := by
  unfold columnTracks
  split
  · exact content_chained _ _ _ _ _ (by simp)
  · exact resolveTracks_chained _ _ _ _

theorem rowTracks_chained (p : Parent) (cs : List LChild) (rows cols : Nat) (available gutter : Int) :
    Chained gutter (rowTracks p cs rows cols available gutter) ∧
      (rowTracks p cs rows cols available gutter).length = rows := by
  unfold rowTracks
  split
  · exact content_chained _ _ _ _ _ (by simp)
  · exact resolveTracks_chained _ _ _ _

theorem sum_nonneg_of_pos (l : List Int) (h : ∀ n ∈ l, 1 ≤ n) : 0 ≤ l.sum := by
  induction l with
  | nil => simp
  | cons a l ih =>
    have := h a (by simp)
    have := ih fun n hn => h n (by simp [hn])
    simp; omega

/-- A span of tracks ends before any later track starts. -/
theorem span_before {g : Int} {ts : List Track} (h : Chained g ts) (hg : 0 ≤ g) {i n j : Nat} (hn : 0 < n)
    (hij : i + n ≤ j) (hj : j < ts.length) :
    spanStart ts i + spanLength ts i n g + g ≤ spanStart ts j := by
  obtain ⟨hpos, ss, rfl⟩ := h
  rw [layTracks_length] at hj
  have hss : ∀ n ∈ ss, 1 ≤ n := by
    intro n hn
    rw [← layTracks_sizes g 0 ss] at hn
    obtain ⟨t, ht, rfl⟩ := List.mem_map.1 hn
    exact hpos t ht
  rw [spanLength_eq g 0 ss i n hn (by omega)]
  unfold spanStart
  rw [layTracks_get, layTracks_get, List.getElem?_eq_getElem (show i < ss.length by omega),
    List.getElem?_eq_getElem hj]
  simp only [Option.map_some, Option.getD_some]
  obtain ⟨m, rfl⟩ : ∃ m, j = i + n + m := ⟨j - (i + n), by omega⟩
  have e : (ss.take (i + n + m)).sum = (ss.take i).sum + ((ss.drop i).take n).sum + ((ss.drop (i + n)).take m).sum := by
    rw [List.take_add, List.sum_append, List.take_add, List.sum_append]
  rw [e]
  have := sum_nonneg_of_pos ((ss.drop (i + n)).take m) fun n hn =>
    hss n (List.mem_of_mem_drop (List.mem_of_mem_take hn))
  have : (0 : Int) ≤ m * g := mul_nonneg (by omega) hg
  push_cast
  linarith

theorem span_pos {g : Int} {ts : List Track} (h : Chained g ts) (hg : 0 ≤ g) {i n : Nat} (hn : 0 < n)
    (hin : i + n ≤ ts.length) : 0 < spanLength ts i n g := by
  obtain ⟨hpos, ss, rfl⟩ := h
  rw [layTracks_length] at hin
  have hss : ∀ n ∈ ss, 1 ≤ n := by
    intro n hn
    rw [← layTracks_sizes g 0 ss] at hn
    obtain ⟨t, ht, rfl⟩ := List.mem_map.1 hn
    exact hpos t ht
  rw [spanLength_eq g 0 ss i n hn hin]
  obtain ⟨m, rfl⟩ : ∃ m, n = m + 1 := ⟨n - 1, by omega⟩
  rw [List.drop_eq_getElem_cons (show i < ss.length by omega), List.take_succ_cons, List.sum_cons]
  have h1 := hss ss[i] (List.getElem_mem _)
  have h2 := sum_nonneg_of_pos ((ss.drop (i + 1)).take m) fun n hn =>
    hss n (List.mem_of_mem_drop (List.mem_of_mem_take hn))
  have : (0 : Int) ≤ m * g := mul_nonneg (by omega) hg
  push_cast
  linarith

/-- The point (x, y) is in the region. -/
def In (r : Region) (x y : Int) : Prop := r.x ≤ x ∧ x < r.x + r.width ∧ r.y ≤ y ∧ y < r.y + r.height

/-- Disjoint spots lie beside or above one another. -/
theorem disjoint_sides {s t : Spot} (hs1 : 0 < s.rowSpan) (hs2 : 0 < s.colSpan) (ht1 : 0 < t.rowSpan)
    (ht2 : 0 < t.colSpan) (h : s.Disjoint t) :
    s.row + s.rowSpan ≤ t.row ∨ t.row + t.rowSpan ≤ s.row ∨ s.col + s.colSpan ≤ t.col ∨ t.col + t.colSpan ≤ s.col := by
  by_contra hn
  push Not at hn
  apply h (max s.row t.row) (max s.col t.col)
  simp only [Spot.Covers]
  omega

/-- The cell regions of two children of a grid have no point in common. -/
theorem childRegion_disjoint (rows cols : Nat) (cs : List LChild) (columns rowTs : List Track) (region : Region)
    (gh gv : Int) (hgh : 0 ≤ gh) (hgv : 0 ≤ gv) (hc : Chained gh columns) (hcl : columns.length = cols)
    (hr : Chained gv rowTs) (hrl : rowTs.length = rows)
    (i k : Nat) (hik : i < k) (c d : LChild) (s t : Spot)
    (hs : (placed rows cols cs)[i]? = some (c, s)) (ht : (placed rows cols cs)[k]? = some (d, t)) (x y : Int) :
    ¬ (In (childRegion s columns rowTs region gh gv) x y ∧ In (childRegion t columns rowTs region gh gv) x y) := by
  obtain ⟨_, _, s1, s2, s3, s4⟩ := placed_inside rows cols cs i c s hs
  obtain ⟨_, _, t1, t2, t3, t4⟩ := placed_inside rows cols cs k d t ht
  have hd := disjoint_sides s1 s2 t1 t2 (placed_disjoint rows cols cs i k hik c d s t hs ht)
  unfold In childRegion
  simp only
  rcases hd with h | h | h | h
  · have := span_before hr hgv s1 h (by omega); omega
  · have := span_before hr hgv t1 h (by omega); omega
  · have := span_before hc hgh s2 h (by omega); omega
  · have := span_before hc hgh t2 h (by omega); omega

/-- Margins of a child that are not negative. -/
def NonNegMargins (c : LChild) : Prop :=
  0 ≤ c.style.margin.top.value ∧ 0 ≤ c.style.margin.right.value ∧ 0 ≤ c.style.margin.bottom.value ∧
    0 ≤ c.style.margin.left.value

theorem toI32_nonneg {q : Rat} (h : 0 ≤ q) : 0 ≤ toI32 q := by
  unfold toI32
  rw [if_pos h]
  have : 0 ≤ ⌊q⌋ := Int.floor_nonneg.2 h
  omega

/-- The points of a child are within the columns of its cell; within its rows if it takes the height of its
cell. -/
theorem childPlacement_in (c : LChild) (cell : Region) (hm : NonNegMargins c) (x y : Int)
    (h : In (childPlacement c cell).region x y) :
    cell.x ≤ x ∧ x < cell.x + cell.width ∧ cell.y ≤ y ∧
      ((c.style.height = none ∨ ∃ v, c.style.height = some ⟨v, .fraction⟩) → y < cell.y + cell.height) := by
  obtain ⟨m1, m2, m3, m4⟩ := hm
  have m1 := toI32_nonneg m1
  have m2 := toI32_nonneg m2
  have m3 := toI32_nonneg m3
  have m4 := toI32_nonneg m4
  unfold childPlacement In at h
  simp only at h
  refine ⟨by omega, by omega, by omega, ?_⟩
  intro hh
  have e : (if heightIsAuto c.style = true then (c.intrinsicHeight
      ((min (resolveWidthWithIntrinsic c.style c.desiredWidth cell.width) cell.width) % 65536).toNat : Int)
      else resolveHeightWithIntrinsic c.style c.desiredHeight cell.height) = cell.height := by
    rcases hh with hh | ⟨v, hh⟩
    · simp [heightIsAuto, resolveHeightWithIntrinsic, resolveHeightFull, hh]
    · simp [heightIsAuto, resolveHeightWithIntrinsic, resolveHeightFull, hh]
  rw [e] at h
  omega

/-- C46: children of a grid that take the height of their cell do not overlap (no negative margins or
gutters). -/
theorem arrange_disjoint_partial (mc : Option Nat) (p : Parent) (cs : List LChild) (available : Region)
    (hgh : 0 ≤ resolveScalar p.grid.gutterH available.width) (hgv : 0 ≤ resolveScalar p.grid.gutterV available.height)
    (hm : ∀ c ∈ cs, NonNegMargins c)
    (hh : ∀ c ∈ cs, c.style.height = none ∨ ∃ v, c.style.height = some ⟨v, .fraction⟩)
    (i k : Nat) (hik : i < k) (a b : Placement) (ha : (arrange mc p cs available)[i]? = some a)
    (hb : (arrange mc p cs available)[k]? = some b) (x y : Int) : ¬ (In a.region x y ∧ In b.region x y) := by
  unfold arrange at ha hb
  split at ha
  · simp at ha
  · rename_i hne
    rw [if_neg hne] at hb
    simp only [List.getElem?_map, Option.map_eq_some_iff] at ha hb
    obtain ⟨⟨c, s⟩, hs, rfl⟩ := ha
    obtain ⟨⟨d, t⟩, ht, rfl⟩ := hb
    have hc := List.mem_of_getElem? (placed_inside _ _ cs i c s hs).1
    have hd := List.mem_of_getElem? (placed_inside _ _ cs k d t ht).1
    rintro ⟨h1, h2⟩
    have g1 := childPlacement_in c _ (hm c hc) x y h1
    have g2 := childPlacement_in d _ (hm d hd) x y h2
    exact childRegion_disjoint _ _ cs _ _ available _ _ hgh hgv (columnTracks_chained ..).1
      (columnTracks_chained ..).2 (rowTracks_chained ..).1 (rowTracks_chained ..).2 i k hik c d s t hs ht x y
      ⟨⟨g1.1, g1.2.1, g1.2.2.1, g1.2.2.2 (hh c hc)⟩, ⟨g2.1, g2.2.1, g2.2.2.1, g2.2.2.2 (hh d hd)⟩⟩

/-- C46: children in columns beside each other never overlap, whatever their heights. -/
theorem arrange_columns_disjoint (mc : Option Nat) (p : Parent) (cs : List LChild) (available : Region)
    (hgh : 0 ≤ resolveScalar p.grid.gutterH available.width) (hm : ∀ c ∈ cs, NonNegMargins c)
    (hu : ∀ c ∈ cs, c.style.rowSpan ≤ 1 ∧ c.style.columnSpan ≤ 1) (hr : p.grid.rows = none)
    (i k : Nat) (hik : i < k) (hcol : i % columnCount mc p.grid available.width ≠ k % columnCount mc p.grid available.width)
    (hc0 : 0 < columnCount mc p.grid available.width)
    (a b : Placement) (ha : (arrange mc p cs available)[i]? = some a)
    (hb : (arrange mc p cs available)[k]? = some b) (x y : Int) : ¬ (In a.region x y ∧ In b.region x y) := by
  unfold arrange at ha hb
  split at ha
  · simp at ha
  · rename_i hne
    rw [if_neg hne] at hb
    simp only [List.getElem?_map, Option.map_eq_some_iff] at ha hb
    obtain ⟨⟨c, s⟩, hs, rfl⟩ := ha
    obtain ⟨⟨d, t⟩, ht, rfl⟩ := hb
    have ic := (placed_inside _ _ cs i c s hs).1
    have id := (placed_inside _ _ cs k d t ht).1
    have hen := rowCount_enough p.grid _ cs.length hr hc0
    have us := placed_unit_partial _ _ cs hc0 hen hu i c ic
    have ut := placed_unit_partial _ _ cs hc0 hen hu k d id
    rw [us] at hs; rw [ut] at ht
    cases hs; cases ht
    rintro ⟨h1, h2⟩
    have g1 := childPlacement_in c _ (hm c (List.mem_of_getElem? ic)) x y h1
    have g2 := childPlacement_in d _ (hm d (List.mem_of_getElem? id)) x y h2
    have hch := columnTracks_chained p cs (rowCount p.grid (columnCount mc p.grid available.width) cs.length)
      (columnCount mc p.grid available.width) available.width (resolveScalar p.grid.gutterH available.width)
    have l1 : i % columnCount mc p.grid available.width < columnCount mc p.grid available.width := Nat.mod_lt _ hc0
    have l2 : k % columnCount mc p.grid available.width < columnCount mc p.grid available.width := Nat.mod_lt _ hc0
    unfold childRegion at g1 g2
    simp only at g1 g2
    rcases Nat.lt_or_gt_of_ne hcol with h | h
    · have := span_before hch.1 hgh (i := i % columnCount mc p.grid available.width) (n := 1)
        (j := k % columnCount mc p.grid available.width) (by omega) (by omega) (by omega)
      omega
    · have := span_before hch.1 hgh (i := k % columnCount mc p.grid available.width) (n := 1)
        (j := i % columnCount mc p.grid available.width) (by omega) (by omega) (by omega)
      omega

/-- A child with a height in cells. -/
def exTall (i : Nat) (h : Rat) : LChild := ⟨i, { height := some ⟨h, .cells⟩ }, 1, 1, fun _ => 1⟩

/-- C46 is false for children higher than their row: heights are not limited to the cell, so the child overlaps
the next one. -/
theorem overlap_height_counterexample :
    (arrange none { grid := {} } [exTall 0 10, exTall 1 3] ⟨0, 0, 80, 12⟩).map (·.region) =
      [⟨0, 0, 80, 10⟩, ⟨0, 6, 80, 3⟩] := by decide +kernel

example : (arrange none { grid := { columns := some 2, gutterH := ⟨1, .cells⟩, gutterV := ⟨1, .cells⟩ } }
    [exChild 0 1 1, exChild 1 1 1, exChild 2 1 2] ⟨3, 1, 21, 11⟩).map (·.region) =
    [⟨3, 1, 10, 5⟩, ⟨14, 1, 10, 5⟩, ⟨3, 7, 21, 5⟩] := by decide +kernel

/-! ### Content sized tracks -/

theorem findSpot_none_end {occ : Occ} {rows cols rs cs : Nat} {row col : Nat} {rc : Nat × Nat}
    (h : findSpot occ rows cols rs cs row col = (none, rc)) : findNextFree occ rows cols rc.1 rc.2 = none := by
  induction row, col using findSpot.induct (occ := occ) (rows := rows) (cols := cols) (rowSpan := rs)
    (colSpan := cs) with
  | case1 row col r c hf cs rs hfit =>
    rw [findSpot] at h
    split at h
    · rename_i r1 c1 h1
      rw [hf] at h1; cases h1
      rw [if_pos hfit] at h
      cases h
    · rename_i h1; rw [hf] at h1; cases h1
  | case2 row col r c hf cs rs hfit ih =>
    rw [findSpot] at h
    split at h
    · rename_i r1 c1 h1
      rw [hf] at h1; cases h1
      rw [if_neg hfit] at h
      exact ih h
    · rename_i h1; rw [hf] at h1; cases h1
  | case3 row col hf =>
    rw [findSpot] at h
    split at h
    · rename_i r1 c1 h1; rw [hf] at h1; cases h1
    · cases h; exact hf

theorem findSpot_of_none {occ : Occ} {rows cols rs cs : Nat} {row col : Nat}
    (h : findNextFree occ rows cols row col = none) : findSpot occ rows cols rs cs row col = (none, row, col) := by
  rw [findSpot]
  split
  · rename_i h1; rw [h] at h1; cases h1
  · rfl

theorem assign_full (rows cols : Nat) (cs : List LChild) (occ : Occ) (row col : Nat)
    (h : findNextFree occ rows cols row col = none) :
    ∀ s ∈ assignLoop rows cols occ row col cs, s = ⟨0, 0, 0, 0⟩ := by
  induction cs with
  | nil => simp [assignLoop]
  | cons d ds ih =>
    rw [assignLoop, findSpot_of_none h]
    simp only [List.mem_cons]
    rintro s (rfl | hs)
    · rfl
    · split at hs
      · simp at hs
      · exact ih s hs

/-- The cells computed beforehand (for content sizes and keylines) are the cells of the placed children,
followed by empty entries. -/
theorem assign_eq (rows cols : Nat) (cs : List LChild) : ∀ (occ : Occ) (row col : Nat),
    ∃ rest, assignLoop rows cols occ row col cs = (placeLoop rows cols occ row col cs).map (·.2) ++ rest ∧
      ∀ s ∈ rest, s = ⟨0, 0, 0, 0⟩ := by
  induction cs with
  | nil => intro occ row col; exact ⟨[], by simp [assignLoop, placeLoop]⟩
  | cons d ds ih =>
    intro occ row col
    rw [assignLoop, placeLoop]
    cases hf : findSpot occ rows cols (spans d).1 (spans d).2 row col with
    | mk o rc =>
    obtain ⟨r1, c1⟩ := rc
    cases o with
    | none =>
      refine ⟨_, rfl, ?_⟩
      simp only [List.mem_cons]
      rintro s (rfl | hs)
      · rfl
      · split at hs
        · simp at hs
        · exact assign_full rows cols ds occ r1 c1 (findSpot_none_end hf) s hs
    | some s0 =>
      simp only
      by_cases hstop : r1 ≥ rows
      · simp only [hstop, if_true]; exact ⟨[], by simp⟩
      · simp only [hstop, if_false]
        obtain ⟨rest, h1, h2⟩ := ih (occupy occ rows cols s0.row s0.col s0.rowSpan s0.colSpan) r1 c1
        exact ⟨rest, by rw [h1]; rfl, h2⟩

theorem placed_prefix (rows cols : Nat) (cs : List LChild) :
    ∃ rest, cs = (placed rows cols cs).map (·.1) ++ rest := by
  have : (placed rows cols cs).map (·.1) <+: cs := by
    rw [List.prefix_iff_getElem?]
    intro i hi
    rw [List.getElem_map]
    rw [List.length_map] at hi
    exact (placeLoop_get rows cols cs _ _ _ i _ (placed rows cols cs)[i].2 (List.getElem?_eq_getElem hi)).1
  obtain ⟨rest, h⟩ := this
  exact ⟨rest, h.symm⟩

theorem zip_split {α β : Type} {P : List (α × β)} {l r1 : List α} {m r2 : List β} (h1 : l = P.map (·.1) ++ r1)
    (h2 : m = P.map (·.2) ++ r2) : l.zip m = P ++ r1.zip r2 := by
  rw [h1, h2, List.zip_append (by simp)]
  congr 1
  clear h1 h2
  induction P with
  | nil => rfl
  | cons x P ih => simp [ih]

theorem zip_assign (rows cols : Nat) (cs : List LChild) :
    ∃ rest, cs.zip (cellAssignments cs rows cols) = placed rows cols cs ++ rest ∧ ∀ x ∈ rest, x.2 = ⟨0, 0, 0, 0⟩ := by
  obtain ⟨r1, h1⟩ := placed_prefix rows cols cs
  obtain ⟨r2, h2, h3⟩ := assign_eq rows cols cs (fun _ _ => false) 0 0
  refine ⟨r1.zip r2, ?_, ?_⟩
  · exact zip_split h1 h2
  · intro x hx
    exact h3 x.2 (List.of_mem_zip hx).2

/-! ### Keylines -/

/-- One step of the occupancy computation. -/
abbrev occStep (rows cols : Nat) (occ : Nat → Nat → Option Nat) (ca : LChild × Spot) : Nat → Nat → Option Nat :=
  fun r c =>
    if ca.2.rowSpan = 0 ∨ ca.2.colSpan = 0 then occ r c
    else if ca.2.row ≤ r ∧ r < min (ca.2.row + ca.2.rowSpan) rows ∧
        ca.2.col ≤ c ∧ c < min (ca.2.col + ca.2.colSpan) cols then some ca.1.index
    else occ r c

theorem occFold_none (rows cols : Nat) (l : List (LChild × Spot)) (occ : Nat → Nat → Option Nat) (r c : Nat)
    (h : ∀ x ∈ l, ¬ x.2.Covers r c) : (l.foldl (occStep rows cols) occ) r c = occ r c := by
  induction l generalizing occ with
  | nil => rfl
  | cons x l ih =>
    rw [List.foldl_cons, ih _ fun y hy => h y (List.mem_cons_of_mem x hy)]
    have := h x (by simp)
    unfold Spot.Covers at this
    unfold occStep
    split
    · rfl
    · rw [if_neg (by omega)]

/-- C47: the keyline drawing is told exactly which child covers each cell. -/
theorem cellOccupancy_iff (rows cols : Nat) (cs : List LChild) (r c i : Nat) :
    cellOccupancy cs rows cols r c = some i ↔
      ∃ ch s, (ch, s) ∈ placed rows cols cs ∧ ch.index = i ∧ s.Covers r c := by
  obtain ⟨rest, h1, h2⟩ := zip_assign rows cols cs
  have hrest : ∀ x ∈ rest, ¬ x.2.Covers r c := by
    intro x hx; rw [h2 x hx]; simp [Spot.Covers]
  have key : ∀ ch s, (ch, s) ∈ placed rows cols cs → s.Covers r c →
      cellOccupancy cs rows cols r c = some ch.index := by
    intro ch s hm hcov
    obtain ⟨k, hk⟩ := List.getElem?_of_mem hm
    have hlt := (List.getElem?_eq_some_iff.1 hk).1
    have hin := placed_inside rows cols cs k ch s hk
    have hsplit : placed rows cols cs =
        (placed rows cols cs).take k ++ (ch, s) :: (placed rows cols cs).drop (k + 1) := by
      have h1 := List.getElem_cons_drop hlt
      have h2 := (List.getElem?_eq_some_iff.1 hk).2
      rw [h2] at h1
      rw [h1, List.take_append_drop]
    have hlater : ∀ x ∈ (placed rows cols cs).drop (k + 1) ++ rest, ¬ x.2.Covers r c := by
      intro x hx
      rcases List.mem_append.1 hx with hx | hx
      · obtain ⟨j, hj⟩ := List.getElem?_of_mem hx
        rw [List.getElem?_drop] at hj
        intro hxc
        exact placed_disjoint rows cols cs k (k + 1 + j) (by omega) ch x.1 s x.2 hk hj r c ⟨hcov, hxc⟩
      · exact hrest x hx
    unfold cellOccupancy
    rw [h1, hsplit, List.append_assoc, List.cons_append, List.foldl_append, List.foldl_cons]
    refine (occFold_none rows cols _ _ r c hlater).trans ?_
    unfold Spot.Covers at hcov
    simp only
    rw [if_neg (by omega), if_pos (by omega)]
  constructor
  · intro h
    by_cases hex : ∃ x ∈ placed rows cols cs, x.2.Covers r c
    · obtain ⟨⟨ch, s⟩, hm, hcov⟩ := hex
      have := key ch s hm hcov
      rw [this] at h
      exact ⟨ch, s, hm, by simpa using h, hcov⟩
    · exfalso
      push Not at hex
      have : cellOccupancy cs rows cols r c = none := by
        unfold cellOccupancy
        rw [h1]
        exact occFold_none rows cols _ _ r c fun x hx => by
          rcases List.mem_append.1 hx with hx | hx
          · exact hex x hx
          · exact hrest x hx
      rw [this] at h; cases h
  · rintro ⟨ch, s, hm, rfl, hcov⟩
    exact key ch s hm hcov

example : cellOccupancy [exChild 7 1 2, exChild 8 2 2, exChild 9 1 1] 3 3 1 2 = some 8 ∧
    cellOccupancy [exChild 7 1 2, exChild 8 2 2, exChild 9 1 1] 3 3 1 1 = none := by decide +kernel

/-- C47: the keyline positions are the starts of the tracks and one closing line inside the region. -/
theorem linePositions_spec (specs : List Scalar) (count : Nat) (available gutter : Int) (hc : 0 < count)
    (hfill : (distributeSpace specs count available gutter).sum + ((count : Int) - 1) * gutter = available) :
    ∃ last, (resolveTracks specs count available gutter)[count - 1]? = some last ∧
      linePositions (resolveTracks specs count available gutter) available =
        (resolveTracks specs count available gutter).map (·.offset) ++ [last.offset + last.size - 1] := by
  have hlen := distributeSpace_length specs count available gutter
  have hl2 := (resolveTracks_chain specs count available gutter).1
  obtain ⟨n, hn⟩ : ∃ n, (distributeSpace specs count available gutter)[count - 1]? = some n :=
    ⟨_, List.getElem?_eq_getElem (by omega)⟩
  refine ⟨⟨((distributeSpace specs count available gutter).take (count - 1)).sum + ((count - 1 : Nat) : Int) * gutter, n⟩,
    ?_, ?_⟩
  · unfold resolveTracks
    rw [layTracks_get, hn]; simp
  · have hlast : (resolveTracks specs count available gutter).getLast? =
        some ⟨((distributeSpace specs count available gutter).take (count - 1)).sum + ((count - 1 : Nat) : Int) * gutter, n⟩ := by
      rw [List.getLast?_eq_getElem?, hl2]
      unfold resolveTracks
      rw [layTracks_get, hn]; simp
    unfold linePositions
    rw [hlast]
    have hsum : (distributeSpace specs count available gutter).sum =
        ((distributeSpace specs count available gutter).take (count - 1)).sum + n := by
      have h1 : (distributeSpace specs count available gutter).take (count - 1 + 1) =
          distributeSpace specs count available gutter := List.take_of_length_le (by omega)
      conv_lhs => rw [← h1, List.take_succ, hn]
      simp
    have hcast : ((count - 1 : Nat) : Int) = (count : Int) - 1 := by omega
    simp only [hcast] at *
    have : ((distributeSpace specs count available gutter).take (count - 1)).sum + ((count : Int) - 1) * gutter + n =
        available := by linarith
    rw [this]
    simp

/-! ### Content sized tracks -/

theorem contentFold_ge (at' span : Spot → Nat) (d : LChild → Nat) (j : Nat) (l : List (LChild × Spot)) (m : Int) :
    m ≤ l.foldl (fun (m : Int) ca => if ca.2.rowSpan = 0 ∨ ca.2.colSpan = 0 then m
      else if span ca.2 = 1 ∧ at' ca.2 = j then max m (d ca.1) else m) m ∧
    ∀ c s, (c, s) ∈ l → s.rowSpan ≠ 0 → s.colSpan ≠ 0 → span s = 1 → at' s = j →
      (d c : Int) ≤ l.foldl (fun (m : Int) ca => if ca.2.rowSpan = 0 ∨ ca.2.colSpan = 0 then m
        else if span ca.2 = 1 ∧ at' ca.2 = j then max m (d ca.1) else m) m := by
  induction l generalizing m with
  | nil => simp
  | cons x l ih =>
    simp only [List.foldl_cons]
    refine ⟨?_, ?_⟩
    · refine le_trans ?_ (ih _).1
      split
      · exact le_refl _
      · split
        · exact le_max_left _ _
        · exact le_refl _
    · intro c s hm h1 h2 h3 h4
      rcases List.mem_cons.1 hm with rfl | hm
      · refine le_trans ?_ (ih _).1
        simp [h1, h2, h3, h4]
      · exact (ih _).2 c s hm h1 h2 h3 h4

theorem contentFold_le (at' span : Spot → Nat) (d : LChild → Nat) (j : Nat) (l : List (LChild × Spot)) (m B : Int)
    (hm : m ≤ B) (h : ∀ c s, (c, s) ∈ l → s.rowSpan ≠ 0 → s.colSpan ≠ 0 → span s = 1 → at' s = j → (d c : Int) ≤ B) :
    l.foldl (fun (m : Int) ca => if ca.2.rowSpan = 0 ∨ ca.2.colSpan = 0 then m
        else if span ca.2 = 1 ∧ at' ca.2 = j then max m (d ca.1) else m) m ≤ B := by
  induction l generalizing m with
  | nil => simpa using hm
  | cons x l ih =>
    simp only [List.foldl_cons]
    apply ih
    · split
      · exact hm
      · rename_i hz
        split
        · rename_i hs
          exact max_le hm (h x.1 x.2 (by simp) (by omega) (by omega) hs.1 hs.2)
        · exact hm
    · intro c s hcs; exact h c s (by simp [hcs])

/-- C25: in a grid of automatic width whose content fits, every column is as wide as the widest of the children
placed in it alone, and at least one cell. -/
theorem content_columns_partial (p : Parent) (cs : List LChild) (rows cols : Nat) (available gutter : Int)
    (hauto : p.grid.columnWidths = [] ∧ p.autoWidth = true)
    (hfit : ((List.range cols).map (contentSize Spot.col Spot.colSpan LChild.desiredWidth cs
      (cellAssignments cs rows cols))).sum + ((cols : Int) - 1) * gutter ≤ available)
    (j : Nat) (t : Track) (ht : (columnTracks p cs rows cols available gutter)[j]? = some t) :
    (∀ c s, (c, s) ∈ placed rows cols cs → s.col = j → s.colSpan = 1 → (c.desiredWidth : Int) ≤ t.size) ∧
    (t.size = 1 ∨ ∃ c s, (c, s) ∈ placed rows cols cs ∧ s.col = j ∧ s.colSpan = 1 ∧ (c.desiredWidth : Int) = t.size) := by
  obtain ⟨rest, h1, h2⟩ := zip_assign rows cols cs
  have hj : j < cols := by
    have := (List.getElem?_eq_some_iff.1 ht).1
    rwa [(columnTracks_chained p cs rows cols available gutter).2] at this
  have hcast : ((cols - 1 : Nat) : Int) = (cols : Int) - 1 := by omega
  unfold columnTracks at ht
  rw [if_pos (by simp [hauto])] at ht
  unfold resolveTracksWithContent at ht
  rw [if_pos (by simp [hauto]; omega)] at ht
  simp only [hcast] at ht
  rw [if_pos (by linarith), layTracks_get] at ht
  obtain ⟨n, hn, rfl⟩ := Option.map_eq_some_iff.1 ht
  simp only [List.getElem?_map, List.getElem?_range hj, Option.map_some, Option.some.injEq] at hn
  simp only
  subst hn
  have hfold := contentFold_ge Spot.col Spot.colSpan LChild.desiredWidth j (cs.zip (cellAssignments cs rows cols)) 0
  refine ⟨?_, ?_⟩
  · intro c s hm hc hs
    obtain ⟨k, hk⟩ := List.getElem?_of_mem hm
    have hin := placed_inside rows cols cs k c s hk
    refine le_trans ?_ (le_max_left _ _)
    exact hfold.2 c s (by rw [h1]; exact List.mem_append_left _ hm) (by omega) (by omega) hs hc
  · by_contra hno
    push Not at hno
    have hgt : 1 < contentSize Spot.col Spot.colSpan LChild.desiredWidth cs (cellAssignments cs rows cols) j := by
      have := hno.1; omega
    have hmax : max (contentSize Spot.col Spot.colSpan LChild.desiredWidth cs (cellAssignments cs rows cols) j) 1 =
        contentSize Spot.col Spot.colSpan LChild.desiredWidth cs (cellAssignments cs rows cols) j := by omega
    rw [hmax] at hno
    have hle := contentFold_le Spot.col Spot.colSpan LChild.desiredWidth j (cs.zip (cellAssignments cs rows cols)) 0
      (contentSize Spot.col Spot.colSpan LChild.desiredWidth cs (cellAssignments cs rows cols) j - 1) (by omega) ?_
    · have e : contentSize Spot.col Spot.colSpan LChild.desiredWidth cs (cellAssignments cs rows cols) j ≤
          contentSize Spot.col Spot.colSpan LChild.desiredWidth cs (cellAssignments cs rows cols) j - 1 := hle
      omega
    · intro c s hm hr hc hs hcol
      rw [h1] at hm
      rcases List.mem_append.1 hm with hm' | hm'
      · have h3 := hno.2 c s hm' hcol hs
        have h4 : (c.desiredWidth : Int) ≤
            contentSize Spot.col Spot.colSpan LChild.desiredWidth cs (cellAssignments cs rows cols) j :=
          hfold.2 c s (by rw [h1]; exact hm) hr hc hs hcol
        omega
      · have := h2 _ hm'
        simp only at this
        rw [this] at hr; simp at hr

example : (columnTracks { grid := { columns := some 2 }, autoWidth := true }
    [⟨0, {}, 12, 1, fun _ => 1⟩, ⟨1, {}, 3, 1, fun _ => 1⟩, ⟨2, {}, 7, 1, fun _ => 1⟩] 2 2 80 1) =
    [⟨0, 12⟩, ⟨13, 3⟩] := by decide +kernel

end Textual.Layout.Grid
