import Mathlib.Tactic.Common
import Mathlib.Tactic.Linarith
import Mathlib.Tactic.FieldSimp
import Mathlib.Tactic.Positivity
import Mathlib.Tactic.Ring
import Mathlib.Tactic.Push
import Verif.Model.Vertical
import Verif.Spec.Layout

/-! C22, C23, C43, C44: the vertical layout. -/

namespace Textual.Layout.Vertical

theorem topMargins_length (prev : Option Rat) (cs : List LChild) : (topMargins prev cs).length = cs.length := by
  induction cs generalizing prev with
  | nil => rfl
  | cons c cs ih => simp [topMargins, ih]

theorem place_index (a : Region) (vp : Viewport) (u : Rat) (cs : List LChild) (tms : List Rat) (y : Rat)
    (h : tms.length = cs.length) : (place a vp u y cs tms).map (·.childIndex) = cs.map (·.index) := by
  induction cs generalizing tms y with
  | nil => simp [place]
  | cons c cs ih =>
    obtain ⟨t, tms, rfl⟩ := List.exists_cons_of_length_eq_add_one h
    simp only [place, List.map_cons]
    rw [ih _ _ (by simpa using h)]

/-- C23: one placement per child, in order. -/
theorem arrange_index (cs : List LChild) (available : Region) (vp : Viewport) :
    (arrange cs available vp).map (·.childIndex) = cs.map (·.index) :=
  place_index _ _ _ _ _ _ (topMargins_length none cs)

/-- C23: heights are not negative. -/
theorem arrange_height_nonneg (cs : List LChild) (available : Region) (vp : Viewport) :
    ∀ p ∈ arrange cs available vp, 0 ≤ p.region.height := by
  have : ∀ (tms : List Rat) (y : Rat), ∀ p ∈ place available vp (fractionUnit cs available vp) y cs tms,
      0 ≤ p.region.height := by
    generalize fractionUnit cs available vp = u
    induction cs with
    | nil => intro tms y p hp; simp [place] at hp
    | cons c cs ih =>
      intro tms y p hp
      cases tms with
      | nil => simp [place] at hp
      | cons t tms =>
        simp only [place, List.mem_cons] at hp
        rcases hp with rfl | hp
        · simp
        · exact ih _ _ p hp
  exact this _ _

theorem toI32_nonneg {q : Rat} (h : 0 ≤ q) : 0 ≤ toI32 q := by
  unfold toI32
  rw [if_pos h]
  have := Int.floor_nonneg.2 h
  omega

theorem percentOf_nonneg {v : Rat} {b : Int} (hv : 0 ≤ v) (hb : 0 ≤ b) : 0 ≤ percentOf v b := by
  unfold percentOf
  have : (0 : Rat) ≤ b := by exact_mod_cast hb
  positivity

theorem chrome_nonneg {c : LChild} (h : NonNegHeight c) : 0 ≤ verticalChrome c.style := by
  have h1 := toI32_nonneg h.2.2.1
  have h2 := toI32_nonneg h.2.2.2
  unfold verticalChrome
  split <;> split <;> omega

theorem fractionUnit_pos (cs : List LChild) (a : Region) (vp : Viewport) : 0 < fractionUnit cs a vp := by
  unfold fractionUnit
  simp only
  split
  · rename_i h; exact div_pos h.2 h.1
  · exact one_pos

theorem boxHeight_nonneg {c : LChild} {a : Region} {vp : Viewport} {u : Rat} (h : NonNegHeight c)
    (ha : 0 ≤ a.width ∧ 0 ≤ a.height) (hv : 0 ≤ vp.width ∧ 0 ≤ vp.height) (hu : 0 ≤ u) :
    0 ≤ boxHeight c a vp u := by
  have h0 : 0 ≤ boxHeight0 c a vp u := by
    unfold boxHeight0
    cases hh : c.style.height with
    | none => simp only; split <;> positivity
    | some s =>
      have hs := h.1 s hh
      have hch := chrome_nonneg h
      have hcells : (0 : Rat) ≤ applyBoxSizingHeight (toI32 s.value) c.style := by
        have := toI32_nonneg hs
        have : 0 ≤ applyBoxSizingHeight (toI32 s.value) c.style := by
          unfold applyBoxSizingHeight; split <;> omega
        exact_mod_cast this
      obtain ⟨v, u'⟩ := s
      cases u' <;> simp only
      · exact hcells
      · exact percentOf_nonneg hs ha.2
      · exact percentOf_nonneg hs hv.1
      · exact percentOf_nonneg hs ha.2
      · exact percentOf_nonneg hs hv.1
      · exact percentOf_nonneg hs hv.2
      · exact mul_nonneg hs hu
      · positivity
  have hmax : ∀ m, c.style.maxHeight = some m → 0 ≤ constraintValue m a.height a vp := by
    intro m hm
    have hm := h.2.1 m hm
    obtain ⟨v, u'⟩ := m
    unfold constraintValue
    cases u' <;> simp only
    · exact hm
    · exact percentOf_nonneg hm ha.2
    · exact percentOf_nonneg hm ha.1
    · exact percentOf_nonneg hm ha.2
    · exact percentOf_nonneg hm hv.1
    · exact percentOf_nonneg hm hv.2
    · exact hm
    · exact hm
  unfold boxHeight
  simp only
  split
  · exact le_max_right _ _
  · cases hm : c.style.maxHeight with
    | none =>
      cases hn : c.style.minHeight with
      | none => exact h0
      | some n => exact le_trans h0 (le_max_left _ _)
    | some m =>
      have := le_min h0 (hmax m hm)
      cases hn : c.style.minHeight with
      | none => exact this
      | some n => exact le_trans this (le_max_left _ _)

theorem place_next (a : Region) (vp : Viewport) (u : Rat) (cs : List LChild) (prev : Option Rat) (y : Rat)
    (i : Nat) (c d : LChild) (p q : Placement) (hc : cs[i]? = some c) (hd : cs[i + 1]? = some d)
    (hp : (place a vp u y cs (topMargins prev cs))[i]? = some p)
    (hq : (place a vp u y cs (topMargins prev cs))[i + 1]? = some q) :
    ∃ e : Rat, p.region.y = ⌊e⌋ ∧ p.region.height = max (⌊e + boxHeight c a vp u⌋ - ⌊e⌋) 0 ∧
      q.region.y = ⌊e + boxHeight c a vp u + max (mb c) (mt d)⌋ := by
  induction cs generalizing prev y i with
  | nil => simp at hc
  | cons c' cs ih =>
    simp only [topMargins, place] at hp hq
    cases i with
    | succ i => exact ih _ _ i (by simpa using hc) (by simpa using hd) (by simpa using hp) (by simpa using hq)
    | zero =>
      simp at hc hd hp
      subst hc hp
      cases cs with
      | nil => simp at hd
      | cons d' cs =>
        simp at hd; subst hd
        simp [topMargins, place] at hq
        subst hq
        refine ⟨_, rfl, rfl, ?_⟩
        simp only [mb, mt]
        congr 1
        rcases le_total (c'.style.margin.bottom.value) (d'.style.margin.top.value) with h | h
        · rw [max_eq_right h, max_eq_left (by linarith)]; ring
        · rw [max_eq_left h, max_eq_right (by linarith)]; ring

/-- C23: with margins that are not negative, each child ends at or before the start of the next one. -/
theorem arrange_next_le (cs : List LChild) (available : Region) (vp : Viewport)
    (ha : 0 ≤ available.width ∧ 0 ≤ available.height) (hv : 0 ≤ vp.width ∧ 0 ≤ vp.height) (i : Nat) (c d : LChild)
    (p q : Placement) (hn : NonNegHeight c) (hm : 0 ≤ mt d) (hc : cs[i]? = some c) (hd : cs[i + 1]? = some d)
    (hp : (arrange cs available vp)[i]? = some p) (hq : (arrange cs available vp)[i + 1]? = some q) :
    p.region.y + p.region.height ≤ q.region.y := by
  obtain ⟨e, h1, h2, h3⟩ := place_next _ _ _ _ _ _ i c d p q hc hd hp hq
  have hb := boxHeight_nonneg hn ha hv (fractionUnit_pos cs available vp).le
  rw [h1, h2, h3]
  have l1 : ⌊e⌋ ≤ ⌊e + boxHeight c available vp (fractionUnit cs available vp)⌋ := Int.floor_le_floor (by linarith)
  have l2 : ⌊e + boxHeight c available vp (fractionUnit cs available vp)⌋ ≤
      ⌊e + boxHeight c available vp (fractionUnit cs available vp) + max (mb c) (mt d)⌋ :=
    Int.floor_le_floor (by have := le_max_right (mb c) (mt d); linarith)
  omega

/-- C23: children never overlap. -/
theorem arrange_disjoint (cs : List LChild) (available : Region) (vp : Viewport)
    (ha : 0 ≤ available.width ∧ 0 ≤ available.height) (hv : 0 ≤ vp.width ∧ 0 ≤ vp.height)
    (hn : ∀ c ∈ cs, NonNegHeight c) (hm : ∀ c ∈ cs, 0 ≤ mt c) :
    ∀ (i j : Nat) (p q : Placement), i < j → (arrange cs available vp)[i]? = some p →
      (arrange cs available vp)[j]? = some q → p.region.y + p.region.height ≤ q.region.y := by
  intro i j p q hij hp hq
  induction j generalizing q with
  | zero => omega
  | succ j ih =>
    have hlen : (arrange cs available vp).length = cs.length := by
      have := congrArg List.length (arrange_index cs available vp); simpa using this
    have hj := (List.getElem?_eq_some_iff.1 hq).1
    obtain ⟨r, hr⟩ : ∃ r, (arrange cs available vp)[j]? = some r := ⟨_, List.getElem?_eq_getElem (by omega)⟩
    obtain ⟨c, hc⟩ : ∃ c, cs[j]? = some c := ⟨_, List.getElem?_eq_getElem (by omega)⟩
    obtain ⟨d, hd⟩ : ∃ c, cs[j + 1]? = some c := ⟨_, List.getElem?_eq_getElem (by omega)⟩
    have g := arrange_next_le cs available vp ha hv j c d r q (hn c (List.mem_of_getElem? hc))
      (hm d (List.mem_of_getElem? hd)) hc hd hr hq
    by_cases h : i = j
    · subst h; rw [hp] at hr; cases hr; omega
    · have := ih r (by omega) hr
      have := arrange_height_nonneg cs available vp r (List.mem_of_getElem? hr)
      omega

/-- C22, C23 for columns: with whole-cell margins the gap between neighbours is exactly the larger of the two
facing margins, although the positions are rounded. -/
theorem arrange_gap (cs : List LChild) (available : Region) (vp : Viewport)
    (ha : 0 ≤ available.width ∧ 0 ≤ available.height) (hv : 0 ≤ vp.width ∧ 0 ≤ vp.height) (i : Nat) (c d : LChild)
    (p q : Placement) (hn : NonNegHeight c) (b t : Int) (hb : mb c = b) (ht : mt d = t) (hc : cs[i]? = some c)
    (hd : cs[i + 1]? = some d)
    (hp : (arrange cs available vp)[i]? = some p) (hq : (arrange cs available vp)[i + 1]? = some q) :
    q.region.y = p.region.y + p.region.height + max b t := by
  obtain ⟨e, h1, h2, h3⟩ := place_next _ _ _ _ _ _ i c d p q hc hd hp hq
  have hbox := boxHeight_nonneg hn ha hv (fractionUnit_pos cs available vp).le
  rw [h1, h2, h3, hb, ht]
  have l1 : ⌊e⌋ ≤ ⌊e + boxHeight c available vp (fractionUnit cs available vp)⌋ := Int.floor_le_floor (by linarith)
  have e2 : max (b : Rat) (t : Rat) = ((max b t : Int) : Rat) := by push_cast; rfl
  rw [e2, Int.floor_add_intCast]
  omega

/-- The first child of a column starts after its top margin. -/
theorem arrange_first (c : LChild) (cs : List LChild) (available : Region) (vp : Viewport) :
    ∃ p ps, arrange (c :: cs) available vp = p :: ps ∧ p.region.y = ⌊available.y + mt c⌋ :=
  ⟨_, _, rfl, rfl⟩

/-! ### Filling -/

theorem topMargins_some_sum (c : LChild) (cs : List LChild) :
    (topMargins (some (mb c)) cs).sum + (cs.map mb).sum + mb c = marginSpace.go mt mb c cs := by
  induction cs generalizing c with
  | nil => simp [topMargins, marginSpace.go]
  | cons d cs ih =>
    have := ih d
    simp only [topMargins, marginSpace.go, List.sum_cons, List.map_cons]
    show max (mt d - mb c) 0 + (topMargins (some (mb d)) cs).sum + (mb d + (cs.map mb).sum) + mb c = _
    rw [← this]
    rcases le_total (mb c) (mt d) with h | h
    · rw [max_eq_right h, max_eq_left (by linarith)]; ring
    · rw [max_eq_left h, max_eq_right (by linarith)]; ring

theorem totalMargin_eq (cs : List LChild) : totalMargin cs = marginSpace mt mb cs := by
  cases cs with
  | nil => simp [totalMargin, topMargins, marginSpace]
  | cons c cs =>
    have := topMargins_some_sum c cs
    simp only [totalMargin, topMargins, marginSpace, List.sum_cons, List.map_cons]
    show mt c + (topMargins (some (mb c)) cs).sum + (mb c + (cs.map mb).sum) = _
    linarith

theorem place_last (a : Region) (vp : Viewport) (u : Rat) (cs : List LChild) (tms : List Rat) (y : Rat)
    (h : tms.length = cs.length) (hb : ∀ c ∈ cs, 0 ≤ boxHeight c a vp u) (c : LChild) (p : Placement)
    (hc : cs.getLast? = some c) (hp : (place a vp u y cs tms).getLast? = some p) :
    p.region.y + p.region.height =
      ⌊y + tms.sum + (cs.map (fun c => boxHeight c a vp u)).sum + (cs.map mb).sum - mb c⌋ := by
  induction cs generalizing tms y with
  | nil => simp at hc
  | cons d cs ih =>
    obtain ⟨t, tms, rfl⟩ := List.exists_cons_of_length_eq_add_one h
    have hl : tms.length = cs.length := by simpa using h
    cases cs with
    | nil =>
      simp at hc; subst hc
      cases tms with
      | cons => simp at hl
      | nil =>
        simp [place] at hp; subst hp
        have := hb d (by simp)
        have l1 : ⌊y + t⌋ ≤ ⌊y + t + boxHeight d a vp u⌋ := Int.floor_le_floor (by linarith)
        simp only [List.sum_cons, List.sum_nil, List.map_cons, List.map_nil, add_zero, mb, add_sub_cancel_right]
        omega
    | cons e cs =>
      obtain ⟨t', tms, rfl⟩ := List.exists_cons_of_length_eq_add_one hl
      have := ih (t' :: tms) (y + t + boxHeight d a vp u + d.style.margin.bottom.value) hl
        (fun c hc => hb c (by simp [hc])) (by simpa using hc) (by
          simp only [place] at hp ⊢
          rw [List.getLast?_cons_cons] at hp; exact hp)
      rw [this]
      congr 1
      simp only [List.sum_cons, List.map_cons, mb]
      ring

theorem frWeight_eq (c : LChild) : frWeight c = columnWeight c := by
  unfold frWeight columnWeight
  rcases h : c.style.height with _ | ⟨v, u⟩
  · simp
  · cases u <;> simp

theorem fixedHeight_eq (c : LChild) (a : Region) (vp : Viewport) (h : vp.height = a.height) :
    fixedHeight c a vp = columnExact a vp c := by
  unfold fixedHeight columnExact
  rcases hh : c.style.height with _ | ⟨v, u⟩
  · simp
  · cases u <;> simp [percentOf, h]
    unfold applyBoxSizingHeight
    split <;> simp

theorem boxHeight_eq (c : LChild) (a : Region) (vp : Viewport) (u : Rat) (h : vp.height = a.height)
    (hu : 0 ≤ u) (hn : NonNegHeight c) (ha : 0 ≤ a.height) (hf : FreeHeight c)
    (hs : Stretched c → mt c = 0 ∧ mb c = 0) :
    boxHeight c a vp u = columnExact a vp c + columnWeight c * u := by
  have h0 : boxHeight0 c a vp u = columnExact a vp c + columnWeight c * u := by
    unfold boxHeight0 columnExact columnWeight
    rcases hh : c.style.height with _ | ⟨v, u'⟩
    · simp only; split <;> simp
    · cases u' <;> simp [percentOf]
      unfold applyBoxSizingHeight
      split <;> simp
  unfold boxHeight
  simp only [hf.1, hf.2]
  split
  · rename_i hr
    have hst : Stretched c := by
      unfold reduceByMargins at hr
      unfold Stretched
      rcases hh : c.style.height with _ | ⟨v, u'⟩
      · rw [hh] at hr; simpa using hr
      · rw [hh] at hr; cases u' <;> simp_all
    obtain ⟨m1, m2⟩ := hs hst
    unfold mt at m1
    unfold mb at m2
    rw [m1, m2, sub_zero, sub_zero, max_eq_left, h0]
    rw [h0]
    unfold Stretched at hst
    unfold columnExact columnWeight
    rcases hh : c.style.height with _ | ⟨v, u'⟩
    · rw [hh] at hst; simp only at hst ⊢; rw [if_pos hst, if_pos hst]; linarith
    · have hv := hn.1 _ hh
      rw [hh] at hst
      have : (0 : Rat) ≤ a.height := by exact_mod_cast ha
      simp only at hv
      cases u' <;> simp at hst ⊢
      · positivity
      · positivity
      · exact mul_nonneg hv hu
  · exact h0

theorem sum_map_add {α : Type} (l : List α) (f g : α → Rat) :
    (l.map (fun x => f x + g x)).sum = (l.map f).sum + (l.map g).sum := by
  induction l with
  | nil => simp
  | cons a l ih => simp only [List.map_cons, List.sum_cons, ih]; ring

theorem sum_map_mul {α : Type} (l : List α) (f : α → Rat) (u : Rat) :
    (l.map (fun x => f x * u)).sum = (l.map f).sum * u := by
  induction l with
  | nil => simp
  | cons a l ih => simp only [List.map_cons, List.sum_cons, ih]; ring

/-- C44: in a container as high as the screen, if the fixed heights and margins leave some space and stretched
children have no vertical margins, `fr` children fill the column exactly: the last child and its margin end at
the bottom of the container. -/
theorem arrange_fills_partial (cs : List LChild) (available : Region) (vp : Viewport)
    (hvp : vp.height = available.height) (ha : 0 ≤ available.width ∧ 0 ≤ available.height)
    (hv : 0 ≤ vp.width) (hn : ∀ c ∈ cs, NonNegHeight c) (hf : ∀ c ∈ cs, FreeHeight c)
    (hs : ∀ c ∈ cs, Stretched c → mt c = 0 ∧ mb c = 0) (hw : 0 < (cs.map columnWeight).sum)
    (hfree : (cs.map (columnExact available vp)).sum + marginSpace mt mb cs < available.height)
    (c : LChild) (p : Placement) (hc : cs.getLast? = some c) (hp : (arrange cs available vp).getLast? = some p) :
    p.region.y + p.region.height = ⌊available.y + available.height - mb c⌋ := by
  have hu := fractionUnit_pos cs available vp
  have hbn : ∀ d ∈ cs, 0 ≤ boxHeight d available vp (fractionUnit cs available vp) := fun d hd =>
    boxHeight_nonneg (hn d hd) ha ⟨hv, by omega⟩ hu.le
  rw [place_last available vp (fractionUnit cs available vp) cs (topMargins none cs) available.y
    (topMargins_length none cs) hbn c p hc hp]
  congr 1
  have e1 : cs.map (fun c => boxHeight c available vp (fractionUnit cs available vp)) =
      cs.map (fun c => columnExact available vp c + columnWeight c * fractionUnit cs available vp) := by
    apply List.map_congr_left
    intro d hd
    exact boxHeight_eq d available vp _ hvp hu.le (hn d hd) ha.2 (hf d hd) (hs d hd)
  rw [e1, sum_map_add, sum_map_mul]
  have e2 : (cs.map (fun c => fixedHeight c available vp)).sum = (cs.map (columnExact available vp)).sum := by
    congr 1
    apply List.map_congr_left
    intro d _
    exact fixedHeight_eq d available vp hvp
  have e3 : (cs.map frWeight).sum = (cs.map columnWeight).sum := by
    congr 1; apply List.map_congr_left; intro d _; exact frWeight_eq d
  have hR : remainingForFr cs available vp =
      available.height - (cs.map (columnExact available vp)).sum - marginSpace mt mb cs := by
    rw [remainingForFr, e2, totalMargin_eq, hvp, max_eq_left]; linarith
  have e4 : (cs.map columnWeight).sum * fractionUnit cs available vp =
      available.height - (cs.map (columnExact available vp)).sum - marginSpace mt mb cs := by
    unfold fractionUnit
    simp only
    rw [e3, hR, if_pos ⟨hw, by linarith⟩]
    field_simp
  have e5 : marginSpace mt mb cs = (topMargins none cs).sum + (cs.map mb).sum := by
    rw [← totalMargin_eq]; rfl
  show (available.y : Rat) + (topMargins none cs).sum + ((cs.map (fun c => columnExact available vp c)).sum +
    (cs.map (fun c => columnWeight c)).sum * fractionUnit cs available vp) + (cs.map mb).sum - mb c = _
  have e6 : (cs.map (fun c => columnWeight c)).sum * fractionUnit cs available vp = _ := e4
  rw [e6]
  have e7 : (cs.map (fun c => columnExact available vp c)).sum = (cs.map (columnExact available vp)).sum := rfl
  rw [e7]
  linarith

/-! ### Constraints -/

theorem place_at (a : Region) (vp : Viewport) (u : Rat) (cs : List LChild) (tms : List Rat) (y : Rat)
    (i : Nat) (c : LChild) (p : Placement) (hc : cs[i]? = some c) (hp : (place a vp u y cs tms)[i]? = some p) :
    ∃ e : Rat, p.region.height = max (⌊e + boxHeight c a vp u⌋ - ⌊e⌋) 0 ∧ p.region.width = childWidth c a vp := by
  induction cs generalizing tms y i with
  | nil => simp at hc
  | cons c' cs ih =>
    cases tms with
    | nil => simp [place] at hp
    | cons t tms =>
      cases i with
      | zero =>
        simp [place] at hc hp
        subst hc hp
        exact ⟨_, rfl, rfl⟩
      | succ i => exact ih tms _ i (by simpa using hc) (by simpa [place] using hp)

/-- C43 for columns: the width is never below `min-width`. -/
theorem arrange_minWidth (cs : List LChild) (available : Region) (vp : Viewport) (i : Nat) (c : LChild)
    (p : Placement) (m : Scalar) (hc : cs[i]? = some c) (hp : (arrange cs available vp)[i]? = some p)
    (hm : c.style.minWidth = some m) :
    toI32 (constraintValue m available.width available vp) ≤ p.region.width := by
  obtain ⟨e, -, hw⟩ := place_at _ _ _ _ _ _ i c p hc hp
  rw [hw, childWidth, hm]
  simp only [constrain]
  omega

/-- C43 for columns: the width is never above `max-width`, unless `min-width` is larger. -/
theorem arrange_maxWidth (cs : List LChild) (available : Region) (vp : Viewport) (i : Nat) (c : LChild)
    (p : Placement) (m : Scalar) (hc : cs[i]? = some c) (hp : (arrange cs available vp)[i]? = some p)
    (hm : c.style.maxWidth = some m)
    (hmin : ∀ n, c.style.minWidth = some n → toI32 (constraintValue n available.width available vp) ≤
      toI32 (constraintValue m available.width available vp)) :
    p.region.width ≤ toI32 (constraintValue m available.width available vp) := by
  obtain ⟨e, -, hw⟩ := place_at _ _ _ _ _ _ i c p hc hp
  rw [hw, childWidth, hm]
  simp only [constrain]
  cases hn : c.style.minWidth with
  | none => simp only; omega
  | some n => have := hmin n hn; simp only; omega

theorem not_reduced {c : LChild} (h : ¬ Stretched c) : reduceByMargins c = false := by
  unfold Stretched at h
  unfold reduceByMargins
  rcases hh : c.style.height with _ | ⟨v, u⟩
  · rw [hh] at h; simpa using h
  · rw [hh] at h; cases u <;> simp_all

/-- C43 for columns, children whose height is not a percentage or `fr`: the height is at least the whole part
of `min-height`. -/
theorem arrange_minHeight_partial (cs : List LChild) (available : Region) (vp : Viewport) (i : Nat) (c : LChild)
    (p : Placement) (m : Scalar) (hc : cs[i]? = some c) (hp : (arrange cs available vp)[i]? = some p)
    (hm : c.style.minHeight = some m) (hs : ¬ Stretched c) :
    ⌊constraintValue m available.height available vp⌋ ≤ p.region.height := by
  obtain ⟨e, hh, -⟩ := place_at _ _ _ _ _ _ i c p hc hp
  rw [hh]
  have hb : constraintValue m available.height available vp ≤
      boxHeight c available vp (fractionUnit cs available vp) := by
    unfold boxHeight
    simp only [hm, not_reduced hs]
    exact le_max_right _ _
  have h1 : ⌊e⌋ + ⌊constraintValue m available.height available vp⌋ ≤
      ⌊e + boxHeight c available vp (fractionUnit cs available vp)⌋ := by
    rw [Int.le_floor]
    push_cast
    have := Int.floor_le e
    have := Int.floor_le (constraintValue m available.height available vp)
    linarith
  omega

/-- C43 for columns: the height is at most `max-height` rounded up, unless `min-height` is larger. -/
theorem arrange_maxHeight (cs : List LChild) (available : Region) (vp : Viewport) (i : Nat) (c : LChild)
    (p : Placement) (m : Scalar) (hc : cs[i]? = some c) (hp : (arrange cs available vp)[i]? = some p)
    (hm : c.style.maxHeight = some m) (h0 : 0 ≤ constraintValue m available.height available vp)
    (hmin : ∀ n, c.style.minHeight = some n → constraintValue n available.height available vp ≤
      constraintValue m available.height available vp)
    (hmt : 0 ≤ mt c) (hmb : 0 ≤ mb c) :
    p.region.height ≤ ⌈constraintValue m available.height available vp⌉ := by
  obtain ⟨e, hh, -⟩ := place_at _ _ _ _ _ _ i c p hc hp
  rw [hh]
  have hb : boxHeight c available vp (fractionUnit cs available vp) ≤
      constraintValue m available.height available vp := by
    unfold boxHeight
    simp only [hm]
    unfold mt at hmt
    unfold mb at hmb
    have h1 : min (boxHeight0 c available vp (fractionUnit cs available vp))
      (constraintValue m available.height available vp) ≤ constraintValue m available.height available vp :=
      min_le_right _ _
    cases hn : c.style.minHeight with
    | none =>
      simp only
      split
      · apply max_le _ h0; linarith
      · exact h1
    | some n =>
      have h2 := max_le h1 (hmin n hn)
      simp only
      split
      · apply max_le _ h0; linarith
      · exact h2
  have h1 : ⌊e + boxHeight c available vp (fractionUnit cs available vp)⌋ ≤
      ⌊e⌋ + ⌈constraintValue m available.height available vp⌉ := by
    have hc := Int.le_ceil (constraintValue m available.height available vp)
    rw [← Int.floor_add_intCast]
    exact Int.floor_le_floor (by linarith)
  have h2 : 0 ≤ ⌈constraintValue m available.height available vp⌉ := Int.ceil_nonneg h0
  omega

/-! ### Examples and failures -/

/-- A child of a column with the given height, top and bottom margin. -/
def exChild (i : Nat) (h : Option Scalar) (t b : Rat) : LChild where
  index := i
  style := { height := h, margin := ⟨⟨t, .cells⟩, ⟨0, .cells⟩, ⟨b, .cells⟩, ⟨0, .cells⟩⟩ }
  desiredWidth := 10
  desiredHeight := 3
  intrinsicHeight := fun _ => 3

/-- Five children: `1fr`, 4 cells with margins, no height, `1fr`, `1fr`. -/
def exColumn : List LChild :=
  [exChild 0 (some ⟨1, .fraction⟩) 0 0, exChild 1 (some ⟨4, .cells⟩) 1 2, exChild 2 none 1 1,
    exChild 3 (some ⟨1, .fraction⟩) 0 0, exChild 4 (some ⟨1, .fraction⟩) 0 0]

example : (arrange exColumn ⟨0, 2, 80, 24⟩ ⟨80, 24⟩).map (fun p => (p.region.y, p.region.height)) =
    [(2, 4), (7, 4), (13, 3), (17, 4), (21, 5)] := by decide +kernel
example : 0 < (exColumn.map columnWeight).sum ∧
    (exColumn.map (columnExact ⟨0, 2, 80, 24⟩ ⟨80, 24⟩)).sum + marginSpace mt mb exColumn < 24 := by
  decide +kernel
example : ∀ c ∈ exColumn, NonNegHeight c ∧ FreeHeight c ∧ 0 ≤ mt c ∧ (Stretched c → mt c = 0 ∧ mb c = 0) := by
  intro c hc
  simp [exColumn] at hc
  rcases hc with rfl | rfl | rfl | rfl | rfl
  all_goals
    refine ⟨⟨?_, ?_, by decide +kernel, by decide +kernel⟩, ⟨rfl, rfl⟩, by decide +kernel, ?_⟩
    · intro h hh; simp [exChild] at hh <;> subst hh <;> decide +kernel
    · intro m hm; simp [exChild] at hm
    · simp [Stretched, exChild, mt, mb, fill]

/-- C44 fails for stretched children with margins: the margins are subtracted twice (vertical.rs:165-166 and
261-269), a `1fr` child with margins 1 in 10 rows gets 6 rows instead of 8. -/
theorem fills_margin_counterexample :
    (arrange [exChild 0 (some ⟨1, .fraction⟩) 1 1] ⟨0, 0, 80, 10⟩ ⟨80, 10⟩).map
      (fun p => (p.region.y, p.region.height)) = [(1, 6)] := by decide +kernel

/-- C44 fails for containers lower than the screen: free space is computed from the screen height
(vertical.rs:166), a `1fr` child of a container of 10 rows on a screen of 24 gets 24 rows. -/
theorem fills_viewport_counterexample :
    (arrange [exChild 0 (some ⟨1, .fraction⟩) 0 0] ⟨0, 0, 80, 10⟩ ⟨80, 24⟩).map
      (fun p => (p.region.y, p.region.height)) = [(0, 24)] := by decide +kernel

/-- A `1fr` child with `min-height: 5` and margins 1. -/
def exTall : LChild where
  index := 0
  style := { height := some ⟨1, .fraction⟩, minHeight := some ⟨5, .cells⟩,
             margin := ⟨⟨1, .cells⟩, ⟨0, .cells⟩, ⟨1, .cells⟩, ⟨0, .cells⟩⟩ }
  desiredWidth := 10
  desiredHeight := 3
  intrinsicHeight := fun _ => 3

/-- C43 fails for stretched children with margins: `min-height: 5` and margins 1 give a height of 3. -/
theorem minHeight_margin_counterexample :
    (arrange [exTall] ⟨0, 0, 30, 4⟩ ⟨80, 4⟩).map (fun p => p.region.height) = [3] := by decide +kernel

/-- A child with both limits. -/
def exLimited : LChild :=
  { exChild 0 none 0 0 with style :=
    { height := some ⟨20, .cells⟩, minHeight := some ⟨2, .cells⟩, maxHeight := some ⟨25, .percent⟩,
      maxWidth := some ⟨7, .cells⟩, minWidth := some ⟨3, .cells⟩ } }

example : (arrange [exLimited] ⟨0, 0, 30, 24⟩ ⟨80, 24⟩).map (fun p => (p.region.width, p.region.height)) =
    [(7, 6)] := by decide +kernel
example : ¬ Stretched exLimited := by simp [Stretched, exLimited]

end Textual.Layout.Vertical
