import Mathlib.Tactic.Common
import Mathlib.Tactic.Linarith
import Mathlib.Tactic.FieldSimp
import Mathlib.Tactic.Ring
import Mathlib.Tactic.Push
import Verif.Model.Horizontal
import Verif.Spec.Layout
import Verif.Props.Fraction

/-! C20, C21, C22, C42: the horizontal layout. -/

namespace Textual.Layout.Horizontal

/-! ### Positions -/

theorem leftMargins_length (prev : Option Int) (cs : List LChild) : (leftMargins prev cs).length = cs.length := by
  induction cs generalizing prev with
  | nil => rfl
  | cons c cs ih => simp [leftMargins, ih]

theorem fixedWidths_length (r : Fraction) (ws : List Want) : (fixedWidths r ws).length = ws.length := by
  induction ws generalizing r with
  | nil => rfl
  | cons w ws ih => cases w <;> simp [fixedWidths, ih]

theorem addLeftover_length (l : Int) (ws : List (Option Int)) : (addLeftover l ws).length = ws.length := by
  induction ws generalizing l with
  | nil => rfl
  | cons w ws ih =>
    cases w with
    | none => simp [addLeftover, ih]
    | some w => simp only [addLeftover]; split <;> simp [ih]

theorem frWidths_length (r : Int) (ws : List Want) : (frWidths r ws).length = ws.length := by
  unfold frWidths
  split
  · simp [addLeftover_length, shares]
  · simp

/-- The widths before constraints. -/
def rawWidths (cs : List LChild) (available : Region) (vp : Viewport) : List Int :=
  List.zipWith (fun f w => f.getD w) (fixedWidths Fraction.ZERO (cs.map (fun c => want c available vp)))
    (frWidths (remainingForFr available (fixedWidths Fraction.ZERO (cs.map (fun c => want c available vp))) cs)
      (cs.map (fun c => want c available vp)))

theorem rawWidths_length (cs : List LChild) (available : Region) (vp : Viewport) :
    (rawWidths cs available vp).length = cs.length := by
  simp [rawWidths, fixedWidths_length, frWidths_length]

theorem arrange_eq (cs : List LChild) (available : Region) (vp : Viewport) :
    arrange cs available vp = place available vp available.x cs (rawWidths cs available vp) (leftMargins none cs) := rfl

theorem place_index (a : Region) (vp : Viewport) (cs : List LChild) (ws lms : List Int) (x : Int)
    (h1 : ws.length = cs.length) (h2 : lms.length = cs.length) :
    (place a vp x cs ws lms).map (·.childIndex) = cs.map (·.index) := by
  induction cs generalizing ws lms x with
  | nil => simp [place]
  | cons c cs ih =>
    obtain ⟨w, ws, rfl⟩ := List.exists_cons_of_length_eq_add_one h1
    obtain ⟨l, lms, rfl⟩ := List.exists_cons_of_length_eq_add_one h2
    simp only [place, List.map_cons]
    rw [ih]
    · simpa using h1
    · simpa using h2

/-- C21: one placement per child, in order. -/
theorem arrange_index (cs : List LChild) (available : Region) (vp : Viewport) :
    (arrange cs available vp).map (·.childIndex) = cs.map (·.index) := by
  rw [arrange_eq, place_index _ _ _ _ _ _ (rawWidths_length cs available vp) (leftMargins_length none cs)]

theorem place_next (a : Region) (vp : Viewport) (cs : List LChild) (ws : List Int) (prev : Option Int) (x : Int)
    (i : Nat) (c d : LChild) (p q : Placement) (hc : cs[i]? = some c) (hd : cs[i + 1]? = some d)
    (hp : (place a vp x cs ws (leftMargins prev cs))[i]? = some p)
    (hq : (place a vp x cs ws (leftMargins prev cs))[i + 1]? = some q) :
    q.region.x = p.region.x + p.region.width + max (mr c) (ml d) := by
  induction cs generalizing ws prev x i with
  | nil => simp at hc
  | cons c' cs ih =>
    cases ws with
    | nil => simp [place] at hp
    | cons w ws =>
      simp only [leftMargins, place] at hp hq
      cases i with
      | succ i => exact ih ws _ _ i (by simpa using hc) (by simpa using hd) (by simpa using hp) (by simpa using hq)
      | zero =>
        simp at hc hd hp
        subst hc hp
        cases cs with
        | nil => simp at hd
        | cons d' cs =>
          simp at hd; subst hd
          cases ws with
          | nil => simp [leftMargins, place] at hq
          | cons w' ws =>
            simp [leftMargins, place] at hq
            subst hq
            simp only [mr, ml]
            omega

/-- C22 for rows: the gap between neighbours is the larger of the two facing margins. -/
theorem arrange_gap (cs : List LChild) (available : Region) (vp : Viewport) (i : Nat) (c d : LChild)
    (p q : Placement) (hc : cs[i]? = some c) (hd : cs[i + 1]? = some d)
    (hp : (arrange cs available vp)[i]? = some p) (hq : (arrange cs available vp)[i + 1]? = some q) :
    q.region.x = p.region.x + p.region.width + max (mr c) (ml d) :=
  place_next _ _ _ _ _ _ i c d p q hc hd hp hq

/-- The first child of a row starts after its left margin. -/
theorem arrange_first (c : LChild) (cs : List LChild) (available : Region) (vp : Viewport) :
    ∃ p ps, arrange (c :: cs) available vp = p :: ps ∧ p.region.x = available.x + ml c := by
  rw [arrange_eq]
  have h := rawWidths_length (c :: cs) available vp
  obtain ⟨w, ws, hw⟩ := List.exists_cons_of_length_eq_add_one h
  rw [hw]
  exact ⟨_, _, rfl, rfl⟩

/-- C21: with margins and widths that are not negative, a child starts at or after the end of every child
before it. -/
theorem arrange_disjoint (cs : List LChild) (available : Region) (vp : Viewport)
    (hm : ∀ c ∈ cs, 0 ≤ ml c) (hw : ∀ p ∈ arrange cs available vp, 0 ≤ p.region.width) :
    ∀ (i j : Nat) (p q : Placement), i < j → (arrange cs available vp)[i]? = some p →
      (arrange cs available vp)[j]? = some q → p.region.x + p.region.width ≤ q.region.x := by
  intro i j p q hij hp hq
  induction j generalizing q with
  | zero => omega
  | succ j ih =>
    have hlen : (arrange cs available vp).length = cs.length := by
      have := congrArg List.length (arrange_index cs available vp); simpa using this
    have hj := (List.getElem?_eq_some_iff.1 hq).1
    obtain ⟨r, hr⟩ : ∃ r, (arrange cs available vp)[j]? = some r := ⟨_, List.getElem?_eq_getElem (by omega)⟩
    obtain ⟨c, hc⟩ : ∃ c, cs[j]? = some c := ⟨_, List.getElem?_eq_getElem (by omega)⟩
    obtain ⟨d, hd⟩ : ∃ c, cs[j + 1]? = some c := ⟨_, List.getElem?_eq_getElem (by omega)⟩
    have g := arrange_gap cs available vp j c d r q hc hd hr hq
    have := hm d (List.mem_of_getElem? hd)
    by_cases h : i = j
    · subst h; rw [hp] at hr; cases hr; omega
    · have := ih r (by omega) hr
      have := hw r (List.mem_of_getElem? hr)
      omega

/-! ### Margins -/

theorem leftMargins_some_sum (c : LChild) (cs : List LChild) :
    (leftMargins (some (mr c)) cs).sum + (cs.map mr).sum + mr c = marginSpace.go ml mr c cs := by
  induction cs generalizing c with
  | nil => simp [leftMargins, marginSpace.go]
  | cons d cs ih =>
    have := ih d
    simp only [leftMargins, marginSpace.go, List.sum_cons, List.map_cons]
    show max (ml d - mr c) 0 + (leftMargins (some (mr d)) cs).sum + (mr d + (cs.map mr).sum) + mr c = _
    omega

theorem totalMargin_eq (cs : List LChild) : totalMargin cs = marginSpace ml mr cs := by
  cases cs with
  | nil => rfl
  | cons c cs =>
    have := leftMargins_some_sum c cs
    simp only [totalMargin, leftMargins, marginSpace, List.sum_cons, List.map_cons]
    show ml c + (leftMargins (some (mr c)) cs).sum + (mr c + (cs.map mr).sum) = _
    omega

/-! ### Shares -/

theorem share_bounds (R v T : Int) (hT : 0 < T) :
    T * ((Fraction.ofInt R).mulRatio v T).floor ≤ R * v ∧
      R * v < T * ((Fraction.ofInt R).mulRatio v T).floor + T := by
  have hc : (Fraction.ofInt R).Canonical := Fraction.new_canonical _ _
  have e : ((Fraction.ofInt R).mulRatio v T).toRat = (R : Rat) * v / T := by
    rw [Fraction.mulRatio_toRat hc v hT.ne', Fraction.ofInt_toRat]
  have hcan : ((Fraction.ofInt R).mulRatio v T).Canonical := Fraction.new_canonical _ _
  rw [Fraction.floor_toRat hcan, e]
  have hT' : (0 : Rat) < T := by exact_mod_cast hT
  have h1 := Int.floor_le ((R : Rat) * v / T)
  have h2 := Int.lt_floor_add_one ((R : Rat) * v / T)
  rw [le_div_iff₀ hT'] at h1
  rw [div_lt_iff₀ hT'] at h2
  constructor
  · have : (T * ⌊(R : Rat) * v / T⌋ : Rat) ≤ R * v := by linarith
    exact_mod_cast this
  · have : (R * v : Rat) < T * ⌊(R : Rat) * v / T⌋ + T := by linarith
    exact_mod_cast this

/-- The number of `fr` entries. -/
def frCount (ws : List (Option Int)) : Int := (ws.map (fun w => if w.isSome then 1 else 0)).sum

theorem frCount_nonneg (ws : List (Option Int)) : 0 ≤ frCount ws := by
  induction ws with
  | nil => simp [frCount]
  | cons w ws ih =>
    simp only [frCount, List.map_cons, List.sum_cons] at ih ⊢
    split <;> omega

theorem fixedSum_cons (w : Option Int) (ws : List (Option Int)) : fixedSum (w :: ws) = w.getD 0 + fixedSum ws := by
  simp [fixedSum]

theorem frCount_cons (w : Option Int) (ws : List (Option Int)) :
    frCount (w :: ws) = (if w.isSome then 1 else 0) + frCount ws := by
  simp [frCount]

theorem addLeftover_sum (l : Int) (ws : List (Option Int)) (h1 : 0 ≤ l) (h2 : l ≤ frCount ws) :
    (addLeftover l ws).sum = fixedSum ws + l := by
  induction ws generalizing l with
  | nil => simp [frCount] at h2; simp [addLeftover, fixedSum]; omega
  | cons w ws ih =>
    cases w with
    | none =>
      simp only [addLeftover, List.sum_cons, fixedSum_cons, Option.getD_none]
      rw [ih l h1 (by simpa [frCount_cons] using h2)]; omega
    | some w =>
      simp only [addLeftover, fixedSum_cons, Option.getD_some]
      simp only [frCount_cons, Option.isSome_some, if_true] at h2
      split
      · rw [List.sum_cons, ih l h1 (by have := frCount_nonneg ws; omega)]; omega
      · rw [List.sum_cons, ih (l - 1) (by omega) (by omega)]; omega

theorem shares_sum (R T : Int) (hT : 0 < T) (ws : List Want) :
    T * fixedSum (shares R T ws) ≤ R * totalFr ws ∧
      R * totalFr ws ≤ T * fixedSum (shares R T ws) + T * frCount (shares R T ws) := by
  induction ws with
  | nil => simp [shares, fixedSum, totalFr, frCount]
  | cons w ws ih =>
    have e : totalFr (w :: ws) = w.weight + totalFr ws := by simp [totalFr]
    have e2 : shares R T (w :: ws) = (match w with
      | .fixed _ => none
      | .fr v => some ((Fraction.ofInt R).mulRatio v T).floor) :: shares R T ws := by
      simp only [shares, List.map_cons]
      cases w <;> rfl
    rw [e, e2, fixedSum_cons, frCount_cons]
    cases w with
    | fixed f => simpa [Want.weight] using ih
    | fr v =>
      have := share_bounds R v T hT
      simp only [Want.weight, Option.getD_some, Option.isSome_some, if_true, mul_add, mul_one]
      constructor <;> linarith [ih.1, ih.2]

theorem zip_sum (rem : Fraction) (l R T : Int) (ws : List Want) :
    (List.zipWith (fun f w => f.getD w) (fixedWidths rem ws) (addLeftover l (shares R T ws))).sum =
      fixedSum (fixedWidths rem ws) + (addLeftover l (shares R T ws)).sum := by
  induction ws generalizing rem l with
  | nil => rfl
  | cons w ws ih =>
    cases w with
    | fixed f =>
      have e2 : shares R T (.fixed f :: ws) = none :: shares R T ws := rfl
      simp only [e2, fixedWidths, addLeftover, List.zipWith_cons_cons, List.sum_cons, fixedSum_cons, ih,
        Option.getD_some]
      omega
    | fr v =>
      have e2 : shares R T (.fr v :: ws) = some ((Fraction.ofInt R).mulRatio v T).floor :: shares R T ws := rfl
      simp only [e2, fixedWidths, addLeftover, fixedSum_cons]
      split <;> simp only [List.zipWith_cons_cons, List.sum_cons, ih, Option.getD_none] <;> omega

theorem addLeftover_get (l : Int) (ws : List (Option Int)) (i : Nat) (w : Int) (h : ws[i]? = some (some w)) :
    (addLeftover l ws)[i]? = some w ∨ (addLeftover l ws)[i]? = some (w + 1) := by
  induction ws generalizing l i with
  | nil => simp at h
  | cons x ws ih =>
    cases i with
    | zero =>
      simp at h; subst h
      simp only [addLeftover]; split <;> simp
    | succ i =>
      cases x with
      | none => simpa [addLeftover] using ih l i (by simpa using h)
      | some x =>
        simp only [addLeftover]
        split
        · simpa using ih l i (by simpa using h)
        · simpa using ih (l - 1) i (by simpa using h)

theorem fixedWidths_none (rem : Fraction) (ws : List Want) (i : Nat) (v : Int) (h : ws[i]? = some (.fr v)) :
    (fixedWidths rem ws)[i]? = some none := by
  induction ws generalizing rem i with
  | nil => simp at h
  | cons x ws ih =>
    cases i with
    | zero => simp at h; subst h; simp [fixedWidths]
    | succ i => cases x <;> simpa [fixedWidths] using ih _ i (by simpa using h)

theorem want_fr (c : LChild) (a : Region) (vp : Viewport) :
    (match want c a vp with | .fr v => some v | .fixed _ => none) = rowWeight c := by
  unfold want rowWeight
  by_cases hd : c.desiredWidth = fill <;> rcases hw : c.style.width with _ | ⟨v, u⟩
  · simp [hd, hw]
  · cases u <;> simp [hd, hw]
  · simp [hd, hw]
  · cases u <;> simp [hd, hw]

theorem want_of_weight (c : LChild) (a : Region) (vp : Viewport) :
    (∀ v, rowWeight c = some v → want c a vp = .fr v) ∧ (rowWeight c = none → ∃ f, want c a vp = .fixed f) := by
  have h := want_fr c a vp
  cases hw : want c a vp with
  | fixed f => rw [hw] at h; simp only at h; simp [← h]
  | fr v => rw [hw] at h; simp only at h; simp [← h]

theorem totalFr_eq (cs : List LChild) (a : Region) (vp : Viewport) :
    totalFr (cs.map (fun c => want c a vp)) = (cs.map (fun c => (rowWeight c).getD 0)).sum := by
  unfold totalFr
  rw [List.map_map]
  congr 1
  apply List.map_congr_left
  intro c _
  have h := want_fr c a vp
  simp only [Function.comp]
  cases hw : want c a vp <;> rw [hw] at h <;> simp only at h <;> simp [← h, Want.weight]

/-! ### Placed widths -/

theorem place_width (a : Region) (vp : Viewport) (cs : List LChild) (ws lms : List Int) (x : Int)
    (h1 : ws.length = cs.length) (h2 : lms.length = cs.length) (hf : ∀ c ∈ cs, FreeWidth c) :
    (place a vp x cs ws lms).map (·.region.width) = ws := by
  induction cs generalizing ws lms x with
  | nil => cases ws <;> simp_all [place]
  | cons c cs ih =>
    obtain ⟨w, ws, rfl⟩ := List.exists_cons_of_length_eq_add_one h1
    obtain ⟨l, lms, rfl⟩ := List.exists_cons_of_length_eq_add_one h2
    obtain ⟨f1, f2⟩ := hf c (by simp)
    simp only [place, List.map_cons]
    rw [ih ws lms _ (by simpa using h1) (by simpa using h2) (fun d hd => hf d (by simp [hd]))]
    simp [constrain, f1, f2]

theorem arrange_width (cs : List LChild) (a : Region) (vp : Viewport) (hf : ∀ c ∈ cs, FreeWidth c) :
    (arrange cs a vp).map (·.region.width) = rawWidths cs a vp := by
  rw [arrange_eq, place_width _ _ _ _ _ _ (rawWidths_length cs a vp) (leftMargins_length none cs) hf]

theorem zip_widthOf (f : LChild → Bool) (cs : List LChild) (ps : List Placement) :
    widthOf f cs ps = (List.zipWith (fun c w => if f c then w else 0) cs (ps.map (·.region.width))).sum := by
  unfold widthOf
  congr 1
  induction cs generalizing ps with
  | nil => simp
  | cons c cs ih => cases ps with
    | nil => simp
    | cons p ps => simp [ih]

theorem fixed_widthOf (a : Region) (vp : Viewport) (rem : Fraction) (cs : List LChild) (fr : List Int)
    (hl : fr.length = cs.length) :
    (List.zipWith (fun c w => if (rowWeight c).isNone then w else 0) cs
      (List.zipWith (fun f w => f.getD w) (fixedWidths rem (cs.map (fun c => want c a vp))) fr)).sum =
      fixedSum (fixedWidths rem (cs.map (fun c => want c a vp))) := by
  induction cs generalizing rem fr with
  | nil => simp [fixedWidths, fixedSum]
  | cons c cs ih =>
    obtain ⟨x, fr, rfl⟩ := List.exists_cons_of_length_eq_add_one hl
    have hl' : fr.length = cs.length := by simpa using hl
    obtain ⟨h1, h2⟩ := want_of_weight c a vp
    cases hr : rowWeight c with
    | none =>
      obtain ⟨f, hf⟩ := h2 hr
      simp only [List.map_cons, hf, fixedWidths, List.zipWith_cons_cons, fixedSum_cons, List.sum_cons, hr,
        ih _ _ hl']
      simp
    | some v =>
      have hf := h1 v hr
      simp only [List.map_cons, hf, fixedWidths, List.zipWith_cons_cons, fixedSum_cons, List.sum_cons, hr,
        ih _ _ hl']
      simp

theorem arrange_fixedSum (cs : List LChild) (a : Region) (vp : Viewport) (hf : ∀ c ∈ cs, FreeWidth c) :
    widthOf (fun c => (rowWeight c).isNone) cs (arrange cs a vp) =
      fixedSum (fixedWidths Fraction.ZERO (cs.map (fun c => want c a vp))) := by
  rw [zip_widthOf, arrange_width cs a vp hf, rawWidths, fixed_widthOf]
  simp [frWidths_length]

/-- C20: without `min-width`/`max-width`, when the fixed children and the margins leave some space, the row is
filled exactly: all widths and margins add up to the available width. -/
theorem arrange_fills (cs : List LChild) (available : Region) (vp : Viewport) (hf : ∀ c ∈ cs, FreeWidth c)
    (hw : 0 < (cs.map (fun c => (rowWeight c).getD 0)).sum)
    (hfree : widthOf (fun c => (rowWeight c).isNone) cs (arrange cs available vp) + marginSpace ml mr cs <
      available.width) :
    ((arrange cs available vp).map (·.region.width)).sum + marginSpace ml mr cs = available.width := by
  rw [arrange_fixedSum cs available vp hf] at hfree
  rw [arrange_width cs available vp hf, rawWidths]
  have hT : 0 < totalFr (cs.map (fun c => want c available vp)) := by rw [totalFr_eq]; exact hw
  generalize hws : cs.map (fun c => want c available vp) = ws at *
  have hR : remainingForFr available (fixedWidths Fraction.ZERO ws) cs =
      available.width - fixedSum (fixedWidths Fraction.ZERO ws) - marginSpace ml mr cs := by
    rw [remainingForFr, totalMargin_eq]; omega
  have hR0 : 0 < remainingForFr available (fixedWidths Fraction.ZERO ws) cs := by omega
  generalize remainingForFr available (fixedWidths Fraction.ZERO ws) cs = R at *
  have hs := shares_sum R (totalFr ws) hT ws
  have l1 : fixedSum (shares R (totalFr ws) ws) ≤ R := by
    have := hs.1
    rw [mul_comm R] at this
    exact le_of_mul_le_mul_left this hT
  have l2 : R - fixedSum (shares R (totalFr ws) ws) ≤ frCount (shares R (totalFr ws) ws) := by
    have h2 := hs.2
    rw [mul_comm R, ← mul_add] at h2
    have := le_of_mul_le_mul_left h2 hT
    omega
  rw [frWidths, if_pos ⟨hT, hR0⟩]
  simp only
  rw [zip_sum, addLeftover_sum _ _ (by omega) l2]
  omega

/-- C20: each `fr` child is within one cell of its proportional share of the free space. -/
theorem arrange_share (cs : List LChild) (available : Region) (vp : Viewport) (hf : ∀ c ∈ cs, FreeWidth c)
    (total free : Int) (ht : total = (cs.map (fun c => (rowWeight c).getD 0)).sum) (hw : 0 < total)
    (hr : free = available.width - widthOf (fun c => (rowWeight c).isNone) cs (arrange cs available vp) -
      marginSpace ml mr cs) (hfree : 0 < free)
    (i : Nat) (c : LChild) (p : Placement) (v : Int) (hc : cs[i]? = some c) (hv : rowWeight c = some v)
    (hp : (arrange cs available vp)[i]? = some p) :
    free * v - total ≤ total * p.region.width ∧ total * p.region.width ≤ free * v + total := by
  have hT : totalFr (cs.map (fun c => want c available vp)) = total := by rw [totalFr_eq, ht]
  rw [arrange_fixedSum cs available vp hf] at hr
  have hwid : (rawWidths cs available vp)[i]? = some p.region.width := by
    rw [← arrange_width cs available vp hf, List.getElem?_map, hp]; rfl
  have hwant : (cs.map (fun c => want c available vp))[i]? = some (.fr v) := by
    rw [List.getElem?_map, hc]; simp [(want_of_weight c available vp).1 v hv]
  have hR : remainingForFr available (fixedWidths Fraction.ZERO (cs.map (fun c => want c available vp))) cs = free := by
    rw [remainingForFr, totalMargin_eq]; omega
  rw [rawWidths, hR] at hwid
  generalize cs.map (fun c => want c available vp) = ws at *
  rw [List.getElem?_zipWith, fixedWidths_none _ _ _ _ hwant] at hwid
  rw [frWidths, hT, if_pos ⟨hw, hfree⟩] at hwid
  simp only at hwid
  have hsh : (shares free total ws)[i]? = some (some ((Fraction.ofInt free).mulRatio v total).floor) := by
    simp [shares, hwant]
  have b := share_bounds free v total hw
  rcases addLeftover_get (free - fixedSum (shares free total ws)) _ i _ hsh with h | h
  · rw [h] at hwid; simp at hwid
    rw [← hwid]; constructor <;> linarith [b.1, b.2]
  · rw [h] at hwid; simp at hwid
    rw [← hwid, mul_add, mul_one]; constructor <;> linarith [b.1, b.2]

/-- C20: when nothing is left over, `fr` children get no width. -/
theorem arrange_noSpace (cs : List LChild) (available : Region) (vp : Viewport) (hf : ∀ c ∈ cs, FreeWidth c)
    (hr : available.width - widthOf (fun c => (rowWeight c).isNone) cs (arrange cs available vp) -
      marginSpace ml mr cs ≤ 0)
    (i : Nat) (c : LChild) (p : Placement) (v : Int) (hc : cs[i]? = some c) (hv : rowWeight c = some v)
    (hp : (arrange cs available vp)[i]? = some p) : p.region.width = 0 := by
  rw [arrange_fixedSum cs available vp hf] at hr
  have hwid : (rawWidths cs available vp)[i]? = some p.region.width := by
    rw [← arrange_width cs available vp hf, List.getElem?_map, hp]; rfl
  have hwant : (cs.map (fun c => want c available vp))[i]? = some (.fr v) := by
    rw [List.getElem?_map, hc]; simp [(want_of_weight c available vp).1 v hv]
  have hR : remainingForFr available (fixedWidths Fraction.ZERO (cs.map (fun c => want c available vp))) cs = 0 := by
    rw [remainingForFr, totalMargin_eq]; omega
  rw [rawWidths, hR] at hwid
  generalize cs.map (fun c => want c available vp) = ws at *
  rw [List.getElem?_zipWith, fixedWidths_none _ _ _ _ hwant] at hwid
  rw [frWidths, if_neg (by omega)] at hwid
  have hi := (List.getElem?_eq_some_iff.1 hwant).1
  rw [List.getElem?_map, List.getElem?_eq_getElem hi] at hwid
  simp at hwid
  exact hwid.symm

/-! ### Fixed widths do not drift -/

theorem fixedWidths_floor (rem : Fraction) (ws : List Want) (hc : rem.Canonical) (h0 : 0 ≤ rem.toRat)
    (h1 : rem.toRat < 1) (hw : ∀ f, .fixed f ∈ ws → f.Canonical) :
    fixedSum (fixedWidths rem ws) =
      ⌊rem.toRat + (ws.map (fun w => match w with | .fixed f => f.toRat | .fr _ => 0)).sum⌋ := by
  induction ws generalizing rem with
  | nil =>
    simp only [fixedWidths, fixedSum, List.map_nil, List.sum_nil, add_zero]
    symm
    rw [Int.floor_eq_iff]; constructor <;> push_cast <;> linarith
  | cons w ws ih =>
    cases w with
    | fixed f =>
      have hf := hw f (by simp)
      have hadd := Fraction.add_toRat hf hc
      have hcan : (f.add rem).Canonical := Fraction.new_canonical _ _
      obtain ⟨s1, s2, s3⟩ := Fraction.fract_spec hcan
      have hfl := Fraction.floor_toRat hcan
      simp only [fixedWidths, fixedSum_cons, List.map_cons, List.sum_cons, Option.getD_some]
      rw [ih _ s1 s3.1 s3.2 (fun g hg => hw g (by simp [hg])),
        ← Int.floor_intCast_add]
      congr 1
      linarith
    | fr v =>
      simp only [fixedWidths, fixedSum_cons, List.map_cons, List.sum_cons, Option.getD_none, zero_add]
      exact ih rem hc h0 h1 (fun g hg => hw g (by simp [hg]))

theorem want_exact (c : LChild) (a : Region) (vp : Viewport) (f : Fraction) (h : want c a vp = .fixed f) :
    f.Canonical ∧ f.toRat = rowExact a vp c := by
  have key : ∀ (v : Rat) (b : Int), (applyBoxSizingFraction (percentToFraction v b) c.style).Canonical ∧
      (applyBoxSizingFraction (percentToFraction v b) c.style).toRat =
        b * (roundHalfAway (v * 1000) / 1000 : Rat) / 100 +
          (if c.style.contentBox then (horizontalChrome c.style : Rat) else 0) := by
    intro v b
    have hp : (percentToFraction v b).Canonical := Fraction.new_canonical _ _
    have hpe : (percentToFraction v b).toRat = b * (roundHalfAway (v * 1000) / 1000 : Rat) / 100 := by
      rw [percentToFraction, Fraction.new_toRat (by decide)]
      push_cast; ring
    unfold applyBoxSizingFraction
    by_cases hb : c.style.contentBox = true
    · rw [if_pos hb, if_pos hb]
      refine ⟨Fraction.new_canonical _ _, ?_⟩
      have hoc : (Fraction.ofInt (horizontalChrome c.style)).Canonical := Fraction.new_canonical _ _
      rw [Fraction.add_toRat hp hoc, hpe, Fraction.ofInt_toRat]
    · rw [if_neg hb, if_neg hb]
      exact ⟨hp, by rw [hpe, add_zero]⟩
  simp only [want] at h
  unfold rowExact
  cases hw : c.style.width with
  | none =>
    rw [hw] at h
    simp only at h ⊢
    split at h
    · cases h
    · cases h; exact ⟨Fraction.new_canonical _ _, by rw [Fraction.ofInt_toRat]; simp⟩
  | some w =>
    obtain ⟨v, u⟩ := w
    rw [hw] at h
    cases u <;> simp only at h ⊢
    case cells =>
      cases h
      refine ⟨Fraction.new_canonical _ _, ?_⟩
      rw [Fraction.ofInt_toRat, applyBoxSizingWidth]
      split <;> simp
    case fraction => cases h
    case auto =>
      split at h
      · cases h
      · cases h; exact ⟨Fraction.new_canonical _ _, by rw [Fraction.ofInt_toRat]; simp⟩
    all_goals
      cases h
      exact key _ _

theorem fixedWidths_take (rem : Fraction) (ws : List Want) (k : Nat) :
    fixedWidths rem (ws.take k) = (fixedWidths rem ws).take k := by
  induction ws generalizing rem k with
  | nil => simp [fixedWidths]
  | cons w ws ih =>
    cases k with
    | zero => simp [fixedWidths]
    | succ k => cases w <;> simp [fixedWidths, ih]

theorem fixedSum_take (k : Nat) (a : Region) (vp : Viewport) (cs : List LChild) (hf : ∀ c ∈ cs, FreeWidth c) :
    widthOf (fun c => (rowWeight c).isNone) (cs.take k) ((arrange cs a vp).take k) =
      fixedSum (fixedWidths Fraction.ZERO ((cs.take k).map (fun c => want c a vp))) := by
  rw [zip_widthOf, List.map_take, arrange_width cs a vp hf, rawWidths, List.take_zipWith, ← fixedWidths_take,
    ← List.map_take, fixed_widthOf]
  simp [frWidths_length]

/-- C42: rounding of fractional widths never drifts. In every initial part of a row without width constraints
the fixed children together take exactly the whole part of their exact widths. -/
theorem arrange_noDrift (cs : List LChild) (available : Region) (vp : Viewport) (hf : ∀ c ∈ cs, FreeWidth c)
    (k : Nat) :
    widthOf (fun c => (rowWeight c).isNone) (cs.take k) ((arrange cs available vp).take k) =
      ⌊((cs.take k).map (fun c => if (rowWeight c).isNone then rowExact available vp c else 0)).sum⌋ := by
  rw [fixedSum_take k available vp cs hf, fixedWidths_floor]
  · rw [List.map_map]
    congr 1
    have : Fraction.ZERO.toRat = 0 := by simp [Fraction.ZERO, Fraction.toRat]
    rw [this, zero_add]
    congr 1
    apply List.map_congr_left
    intro c _
    simp only [Function.comp]
    obtain ⟨h1, h2⟩ := want_of_weight c available vp
    cases hr : rowWeight c with
    | none =>
      obtain ⟨f, hf⟩ := h2 hr
      rw [hf]; simp [(want_exact c available vp f hf).2]
    | some v => rw [h1 v hr]; simp
  · unfold Fraction.Canonical; decide
  · simp [Fraction.ZERO, Fraction.toRat]
  · simp [Fraction.ZERO, Fraction.toRat]
  · intro f hf
    rw [List.mem_map] at hf
    obtain ⟨c, _, hc⟩ := hf
    exact (want_exact c available vp f hc).1

/-! ### Constraints -/

theorem place_constrained (a : Region) (vp : Viewport) (cs : List LChild) (ws lms : List Int) (x : Int)
    (i : Nat) (c : LChild) (p : Placement) (hc : cs[i]? = some c) (hp : (place a vp x cs ws lms)[i]? = some p) :
    ∃ w, p.region.width = constrain c.style.maxWidth c.style.minWidth a.width a vp w := by
  induction cs generalizing ws lms x i with
  | nil => simp at hc
  | cons c' cs ih =>
    cases ws with
    | nil => simp [place] at hp
    | cons w ws =>
      cases lms with
      | nil => simp [place] at hp
      | cons l lms =>
        cases i with
        | zero =>
          simp [place] at hc hp
          subst hc hp
          exact ⟨w, rfl⟩
        | succ i => exact ih ws lms _ i (by simpa using hc) (by simpa [place] using hp)

/-- C43 for rows: the width is never below `min-width`. -/
theorem arrange_minWidth (cs : List LChild) (available : Region) (vp : Viewport) (i : Nat) (c : LChild)
    (p : Placement) (m : Scalar) (hc : cs[i]? = some c) (hp : (arrange cs available vp)[i]? = some p)
    (hm : c.style.minWidth = some m) :
    toI32 (constraintValue m available.width available vp) ≤ p.region.width := by
  obtain ⟨w, hw⟩ := place_constrained _ _ _ _ _ _ i c p hc hp
  rw [hw, hm]
  simp only [constrain]
  omega

/-- C43 for rows: the width is never above `max-width`, unless `min-width` is larger. -/
theorem arrange_maxWidth (cs : List LChild) (available : Region) (vp : Viewport) (i : Nat) (c : LChild)
    (p : Placement) (m : Scalar) (hc : cs[i]? = some c) (hp : (arrange cs available vp)[i]? = some p)
    (hm : c.style.maxWidth = some m)
    (hmin : ∀ n, c.style.minWidth = some n → toI32 (constraintValue n available.width available vp) ≤
      toI32 (constraintValue m available.width available vp)) :
    p.region.width ≤ toI32 (constraintValue m available.width available vp) := by
  obtain ⟨w, hw⟩ := place_constrained _ _ _ _ _ _ i c p hc hp
  rw [hw, hm]
  simp only [constrain]
  cases hn : c.style.minWidth with
  | none => simp only; omega
  | some n => have := hmin n hn; simp only; omega

/-- A child of a row with the given width, left and right margin. -/
def exChild (i : Nat) (w : Option Scalar) (l r : Rat) : LChild where
  index := i
  style := { width := w, margin := ⟨⟨0, .cells⟩, ⟨r, .cells⟩, ⟨0, .cells⟩, ⟨l, .cells⟩⟩ }
  desiredWidth := fill
  desiredHeight := 1
  intrinsicHeight := fun _ => 1

/-- Four children: `1fr`, `33.3%`, no width (fills), `2fr`, with margins. -/
def exRow : List LChild :=
  [exChild 0 (some ⟨1, .fraction⟩) 1 2, exChild 1 (some ⟨333 / 10, .percent⟩) 3 0, exChild 2 none 0 0,
    exChild 3 (some ⟨2, .fraction⟩) 1 1]

example : (arrange exRow ⟨5, 0, 100, 10⟩ ⟨100, 10⟩).map (fun p => (p.region.x, p.region.width)) =
    [(6, 16), (25, 33), (58, 15), (74, 30)] := by decide +kernel
example : ∀ c ∈ exRow, FreeWidth c := by
  intro c hc; simp [exRow] at hc
  rcases hc with rfl | rfl | rfl | rfl <;> exact ⟨rfl, rfl⟩
example : 0 < (exRow.map (fun c => (rowWeight c).getD 0)).sum ∧
    widthOf (fun c => (rowWeight c).isNone) exRow (arrange exRow ⟨5, 0, 100, 10⟩ ⟨100, 10⟩) +
      marginSpace ml mr exRow < 100 := by decide +kernel
example : marginSpace ml mr exRow = 6 := by decide +kernel
example : ∀ c ∈ exRow, 0 ≤ ml c := by
  intro c hc; simp [exRow] at hc
  rcases hc with rfl | rfl | rfl | rfl <;> decide +kernel

example : (arrange [{ exChild 0 (some ⟨1, .fraction⟩) 0 0 with
      style := { maxWidth := some ⟨50, .percent⟩, minWidth := some ⟨5, .cells⟩ } }] ⟨0, 0, 30, 5⟩ ⟨80, 24⟩).map
    (fun p => p.region.width) = [15] := by decide +kernel

/-- C43 fails for heights: margins are taken off after `min-height` was applied (horizontal.rs:283-311), so a
child with `min-height: 5` and vertical margins 1 is 3 high in a row 4 high. -/
theorem minHeight_margin_counterexample :
    (arrange [{ exChild 0 none 0 0 with
      style := { minHeight := some ⟨5, .cells⟩, margin := ⟨⟨1, .cells⟩, ⟨0, .cells⟩, ⟨1, .cells⟩, ⟨0, .cells⟩⟩ } }]
      ⟨0, 0, 30, 4⟩ ⟨80, 24⟩).map (fun p => p.region.height) = [3] := by decide +kernel

/-- Two children of 33.5% of 100 cells take 67 cells together. -/
example : (arrange [exChild 0 (some ⟨335 / 10, .percent⟩) 0 0, exChild 1 (some ⟨335 / 10, .percent⟩) 0 0]
    ⟨0, 0, 100, 1⟩ ⟨100, 1⟩).map (fun p => p.region.width) = [33, 34] := by decide +kernel

end Textual.Layout.Horizontal
