import Verif.Props.Intrinsic
import Verif.Model.ScrollSize

/-! C179: a scrolling container of the size it asks for needs no scrollbars. -/

namespace Textual.Layout.Intrinsic

open Scroller (Sheet Body Flags virtualSize plan)

/-! ### The size -/

theorem plus_ok {a b : Nat} (h : a + b ≤ 65535) : plus a b = some (a + b) := if_pos h

theorem cappedScroll_given {n : Nat} (h : n < fill) : cappedScroll n = n := if_neg (by omega)

theorem given_eq {n : Nat} (h : n < fill) : (n == fill) = false := beq_eq_false_iff_ne.2 (by omega)

theorem step_column (s : SAcc) (c : LChild) (hc : c.desiredWidth < fill ∧ c.desiredHeight < fill)
    (hw : outerWidth c ≤ 65535) (hh : outerHeight c ≤ 65535)
    (ht : s.total + max (T c) s.prev + c.desiredHeight ≤ 65535) :
    stepScroll .vertical s c = some
      { s with total := s.total + max (T c) s.prev + c.desiredHeight, maxW := max s.maxW (outerWidth c), prev := B c,
               lead := if s.first then T c else s.lead, trail := B c, first := false } := by
  unfold outerWidth at hw
  unfold outerHeight at hh
  have e1 : T c = toU16 c.style.margin.top.value := rfl
  have e2 : B c = toU16 c.style.margin.bottom.value := rfl
  unfold stepScroll along
  simp only [cappedScroll_given hc.1, cappedScroll_given hc.2, given_eq hc.1, given_eq hc.2, Bool.or_false, Option.bind_eq_bind]
  rw [plus_ok (by omega), Option.bind_some, plus_ok (by omega), Option.bind_some,
    plus_ok (by omega), Option.bind_some, plus_ok (by omega), Option.bind_some]
  rw [plus_ok (by omega), Option.bind_some, plus_ok (by omega), Option.bind_some]
  have e3 : s.total + (c.desiredHeight + max s.prev (toU16 c.style.margin.top.value)) =
      s.total + max (T c) s.prev + c.desiredHeight := by omega
  have e4 : c.desiredWidth + toU16 c.style.margin.left.value + toU16 c.style.margin.right.value = outerWidth c := by
    unfold outerWidth; omega
  rw [e3, e4, e1, e2]

theorem step_row (s : SAcc) (c : LChild) (hc : c.desiredWidth < fill ∧ c.desiredHeight < fill)
    (hw : outerWidth c ≤ 65535) (hh : outerHeight c ≤ 65535)
    (ht : s.total + max (L c) s.prev + c.desiredWidth ≤ 65535) :
    stepScroll .horizontal s c = some
      { s with total := s.total + max (L c) s.prev + c.desiredWidth, maxH := max s.maxH (outerHeight c), prev := R c,
               lead := if s.first then L c else s.lead, trail := R c, first := false } := by
  unfold outerWidth at hw
  unfold outerHeight at hh
  have e1 : L c = toU16 c.style.margin.left.value := rfl
  have e2 : R c = toU16 c.style.margin.right.value := rfl
  unfold stepScroll along
  simp only [cappedScroll_given hc.1, cappedScroll_given hc.2, given_eq hc.1, given_eq hc.2, Bool.or_false, Option.bind_eq_bind]
  rw [plus_ok (by omega), Option.bind_some, plus_ok (by omega), Option.bind_some,
    plus_ok (by omega), Option.bind_some, plus_ok (by omega), Option.bind_some]
  rw [plus_ok (by omega), Option.bind_some, plus_ok (by omega), Option.bind_some]
  have e3 : s.total + (c.desiredWidth + max s.prev (toU16 c.style.margin.left.value)) =
      s.total + max (L c) s.prev + c.desiredWidth := by omega
  have e4 : c.desiredHeight + toU16 c.style.margin.top.value + toU16 c.style.margin.bottom.value = outerHeight c := by
    unfold outerHeight; omega
  rw [e3, e4, e1, e2]

/-- The largest of some sizes and a start. -/
def most (f : LChild → Nat) : Nat → List LChild → Nat
  | m, [] => m
  | m, c :: cs => most f (max m (f c)) cs

theorem most_spec (f : LChild → Nat) (m : Nat) (cs : List LChild) :
    m ≤ most f m cs ∧ (∀ c ∈ cs, f c ≤ most f m cs) ∧ (most f m cs = m ∨ ∃ c ∈ cs, most f m cs = f c) := by
  induction cs generalizing m with
  | nil => simp [most]
  | cons c cs ih =>
    obtain ⟨h1, h2, h3⟩ := ih (max m (f c))
    refine ⟨by simp only [most]; omega, ?_, ?_⟩
    · intro d hd
      rcases List.mem_cons.1 hd with rfl | hd
      · simp only [most]; omega
      · exact h2 d hd
    · simp only [most]
      rcases h3 with h | ⟨d, hd, h⟩
      · rcases Nat.le_total (f c) m with g | g
        · left; rw [h, max_eq_left g]
        · right; exact ⟨c, by simp, by rw [h, max_eq_right g]⟩
      · right; exact ⟨d, by simp [hd], h⟩

theorem loop_column (cs : List LChild) (s : SAcc) (h1 : s.first = false)
    (hc : ∀ c ∈ cs, (c.desiredWidth < fill ∧ c.desiredHeight < fill) ∧ outerWidth c ≤ 65535 ∧ outerHeight c ≤ 65535)
    (ht : s.total + gapsH s.prev cs ≤ 65535) :
    loopScroll .vertical s cs = some
      { s with total := s.total + gapsH s.prev cs, maxW := most outerWidth s.maxW cs, prev := lastOf B s.prev cs,
               trail := lastOf B s.trail cs } := by
  induction cs generalizing s with
  | nil => simp [loopScroll, gapsH, most, lastOf]
  | cons c cs ih =>
    obtain ⟨g, gw, gh⟩ := hc c (by simp)
    rw [gapsH] at ht
    rw [loopScroll, step_column s c g gw gh (by omega), Option.bind_some, ih _ rfl (fun d hd => hc d (by simp [hd]))
      (by simp only; omega)]
    simp only [h1, Bool.false_eq_true, if_false, gapsH, most, lastOf_cons]
    rw [← h1]
    congr 2
    omega

theorem loop_row (cs : List LChild) (s : SAcc) (h1 : s.first = false)
    (hc : ∀ c ∈ cs, (c.desiredWidth < fill ∧ c.desiredHeight < fill) ∧ outerWidth c ≤ 65535 ∧ outerHeight c ≤ 65535)
    (ht : s.total + gapsW s.prev cs ≤ 65535) :
    loopScroll .horizontal s cs = some
      { s with total := s.total + gapsW s.prev cs, maxH := most outerHeight s.maxH cs, prev := lastOf R s.prev cs,
               trail := lastOf R s.trail cs } := by
  induction cs generalizing s with
  | nil => simp [loopScroll, gapsW, most, lastOf]
  | cons c cs ih =>
    obtain ⟨g, gw, gh⟩ := hc c (by simp)
    rw [gapsW] at ht
    rw [loopScroll, step_row s c g gw gh (by omega), Option.bind_some, ih _ rfl (fun d hd => hc d (by simp [hd]))
      (by simp only; omega)]
    simp only [h1, Bool.false_eq_true, if_false, gapsW, most, lastOf_cons]
    rw [← h1]
    congr 2
    omega

theorem size_column (ch : Chrome) (cs : List (Bool × LChild)) (c : LChild) (rest : List LChild)
    (he : shown cs = c :: rest) (hs : ∀ c ∈ shown cs, c.desiredWidth < fill ∧ c.desiredHeight < fill)
    (hw : ∀ c ∈ shown cs, outerWidth c + ch.border.1 + ch.padding.1 ≤ 65535)
    (hh : T c + ((shown cs).map outerHeight).sum + ch.border.2 + ch.padding.2 ≤ 65535) :
    scrollSize .vertical ch cs = some (most outerWidth 0 (shown cs) + ch.border.1 + ch.padding.1,
      T c + (T c + c.desiredHeight + gapsH (B c) rest + lastOf B (B c) rest) + ch.border.2 + ch.padding.2) := by
  have hne : cs.isEmpty = false := by
    cases cs with
    | nil => simp [shown] at he
    | cons => rfl
  have hsum : ∀ d ∈ shown cs, outerHeight d ≤ ((shown cs).map outerHeight).sum := mem_sum_le outerHeight (shown cs)
  have hgaps := gapsH_le (B c) rest
  have hall : ((shown cs).map outerHeight).sum = outerHeight c + (rest.map outerHeight).sum := by rw [he]; simp
  have hout : outerHeight c = T c + c.desiredHeight + B c := rfl
  have hmost : most outerWidth 0 (shown cs) + ch.border.1 + ch.padding.1 ≤ 65535 := by
    rcases (most_spec outerWidth 0 (shown cs)).2.2 with h | ⟨d, hd, h⟩
    · have := hw c (by rw [he]; simp)
      rw [h]; omega
    · rw [h]; exact hw d hd
  unfold scrollSize
  rw [hne]
  simp only [Bool.false_eq_true, if_false]
  rw [he, loopScroll, step_column {} c (hs c (by rw [he]; simp)) (by have := hw c (by rw [he]; simp); omega)
    (by have := hsum c (by rw [he]; simp); omega) (by simp only [Nat.zero_add]; omega), Option.bind_some,
    loop_column rest _ rfl (fun d hd => ⟨hs d (by rw [he]; simp [hd]), by
      have := hw d (by rw [he]; simp [hd]); omega, by have := hsum d (by rw [he]; simp [hd]); omega⟩)
      (by simp only [Nat.zero_add]; omega), Option.bind_some]
  simp only [finishScroll, Option.bind_eq_bind, Nat.zero_add, Nat.max_zero, if_true, Bool.false_eq_true, if_false]
  rw [plus_ok (by omega), Option.bind_some, plus_ok (by omega), Option.bind_some,
    plus_ok (by omega), Option.bind_some, plus_ok (by omega), Option.bind_some]
  rw [he] at hmost
  have hm : most outerWidth 0 (c :: rest) = most outerWidth (max 0 (outerWidth c)) rest := rfl
  rw [Nat.zero_max] at hm
  simp only [sat, Option.some.injEq, Prod.mk.injEq]
  simp only [Nat.zero_max]
  rw [hm] at hmost ⊢
  exact ⟨by omega, by omega⟩

theorem size_row (ch : Chrome) (cs : List (Bool × LChild)) (c : LChild) (rest : List LChild)
    (he : shown cs = c :: rest) (hs : ∀ c ∈ shown cs, c.desiredWidth < fill ∧ c.desiredHeight < fill)
    (hh : ∀ c ∈ shown cs, outerHeight c + ch.border.2 + ch.padding.2 ≤ 65535)
    (hw : L c + ((shown cs).map outerWidth).sum + ch.border.1 + ch.padding.1 ≤ 65535) :
    scrollSize .horizontal ch cs = some (
      L c + (L c + c.desiredWidth + gapsW (R c) rest + lastOf R (R c) rest) + ch.border.1 + ch.padding.1,
      most outerHeight 0 (shown cs) + ch.border.2 + ch.padding.2) := by
  have hne : cs.isEmpty = false := by
    cases cs with
    | nil => simp [shown] at he
    | cons => rfl
  have hsum : ∀ d ∈ shown cs, outerWidth d ≤ ((shown cs).map outerWidth).sum := mem_sum_le outerWidth (shown cs)
  have hgaps := gapsW_le (R c) rest
  have hall : ((shown cs).map outerWidth).sum = outerWidth c + (rest.map outerWidth).sum := by rw [he]; simp
  have hout : outerWidth c = L c + c.desiredWidth + R c := rfl
  have hmost : most outerHeight 0 (shown cs) + ch.border.2 + ch.padding.2 ≤ 65535 := by
    rcases (most_spec outerHeight 0 (shown cs)).2.2 with h | ⟨d, hd, h⟩
    · have := hh c (by rw [he]; simp)
      rw [h]; omega
    · rw [h]; exact hh d hd
  unfold scrollSize
  rw [hne]
  simp only [Bool.false_eq_true, if_false]
  rw [he, loopScroll, step_row {} c (hs c (by rw [he]; simp)) (by have := hsum c (by rw [he]; simp); omega)
    (by have := hh c (by rw [he]; simp); omega) (by simp only [Nat.zero_add]; omega), Option.bind_some,
    loop_row rest _ rfl (fun d hd => ⟨hs d (by rw [he]; simp [hd]), by
      have := hsum d (by rw [he]; simp [hd]); omega, by have := hh d (by rw [he]; simp [hd]); omega⟩)
      (by simp only [Nat.zero_add]; omega), Option.bind_some]
  simp only [finishScroll, Option.bind_eq_bind, Nat.zero_add, Nat.max_zero, if_true, Bool.false_eq_true, if_false]
  rw [plus_ok (by omega), Option.bind_some, plus_ok (by omega), Option.bind_some,
    plus_ok (by omega), Option.bind_some, plus_ok (by omega), Option.bind_some]
  rw [he] at hmost
  have hm : most outerHeight 0 (c :: rest) = most outerHeight (max 0 (outerHeight c)) rest := rfl
  rw [Nat.zero_max] at hm
  simp only [sat, Option.some.injEq, Prod.mk.injEq]
  simp only [Nat.zero_max]
  rw [hm] at hmost ⊢
  exact ⟨by omega, by omega⟩

/-! ### The layout -/

/-- In a column, the end of every child with its bottom margin. -/
theorem place_outer (a : Region) (vp : Viewport) (u : Rat) (cs : List LChild) (tms : List Rat) (y : Rat)
    (ht : ∀ t ∈ tms, 0 ≤ t) (hb : ∀ c ∈ cs, 0 ≤ Vertical.boxHeight c a vp u ∧ 0 ≤ mb c) (hl : tms.length = cs.length)
    (q : Placement) (hq : q ∈ Vertical.place a vp u y cs tms) :
    ∃ c ∈ cs, q.childIndex = c.index ∧ q.region.x = a.x + toI32 c.style.margin.left.value ∧
      q.region.width = Vertical.childWidth c a vp ∧
      ((q.region.y + q.region.height : Int) : Rat) + mb c ≤
        y + tms.sum + (cs.map (fun c => Vertical.boxHeight c a vp u)).sum + (cs.map mb).sum := by
  induction cs generalizing tms y with
  | nil => simp [Vertical.place] at hq
  | cons c cs ih =>
    obtain ⟨t, tms, rfl⟩ := List.exists_cons_of_length_eq_add_one hl
    have hl' : tms.length = cs.length := by simpa using hl
    have t0 := ht t (by simp)
    obtain ⟨b0, m0⟩ := hb c (by simp)
    have hts : 0 ≤ tms.sum := List.sum_nonneg (fun x hx => ht x (by simp [hx]))
    have hbs : 0 ≤ (cs.map (fun c => Vertical.boxHeight c a vp u)).sum := List.sum_nonneg (by
      intro x hx
      obtain ⟨d, hd, rfl⟩ := List.mem_map.1 hx
      exact (hb d (by simp [hd])).1)
    have hms : 0 ≤ (cs.map mb).sum := List.sum_nonneg (by
      intro x hx
      obtain ⟨d, hd, rfl⟩ := List.mem_map.1 hx
      exact (hb d (by simp [hd])).2)
    simp only [Vertical.place, List.mem_cons] at hq
    simp only [List.map_cons, List.sum_cons]
    rcases hq with rfl | hq
    · refine ⟨c, by simp, rfl, rfl, rfl, ?_⟩
      have l1 : ⌊y + t⌋ ≤ ⌊y + t + Vertical.boxHeight c a vp u⌋ := Int.floor_le_floor (by linarith)
      have l2 := Int.floor_le (y + t + Vertical.boxHeight c a vp u)
      have e : ⌊y + t⌋ + max (⌊y + t + Vertical.boxHeight c a vp u⌋ - ⌊y + t⌋) 0 =
        ⌊y + t + Vertical.boxHeight c a vp u⌋ := by omega
      simp only
      rw [e]
      linarith
    · obtain ⟨d, hd, h0, h1, h2, h3⟩ := ih _ _ (fun x hx => ht x (by simp [hx]))
        (fun d hd => hb d (by simp [hd])) hl' hq
      refine ⟨d, by simp [hd], h0, h1, h2, le_trans h3 ?_⟩
      have : c.style.margin.bottom.value = mb c := rfl
      linarith

/-- The rows of a column with all margins. -/
theorem column_total (c : LChild) (rest : List LChild) (hs : ∀ d ∈ c :: rest, Sized d) :
    (Vertical.topMargins none (c :: rest)).sum + ((c :: rest).map fun c => (c.desiredHeight : Rat)).sum +
        ((c :: rest).map mb).sum = ((T c + c.desiredHeight + gapsH (B c) rest + lastOf B (B c) rest : Nat) : Rat) := by
  have t1 := Vertical.totalMargin_eq (c :: rest)
  unfold Vertical.totalMargin at t1
  have t2 : ((c :: rest).map (fun c => c.style.margin.bottom.value)).sum = ((c :: rest).map mb).sum := rfl
  rw [t2] at t1
  have t3 := space_gaps c rest hs
  have t4 : marginSpace mt mb (c :: rest) = mt c + marginSpace.go mt mb c rest := rfl
  have t5 : ((c :: rest).map fun c => (c.desiredHeight : Rat)).sum =
      c.desiredHeight + (rest.map fun c => (c.desiredHeight : Rat)).sum := by simp
  rw [sized_mt (hs c (by simp))] at t4
  push_cast at t3 ⊢
  linarith

theorem row_total (c : LChild) (rest : List LChild) (hs : ∀ d ∈ c :: rest, Sized d) :
    (Horizontal.leftMargins none (c :: rest)).sum + ((c :: rest).map fun c => (c.desiredWidth : Int)).sum +
        ((c :: rest).map mr).sum = ((L c + c.desiredWidth + gapsW (R c) rest + lastOf R (R c) rest : Nat) : Int) := by
  have t1 := Horizontal.totalMargin_eq (c :: rest)
  unfold Horizontal.totalMargin at t1
  have t2 : ((c :: rest).map (fun c => toI32 c.style.margin.right.value)).sum = ((c :: rest).map mr).sum := rfl
  rw [t2] at t1
  have t3 := space_gapsW c rest hs
  have t4 : marginSpace ml mr (c :: rest) = ml c + marginSpace.go ml mr c rest := rfl
  have t5 : ((c :: rest).map fun c => (c.desiredWidth : Int)).sum =
      c.desiredWidth + (rest.map fun c => (c.desiredWidth : Int)).sum := by simp
  rw [sized_ml (hs c (by simp))] at t4
  push_cast at t3 ⊢
  linarith

/-- In a row, the end of every child with its margins. -/
theorem row_outer (a : Region) (vp : Viewport) (cs : List LChild) (lms : List Int) (x : Int)
    (hs : ∀ c ∈ cs, Sized c) (ht : ∀ t ∈ lms, 0 ≤ t) (hl : lms.length = cs.length)
    (hh : ∀ c ∈ cs, (outerHeight c : Int) ≤ a.height)
    (q : Placement) (hq : q ∈ Horizontal.place a vp x cs (cs.map fun c => (c.desiredWidth : Int)) lms) :
    ∃ c ∈ cs, q.childIndex = c.index ∧
      q.region.x + q.region.width + mr c ≤ x + lms.sum + (cs.map fun c => (c.desiredWidth : Int)).sum + (cs.map mr).sum ∧
      q.region.y + q.region.height + B c ≤ a.y + a.height := by
  induction cs generalizing lms x with
  | nil => simp [Horizontal.place] at hq
  | cons c cs ih =>
    obtain ⟨t, lms, rfl⟩ := List.exists_cons_of_length_eq_add_one hl
    have hl' : lms.length = cs.length := by simpa using hl
    have t0 := ht t (by simp)
    have hts : 0 ≤ lms.sum := List.sum_nonneg (fun x hx => ht x (by simp [hx]))
    have hws : 0 ≤ (cs.map fun c => (c.desiredWidth : Int)).sum := List.sum_nonneg (by
      intro x hx
      obtain ⟨d, hd, rfl⟩ := List.mem_map.1 hx
      exact Int.natCast_nonneg _)
    have hms : 0 ≤ (cs.map mr).sum := List.sum_nonneg (by
      intro x hx
      obtain ⟨d, hd, rfl⟩ := List.mem_map.1 hx
      rw [sized_mr (hs d (by simp [hd]))]; exact Int.natCast_nonneg _)
    obtain ⟨f1, f2, _, _⟩ := (hs c (by simp)).free
    simp only [List.map_cons, Horizontal.place, List.mem_cons] at hq
    simp only [List.map_cons, List.sum_cons]
    have ecw : constrain c.style.maxWidth c.style.minWidth a.width a vp (c.desiredWidth : Int) = c.desiredWidth := by
      simp [constrain, f1, f2]
    rw [ecw] at hq
    rcases hq with rfl | hq
    · have hg := sized_height (hs c (by simp)) a vp c.desiredWidth (hh c (by simp))
      have et := (whole_i32 (hs c (by simp)).margins.1).1
      have hT : T c = toU16 c.style.margin.top.value := rfl
      refine ⟨c, by simp, rfl, ?_, ?_⟩
      · simp only; omega
      · simp only at hg ⊢; omega
    · have er : toI32 c.style.margin.right.value = mr c := rfl
      obtain ⟨d, hd, h0, h1, h2⟩ := ih _ _ (fun d hd => hs d (by simp [hd])) (fun x hx => ht x (by simp [hx])) hl'
        (fun d hd => hh d (by simp [hd])) hq
      exact ⟨d, by simp [hd], h0, by omega, h2⟩

/-! ### The scrollbars -/

theorem virtual_fold (b : Body) (base : Region) (ps : List Placement) (acc : Int × Int) (w h : Int)
    (ha : acc.1 ≤ w ∧ acc.2 ≤ h)
    (hp : ∀ p ∈ ps, (p.region.x - base.x) + p.region.width + b.marginRight p.childIndex ≤ w ∧
      (p.region.y - base.y) + p.region.height + b.marginBottom p.childIndex ≤ h) :
    let r := ps.foldl (fun (acc : Int × Int) p =>
      let w := (p.region.x - base.x) + p.region.width + b.marginRight p.childIndex
      let h := (p.region.y - base.y) + p.region.height + b.marginBottom p.childIndex
      (if w > acc.1 then w else acc.1, if h > acc.2 then h else acc.2)) acc
    (r.1 ≤ w ∧ r.2 ≤ h) ∧ (acc.1 ≤ r.1 ∧ acc.2 ≤ r.2) ∧
    ∀ p ∈ ps, (p.region.x - base.x) + p.region.width + b.marginRight p.childIndex ≤ r.1 ∧
      (p.region.y - base.y) + p.region.height + b.marginBottom p.childIndex ≤ r.2 := by
  induction ps generalizing acc with
  | nil => exact ⟨ha, ⟨le_refl _, le_refl _⟩, by simp⟩
  | cons p ps ih =>
    obtain ⟨p1, p2⟩ := hp p (by simp)
    simp only [List.foldl_cons]
    generalize hn : ((if p.region.x - base.x + p.region.width + b.marginRight p.childIndex > acc.1 then
      p.region.x - base.x + p.region.width + b.marginRight p.childIndex else acc.1,
      if p.region.y - base.y + p.region.height + b.marginBottom p.childIndex > acc.2 then
      p.region.y - base.y + p.region.height + b.marginBottom p.childIndex else acc.2) : Int × Int) = nacc
    have n1 : nacc.1 ≤ w ∧ acc.1 ≤ nacc.1 ∧ p.region.x - base.x + p.region.width + b.marginRight p.childIndex ≤ nacc.1 := by
      rw [← hn]; simp only; split <;> omega
    have n2 : nacc.2 ≤ h ∧ acc.2 ≤ nacc.2 ∧ p.region.y - base.y + p.region.height + b.marginBottom p.childIndex ≤ nacc.2 := by
      rw [← hn]; simp only; split <;> omega
    obtain ⟨h1, h2, h3⟩ := ih nacc ⟨n1.1, n2.1⟩ (fun q hq => hp q (by simp [hq]))
    simp only at h1 h2 h3
    refine ⟨h1, ⟨by omega, by omega⟩, ?_⟩
    intro q hq
    rcases List.mem_cons.1 hq with rfl | hq
    · exact ⟨by omega, by omega⟩
    · exact h3 q hq

/-- Content that fits into the area without scrollbars is shown without scrollbars. -/
theorem plan_fits (s : Sheet) (b : Body) (r : Region) (vp : Viewport) (hx : s.overflowX ≠ .scroll)
    (hy : s.overflowY ≠ .scroll) (hg : s.stableGutter = false) (hr : 0 ≤ r.width ∧ 0 ≤ r.height)
    (hw : (virtualSize b (b.arrange r vp) r).1 ≤ r.width) (hh : (virtualSize b (b.arrange r vp) r).2 ≤ r.height) :
    plan s b r vp = ⟨r, b.arrange r vp, (virtualSize b (b.arrange r vp) r).1, (virtualSize b (b.arrange r vp) r).2, {}⟩ := by
  have hc : Scroller.contentRegion s r {} = r := by
    unfold Scroller.contentRegion
    simp only [hg, Bool.false_eq_true, false_and, or_self, if_false, Int.sub_zero]
    rw [max_eq_left hr.1, max_eq_left hr.2]
  have hn : Scroller.next s b r vp {} = {} := by
    unfold Scroller.next
    rw [hc]
    have e1 : Scroller.needs s.overflowY (virtualSize b (b.arrange r vp) r).2 r.height = false := by
      cases h : s.overflowY <;> simp_all [Scroller.needs]
    have e2 : Scroller.needs s.overflowX (virtualSize b (b.arrange r vp) r).1 r.width = false := by
      cases h : s.overflowX <;> simp_all [Scroller.needs]
    simp only [e1, e2]
  unfold Scroller.plan
  rw [Scroller.rounds]
  simp only [hn, hc, if_true]

/-- Every child knows its place among the children. -/
def Numbered (cs : List (Bool × LChild)) : Prop := ∀ (i : Nat) (c : Bool × LChild), cs[i]? = some c → c.2.index = i

theorem margins_at (keys : List String) (p : PStyle) (cs : List (Bool × LChild)) (hn : Numbered cs)
    (hs : ∀ c ∈ shown cs, Sized c) (c : LChild) (hc : c ∈ shown cs) :
    (scrolled keys p cs).marginRight c.index = R c ∧ (scrolled keys p cs).marginBottom c.index = B c := by
  have hm : (true, c) ∈ cs := by
    unfold shown at hc
    obtain ⟨⟨b, d⟩, h1, h2⟩ := List.mem_map.1 hc
    obtain ⟨h3, h4⟩ := List.mem_filter.1 h1
    simp only at h2 h4
    subst h2 h4
    exact h3
  obtain ⟨i, hi⟩ := List.mem_iff_getElem?.1 hm
  have := hn i _ hi
  simp only at this
  unfold scrolled
  simp only [this, hi]
  exact ⟨(whole_i32 (hs c hc).margins.2.1).1, (whole_i32 (hs c hc).margins.2.2.1).1⟩

/-- The margin before the first displayed child. -/
def leading (side : Spacing → Scalar) (cs : List (Bool × LChild)) : Nat :=
  match displayed cs with
  | [] => 0
  | c :: _ => toU16 (side c.style.margin).value

theorem size_none (layout : Kind) (ch : Chrome) (cs : List (Bool × LChild)) (he : shown cs = [])
    (hw : ch.border.1 + ch.padding.1 ≤ 65535) (hh : ch.border.2 + ch.padding.2 ≤ 65535) :
    scrollSize layout ch cs = some (ch.border.1 + ch.padding.1, ch.border.2 + ch.padding.2) := by
  unfold scrollSize
  rw [plus_ok hw, plus_ok hh, he, loopScroll]
  split
  · rfl
  · simp only [finishScroll, Option.bind_eq_bind, Option.bind_some]
    have e1 : plus 0 0 = some 0 := rfl
    rw [plus_ok hw, plus_ok hh]
    cases layout <;>
      simp only [e1, Option.bind_some, Bool.false_eq_true, if_false, Option.some.injEq, Prod.mk.injEq, sat, Nat.zero_add] <;>
      (try rw [plus_ok (show _ + 0 ≤ 65535 by omega)]) <;>
      (try simp only [Option.bind_some, Option.some.injEq, Prod.mk.injEq]) <;> exact ⟨by omega, by omega⟩

theorem virtual_nil (b : Body) (r : Region) : virtualSize b [] r = (0, 0) := rfl

/-- C179, columns: a vertical scrolling container of the size it asks for shows no scrollbars. Its content is smaller than
it by the top margin of the first child, and it is exactly as wide as the widest of its children. -/
theorem column_no_bars_partial (keys : List String) (p : PStyle) (ch : Chrome) (cs : List (Bool × LChild)) (s : Sheet)
    (x y : Int) (vp : Viewport) (hp : p.layout = .vertical ∧ p.layers = none ∧ p.alignH = .left ∧ p.alignV = .top)
    (ho : s.overflowX ≠ .scroll ∧ s.overflowY ≠ .scroll ∧ s.stableGutter = false) (hn : Numbered cs)
    (hs : ∀ c ∈ displayed cs, Sized c) (hc : ch.border.1 + ch.padding.1 ≤ 65535)
    (hw : ∀ c ∈ displayed cs, outerWidth c + ch.border.1 + ch.padding.1 ≤ 65535)
    (hh : leading (·.top) cs + ((displayed cs).map outerHeight).sum + ch.border.2 + ch.padding.2 ≤ 65535) :
    ∃ size, scrollSize .vertical ch cs = some size ∧
      let area := contentArea x y ch size
      let shown := plan s (scrolled keys p cs) area vp
      shown.show_ = {} ∧ shown.content = area ∧ shown.virtualHeight + leading (·.top) cs = area.height ∧
        (displayed cs ≠ [] → ∃ c ∈ displayed cs, (outerWidth c : Int) = area.width) := by
  unfold leading at hh ⊢
  rw [← shown_eq cs] at *
  have harr : ∀ a : Region, (scrolled keys p cs).arrange a vp = Vertical.arrange (shown cs) a vp := by
    intro a
    show arrangeLayers keys p (shown cs) a vp = _
    rw [arrange_flow keys p _ _ _ hp.2 hs]
    unfold runLayout
    rw [hp.1]
  cases he : shown cs with
  | nil =>
    rw [he] at hh
    simp only [List.map_nil, List.sum_nil, Nat.zero_add] at hh
    refine ⟨_, size_none .vertical ch cs he hc hh, ?_⟩
    intro area shown
    have hW : area.width = 0 := by
      show (((ch.border.1 + ch.padding.1 : Nat) : Int) - ch.border.1 - ch.padding.1) = 0
      push_cast; omega
    have hH : area.height = 0 := by
      show (((ch.border.2 + ch.padding.2 : Nat) : Int) - ch.border.2 - ch.padding.2) = 0
      push_cast; omega
    have hv : virtualSize (scrolled keys p cs) ((scrolled keys p cs).arrange area vp) area = (0, 0) := by
      rw [harr, he]; rfl
    have hplan := plan_fits s (scrolled keys p cs) area vp ho.1 ho.2.1 ho.2.2 ⟨by omega, by omega⟩
      (by rw [hv, hW]) (by rw [hv, hH])
    have : shown = _ := hplan
    rw [this, hv]
    exact ⟨rfl, rfl, by rw [hH]; rfl, by simp⟩
  | cons c rest =>
    rw [he] at hh
    simp only at hh
    have hT : T c = toU16 c.style.margin.top.value := rfl
    have hmost := most_spec outerWidth 0 (shown cs)
    refine ⟨_, size_column ch cs c rest he (fun d hd => (hs d hd).given) hw (by rw [he, hT]; exact hh), ?_⟩
    intro area out
    have hW : area.width = most outerWidth 0 (shown cs) := by
      show (((most outerWidth 0 (shown cs) + ch.border.1 + ch.padding.1 : Nat) : Int) - ch.border.1 - ch.padding.1) = _
      push_cast; omega
    obtain ⟨total, htot⟩ : ∃ n, n = T c + c.desiredHeight + gapsH (B c) rest + lastOf B (B c) rest := ⟨_, rfl⟩
    have hH : area.height = T c + total := by
      show (((T c + (T c + c.desiredHeight + gapsH (B c) rest + lastOf B (B c) rest) + ch.border.2 + ch.padding.2 : Nat) : Int) -
        ch.border.2 - ch.padding.2) = _
      rw [← htot]; push_cast; omega
    have hbox : ((shown cs).map fun c => Vertical.boxHeight c area vp (Vertical.fractionUnit (shown cs) area vp)) =
        (shown cs).map fun c => (c.desiredHeight : Rat) :=
      List.map_congr_left fun c hc => sized_box (hs c hc) _ _ _
    have hend : (Vertical.topMargins none (shown cs)).sum + ((shown cs).map fun c => (c.desiredHeight : Rat)).sum +
        ((shown cs).map mb).sum = (total : Rat) := by
      rw [he, htot]; exact column_total c rest (fun d hd => hs d (by rw [he]; exact hd))
    have hb : ∀ d ∈ shown cs, 0 ≤ Vertical.boxHeight d area vp (Vertical.fractionUnit (shown cs) area vp) ∧ 0 ≤ mb d := by
      intro d hd
      rw [sized_box (hs d hd), sized_mb (hs d hd)]
      exact ⟨by positivity, by positivity⟩
    have hbound : ∀ q ∈ (scrolled keys p cs).arrange area vp,
        (q.region.x - area.x) + q.region.width + (scrolled keys p cs).marginRight q.childIndex ≤ area.width ∧
        (q.region.y - area.y) + q.region.height + (scrolled keys p cs).marginBottom q.childIndex ≤ total := by
      intro q hq
      rw [harr] at hq
      obtain ⟨d, hd, h0, h1, h2, h3⟩ := place_outer area vp _ (shown cs) _ _ (topMargins_nonneg none _ (by
        intro c hc; rw [sized_mt (hs c hc)]; positivity)) hb (Vertical.topMargins_length _ _) q hq
      rw [hbox, sized_mb (hs d hd)] at h3
      have h4 : ((q.region.y + q.region.height : Int) : Rat) + (B d : Nat) ≤ ((area.y + total : Int) : Rat) := by
        push_cast at h3 ⊢; linarith
      have h5 : q.region.y + q.region.height + B d ≤ area.y + total := by exact_mod_cast h4
      have hwid := sized_width (hs d hd) area vp (by
        have := hmost.2.1 d hd
        rw [hW]; omega)
      have el := (whole_i32 (hs d hd).margins.2.2.2).1
      rw [el] at h1
      have : L d = toU16 d.style.margin.left.value := rfl
      obtain ⟨m1, m2⟩ := margins_at keys p cs hn hs d hd
      rw [h0, m1, m2, h1, h2]
      exact ⟨by omega, by omega⟩
    obtain ⟨v1, _, v3⟩ := virtual_fold (scrolled keys p cs) area ((scrolled keys p cs).arrange area vp) (0, 0) area.width total
      ⟨by rw [hW]; exact Int.natCast_nonneg _, Int.natCast_nonneg _⟩ hbound
    have hplan := plan_fits s (scrolled keys p cs) area vp ho.1 ho.2.1 ho.2.2
      ⟨by rw [hW]; exact Int.natCast_nonneg _, by omega⟩ v1.1 (le_trans v1.2 (by omega))
    have heq : out = _ := hplan
    rw [heq]
    refine ⟨rfl, rfl, ?_, ?_⟩
    · have hlow : (total : Int) ≤ (virtualSize (scrolled keys p cs) ((scrolled keys p cs).arrange area vp) area).2 := by
        have hlen : (Vertical.arrange (shown cs) area vp).length = (shown cs).length := by
          have := congrArg List.length (Vertical.arrange_index (shown cs) area vp)
          simpa using this
        obtain ⟨q, hq⟩ : ∃ q, (Vertical.arrange (shown cs) area vp).getLast? = some q := by
          cases h : (Vertical.arrange (shown cs) area vp).getLast? with
          | some q => exact ⟨q, rfl⟩
          | none => rw [List.getLast?_eq_none_iff] at h; rw [h, he] at hlen; simp at hlen
        obtain ⟨d, hd⟩ : ∃ d, (shown cs).getLast? = some d := by
          cases h : (shown cs).getLast? with
          | some q => exact ⟨q, rfl⟩
          | none => rw [List.getLast?_eq_none_iff] at h; rw [h] at he; simp at he
        have hdm : d ∈ shown cs := List.mem_of_getLast? hd
        have hlast := Vertical.place_last area vp _ (shown cs) _ _ (Vertical.topMargins_length none _)
          (fun c hc => (hb c hc).1) d q hd hq
        rw [hbox] at hlast
        have e : (area.y : Rat) + (Vertical.topMargins none (shown cs)).sum +
            ((shown cs).map fun c => (c.desiredHeight : Rat)).sum + ((shown cs).map mb).sum - mb d =
            ((area.y + total - B d : Int) : Rat) := by rw [sized_mb (hs d hdm)]; push_cast; linarith
        rw [e, Int.floor_intCast] at hlast
        have hi : q.childIndex = d.index := by
          have hz := Vertical.arrange_index (shown cs) area vp
          have := congrArg List.getLast? hz
          rw [List.getLast?_map, List.getLast?_map, hq, hd] at this
          simpa using this
        have := (v3 q (by rw [harr]; exact List.mem_of_getLast? hq)).2
        rw [hi, (margins_at keys p cs hn hs d hdm).2] at this
        exact le_trans (by omega) this
      have hup : (virtualSize (scrolled keys p cs) ((scrolled keys p cs).arrange area vp) area).2 ≤ total := v1.2
      show (virtualSize (scrolled keys p cs) ((scrolled keys p cs).arrange area vp) area).2 + (toU16 c.style.margin.top.value : Nat) = _
      rw [hH, hT]; omega
    · intro _
      rcases hmost.2.2 with h | ⟨d, hd, h⟩
      · refine ⟨c, by simp, ?_⟩
        have := hmost.2.1 c (by rw [he]; simp)
        rw [hW]; omega
      · exact ⟨d, by rw [← he]; exact hd, by rw [hW, h]⟩

/-- C179, rows: a horizontal scrolling container of the size it asks for shows no scrollbars. Its content is smaller than
it by the left margin of the first child, and it is exactly as high as the highest of its children. -/
theorem row_no_bars_partial (keys : List String) (p : PStyle) (ch : Chrome) (cs : List (Bool × LChild)) (s : Sheet)
    (x y : Int) (vp : Viewport) (hp : p.layout = .horizontal ∧ p.layers = none ∧ p.alignH = .left ∧ p.alignV = .top)
    (ho : s.overflowX ≠ .scroll ∧ s.overflowY ≠ .scroll ∧ s.stableGutter = false) (hn : Numbered cs)
    (hs : ∀ c ∈ displayed cs, Sized c) (hc : ch.border.2 + ch.padding.2 ≤ 65535)
    (hh : ∀ c ∈ displayed cs, outerHeight c + ch.border.2 + ch.padding.2 ≤ 65535)
    (hw : leading (·.left) cs + ((displayed cs).map outerWidth).sum + ch.border.1 + ch.padding.1 ≤ 65535) :
    ∃ size, scrollSize .horizontal ch cs = some size ∧
      let area := contentArea x y ch size
      let shown := plan s (scrolled keys p cs) area vp
      shown.show_ = {} ∧ shown.content = area ∧ shown.virtualWidth + leading (·.left) cs = area.width ∧
        (displayed cs ≠ [] → ∃ c ∈ displayed cs, (outerHeight c : Int) = area.height) := by
  unfold leading at hw ⊢
  rw [← shown_eq cs] at *
  have harr : ∀ a : Region, (scrolled keys p cs).arrange a vp = Horizontal.place a vp a.x (shown cs)
      ((shown cs).map fun c => (c.desiredWidth : Int)) (Horizontal.leftMargins none (shown cs)) := by
    intro a
    show arrangeLayers keys p (shown cs) a vp = _
    rw [arrange_flow keys p _ _ _ hp.2 hs]
    unfold runLayout
    rw [hp.1, ← raw_whole (shown cs) a vp hs]
    exact Horizontal.arrange_eq _ _ _
  cases he : shown cs with
  | nil =>
    rw [he] at hw
    simp only [List.map_nil, List.sum_nil, Nat.zero_add] at hw
    refine ⟨_, size_none .horizontal ch cs he hw hc, ?_⟩
    intro area shown
    have hW : area.width = 0 := by
      show (((ch.border.1 + ch.padding.1 : Nat) : Int) - ch.border.1 - ch.padding.1) = 0
      push_cast; omega
    have hH : area.height = 0 := by
      show (((ch.border.2 + ch.padding.2 : Nat) : Int) - ch.border.2 - ch.padding.2) = 0
      push_cast; omega
    have hv : virtualSize (scrolled keys p cs) ((scrolled keys p cs).arrange area vp) area = (0, 0) := by
      rw [harr, he]; rfl
    have hplan := plan_fits s (scrolled keys p cs) area vp ho.1 ho.2.1 ho.2.2 ⟨by omega, by omega⟩
      (by rw [hv, hW]) (by rw [hv, hH])
    have : shown = _ := hplan
    rw [this, hv]
    exact ⟨rfl, rfl, by rw [hW]; rfl, by simp⟩
  | cons c rest =>
    rw [he] at hw
    simp only at hw
    have hL : L c = toU16 c.style.margin.left.value := rfl
    have hmost := most_spec outerHeight 0 (shown cs)
    refine ⟨_, size_row ch cs c rest he (fun d hd => (hs d hd).given) hh (by rw [he, hL]; exact hw), ?_⟩
    intro area out
    have hH : area.height = most outerHeight 0 (shown cs) := by
      show (((most outerHeight 0 (shown cs) + ch.border.2 + ch.padding.2 : Nat) : Int) - ch.border.2 - ch.padding.2) = _
      push_cast; omega
    obtain ⟨total, htot⟩ : ∃ n, n = L c + c.desiredWidth + gapsW (R c) rest + lastOf R (R c) rest := ⟨_, rfl⟩
    have hW : area.width = L c + total := by
      show (((L c + (L c + c.desiredWidth + gapsW (R c) rest + lastOf R (R c) rest) + ch.border.1 + ch.padding.1 : Nat) : Int) -
        ch.border.1 - ch.padding.1) = _
      rw [← htot]; push_cast; omega
    have hend : (Horizontal.leftMargins none (shown cs)).sum + ((shown cs).map fun c => (c.desiredWidth : Int)).sum +
        ((shown cs).map mr).sum = total := by
      rw [he, htot]; exact row_total c rest (fun d hd => hs d (by rw [he]; exact hd))
    have hbound : ∀ q ∈ (scrolled keys p cs).arrange area vp,
        (q.region.x - area.x) + q.region.width + (scrolled keys p cs).marginRight q.childIndex ≤ total ∧
        (q.region.y - area.y) + q.region.height + (scrolled keys p cs).marginBottom q.childIndex ≤ area.height := by
      intro q hq
      rw [harr] at hq
      obtain ⟨d, hd, h0, h1, h2⟩ := row_outer area vp (shown cs) _ area.x hs (leftMargins_nonneg none _ (by
        intro c hc; rw [sized_ml (hs c hc)]; exact Int.natCast_nonneg _)) (Horizontal.leftMargins_length _ _) (by
        intro d hd
        have := hmost.2.1 d hd
        rw [hH]; omega) q hq
      rw [sized_mr (hs d hd)] at h1
      obtain ⟨m1, m2⟩ := margins_at keys p cs hn hs d hd
      rw [h0, m1, m2]
      exact ⟨by omega, by omega⟩
    obtain ⟨v1, _, v3⟩ := virtual_fold (scrolled keys p cs) area ((scrolled keys p cs).arrange area vp) (0, 0) total area.height
      ⟨Int.natCast_nonneg _, by rw [hH]; exact Int.natCast_nonneg _⟩ hbound
    have hplan := plan_fits s (scrolled keys p cs) area vp ho.1 ho.2.1 ho.2.2
      ⟨by omega, by rw [hH]; exact Int.natCast_nonneg _⟩ (le_trans v1.1 (by omega)) v1.2
    have heq : out = _ := hplan
    rw [heq]
    refine ⟨rfl, rfl, ?_, ?_⟩
    · have hlow : (total : Int) ≤ (virtualSize (scrolled keys p cs) ((scrolled keys p cs).arrange area vp) area).1 := by
        have hz : ((scrolled keys p cs).arrange area vp).map (·.childIndex) = (shown cs).map (·.index) := by
          rw [harr]
          exact Horizontal.place_index area vp (shown cs) _ _ area.x (by simp) (Horizontal.leftMargins_length _ _)
        have hlen : ((scrolled keys p cs).arrange area vp).length = (shown cs).length := by
          have := congrArg List.length hz
          simpa using this
        obtain ⟨q, hq⟩ : ∃ q, ((scrolled keys p cs).arrange area vp).getLast? = some q := by
          cases h : ((scrolled keys p cs).arrange area vp).getLast? with
          | some q => exact ⟨q, rfl⟩
          | none => rw [List.getLast?_eq_none_iff] at h; rw [h, he] at hlen; simp at hlen
        obtain ⟨d, hd⟩ : ∃ d, (shown cs).getLast? = some d := by
          cases h : (shown cs).getLast? with
          | some q => exact ⟨q, rfl⟩
          | none => rw [List.getLast?_eq_none_iff] at h; rw [h] at he; simp at he
        have hdm : d ∈ shown cs := List.mem_of_getLast? hd
        have hlast := row_last area vp (shown cs) _ area.x hs (Horizontal.leftMargins_length none _) d q hd (by
          rw [← harr]; exact hq)
        rw [sized_mr (hs d hdm)] at hlast
        have hi : q.childIndex = d.index := by
          have := congrArg List.getLast? hz
          rw [List.getLast?_map, List.getLast?_map, hq, hd] at this
          simpa using this
        have := (v3 q (List.mem_of_getLast? hq)).1
        rw [hi, (margins_at keys p cs hn hs d hdm).1] at this
        exact le_trans (by omega) this
      have hup : (virtualSize (scrolled keys p cs) ((scrolled keys p cs).arrange area vp) area).1 ≤ total := v1.1
      show (virtualSize (scrolled keys p cs) ((scrolled keys p cs).arrange area vp) area).1 + (toU16 c.style.margin.left.value : Nat) = _
      rw [hW, hL]; omega
    · intro _
      rcases hmost.2.2 with h | ⟨d, hd, h⟩
      · refine ⟨c, by simp, ?_⟩
        have := hmost.2.1 c (by rw [he]; simp)
        rw [hH]; omega
      · exact ⟨d, by rw [← he]; exact hd, by rw [hH, h]⟩

/-- A child at a place. -/
def at_ (i : Nat) (c : LChild) : LChild := { c with index := i }

def aRow : List (Bool × LChild) := [(true, block 5 2 oneCell), (false, at_ 1 (text 90)), (true, at_ 2 (block 8 1500 oneCell))]

/-- The hypotheses can be met, with a hidden child and one of 1500 rows; the size is what the children need, and one more
for the margin before the first. -/
example : Numbered aRow ∧ (∀ c ∈ displayed aRow, Sized c) ∧
    (∀ c ∈ displayed aRow, outerWidth c + 2 ≤ 65535 ∧ outerHeight c + 2 ≤ 65535) ∧
    leading (·.top) aRow + ((displayed aRow).map outerHeight).sum + 2 ≤ 65535 ∧
    leading (·.left) aRow + ((displayed aRow).map outerWidth).sum + 2 ≤ 65535 ∧
    scrollSize .vertical { border := (2, 2) } aRow = some (12, 1508) ∧
    scrollSize .horizontal { border := (2, 2) } aRow = some (19, 1504) := by
  refine ⟨?_, ?_, by decide +kernel, by decide +kernel, by decide +kernel, by decide +kernel, by decide +kernel⟩
  · intro i c h
    match i, h with
    | 0, h => simp only [aRow, List.getElem?_cons_zero, Option.some.injEq] at h; subst h; rfl
    | 1, h => simp only [aRow, List.getElem?_cons_succ, List.getElem?_cons_zero, Option.some.injEq] at h; subst h; rfl
    | 2, h => simp only [aRow, List.getElem?_cons_succ, List.getElem?_cons_zero, Option.some.injEq] at h; subst h; rfl
    | n + 3, h => simp [aRow] at h
  · intro c hc
    have : c = block 5 2 oneCell ∨ c = at_ 2 (block 8 1500 oneCell) := by simpa [aRow, displayed] using hc
    rcases this with rfl | rfl
    · exact block_sized 5 2 (by decide) (by decide)
    · have h := block_sized 8 1500 (by decide) (by decide)
      exact ⟨h.width, h.height, h.borderBox, h.free, h.given, h.margins, h.flow⟩

/-- C179 fails for margins: the margin before the first child is counted twice, so a row stays empty. -/
theorem leading_margin_counterexample :
    let cs := [(true, block 5 2 oneCell)]
    scrollSize .vertical {} cs = some (7, 5) ∧ intrinsic .vertical {} cs = (7, 4) ∧
      (plan {} (scrolled [] {} cs) (contentArea 0 0 {} (7, 5)) ⟨80, 24⟩).virtualHeight = 4 := by
  decide +kernel

/-- C179 fails for a stable gutter: the room for the vertical bar is not asked for, so that the content does not fit and a
horizontal bar appears. -/
theorem gutter_counterexample :
    let cs := [(true, block 5 2)]
    scrollSize .vertical {} cs = some (5, 2) ∧
      (plan { stableGutter := true } (scrolled [] {} cs) (contentArea 0 0 {} (5, 2)) ⟨80, 24⟩).show_.h = true := by
  decide +kernel

/-- C179 fails for grids, which ask for the size of the largest child: three children of 10 cells get 10 cells. -/
theorem scroll_grid_counterexample :
    let cs := [(true, block 5 2), (true, at_ 1 (block 5 2)), (true, at_ 2 (block 5 2))]
    ∃ size, scrollSize .grid {} cs = some size ∧
      size.1 * size.2 < ((displayed cs).map fun c => c.desiredWidth * c.desiredHeight).sum :=
  ⟨(5, 2), by decide +kernel, by decide +kernel⟩

/-- C179 fails for long content: the sum of the heights overflows. -/
theorem scroll_overflow_counterexample :
    scrollSize .vertical {} [(true, block 5 40000), (true, at_ 1 (block 5 40000))] = none := by
  decide +kernel

end Textual.Layout.Intrinsic
