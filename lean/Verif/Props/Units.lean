import Mathlib.Tactic.Common
import Mathlib.Tactic.NormNum
import Verif.Spec.Units
import Verif.Model.Arrange
import Verif.Props.Horizontal
import Verif.Props.Vertical

/-! C188: a width or height is the one that is written, in its unit. -/

namespace Textual.Layout.Units

open Textual.Layout

theorem toI32_about {q : Rat} (h : Modest q) : About (toI32 q) q := by
  obtain ⟨h0, h1⟩ := h
  have hf : (0 : Int) ≤ ⌊q⌋ := Int.floor_nonneg.2 h0
  have hl : ⌊q⌋ ≤ 2147483647 := by
    have := Int.floor_le_floor h1
    simpa using this
  have e : toI32 q = ⌊q⌋ := by
    unfold toI32
    rw [if_pos h0]
    omega
  rw [e]
  have := Int.floor_le q
  have := Int.lt_floor_add_one q
  constructor <;> linarith

theorem round_about {q : Rat} (h : Modest q) :
    About (max (-2147483648) (min 2147483647 (roundHalfAway q))) q := by
  obtain ⟨h0, h1⟩ := h
  unfold roundHalfAway
  rw [if_pos h0]
  have a1 := Int.floor_le (q + 1 / 2)
  have a2 := Int.lt_floor_add_one (q + 1 / 2)
  have hf : (0 : Int) ≤ ⌊q + 1 / 2⌋ := Int.floor_nonneg.2 (by linarith)
  have hl : ⌊q + 1 / 2⌋ ≤ 2147483647 := by
    have : ⌊q + 1 / 2⌋ < 2147483648 := by
      rw [Int.floor_lt]; push_cast; linarith
    omega
  have e : max (-2147483648) (min 2147483647 ⌊q + 1 / 2⌋) = ⌊q + 1 / 2⌋ := by omega
  rw [e]
  constructor <;> linarith

theorem about_add {n : Int} {q : Rat} (k : Int) (h : About n q) : About (n + k) (q + k) := by
  obtain ⟨h1, h2⟩ := h
  constructor <;> push_cast <;> linarith

theorem about_nonneg {n : Int} {q : Rat} (h : About n q) (h0 : 0 ≤ q) : About (max n 0) q := by
  obtain ⟨h1, h2⟩ := h
  have : 0 ≤ n := by
    have : ((-1 : Int) : Rat) < n := by push_cast; linarith
    have := Int.cast_lt.1 this
    omega
  rw [max_eq_left this]
  exact ⟨h1, h2⟩

/-! ### Rows -/

theorem fixedWidths_at (rem : Fraction) (ws : List Horizontal.Want) (hc : rem.Canonical) (h0 : 0 ≤ rem.toRat)
    (h1 : rem.toRat < 1) (hw : ∀ f, .fixed f ∈ ws → f.Canonical) (i : Nat) (f : Fraction)
    (hi : ws[i]? = some (.fixed f)) :
    ∃ n, (Horizontal.fixedWidths rem ws)[i]? = some (some n) ∧ About n f.toRat := by
  induction ws generalizing rem i with
  | nil => simp at hi
  | cons w ws ih =>
    have hws : ∀ g, .fixed g ∈ ws → g.Canonical := fun g hg => hw g (by simp [hg])
    cases w with
    | fixed g =>
      have hg := hw g (by simp)
      have hcan : (g.add rem).Canonical := Fraction.new_canonical _ _
      obtain ⟨s1, s2, s3⟩ := Fraction.fract_spec hcan
      cases i with
      | zero =>
        simp at hi
        subst hi
        refine ⟨(g.add rem).floor, by simp [Horizontal.fixedWidths], ?_⟩
        have hfl := Fraction.floor_toRat hcan
        have hadd := Fraction.add_toRat hg hc
        rw [hfl, hadd]
        have := Int.floor_le (g.toRat + rem.toRat)
        have := Int.lt_floor_add_one (g.toRat + rem.toRat)
        constructor <;> linarith
      | succ i =>
        obtain ⟨n, hn, ha⟩ := ih _ s1 s3.1 s3.2 hws i (by simpa using hi)
        exact ⟨n, by simpa [Horizontal.fixedWidths] using hn, ha⟩
    | fr v =>
      cases i with
      | zero => simp at hi
      | succ i =>
        obtain ⟨n, hn, ha⟩ := ih _ hc h0 h1 hws i (by simpa using hi)
        exact ⟨n, by simpa [Horizontal.fixedWidths] using hn, ha⟩

theorem place_width_at (a : Region) (vp : Viewport) (cs : List LChild) (ws lms : List Int) (x : Int) (i : Nat)
    (c : LChild) (p : Placement) (w : Int) (hc : cs[i]? = some c) (hw : ws[i]? = some w)
    (hp : (Horizontal.place a vp x cs ws lms)[i]? = some p) :
    p.region.width = constrain c.style.maxWidth c.style.minWidth a.width a vp w ∧
      p.region.height =
        (let h := constrain c.style.maxHeight c.style.minHeight a.height a vp
            (Horizontal.baseHeight c a p.region.width)
         if Horizontal.autoHeight c.style then h
         else max (h - toI32 c.style.margin.top.value - toI32 c.style.margin.bottom.value) 0) := by
  induction cs generalizing ws lms x i with
  | nil => simp at hc
  | cons c' cs ih =>
    cases ws with
    | nil => simp at hw
    | cons w' ws =>
      cases lms with
      | nil => simp [Horizontal.place] at hp
      | cons l lms =>
        cases i with
        | zero =>
          simp [Horizontal.place] at hc hp hw
          subst hc hp hw
          exact ⟨rfl, rfl⟩
        | succ i =>
          exact ih ws lms _ i (by simpa using hc) (by simpa using hw) (by simpa [Horizontal.place] using hp)

theorem rawWidths_at (cs : List LChild) (a : Region) (vp : Viewport) (i : Nat) (c : LChild) (f : Fraction)
    (hc : cs[i]? = some c) (hf : Horizontal.want c a vp = .fixed f) :
    ∃ n, (Horizontal.rawWidths cs a vp)[i]? = some n ∧ About n f.toRat := by
  have hz : Fraction.ZERO.toRat = 0 := by simp [Fraction.ZERO, Fraction.toRat]
  have hi : (cs.map (fun c => Horizontal.want c a vp))[i]? = some (.fixed f) := by
    simp [hc, hf]
  obtain ⟨n, hn, ha⟩ := fixedWidths_at Fraction.ZERO (cs.map (fun c => Horizontal.want c a vp))
    (by unfold Fraction.Canonical; decide) (by rw [hz]) (by rw [hz]; exact one_pos)
    (by
      intro g hg
      obtain ⟨d, -, hd⟩ := List.mem_map.1 hg
      exact (Horizontal.want_exact d a vp g hd).1) i f hi
  refine ⟨n, ?_, ha⟩
  have hlen : i < (Horizontal.frWidths (Horizontal.remainingForFr a
      (Horizontal.fixedWidths Fraction.ZERO (cs.map (fun c => Horizontal.want c a vp))) cs)
      (cs.map (fun c => Horizontal.want c a vp))).length := by
    rw [Horizontal.frWidths_length]
    exact (List.getElem?_eq_some_iff.1 hi).1
  unfold Horizontal.rawWidths
  rw [List.getElem?_zipWith, hn, List.getElem?_eq_getElem hlen]
  rfl

theorem round_thousandths {v : Rat} {k : Int} (h : v * 1000 = k) : roundHalfAway (v * 1000) = k := by
  rw [h]
  unfold roundHalfAway
  split
  · rw [Int.floor_eq_iff]; constructor <;> linarith
  · rw [Int.ceil_eq_iff]; constructor <;> linarith

/-- C188 in a row: a child without limits of the width is as wide as its style says (in cells, parts of the
container or parts of the screen, with or without the border), to less than a cell; a percentage counts with three
decimals. -/
theorem row_width (cs : List LChild) (a : Region) (vp : Viewport) (i : Nat) (c : LChild) (p : Placement) (w : Scalar)
    (q : Rat) (hc : cs[i]? = some c) (hp : (Horizontal.arrange cs a vp)[i]? = some p) (hfree : FreeWidth c)
    (hw : c.style.width = some w) (hm : Modest w.value) (hk : ∃ k : Int, w.value * 1000 = k)
    (hq : c.style.meantWidth a vp = some q) : About p.region.width q := by
  obtain ⟨v, u⟩ := w
  obtain ⟨k, hk⟩ := hk
  have hfix : ∃ f, Horizontal.want c a vp = .fixed f := by
    unfold LStyle.meantWidth Scalar.meant at hq
    simp only [Horizontal.want, hw]
    rw [hw] at hq
    cases u <;> simp at hq ⊢
  obtain ⟨f, hf⟩ := hfix
  obtain ⟨n, hn, ha⟩ := rawWidths_at cs a vp i c f hc hf
  rw [Horizontal.arrange_eq] at hp
  have hpw := (place_width_at a vp cs _ _ _ i c p n hc hn hp).1
  rw [hfree.1, hfree.2] at hpw
  simp only [constrain] at hpw
  rw [hpw]
  obtain ⟨-, he⟩ := Horizontal.want_exact c a vp f hf
  simp only at hk hm
  have hr := round_thousandths hk
  have hv : ((roundHalfAway (v * 1000) : Int) : Rat) / 1000 = v := by rw [hr, ← hk]; ring
  by_cases hcell : u = .cells
  · subst hcell
    -- whole cells
    have hfe : f.toRat = (toI32 v : Rat) + (if c.style.contentBox then (horizontalChrome c.style : Rat) else 0) := by
      rw [he]; unfold rowExact; rw [hw]
    unfold LStyle.meantWidth Scalar.meant at hq
    rw [hw] at hq
    simp at hq
    have e : ((n : Int) : Rat) = f.toRat := by
      have : f.toRat = ((toI32 v + (if c.style.contentBox then horizontalChrome c.style else 0) : Int) : Rat) := by
        rw [hfe]; split <;> push_cast <;> ring
      rw [this] at ha ⊢
      obtain ⟨a1, a2⟩ := ha
      have b1 : toI32 v + (if c.style.contentBox then horizontalChrome c.style else 0) - 1 < n := by
        have : (((toI32 v + (if c.style.contentBox then horizontalChrome c.style else 0) - 1 : Int)) : Rat) < n := by
          push_cast at a1 ⊢; linarith
        exact_mod_cast this
      have b2 : n < toI32 v + (if c.style.contentBox then horizontalChrome c.style else 0) + 1 := by
        have : (n : Rat) < ((toI32 v + (if c.style.contentBox then horizontalChrome c.style else 0) + 1 : Int) : Rat) := by
          push_cast at a2 ⊢; linarith
        exact_mod_cast this
      congr 1
      omega
    obtain ⟨t1, t2⟩ := toI32_about hm
    rw [← hq]
    constructor <;> rw [e, hfe] <;> linarith
  · have hqe : q = f.toRat := by
      rw [he]
      unfold LStyle.meantWidth Scalar.meant at hq
      unfold rowExact
      rw [hw] at hq ⊢
      cases u <;> simp at hq hcell ⊢ <;> rw [← hq, hv] <;> ring
    rw [hqe]
    exact ha

/-- C188 in a row: a child without limits of the height and without margins above and below is as high as its style
says, if that is in cells or in percent. Missing: the other units (`row_height_counterexample`) and heights in cells
with margins (`row_margin_counterexample`). -/
theorem row_height_partial (cs : List LChild) (a : Region) (vp : Viewport) (i : Nat) (c : LChild) (p : Placement)
    (h : Scalar) (q : Rat) (hc : cs[i]? = some c) (hp : (Horizontal.arrange cs a vp)[i]? = some p)
    (hfree : FreeHeight c) (hh : c.style.height = some h) (hu : h.unit = .cells ∨ h.unit = .percent)
    (hmt : mt c = 0) (hmb : mb c = 0) (hm : ∀ m, h.meant a.height a vp = some m → Modest m)
    (hq : c.style.meantHeight a vp = some q) (h0 : 0 ≤ q) : About p.region.height q := by
  obtain ⟨v, u⟩ := h
  have hlen : i < (Horizontal.rawWidths cs a vp).length := by
    rw [Horizontal.rawWidths_length]
    exact (List.getElem?_eq_some_iff.1 hc).1
  rw [Horizontal.arrange_eq] at hp
  have hph := (place_width_at a vp cs _ _ _ i c p _ hc (List.getElem?_eq_getElem hlen) hp).2
  have z : toI32 0 = 0 := by decide +kernel
  unfold mt at hmt
  unfold mb at hmb
  simp only [hfree.1, hfree.2, constrain, hmt, hmb, z, sub_zero, Horizontal.autoHeight, hh, Horizontal.baseHeight] at hph
  unfold LStyle.meantHeight at hq
  rw [hh] at hq
  simp only at hu
  rcases hu with rfl | rfl
  · have t := toI32_about (hm v rfl)
    simp [Scalar.meant] at hq
    simp at hph
    rw [hph]
    refine about_nonneg ?_ h0
    rw [← hq]
    unfold applyBoxSizingHeight
    split
    · exact about_add _ t
    · simpa using t
  · have t := toI32_about (hm _ rfl)
    simp [Scalar.meant] at hq
    simp at hph
    rw [hph]
    refine about_nonneg ?_ h0
    rw [← hq]
    unfold applyBoxSizingHeight percentOf
    split
    · exact about_add _ t
    · simpa using t

/-! ### Columns -/

/-- C188 in a column: a child without limits of the width is as wide as its style says, if its width counts the
border and is in cells, or in percent and there are no margins beside it. Missing: the other units
(`column_width_counterexample`) and `content-box` (`column_box_counterexample`). -/
theorem column_width_partial (cs : List LChild) (a : Region) (vp : Viewport) (i : Nat) (c : LChild) (p : Placement)
    (w : Scalar) (q : Rat) (hc : cs[i]? = some c) (hp : (Vertical.arrange cs a vp)[i]? = some p)
    (hfree : FreeWidth c) (hw : c.style.width = some w)
    (hu : w.unit = .cells ∨ w.unit = .percent ∧ ml c = 0 ∧ mr c = 0) (hbox : c.style.contentBox = false)
    (hq : c.style.meantWidth a vp = some q) (hm : Modest q) : About p.region.width q := by
  obtain ⟨v, u⟩ := w
  obtain ⟨e, -, hpw⟩ := Vertical.place_at _ _ _ _ _ _ i c p hc hp
  unfold ml mr at hu
  unfold LStyle.meantWidth at hq
  rw [hw, hbox] at hq
  simp only at hu
  rcases hu with rfl | ⟨rfl, h1, h2⟩
  · simp [Scalar.meant] at hq
    subst hq
    simp [Vertical.childWidth, hw, hfree.1, hfree.2, constrain, resolveWidthWithIntrinsic] at hpw
    rw [hpw]
    exact toI32_about hm
  · simp [Scalar.meant] at hq
    subst hq
    simp only [Vertical.childWidth, hw, hfree.1, hfree.2, constrain, resolveWidthWithIntrinsic, h1, h2, sub_zero,
      if_true] at hpw
    rw [hpw]
    exact about_nonneg (round_about hm) hm.1

theorem floor_about (e b : Rat) (h0 : 0 ≤ b) : About (max (⌊e + b⌋ - ⌊e⌋) 0) b := by
  have a1 := Int.floor_le e
  have a2 := Int.lt_floor_add_one e
  have b1 := Int.floor_le (e + b)
  have b2 := Int.lt_floor_add_one (e + b)
  refine about_nonneg ?_ h0
  constructor <;> push_cast <;> linarith

theorem floor_exact (e : Rat) (n : Int) (h0 : 0 ≤ n) : max (⌊e + n⌋ - ⌊e⌋) 0 = n := by
  rw [Int.floor_add_intCast]
  omega

/-- C188 in a column: a child without limits of the height is as high as its style says, if that is in cells, or in
parts of the screen, or in parts of the height of the container and there are no margins above and below it, or in
parts of the width of a container as wide as the screen. Missing: other containers (`column_height_counterexample`),
and `content-box` with heights not in cells (`column_box_counterexample`). -/
theorem column_height_partial (cs : List LChild) (a : Region) (vp : Viewport) (i : Nat) (c : LChild) (p : Placement)
    (h : Scalar) (q : Rat) (hc : cs[i]? = some c) (hp : (Vertical.arrange cs a vp)[i]? = some p)
    (hfree : FreeHeight c) (hh : c.style.height = some h)
    (hu : h.unit = .cells ∨ c.style.contentBox = false ∧ (h.unit = .viewWidth ∨ h.unit = .viewHeight ∨
      (h.unit = .percent ∨ h.unit = .height) ∧ mt c = 0 ∧ mb c = 0 ∨ h.unit = .width ∧ a.width = vp.width))
    (hm : Modest h.value) (hq : c.style.meantHeight a vp = some q) (h0 : 0 ≤ q) : About p.region.height q := by
  obtain ⟨v, u⟩ := h
  obtain ⟨e, hph, -⟩ := Vertical.place_at _ _ _ _ _ _ i c p hc hp
  rw [hph]
  unfold mt mb at hu
  unfold LStyle.meantHeight at hq
  rw [hh] at hq
  simp only at hu hm
  rcases hu with rfl | ⟨hb, hu⟩
  · simp [Scalar.meant] at hq
    have t : About (applyBoxSizingHeight (toI32 v) c.style) q := by
      rw [← hq]
      unfold applyBoxSizingHeight
      have t := toI32_about hm
      split
      · exact about_add _ t
      · simpa using t
    have hn : 0 ≤ applyBoxSizingHeight (toI32 v) c.style := by
      have := t.1
      have : ((-1 : Int) : Rat) < (applyBoxSizingHeight (toI32 v) c.style : Int) := by push_cast; linarith
      have := Int.cast_lt.1 this
      omega
    have hb : Vertical.boxHeight c a vp (Vertical.fractionUnit cs a vp) = (applyBoxSizingHeight (toI32 v) c.style : Int) := by
      simp [Vertical.boxHeight, Vertical.boxHeight0, hh, hfree.1, hfree.2, Vertical.reduceByMargins]
    rw [hb, floor_exact _ _ hn]
    exact t
  · have hbq : Vertical.boxHeight c a vp (Vertical.fractionUnit cs a vp) = q := by
      rw [hb] at hq
      rcases hu with rfl | rfl | ⟨rfl | rfl, h1, h2⟩ | ⟨rfl, h1⟩ <;> simp [Scalar.meant] at hq <;> subst hq
      · simp [Vertical.boxHeight, Vertical.boxHeight0, hh, hfree.1, hfree.2, Vertical.reduceByMargins, percentOf]
      · simp [Vertical.boxHeight, Vertical.boxHeight0, hh, hfree.1, hfree.2, Vertical.reduceByMargins, percentOf]
      · simp [Vertical.boxHeight, Vertical.boxHeight0, hh, hfree.1, hfree.2, Vertical.reduceByMargins, percentOf, h1, h2]
        exact h0
      · simp [Vertical.boxHeight, Vertical.boxHeight0, hh, hfree.1, hfree.2, Vertical.reduceByMargins, percentOf, h1, h2]
        exact h0
      · simp [Vertical.boxHeight, Vertical.boxHeight0, hh, hfree.1, hfree.2, Vertical.reduceByMargins, percentOf, h1]
    rw [hbq]
    exact floor_about e q h0

/-! ### Absolute children -/

theorem absoluteRaw_about (s : Scalar) (own auto : Int) (a : Region) (vp : Viewport) (q : Rat)
    (hq : s.meant own a vp = some q) (hm : Modest q) : About (absoluteRaw s own auto a vp) q := by
  obtain ⟨v, u⟩ := s
  unfold Scalar.meant at hq
  unfold absoluteRaw
  cases u <;> simp at hq <;> subst hq
  · exact toI32_about hm
  all_goals exact round_about hm

/-- C188 for absolute children: without limits they are as wide and as high as their style says, in every unit, with
or without the border. -/
theorem absolute_width (c : LChild) (a : Region) (vp : Viewport) (w : Scalar) (m q : Rat) (hfree : FreeWidth c)
    (hw : c.style.width = some w) (hm : w.meant a.width a vp = some m) (hmod : Modest m)
    (hq : c.style.meantWidth a vp = some q) (h0 : 0 ≤ q) : About (absolutePlacement c a vp).region.width q := by
  unfold LStyle.meantWidth at hq
  rw [hw] at hq
  simp [hm] at hq
  simp only [absolutePlacement, hw, hfree.1, hfree.2, constrain]
  refine about_nonneg ?_ h0
  rw [← hq]
  have t := absoluteRaw_about w a.width (if c.desiredWidth = fill then clampU16 a.width else c.desiredWidth) a vp m hm hmod
  unfold applyBoxSizingWidth
  split
  · exact about_add _ t
  · simpa using t

/-- C188 for absolute children: the height, as `absolute_width`. -/
theorem absolute_height (c : LChild) (a : Region) (vp : Viewport) (h : Scalar) (m q : Rat) (hfree : FreeHeight c)
    (hh : c.style.height = some h) (hm : h.meant a.height a vp = some m) (hmod : Modest m)
    (hq : c.style.meantHeight a vp = some q) (h0 : 0 ≤ q) : About (absolutePlacement c a vp).region.height q := by
  unfold LStyle.meantHeight at hq
  rw [hh] at hq
  simp [hm] at hq
  simp only [absolutePlacement, hh, hfree.1, hfree.2, constrain]
  refine about_nonneg ?_ h0
  rw [← hq]
  unfold applyBoxSizingHeight
  split
  · exact about_add _ (absoluteRaw_about h a.height _ a vp m hm hmod)
  · simpa using absoluteRaw_about h a.height _ a vp m hm hmod

/-! ### Grids -/

/-- C188 in a grid, where the cell is the container: a child that fits in its cell, without margins, whose sizes count
the border and are in cells or percent, has the width and height of its style. Missing: the other units
(`grid_counterexample`), `content-box`, and limits, which a grid ignores (`grid_limit_counterexample`). -/
theorem grid_partial (c : LChild) (cell : Region) (vp : Viewport) (w h : Scalar) (qw qh : Rat)
    (hw : c.style.width = some w) (hh : c.style.height = some h) (huw : w.unit = .cells ∨ w.unit = .percent)
    (huh : h.unit = .cells ∨ h.unit = .percent) (hbox : c.style.contentBox = false)
    (hml : ml c = 0) (hmr : mr c = 0) (hmt : mt c = 0) (hmb : mb c = 0)
    (hqw : c.style.meantWidth cell vp = some qw) (hqh : c.style.meantHeight cell vp = some qh)
    (hmw : Modest qw) (hmh : Modest qh) (hfit : qw ≤ cell.width) :
    About (Grid.childPlacement c cell).region.width qw ∧ About (Grid.childPlacement c cell).region.height qh := by
  have z : toI32 0 = 0 := by decide +kernel
  unfold ml at hml
  unfold mr at hmr
  unfold mt at hmt
  unfold mb at hmb
  obtain ⟨vw, uw⟩ := w
  obtain ⟨vh, uh⟩ := h
  unfold LStyle.meantWidth at hqw
  unfold LStyle.meantHeight at hqh
  rw [hw, hbox] at hqw
  rw [hh, hbox] at hqh
  simp only at huw huh
  constructor
  · have t : About (resolveWidthWithIntrinsic c.style c.desiredWidth cell.width) qw := by
      unfold resolveWidthWithIntrinsic
      rw [hw]
      rcases huw with rfl | rfl <;> simp [Scalar.meant] at hqw <;> subst hqw
      · exact toI32_about hmw
      · exact round_about hmw
    simp only [Grid.childPlacement, hml, hmr, sub_zero]
    refine about_nonneg ?_ hmw.1
    obtain ⟨t1, t2⟩ := t
    refine ⟨?_, ?_⟩
    · push_cast
      rw [lt_min_iff]
      exact ⟨t1, by linarith⟩
    · push_cast
      exact lt_of_le_of_lt (min_le_left _ _) t2
  · have t : About (resolveHeightWithIntrinsic c.style c.desiredHeight cell.height) qh := by
      unfold resolveHeightWithIntrinsic resolveHeightFull
      rw [hh]
      rcases huh with rfl | rfl <;> simp [Scalar.meant] at hqh <;> subst hqh
      · exact toI32_about hmh
      · exact round_about hmh
    have hauto : Grid.heightIsAuto c.style = false := by
      unfold Grid.heightIsAuto
      rw [hh]
      rcases huh with rfl | rfl <;> rfl
    simp only [Grid.childPlacement, hmt, hmb, z, sub_zero, hauto]
    exact about_nonneg t hmh.1

/-! ### Where the code differs -/

/-- A child of the given style, 7 by 3 if it may choose. -/
def box (s : LStyle) : LChild := ⟨0, s, 7, 3, fun _ => 3⟩

/-- A container of 40 by 20 on a screen of 80 by 30. -/
def room : Region := ⟨0, 0, 40, 20⟩

/-- The screen. -/
def tube : Viewport := ⟨80, 30⟩

/-- C188 is false in columns: a width in parts of the screen, or of the height of the container, is taken as cells.
`width: 20vw` of a screen of 80 is 16, but the child is 20 wide. -/
theorem column_width_counterexample :
    ∃ c : LChild, ∃ p ∈ Vertical.arrange [c] room tube, c.style.width = some ⟨20, .viewWidth⟩ ∧ FreeWidth c ∧
      c.style.meantWidth room tube = some 16 ∧ p.region.width = 20 := by
  refine ⟨box { width := some ⟨20, .viewWidth⟩ }, _, List.mem_cons_self .., rfl, ⟨rfl, rfl⟩, ?_, ?_⟩
  · decide +kernel
  · decide +kernel

/-- C188 is false in columns: a height in parts of the width of the container is taken from the screen. `height: 10w`
in a container 40 wide is 4, but the child is 8 high. -/
theorem column_height_counterexample :
    ∃ c : LChild, ∃ p ∈ Vertical.arrange [c] room tube, c.style.height = some ⟨10, .width⟩ ∧ FreeHeight c ∧
      c.style.meantHeight room tube = some 4 ∧ p.region.height = 8 := by
  refine ⟨box { height := some ⟨10, .width⟩ }, _, List.mem_cons_self .., rfl, ⟨rfl, rfl⟩, ?_, ?_⟩
  · decide +kernel
  · decide +kernel

/-- C188 is false in columns: `content-box` is ignored by widths, and by heights not in cells. With a border,
`width: 10` leaves 8 cells for the content. In a row the same child gets its 10. -/
theorem column_box_counterexample :
    ∃ c : LChild, c.style.contentBox = true ∧ c.style.meantWidth room tube = some 12 ∧
      c.style.meantHeight room tube = some 12 ∧
      (Vertical.arrange [c] room tube).map (fun p => (p.region.width, p.region.height)) = [(10, 10)] ∧
      (Horizontal.arrange [c] room tube).map (fun p => (p.region.width, p.region.height)) = [(12, 12)] :=
  ⟨box { width := some ⟨10, .cells⟩
         height := some ⟨50, .percent⟩
         contentBox := true
         borderTop := true
         borderBottom := true
         borderLeft := true
         borderRight := true }, rfl, by decide +kernel, by decide +kernel,
    by decide +kernel, by decide +kernel⟩

/-- C188 is false in rows: a height in parts of the screen, or of the width of the container, is taken as cells.
`height: 10vh` of a screen of 30 is 3, but the child is 10 high. -/
theorem row_height_counterexample :
    ∃ c : LChild, ∃ p ∈ Horizontal.arrange [c] room tube, c.style.height = some ⟨10, .viewHeight⟩ ∧ FreeHeight c ∧
      c.style.meantHeight room tube = some 3 ∧ p.region.height = 10 := by
  refine ⟨box { height := some ⟨10, .viewHeight⟩ }, _, List.mem_cons_self .., rfl, ⟨rfl, rfl⟩, ?_, ?_⟩
  · decide +kernel
  · decide +kernel

/-- C188 is false in rows for a height in cells with margins, which are taken off the height: `height: 5` with a
margin of 1 is 3 high, in a column it is 5. -/
theorem row_margin_counterexample :
    ∃ c : LChild, c.style.height = some ⟨5, .cells⟩ ∧ FreeHeight c ∧
      (Horizontal.arrange [c] room tube).map (fun p => p.region.height) = [3] ∧
      (Vertical.arrange [c] room tube).map (fun p => p.region.height) = [5] :=
  ⟨box { height := some ⟨5, .cells⟩, margin := ⟨⟨1, .cells⟩, ⟨0, .cells⟩, ⟨1, .cells⟩, ⟨0, .cells⟩⟩ }, rfl,
    ⟨rfl, rfl⟩, by decide +kernel, by decide +kernel⟩

/-- C188 is false in grids: in the only cell of a grid, `width: 20vw` is 20 cells instead of 16, and `height: 10vh` is
a tenth of the height of the cell instead of the screen. -/
theorem grid_counterexample :
    ∃ c : LChild, c.style.meantWidth room tube = some 16 ∧ c.style.meantHeight room tube = some 3 ∧
      (Grid.childPlacement c room).region.width = 20 ∧ (Grid.childPlacement c room).region.height = 2 :=
  ⟨box { width := some ⟨20, .viewWidth⟩, height := some ⟨10, .viewHeight⟩ }, by decide +kernel, by decide +kernel,
    by decide +kernel, by decide +kernel⟩

/-- C43 and C188 are false in grids: limits are not looked at. With `max-width: 5` and `min-height: 8` the child still
is 10 wide and 2 high. -/
theorem grid_limit_counterexample :
    ∃ c : LChild, c.style.maxWidth = some ⟨5, .cells⟩ ∧ c.style.minHeight = some ⟨8, .cells⟩ ∧
      (Grid.childPlacement c room).region.width = 10 ∧ (Grid.childPlacement c room).region.height = 2 :=
  ⟨box { width := some ⟨10, .cells⟩
         height := some ⟨2, .cells⟩
         maxWidth := some ⟨5, .cells⟩
         minHeight := some ⟨8, .cells⟩ }, rfl, rfl, by decide +kernel, by decide +kernel⟩

/-! ### Cases -/

/-- A child with a width in parts of the height of the screen. -/
def slim : LChild := box { width := some ⟨25 / 2, .viewHeight⟩ }

/-- A child with a width and a height that a column understands. -/
def tile : LChild := box { width := some ⟨25, .percent⟩, height := some ⟨15, .viewHeight⟩ }

example : ∃ p, (Horizontal.arrange [tile, slim] room tube)[1]? = some p ∧ About p.region.width (15 / 4) := by
  refine ⟨_, rfl, row_width [tile, slim] room tube 1 slim _ ⟨25 / 2, .viewHeight⟩ (15 / 4) rfl rfl
    ⟨rfl, rfl⟩ rfl ?_ ⟨12500, by norm_num⟩ ?_⟩
  · unfold Modest; norm_num
  · decide +kernel

example : ∃ p, (Horizontal.arrange [box { height := some ⟨25, .percent⟩ }] room tube)[0]? = some p ∧
    About p.region.height 5 := by
  refine ⟨_, rfl, row_height_partial [box { height := some ⟨25, .percent⟩ }] room tube 0 (box { height := some ⟨25, .percent⟩ }) _ ⟨25, .percent⟩ 5 rfl rfl
    ⟨rfl, rfl⟩ rfl (Or.inr rfl) rfl rfl ?_ ?_ ?_⟩
  · intro m hm
    simp [Scalar.meant, room] at hm
    subst hm
    unfold Modest; norm_num
  · decide +kernel
  · norm_num

example : ∃ p, (Vertical.arrange [slim, tile] room tube)[1]? = some p ∧ About p.region.width 10 ∧
    About p.region.height (9 / 2) := by
  refine ⟨_, rfl, ?_, ?_⟩
  · refine column_width_partial [slim, tile] room tube 1 tile _
      ⟨25, .percent⟩ 10 rfl rfl ⟨rfl, rfl⟩ rfl (Or.inr ⟨rfl, ?_, ?_⟩) rfl ?_ ?_
    · decide +kernel
    · decide +kernel
    · decide +kernel
    · unfold Modest; norm_num
  · refine column_height_partial [slim, tile] room tube 1 tile _
      ⟨15, .viewHeight⟩ (9 / 2) rfl rfl ⟨rfl, rfl⟩ rfl (Or.inr ⟨rfl, Or.inr (Or.inl rfl)⟩) ?_ ?_ ?_
    · unfold Modest; norm_num
    · decide +kernel
    · norm_num

example : About (absolutePlacement (box { width := some ⟨20, .height⟩, contentBox := true, borderLeft := true }) room
    tube).region.width 5 :=
  absolute_width _ room tube ⟨20, .height⟩ 4 5 ⟨rfl, rfl⟩ rfl (by decide +kernel) (by unfold Modest; norm_num)
    (by decide +kernel) (by norm_num)

example : About (absolutePlacement (box { height := some ⟨20, .viewWidth⟩ }) room tube).region.height 16 :=
  absolute_height _ room tube ⟨20, .viewWidth⟩ 16 16 ⟨rfl, rfl⟩ rfl (by decide +kernel) (by unfold Modest; norm_num)
    (by decide +kernel) (by norm_num)

example : About (Grid.childPlacement (box { width := some ⟨50, .percent⟩, height := some ⟨4, .cells⟩ }) room).region.width
    20 :=
  (grid_partial _ room tube ⟨50, .percent⟩ ⟨4, .cells⟩ 20 4 rfl rfl (Or.inr rfl) (Or.inl rfl) rfl (by decide +kernel)
    (by decide +kernel) rfl rfl (by decide +kernel) (by decide +kernel) (by unfold Modest; norm_num)
    (by unfold Modest; norm_num) (by norm_num [room])).1

end Textual.Layout.Units
