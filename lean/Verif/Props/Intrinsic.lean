import Verif.Spec.Intrinsic
import Verif.Props.Vertical
import Verif.Props.Horizontal

/-! C155: a container sized by its content fits it. -/

namespace Textual.Layout.Intrinsic

def T (c : LChild) : Nat := toU16 c.style.margin.top.value
def B (c : LChild) : Nat := toU16 c.style.margin.bottom.value
def L (c : LChild) : Nat := toU16 c.style.margin.left.value
def R (c : LChild) : Nat := toU16 c.style.margin.right.value

theorem whole_i32 {q : Rat} (h : Whole q) : toI32 q = toU16 q ∧ q = (toU16 q : Nat) := by
  obtain ⟨n, hn, rfl⟩ := h
  have h1 : toI32 (n : Rat) = n := by
    unfold toI32
    rw [if_pos (by positivity), Int.floor_natCast]
    omega
  have h2 : toU16 (n : Rat) = n := by
    unfold toU16 clampU16
    rw [h1]; omega
  rw [h1, h2]
  exact ⟨rfl, rfl⟩

theorem capped_small {n : Nat} (h : n ≤ 1000) : capped n = n := by
  unfold capped fill
  rw [if_neg (by omega)]; omega

/-- The rows between the end of a child with bottom margin `p` and the end of the last of `cs`. -/
def gapsH : Nat → List LChild → Nat
  | _, [] => 0
  | p, c :: cs => max (T c) p + c.desiredHeight + gapsH (B c) cs

def gapsW : Nat → List LChild → Nat
  | _, [] => 0
  | p, c :: cs => max (L c) p + c.desiredWidth + gapsW (R c) cs

def lastOf (f : LChild → Nat) (d : Nat) (cs : List LChild) : Nat := (cs.getLast?.map f).getD d

theorem lastOf_cons (f : LChild → Nat) (d : Nat) (c : LChild) (cs : List LChild) :
    lastOf f d (c :: cs) = lastOf f (f c) cs := by
  unfold lastOf
  cases cs with
  | nil => rfl
  | cons e cs => rw [List.getLast?_cons_cons]; cases h : (e :: cs).getLast? <;> simp_all

theorem fold_heights (cs : List LChild) (s : Acc) (h1 : s.first = false) (hs : ∀ c ∈ cs, c.desiredHeight ≤ 1000)
    (hr : s.totalH + gapsH s.prevBottom cs ≤ 65535) :
    (cs.foldl step s).totalH = s.totalH + gapsH s.prevBottom cs ∧ (cs.foldl step s).firstTop = s.firstTop ∧
      (cs.foldl step s).lastBottom = lastOf B s.lastBottom cs := by
  induction cs generalizing s with
  | nil => exact ⟨rfl, rfl, rfl⟩
  | cons c cs ih =>
    have hc := capped_small (hs c (by simp))
    rw [gapsH] at hr
    have e1 : (step s c).totalH = s.totalH + max (T c) s.prevBottom + c.desiredHeight := by
      simp only [step, h1, hc, sat]
      simp only [Bool.false_eq_true, if_false]
      have : T c = toU16 c.style.margin.top.value := rfl
      omega
    have e2 : (step s c).prevBottom = B c := rfl
    have e3 : (step s c).firstTop = s.firstTop := by simp [step, h1]
    have e4 : (step s c).lastBottom = B c := rfl
    obtain ⟨a, b, d⟩ := ih (step s c) rfl (fun d hd => hs d (by simp [hd])) (by rw [e1, e2]; omega)
    rw [List.foldl_cons, a, b, d, e1, e2, e3, e4, gapsH, lastOf_cons]
    exact ⟨by omega, rfl, rfl⟩

theorem fold_widths (cs : List LChild) (s : Acc) (h1 : s.firstH = false) (hs : ∀ c ∈ cs, c.desiredWidth ≤ 1000)
    (hr : s.totalW + gapsW s.prevRight cs ≤ 65535) :
    (cs.foldl step s).totalW = s.totalW + gapsW s.prevRight cs ∧ (cs.foldl step s).firstLeft = s.firstLeft ∧
      (cs.foldl step s).lastRight = lastOf R s.lastRight cs := by
  induction cs generalizing s with
  | nil => exact ⟨rfl, rfl, rfl⟩
  | cons c cs ih =>
    have hc := capped_small (hs c (by simp))
    rw [gapsW] at hr
    have e1 : (step s c).totalW = s.totalW + max (L c) s.prevRight + c.desiredWidth := by
      simp only [step, h1, hc, sat]
      simp only [Bool.false_eq_true, if_false]
      have : L c = toU16 c.style.margin.left.value := rfl
      omega
    have e2 : (step s c).prevRight = R c := rfl
    have e3 : (step s c).firstLeft = s.firstLeft := by simp [step, h1]
    have e4 : (step s c).lastRight = R c := rfl
    obtain ⟨a, b, d⟩ := ih (step s c) rfl (fun d hd => hs d (by simp [hd])) (by rw [e1, e2]; omega)
    rw [List.foldl_cons, a, b, d, e1, e2, e3, e4, gapsW, lastOf_cons]
    exact ⟨by omega, rfl, rfl⟩

theorem fold_max (cs : List LChild) (s : Acc) (hs : ∀ c ∈ cs, c.desiredWidth ≤ 1000 ∧ c.desiredHeight ≤ 1000)
    (hr : ∀ c ∈ cs, outerWidth c ≤ 65535 ∧ outerHeight c ≤ 65535) :
    (s.maxW ≤ (cs.foldl step s).maxW ∧ s.maxH ≤ (cs.foldl step s).maxH) ∧
    (∀ c ∈ cs, outerWidth c ≤ (cs.foldl step s).maxW ∧ outerHeight c ≤ (cs.foldl step s).maxH) ∧
    ((cs.foldl step s).maxW = s.maxW ∨ ∃ c ∈ cs, (cs.foldl step s).maxW = outerWidth c) ∧
    ((cs.foldl step s).maxH = s.maxH ∨ ∃ c ∈ cs, (cs.foldl step s).maxH = outerHeight c) ∧
    (cs.foldl step s).fillW = s.fillW ∧ (cs.foldl step s).fillH = s.fillH := by
  induction cs generalizing s with
  | nil => simp
  | cons c cs ih =>
    obtain ⟨c1, c2⟩ := hs c (by simp)
    obtain ⟨r1, r2⟩ := hr c (by simp)
    have e1 : (step s c).maxW = max s.maxW (outerWidth c) := by
      simp only [step, capped_small c1, sat]
      unfold outerWidth at r1 ⊢
      omega
    have e2 : (step s c).maxH = max s.maxH (outerHeight c) := by
      simp only [step, capped_small c2, sat]
      unfold outerHeight at r2 ⊢
      omega
    have e3 : (step s c).fillW = s.fillW := by
      have : (c.desiredWidth == fill) = false := by
        unfold fill; rw [beq_eq_false_iff_ne]; omega
      simp [step, this]
    have e4 : (step s c).fillH = s.fillH := by
      have : (c.desiredHeight == fill) = false := by
        unfold fill; rw [beq_eq_false_iff_ne]; omega
      simp [step, this]
    obtain ⟨⟨a1, a2⟩, b, w, h, f1, f2⟩ := ih (step s c) (fun d hd => hs d (by simp [hd])) (fun d hd => hr d (by simp [hd]))
    rw [List.foldl_cons]
    rw [e1] at a1 w; rw [e2] at a2 h
    refine ⟨⟨le_trans (le_max_left _ _) a1, le_trans (le_max_left _ _) a2⟩, ?_, ?_, ?_, by rw [f1, e3], by rw [f2, e4]⟩
    · intro d hd
      rcases List.mem_cons.1 hd with hd | hd
      · rw [hd]
        exact ⟨le_trans (le_max_right _ _) a1, le_trans (le_max_right _ _) a2⟩
      · exact b d hd
    · rcases w with w | ⟨d, hd, w⟩
      · rcases Nat.le_total (outerWidth c) s.maxW with h | h
        · left; rw [w, max_eq_left h]
        · right; exact ⟨c, by simp, by rw [w, max_eq_right h]⟩
      · right; exact ⟨d, by simp [hd], w⟩
    · rcases h with w | ⟨d, hd, w⟩
      · rcases Nat.le_total (outerHeight c) s.maxH with h | h
        · left; rw [w, max_eq_left h]
        · right; exact ⟨c, by simp, by rw [w, max_eq_right h]⟩
      · right; exact ⟨d, by simp [hd], w⟩

/-! ### Columns -/

theorem gapsH_le (p : Nat) (cs : List LChild) : gapsH p cs + lastOf B p cs ≤ p + (cs.map outerHeight).sum := by
  induction cs generalizing p with
  | nil => simp [gapsH, lastOf]
  | cons c cs ih =>
    have := ih (B c)
    rw [lastOf_cons, gapsH, List.map_cons, List.sum_cons]
    have e : outerHeight c = T c + c.desiredHeight + B c := rfl
    omega

theorem gapsW_le (p : Nat) (cs : List LChild) : gapsW p cs + lastOf R p cs ≤ p + (cs.map outerWidth).sum := by
  induction cs generalizing p with
  | nil => simp [gapsW, lastOf]
  | cons c cs ih =>
    have := ih (R c)
    rw [lastOf_cons, gapsW, List.map_cons, List.sum_cons]
    have e : outerWidth c = L c + c.desiredWidth + R c := rfl
    omega

theorem mem_sum_le (f : LChild → Nat) (cs : List LChild) : ∀ c ∈ cs, f c ≤ (cs.map f).sum := by
  induction cs with
  | nil => simp
  | cons d cs ih =>
    intro c hc
    rw [List.map_cons, List.sum_cons]
    rcases List.mem_cons.1 hc with rfl | hc
    · omega
    · have := ih c hc; omega

/-- The size asked for by a column. -/
theorem column_size (ch : Chrome) (cs : List (Bool × LChild)) (c : LChild) (rest : List LChild)
    (he : shown cs = c :: rest) (hs : ∀ c ∈ shown cs, c.desiredWidth ≤ 1000 ∧ c.desiredHeight ≤ 1000)
    (hw : ∀ c ∈ shown cs, outerWidth c + ch.border.1 + ch.padding.1 ≤ 65535)
    (hh : ((shown cs).map outerHeight).sum + ch.border.2 + ch.padding.2 ≤ 65535) :
    ((intrinsic .vertical ch cs).2 : Nat) =
      T c + c.desiredHeight + gapsH (B c) rest + lastOf B (B c) rest + ch.border.2 + ch.padding.2 ∧
    (∀ d ∈ shown cs, outerWidth d + ch.border.1 + ch.padding.1 ≤ (intrinsic .vertical ch cs).1) ∧
    ∃ d ∈ shown cs, outerWidth d + ch.border.1 + ch.padding.1 = (intrinsic .vertical ch cs).1 := by
  have hne : cs.isEmpty = false := by
    cases cs with
    | nil => simp [shown] at he
    | cons => rfl
  have hmem : ∀ d ∈ shown cs, outerWidth d ≤ 65535 ∧ outerHeight d ≤ 65535 := by
    intro d hd
    have := hw d hd
    have := mem_sum_le outerHeight (shown cs) d hd
    exact ⟨by omega, by omega⟩
  obtain ⟨_, m1, m2, _, f1, f2⟩ := fold_max (shown cs) {} hs hmem
  unfold intrinsic
  rw [if_neg (by simp [hne])]
  simp only [f1, f2, Bool.false_eq_true, if_false]
  have hd := (hs c (by rw [he]; simp)).2
  have hg := gapsH_le (B c) rest
  rw [he, List.map_cons, List.sum_cons] at hh
  have e : outerHeight c = T c + c.desiredHeight + B c := rfl
  have e1 : (step {} c).totalH = c.desiredHeight := by
    simp only [step, capped_small hd, sat]
    simp only [if_true]
    omega
  obtain ⟨a, b, l⟩ := fold_heights rest (step {} c) rfl
    (fun d hd => (hs d (by rw [he]; simp [hd])).2) (by
      rw [e1]; show c.desiredHeight + gapsH (B c) rest ≤ 65535; omega)
  refine ⟨?_, ?_, ?_⟩
  · rw [he, List.foldl_cons, a, b, l, e1]
    show sat (sat (sat (sat (T c) (c.desiredHeight + gapsH (B c) rest)) (lastOf B (B c) rest)) ch.border.2)
      ch.padding.2 = _
    unfold sat
    omega
  · intro d hd
    have := (m1 d hd).1
    have := hw d hd
    have hb : ((shown cs).foldl step {}).maxW + ch.border.1 + ch.padding.1 ≤ 65535 := by
      rcases m2 with m2 | ⟨q, hq, m2⟩
      · have : ({} : Acc).maxW = 0 := rfl
        omega
      · have := hw q hq; omega
    unfold sat
    omega
  · rcases m2 with m2 | ⟨q, hq, m2⟩
    · have h0 : ({} : Acc).maxW = 0 := rfl
      have := (m1 c (by rw [he]; simp)).1
      refine ⟨c, by rw [he]; simp, ?_⟩
      have := hw c (by rw [he]; simp)
      rw [m2, h0] at *
      unfold sat
      omega
    · refine ⟨q, hq, ?_⟩
      have := hw q hq
      rw [m2]
      unfold sat
      omega

theorem row_size (ch : Chrome) (cs : List (Bool × LChild)) (c : LChild) (rest : List LChild)
    (he : shown cs = c :: rest) (hs : ∀ c ∈ shown cs, c.desiredWidth ≤ 1000 ∧ c.desiredHeight ≤ 1000)
    (hh : ∀ c ∈ shown cs, outerHeight c + ch.border.2 + ch.padding.2 ≤ 65535)
    (hw : ((shown cs).map outerWidth).sum + ch.border.1 + ch.padding.1 ≤ 65535) :
    ((intrinsic .horizontal ch cs).1 : Nat) =
      L c + c.desiredWidth + gapsW (R c) rest + lastOf R (R c) rest + ch.border.1 + ch.padding.1 ∧
    (∀ d ∈ shown cs, outerHeight d + ch.border.2 + ch.padding.2 ≤ (intrinsic .horizontal ch cs).2) ∧
    ∃ d ∈ shown cs, outerHeight d + ch.border.2 + ch.padding.2 = (intrinsic .horizontal ch cs).2 := by
  have hne : cs.isEmpty = false := by
    cases cs with
    | nil => simp [shown] at he
    | cons => rfl
  have hmem : ∀ d ∈ shown cs, outerWidth d ≤ 65535 ∧ outerHeight d ≤ 65535 := by
    intro d hd
    have := hh d hd
    have := mem_sum_le outerWidth (shown cs) d hd
    exact ⟨by omega, by omega⟩
  obtain ⟨_, m1, _, m2, f1, f2⟩ := fold_max (shown cs) {} hs hmem
  unfold intrinsic
  rw [if_neg (by simp [hne])]
  simp only [f1, f2, Bool.false_eq_true, if_false]
  have hd := (hs c (by rw [he]; simp)).1
  have hg := gapsW_le (R c) rest
  rw [he, List.map_cons, List.sum_cons] at hw
  have e : outerWidth c = L c + c.desiredWidth + R c := rfl
  have e1 : (step {} c).totalW = c.desiredWidth := by
    simp only [step, capped_small hd, sat]
    simp only [if_true]
    omega
  obtain ⟨a, b, l⟩ := fold_widths rest (step {} c) rfl
    (fun d hd => (hs d (by rw [he]; simp [hd])).1) (by
      rw [e1]; show c.desiredWidth + gapsW (R c) rest ≤ 65535; omega)
  refine ⟨?_, ?_, ?_⟩
  · rw [he, List.foldl_cons, a, b, l, e1]
    show sat (sat (sat (sat (L c) (c.desiredWidth + gapsW (R c) rest)) (lastOf R (R c) rest)) ch.border.1)
      ch.padding.1 = _
    unfold sat
    omega
  · intro d hd
    have := (m1 d hd).2
    have := hh d hd
    have hb : ((shown cs).foldl step {}).maxH + ch.border.2 + ch.padding.2 ≤ 65535 := by
      rcases m2 with m2 | ⟨q, hq, m2⟩
      · have : ({} : Acc).maxH = 0 := rfl
        omega
      · have := hh q hq; omega
    unfold sat
    omega
  · rcases m2 with m2 | ⟨q, hq, m2⟩
    · have h0 : ({} : Acc).maxH = 0 := rfl
      have := (m1 c (by rw [he]; simp)).2
      refine ⟨c, by rw [he]; simp, ?_⟩
      have := hh c (by rw [he]; simp)
      rw [m2, h0] at *
      unfold sat
      omega
    · refine ⟨q, hq, ?_⟩
      have := hh q hq
      rw [m2]
      unfold sat
      omega

theorem filter_true {α : Type} (p : α → Bool) (l : List α) (h : ∀ x ∈ l, p x = true) : l.filter p = l :=
  List.filter_eq_self.2 h

theorem filter_false {α : Type} (p : α → Bool) (l : List α) (h : ∀ x ∈ l, p x = false) : l.filter p = [] :=
  List.filter_eq_nil_iff.2 (fun x hx => by rw [h x hx]; simp)

theorem offset_plain (ps : List Placement) (cs : List LChild) (vp : Viewport) (h : ∀ c ∈ cs, Sized c) :
    applyOffset ps cs vp = ps := by
  unfold applyOffset
  conv => rhs; rw [← List.map_id ps]
  apply List.map_congr_left
  intro p _
  split
  · rename_i c hc
    have hm := List.mem_of_find?_eq_some hc
    obtain ⟨_, _, _, h1, h2⟩ := (h c hm).flow
    simp [h1, h2, offsetOf]
  · rfl

/-- Children in the flow are arranged by the layout alone. -/
theorem arrange_flow (keys : List String) (p : PStyle) (cs : List LChild) (a : Region) (vp : Viewport)
    (hp : p.layers = none ∧ p.alignH = .left ∧ p.alignV = .top) (h : ∀ c ∈ cs, Sized c) :
    arrangeLayers keys p cs a vp = runLayout none p cs a vp := by
  obtain ⟨p1, p2, p3⟩ := hp
  unfold arrangeLayers
  have hl : cs.any (fun c => c.style.layer.isSome) = false := by
    rw [List.any_eq_false]
    intro c hc
    rw [(h c hc).flow.2.2.1]; simp
  rw [if_pos (by rw [hl, p1]; simp)]
  unfold arrangeChildren
  have f1 : cs.filter (fun c => c.style.dock.isSome) = [] := filter_false _ _ fun c hc => by
    rw [(h c hc).flow.1]; rfl
  have f2 : cs.filter (fun c => !c.style.dock.isSome) = cs := filter_true _ _ fun c hc => by
    rw [(h c hc).flow.1]; rfl
  have f3 : cs.filter (fun c => c.style.absolute) = [] := filter_false _ _ fun c hc => by
    rw [(h c hc).flow.2.1]
  have f4 : cs.filter (fun c => !c.style.absolute) = cs := filter_true _ _ fun c hc => by
    rw [(h c hc).flow.2.1]; rfl
  simp only [f1, f2, f3, f4, arrangeDocked, dockLoop, contentRegion, applyAlignment, p2, p3, and_self, if_true,
    List.map_nil, offset_plain _ _ _ h]
  simp [Int.add_zero, Int.sub_zero]

theorem sized_box {c : LChild} (h : Sized c) (a : Region) (vp : Viewport) (u : Rat) :
    Vertical.boxHeight c a vp u = c.desiredHeight := by
  have hf : c.desiredHeight ≠ fill := by have := h.given.2; omega
  obtain ⟨_, _, f3, f4⟩ := h.free
  have h0 : Vertical.boxHeight0 c a vp u = c.desiredHeight := by
    unfold Vertical.boxHeight0
    rcases h.height with e | ⟨v, e, hi⟩ | ⟨v, e, hi⟩
    · rw [e]; simp [hf]
    · rw [e]; simp [hi]
    · rw [e]; simp [applyBoxSizingHeight, h.borderBox, hi]
  have hr : Vertical.reduceByMargins c = false := by
    unfold Vertical.reduceByMargins
    rcases h.height with e | ⟨v, e, hi⟩ | ⟨v, e, hi⟩
    · rw [e]; simp [hf]
    · rw [e]
    · rw [e]
  unfold Vertical.boxHeight
  simp only [f3, f4, hr, h0]
  simp

theorem sized_width {c : LChild} (h : Sized c) (a : Region) (vp : Viewport) (ha : (outerWidth c : Int) ≤ a.width) :
    0 ≤ Vertical.childWidth c a vp ∧ (L c : Int) + Vertical.childWidth c a vp + R c ≤ a.width := by
  have hf : c.desiredWidth ≠ fill := by have := h.given.1; omega
  obtain ⟨f1, f2, _, _⟩ := h.free
  have el := (whole_i32 h.margins.2.2.2).1
  have er := (whole_i32 h.margins.2.1).1
  have hL : L c = toU16 c.style.margin.left.value := rfl
  have hR : R c = toU16 c.style.margin.right.value := rfl
  unfold outerWidth at ha
  unfold Vertical.childWidth
  rcases h.width with e | ⟨v, e⟩ | ⟨v, e, hi⟩
  · simp only [e, resolveWidthWithIntrinsic, constrain, f1, f2, el, er, if_true]
    rw [max_eq_left (by omega)]
    omega
  · simp only [e, resolveWidthWithIntrinsic, constrain, f1, f2, el, er, Bool.false_eq_true, if_false]
    omega
  · simp only [e, resolveWidthWithIntrinsic, constrain, f1, f2, el, er, Bool.false_eq_true, if_false, hi]
    omega

theorem place_inside (a : Region) (vp : Viewport) (u : Rat) (cs : List LChild) (tms : List Rat) (y : Rat)
    (ht : ∀ t ∈ tms, 0 ≤ t) (hb : ∀ c ∈ cs, 0 ≤ Vertical.boxHeight c a vp u ∧ 0 ≤ mb c) (hl : tms.length = cs.length)
    (q : Placement) (hq : q ∈ Vertical.place a vp u y cs tms) :
    ∃ c ∈ cs, q.region.x = a.x + toI32 c.style.margin.left.value ∧ q.region.width = Vertical.childWidth c a vp ∧
      ⌊y⌋ ≤ q.region.y ∧
      q.region.y + q.region.height ≤ ⌊y + tms.sum + (cs.map (fun c => Vertical.boxHeight c a vp u)).sum + (cs.map mb).sum⌋ := by
  induction cs generalizing tms y with
  | nil => simp [Vertical.place] at hq
  | cons c cs ih =>
    obtain ⟨t, tms, rfl⟩ := List.exists_cons_of_length_eq_add_one hl
    have hl' : tms.length = cs.length := by simpa using hl
    have t0 := ht t (by simp)
    obtain ⟨b0, m0⟩ := hb c (by simp)
    have hts : 0 ≤ tms.sum := List.sum_nonneg (fun x hx => ht x (by simp [hx]))
    have hbs : 0 ≤ (cs.map (fun c => Vertical.boxHeight c a vp u)).sum := List.sum_nonneg (by
      intro x hx
      obtain ⟨d, hd, rfl⟩ := List.mem_map.1 hx
      exact (hb d (by simp [hd])).1)
    have hms : 0 ≤ (cs.map mb).sum := List.sum_nonneg (by
      intro x hx
      obtain ⟨d, hd, rfl⟩ := List.mem_map.1 hx
      exact (hb d (by simp [hd])).2)
    simp only [Vertical.place, List.mem_cons] at hq
    simp only [List.map_cons, List.sum_cons]
    rcases hq with rfl | hq
    · refine ⟨c, by simp, rfl, rfl, Int.floor_le_floor (by linarith), ?_⟩
      have l1 : ⌊y + t⌋ ≤ ⌊y + t + Vertical.boxHeight c a vp u⌋ := Int.floor_le_floor (by linarith)
      have l2 : ⌊y + t + Vertical.boxHeight c a vp u⌋ ≤ ⌊y + (t + tms.sum) + (Vertical.boxHeight c a vp u +
          (cs.map (fun c => Vertical.boxHeight c a vp u)).sum) + (mb c + (cs.map mb).sum)⌋ :=
        Int.floor_le_floor (by linarith)
      simp only
      omega
    · obtain ⟨d, hd, h1, h2, h3, h4⟩ := ih _ _ (fun x hx => ht x (by simp [hx]))
        (fun d hd => hb d (by simp [hd])) hl' hq
      refine ⟨d, by simp [hd], h1, h2, le_trans (Int.floor_le_floor ?_) h3, le_trans h4 (Int.floor_le_floor ?_)⟩
      · have : c.style.margin.bottom.value = mb c := rfl
        linarith
      · have : c.style.margin.bottom.value = mb c := rfl
        linarith

theorem topMargins_nonneg (prev : Option Rat) (cs : List LChild) (h : ∀ c ∈ cs, 0 ≤ mt c) :
    ∀ t ∈ Vertical.topMargins prev cs, 0 ≤ t := by
  induction cs generalizing prev with
  | nil => simp [Vertical.topMargins]
  | cons c cs ih =>
    intro t ht
    simp only [Vertical.topMargins, List.mem_cons] at ht
    rcases ht with rfl | ht
    · split
      · exact h c (by simp)
      · exact le_max_right _ _
    · exact ih _ (fun d hd => h d (by simp [hd])) t ht

theorem sized_mt {c : LChild} (h : Sized c) : mt c = T c := (whole_i32 h.margins.1).2
theorem sized_mb {c : LChild} (h : Sized c) : mb c = B c := (whole_i32 h.margins.2.2.1).2
theorem sized_ml {c : LChild} (h : Sized c) : ml c = L c := (whole_i32 h.margins.2.2.2).1
theorem sized_mr {c : LChild} (h : Sized c) : mr c = R c := (whole_i32 h.margins.2.1).1

theorem space_gaps (c : LChild) (cs : List LChild) (h : ∀ d ∈ c :: cs, Sized d) :
    marginSpace.go mt mb c cs + (cs.map (fun d => (d.desiredHeight : Rat))).sum =
      ((gapsH (B c) cs + lastOf B (B c) cs : Nat) : Rat) := by
  induction cs generalizing c with
  | nil =>
    rw [show lastOf B (B c) [] = B c from rfl, show gapsH (B c) [] = 0 from rfl]
    simp [marginSpace.go, sized_mb (h c (by simp))]
  | cons d cs ih =>
    have := ih d (fun e he => h e (by simp only [List.mem_cons] at he ⊢; tauto))
    rw [lastOf_cons, gapsH]
    simp only [marginSpace.go, List.map_cons, List.sum_cons]
    rw [sized_mb (h c (by simp)), sized_mt (h d (by simp))]
    push_cast at this ⊢
    rw [max_comm]
    linarith

theorem shown_eq (cs : List (Bool × LChild)) : shown cs = displayed cs := by
  induction cs with
  | nil => rfl
  | cons c cs ih =>
    obtain ⟨_ | _, c⟩ := c
    · exact ih
    · exact congrArg (c :: ·) ih

/-- C155, columns: a vertical container as large as it asks for has room for all its children, they end
exactly at its bottom, and it is exactly as wide as the widest of them. -/
theorem column_fits_partial (keys : List String) (p : PStyle) (ch : Chrome) (cs : List (Bool × LChild)) (x y : Int)
    (vp : Viewport) (hp : p.layout = .vertical ∧ p.layers = none ∧ p.alignH = .left ∧ p.alignV = .top)
    (hs : ∀ c ∈ displayed cs, Sized c)
    (hl : ∀ c ∈ displayed cs, c.desiredWidth ≤ 1000 ∧ c.desiredHeight ≤ 1000)
    (hw : ∀ c ∈ displayed cs, outerWidth c + ch.border.1 + ch.padding.1 ≤ 65535)
    (hh : ((displayed cs).map outerHeight).sum + ch.border.2 + ch.padding.2 ≤ 65535) :
    let area := contentArea x y ch (intrinsic .vertical ch cs)
    let placed := arrangeLayers keys p (displayed cs) area vp
    (∀ q ∈ placed, Inside q.region area) ∧
    (∀ c q, (displayed cs).getLast? = some c → placed.getLast? = some q →
      q.region.y + q.region.height + toU16 c.style.margin.bottom.value = area.y + area.height) ∧
    (displayed cs ≠ [] → ∃ c ∈ displayed cs, (outerWidth c : Int) = area.width) := by
  rw [← shown_eq cs] at *
  intro area placed
  have hpl : placed = Vertical.arrange (shown cs) area vp := by
    show arrangeLayers keys p (shown cs) area vp = _
    rw [arrange_flow keys p _ _ _ hp.2 hs]
    unfold runLayout
    rw [hp.1]
  cases he : shown cs with
  | nil =>
    rw [hpl, he]
    simp [Vertical.arrange, Vertical.place, Vertical.topMargins]
  | cons c rest =>
    obtain ⟨s1, s2, s3⟩ := column_size ch cs c rest he hl hw hh
    have hW : area.width = ((intrinsic .vertical ch cs).1 : Int) - ch.border.1 - ch.padding.1 := rfl
    have hH : area.height = ((intrinsic .vertical ch cs).2 : Int) - ch.border.2 - ch.padding.2 := rfl
    have hH' : area.height = (T c + c.desiredHeight + gapsH (B c) rest + lastOf B (B c) rest : Nat) := by
      rw [hH, s1]; push_cast; omega
    -- the end of the column
    have hbox : ((shown cs).map fun c => Vertical.boxHeight c area vp (Vertical.fractionUnit (shown cs) area vp)) =
        (shown cs).map fun c => (c.desiredHeight : Rat) :=
      List.map_congr_left fun c hc => sized_box (hs c hc) _ _ _
    have hend : (Vertical.topMargins none (shown cs)).sum + ((shown cs).map fun c => (c.desiredHeight : Rat)).sum +
        ((shown cs).map mb).sum = (area.height : Rat) := by
      have t1 := Vertical.totalMargin_eq (shown cs)
      unfold Vertical.totalMargin at t1
      have t2 : ((shown cs).map (fun c => c.style.margin.bottom.value)).sum = ((shown cs).map mb).sum := rfl
      rw [t2] at t1
      have t3 := space_gaps c rest (fun d hd => hs d (by rw [he]; exact hd))
      have t4 : marginSpace mt mb (shown cs) = mt c + marginSpace.go mt mb c rest := by rw [he]; rfl
      have t5 : ((shown cs).map fun c => (c.desiredHeight : Rat)).sum =
          c.desiredHeight + (rest.map fun c => (c.desiredHeight : Rat)).sum := by rw [he]; simp
      rw [sized_mt (hs c (by rw [he]; simp))] at t4
      rw [hH']
      push_cast at t3 ⊢
      linarith
    have hb : ∀ d ∈ shown cs, 0 ≤ Vertical.boxHeight d area vp (Vertical.fractionUnit (shown cs) area vp) ∧ 0 ≤ mb d := by
      intro d hd
      rw [sized_box (hs d hd), sized_mb (hs d hd)]
      exact ⟨by positivity, by positivity⟩
    refine ⟨?_, ?_, ?_⟩
    · intro q hq
      rw [hpl] at hq
      obtain ⟨d, hd, h1, h2, h3, h4⟩ := place_inside area vp _ (shown cs) _ _ (topMargins_nonneg none _ (by
        intro c hc; rw [sized_mt (hs c hc)]; positivity)) hb (Vertical.topMargins_length _ _) q hq
      rw [hbox] at h4
      have e : (area.y : Rat) + (Vertical.topMargins none (shown cs)).sum +
          ((shown cs).map fun c => (c.desiredHeight : Rat)).sum + ((shown cs).map mb).sum =
          ((area.y + area.height : Int) : Rat) := by push_cast; linarith
      rw [e, Int.floor_intCast] at h4
      rw [Int.floor_intCast] at h3
      have hwid := sized_width (hs d hd) area vp (by have := s2 d hd; rw [hW]; omega)
      have el := (whole_i32 (hs d hd).margins.2.2.2).1
      rw [el] at h1
      have : L d = toU16 d.style.margin.left.value := rfl
      refine ⟨?_, ?_, h3, h4⟩
      · omega
      · rw [h1, h2]; omega
    · intro d q hd hq
      rw [hpl] at hq
      rw [← he] at hd
      have hdm : d ∈ shown cs := List.mem_of_getLast? hd
      have := Vertical.place_last area vp _ (shown cs) _ _ (Vertical.topMargins_length none _) (fun c hc => (hb c hc).1) d q
        hd hq
      rw [hbox] at this
      have e : (area.y : Rat) + (Vertical.topMargins none (shown cs)).sum +
          ((shown cs).map fun c => (c.desiredHeight : Rat)).sum + ((shown cs).map mb).sum - mb d =
          ((area.y + area.height - B d : Int) : Rat) := by rw [sized_mb (hs d hdm)]; push_cast; linarith
      rw [e, Int.floor_intCast] at this
      have : B d = toU16 d.style.margin.bottom.value := rfl
      omega
    · intro _
      obtain ⟨d, hd, h⟩ := s3
      exact ⟨d, by rw [← he]; exact hd, by rw [hW]; omega⟩

/-! ### Rows -/

theorem sized_want {c : LChild} (h : Sized c) (a : Region) (vp : Viewport) :
    Horizontal.want c a vp = .fixed (Fraction.ofInt c.desiredWidth) := by
  have hf : c.desiredWidth ≠ fill := by have := h.given.1; omega
  unfold Horizontal.want
  rcases h.width with e | ⟨v, e⟩ | ⟨v, e, hi⟩
  · simp [e, hf]
  · simp [e, hf]
  · simp [e, applyBoxSizingWidth, h.borderBox, hi]

theorem zero_canonical : Fraction.Canonical Fraction.ZERO := by unfold Fraction.Canonical Fraction.ZERO; decide

theorem zero_toRat : Fraction.ZERO.toRat = 0 := by simp [Fraction.ZERO, Fraction.toRat]

theorem whole_canonical (n : Int) : (Fraction.ofInt n).Canonical := Fraction.new_canonical _ _

theorem whole_toRat (n : Int) : (Fraction.ofInt n).toRat = n := by
  unfold Fraction.ofInt
  rw [Fraction.new_toRat (by decide)]
  simp

theorem ofInt_add_zero (n : Int) : (Fraction.ofInt n).add Fraction.ZERO = Fraction.ofInt n := by
  refine (Fraction.eq_iff_toRat (Fraction.new_canonical _ _) (whole_canonical n)).2 ?_
  have := Fraction.add_toRat (whole_canonical n) zero_canonical
  exact this.trans (by rw [zero_toRat, add_zero])

theorem fixed_whole (cs : List LChild) (a : Region) (vp : Viewport) (h : ∀ c ∈ cs, Sized c) :
    Horizontal.fixedWidths Fraction.ZERO (cs.map fun c => Horizontal.want c a vp) =
      cs.map fun c => some (c.desiredWidth : Int) := by
  induction cs with
  | nil => rfl
  | cons c cs ih =>
    have hc := whole_canonical (c.desiredWidth : Int)
    have hfl : (Fraction.ofInt (c.desiredWidth : Int)).floor = c.desiredWidth := by
      rw [Fraction.floor_toRat hc, whole_toRat, Int.floor_intCast]
    have hfr : (Fraction.ofInt (c.desiredWidth : Int)).fract = Fraction.ZERO := by
      obtain ⟨f1, f2, _, _⟩ := Fraction.fract_spec hc
      refine (Fraction.eq_iff_toRat f1 zero_canonical).2 ?_
      rw [hfl, whole_toRat] at f2
      rw [zero_toRat]
      linarith
    simp only [List.map_cons, sized_want (h c (by simp)), Horizontal.fixedWidths, ofInt_add_zero]
    rw [hfr, ih (fun d hd => h d (by simp [hd])), hfl]

theorem raw_whole (cs : List LChild) (a : Region) (vp : Viewport) (h : ∀ c ∈ cs, Sized c) :
    Horizontal.rawWidths cs a vp = cs.map fun c => (c.desiredWidth : Int) := by
  unfold Horizontal.rawWidths
  rw [fixed_whole cs a vp h]
  generalize hfr : Horizontal.frWidths _ _ = fr
  have hl : fr.length = cs.length := by rw [← hfr, Horizontal.frWidths_length, List.length_map]
  clear hfr
  induction cs generalizing fr with
  | nil => simp
  | cons c cs ih =>
    obtain ⟨x, fr, rfl⟩ := List.exists_cons_of_length_eq_add_one hl
    simp only [List.map_cons, List.zipWith_cons_cons, Option.getD_some]
    rw [ih (fun d hd => h d (by simp [hd])) fr (by simpa using hl)]

theorem sized_height {c : LChild} (h : Sized c) (a : Region) (vp : Viewport) (w : Int)
    (ha : (outerHeight c : Int) ≤ a.height) :
    let g := constrain c.style.maxHeight c.style.minHeight a.height a vp (Horizontal.baseHeight c a w)
    let g := if Horizontal.autoHeight c.style then g else
      max (g - toI32 c.style.margin.top.value - toI32 c.style.margin.bottom.value) 0
    (T c : Int) + g + B c ≤ a.height := by
  obtain ⟨_, _, f1, f2⟩ := h.free
  have el := (whole_i32 h.margins.1).1
  have er := (whole_i32 h.margins.2.2.1).1
  have hT : T c = toU16 c.style.margin.top.value := rfl
  have hB : B c = toU16 c.style.margin.bottom.value := rfl
  unfold outerHeight at ha
  rcases h.height with e | ⟨v, e, hi⟩ | ⟨v, e, hi⟩
  · simp only [Horizontal.baseHeight, Horizontal.autoHeight, e, constrain, f1, f2, el, er, Bool.false_eq_true, if_false]
    rw [max_eq_left (by omega)]
    omega
  · simp only [Horizontal.baseHeight, Horizontal.autoHeight, e, constrain, f1, f2, el, er, hi, decide_true, if_true]
    omega
  · simp only [Horizontal.baseHeight, Horizontal.autoHeight, e, constrain, f1, f2, el, er, hi, applyBoxSizingHeight,
      h.borderBox, Bool.false_eq_true, if_false, reduceCtorEq, decide_false]
    rcases le_total ((c.desiredHeight : Int) - (toU16 c.style.margin.top.value : Int) -
      (toU16 c.style.margin.bottom.value : Int)) 0 with h | h
    · rw [max_eq_right h]; omega
    · rw [max_eq_left h]; omega

theorem row_inside (a : Region) (vp : Viewport) (cs : List LChild) (lms : List Int) (x : Int)
    (hs : ∀ c ∈ cs, Sized c) (ht : ∀ t ∈ lms, 0 ≤ t) (hl : lms.length = cs.length)
    (hh : ∀ c ∈ cs, (outerHeight c : Int) ≤ a.height)
    (q : Placement) (hq : q ∈ Horizontal.place a vp x cs (cs.map fun c => (c.desiredWidth : Int)) lms) :
    x ≤ q.region.x ∧ q.region.x + q.region.width ≤
        x + lms.sum + (cs.map fun c => (c.desiredWidth : Int)).sum + (cs.map mr).sum ∧
      a.y ≤ q.region.y ∧ q.region.y + q.region.height ≤ a.y + a.height := by
  induction cs generalizing lms x with
  | nil => simp [Horizontal.place] at hq
  | cons c cs ih =>
    obtain ⟨t, lms, rfl⟩ := List.exists_cons_of_length_eq_add_one hl
    have hl' : lms.length = cs.length := by simpa using hl
    have t0 := ht t (by simp)
    have m0 : 0 ≤ mr c := by rw [sized_mr (hs c (by simp))]; omega
    have hts : 0 ≤ lms.sum := List.sum_nonneg (fun x hx => ht x (by simp [hx]))
    have hbs : 0 ≤ (cs.map (fun c => (c.desiredWidth : Int))).sum := List.sum_nonneg (by
      intro x hx
      obtain ⟨d, hd, rfl⟩ := List.mem_map.1 hx
      exact Int.natCast_nonneg _)
    have hms : 0 ≤ (cs.map mr).sum := List.sum_nonneg (by
      intro x hx
      obtain ⟨d, hd, rfl⟩ := List.mem_map.1 hx
      rw [sized_mr (hs d (by simp [hd]))]; exact Int.natCast_nonneg _)
    obtain ⟨f1, f2, _, _⟩ := (hs c (by simp)).free
    simp only [List.map_cons, Horizontal.place, List.mem_cons] at hq
    simp only [List.map_cons, List.sum_cons]
    have ecw : constrain c.style.maxWidth c.style.minWidth a.width a vp (c.desiredWidth : Int) = c.desiredWidth := by
      simp [constrain, f1, f2]
    rw [ecw] at hq
    rcases hq with rfl | hq
    · have hg := sized_height (hs c (by simp)) a vp c.desiredWidth (hh c (by simp))
      have et := (whole_i32 (hs c (by simp)).margins.1).1
      have hT : T c = toU16 c.style.margin.top.value := rfl
      simp only at hg ⊢
      refine ⟨by omega, by omega, by omega, by omega⟩
    · have er : toI32 c.style.margin.right.value = mr c := rfl
      obtain ⟨h1, h2, h3, h4⟩ := ih _ _ (fun d hd => hs d (by simp [hd])) (fun x hx => ht x (by simp [hx])) hl'
        (fun d hd => hh d (by simp [hd])) hq
      exact ⟨by omega, by omega, h3, h4⟩

theorem row_last (a : Region) (vp : Viewport) (cs : List LChild) (lms : List Int) (x : Int)
    (hs : ∀ c ∈ cs, Sized c) (hl : lms.length = cs.length) (c : LChild) (q : Placement) (hc : cs.getLast? = some c)
    (hq : (Horizontal.place a vp x cs (cs.map fun c => (c.desiredWidth : Int)) lms).getLast? = some q) :
    q.region.x + q.region.width + mr c = x + lms.sum + (cs.map fun c => (c.desiredWidth : Int)).sum + (cs.map mr).sum := by
  induction cs generalizing lms x with
  | nil => simp at hc
  | cons d cs ih =>
    obtain ⟨t, lms, rfl⟩ := List.exists_cons_of_length_eq_add_one hl
    have hl' : lms.length = cs.length := by simpa using hl
    obtain ⟨f1, f2, _, _⟩ := (hs d (by simp)).free
    have ecw : constrain d.style.maxWidth d.style.minWidth a.width a vp (d.desiredWidth : Int) = d.desiredWidth := by
      simp [constrain, f1, f2]
    have er : toI32 d.style.margin.right.value = mr d := rfl
    simp only [List.map_cons, Horizontal.place, ecw, er] at hq
    simp only [List.map_cons, List.sum_cons]
    cases cs with
    | nil =>
      simp at hc; subst hc
      cases lms with
      | cons => simp at hl'
      | nil =>
        simp [Horizontal.place] at hq; subst hq
        simp only [List.map_nil, List.sum_nil]; omega
    | cons e cs =>
      obtain ⟨t', lms, rfl⟩ := List.exists_cons_of_length_eq_add_one hl'
      have := ih (t' :: lms) (x + t + ((d.desiredWidth : Int) + mr d)) (fun d hd => hs d (by simp [hd])) hl'
        (by simpa using hc) (by
          simp only [List.map_cons, Horizontal.place] at hq ⊢
          rw [List.getLast?_cons_cons] at hq; exact hq)
      rw [this]
      simp only [List.map_cons, List.sum_cons]
      omega

theorem leftMargins_nonneg (prev : Option Int) (cs : List LChild) (h : ∀ c ∈ cs, 0 ≤ ml c) :
    ∀ t ∈ Horizontal.leftMargins prev cs, 0 ≤ t := by
  induction cs generalizing prev with
  | nil => simp [Horizontal.leftMargins]
  | cons c cs ih =>
    intro t ht
    simp only [Horizontal.leftMargins, List.mem_cons] at ht
    rcases ht with rfl | ht
    · split
      · exact h c (by simp)
      · exact le_max_right _ _
    · exact ih _ (fun d hd => h d (by simp [hd])) t ht

theorem space_gapsW (c : LChild) (cs : List LChild) (h : ∀ d ∈ c :: cs, Sized d) :
    marginSpace.go ml mr c cs + (cs.map (fun d => (d.desiredWidth : Int))).sum =
      ((gapsW (R c) cs + lastOf R (R c) cs : Nat) : Int) := by
  induction cs generalizing c with
  | nil =>
    rw [show lastOf R (R c) [] = R c from rfl, show gapsW (R c) [] = 0 from rfl]
    simp [marginSpace.go, sized_mr (h c (by simp))]
  | cons d cs ih =>
    have := ih d (fun e he => h e (by simp only [List.mem_cons] at he ⊢; tauto))
    rw [lastOf_cons, gapsW]
    simp only [marginSpace.go, List.map_cons, List.sum_cons]
    rw [sized_mr (h c (by simp)), sized_ml (h d (by simp))]
    push_cast at this ⊢
    rw [max_comm]
    linarith

/-- C155, rows: a horizontal container as large as it asks for has room for all its children, they end
exactly at its right side, and it is exactly as high as the highest of them. -/
theorem row_fits_partial (keys : List String) (p : PStyle) (ch : Chrome) (cs : List (Bool × LChild)) (x y : Int)
    (vp : Viewport) (hp : p.layout = .horizontal ∧ p.layers = none ∧ p.alignH = .left ∧ p.alignV = .top)
    (hs : ∀ c ∈ displayed cs, Sized c)
    (hl : ∀ c ∈ displayed cs, c.desiredWidth ≤ 1000 ∧ c.desiredHeight ≤ 1000)
    (hh : ∀ c ∈ displayed cs, outerHeight c + ch.border.2 + ch.padding.2 ≤ 65535)
    (hw : ((displayed cs).map outerWidth).sum + ch.border.1 + ch.padding.1 ≤ 65535) :
    let area := contentArea x y ch (intrinsic .horizontal ch cs)
    let placed := arrangeLayers keys p (displayed cs) area vp
    (∀ q ∈ placed, Inside q.region area) ∧
    (∀ c q, (displayed cs).getLast? = some c → placed.getLast? = some q →
      q.region.x + q.region.width + toU16 c.style.margin.right.value = area.x + area.width) ∧
    (displayed cs ≠ [] → ∃ c ∈ displayed cs, (outerHeight c : Int) = area.height) := by
  rw [← shown_eq cs] at *
  intro area placed
  have hpl : placed = Horizontal.place area vp area.x (shown cs) ((shown cs).map fun c => (c.desiredWidth : Int))
      (Horizontal.leftMargins none (shown cs)) := by
    show arrangeLayers keys p (shown cs) area vp = _
    rw [arrange_flow keys p _ _ _ hp.2 hs]
    unfold runLayout
    rw [hp.1, ← raw_whole (shown cs) area vp hs]
    exact Horizontal.arrange_eq _ _ _
  cases he : shown cs with
  | nil =>
    rw [hpl, he]
    simp [Horizontal.place]
  | cons c rest =>
    obtain ⟨s1, s2, s3⟩ := row_size ch cs c rest he hl hh hw
    have hW : area.width = ((intrinsic .horizontal ch cs).1 : Int) - ch.border.1 - ch.padding.1 := rfl
    have hH : area.height = ((intrinsic .horizontal ch cs).2 : Int) - ch.border.2 - ch.padding.2 := rfl
    have hW' : area.width = (L c + c.desiredWidth + gapsW (R c) rest + lastOf R (R c) rest : Nat) := by
      rw [hW, s1]; push_cast; omega
    have hend : (Horizontal.leftMargins none (shown cs)).sum + ((shown cs).map fun c => (c.desiredWidth : Int)).sum +
        ((shown cs).map mr).sum = area.width := by
      have t1 := Horizontal.totalMargin_eq (shown cs)
      unfold Horizontal.totalMargin at t1
      have t2 : ((shown cs).map (fun c => toI32 c.style.margin.right.value)).sum = ((shown cs).map mr).sum := rfl
      rw [t2] at t1
      have t3 := space_gapsW c rest (fun d hd => hs d (by rw [he]; exact hd))
      have t4 : marginSpace ml mr (shown cs) = ml c + marginSpace.go ml mr c rest := by rw [he]; rfl
      have t5 : ((shown cs).map fun c => (c.desiredWidth : Int)).sum =
          c.desiredWidth + (rest.map fun c => (c.desiredWidth : Int)).sum := by rw [he]; simp
      rw [sized_ml (hs c (by rw [he]; simp))] at t4
      rw [hW']
      push_cast at t3 ⊢
      linarith
    have hhe : ∀ d ∈ shown cs, (outerHeight d : Int) ≤ area.height := by
      intro d hd
      have := s2 d hd
      rw [hH]; omega
    refine ⟨?_, ?_, ?_⟩
    · intro q hq
      rw [hpl] at hq
      obtain ⟨h1, h2, h3, h4⟩ := row_inside area vp (shown cs) _ area.x hs (leftMargins_nonneg none _ (by
        intro c hc; rw [sized_ml (hs c hc)]; exact Int.natCast_nonneg _)) (Horizontal.leftMargins_length _ _) hhe q hq
      exact ⟨h1, by omega, h3, h4⟩
    · intro d q hd hq
      rw [hpl] at hq
      rw [← he] at hd
      have hdm : d ∈ shown cs := List.mem_of_getLast? hd
      have := row_last area vp (shown cs) _ area.x hs (Horizontal.leftMargins_length none _) d q hd hq
      rw [sized_mr (hs d hdm)] at this
      have : R d = toU16 d.style.margin.right.value := rfl
      omega
    · intro _
      obtain ⟨d, hd, h⟩ := s3
      exact ⟨d, by rw [← he]; exact hd, by rw [hH]; omega⟩

/-- A text of one line of `w` columns, sized by its content, that needs `w / width` rows in a narrower space. -/
def text (w : Nat) (margin : Spacing := Spacing.zero) : LChild where
  index := 0
  style := { height := some ⟨0, .auto⟩, margin := margin }
  desiredWidth := w
  desiredHeight := 1
  intrinsicHeight := fun width => if width = 0 then 0 else (w + width - 1) / width

/-- A block of cells. -/
def block (w h : Nat) (margin : Spacing := Spacing.zero) : LChild where
  index := 0
  style := { width := some ⟨w, .cells⟩, height := some ⟨h, .cells⟩, margin := margin }
  desiredWidth := w
  desiredHeight := h
  intrinsicHeight := fun _ => h

/-- C155 fails for text that has to wrap: in a container of automatic height and 10 columns, the rows of a
text of 25 columns after the first are outside. -/
theorem wrapped_counterexample :
    let cs := [(true, text 25)]
    let size := desired { width := some ⟨10, .cells⟩, height := some ⟨0, .auto⟩ } .vertical {} cs
    size = (10, 1) ∧ (arrangeLayers [] {} (shown cs) (contentArea 0 0 {} size) ⟨80, 24⟩).map (·.region) = [⟨0, 0, 10, 3⟩] := by
  decide +kernel

/-- C155 fails for the minimal height of a child. -/
theorem min_height_counterexample :
    let b := block 5 1
    let cs := [(true, { b with style := { b.style with minHeight := some ⟨3, .cells⟩ } })]
    let size := intrinsic .vertical {} cs
    size = (5, 1) ∧ (arrangeLayers [] {} (shown cs) (contentArea 0 0 {} size) ⟨80, 24⟩).map (·.region) = [⟨0, 0, 5, 3⟩] := by
  decide +kernel

/-- C155 fails for grids, which ask for the size of one cell. -/
theorem grid_counterexample :
    let cs := [(true, block 5 1), (true, block 5 1), (true, block 5 1)]
    intrinsic .grid {} cs = (5, 1) := by
  decide +kernel

/-- C155 fails for long content: no child counts for more than 1000 rows. -/
theorem long_counterexample :
    let cs := [(true, block 5 1500)]
    intrinsic .vertical {} cs = (5, 1000) := by
  decide +kernel

def oneCell : Spacing := ⟨⟨1, .cells⟩, ⟨1, .cells⟩, ⟨1, .cells⟩, ⟨1, .cells⟩⟩

theorem block_sized (w h : Nat) (hw : w < fill) (hh : h < fill) : Sized (block w h oneCell) where
  width := .inr (.inr ⟨w, rfl, by
    show toI32 (w : Rat) = w
    unfold toI32
    rw [if_pos (by positivity), Int.floor_natCast]; unfold fill at hw hh; omega⟩)
  height := .inr (.inr ⟨h, rfl, by
    show toI32 (h : Rat) = h
    unfold toI32
    rw [if_pos (by positivity), Int.floor_natCast]; unfold fill at hw hh; omega⟩)
  borderBox := rfl
  free := ⟨rfl, rfl, rfl, rfl⟩
  given := ⟨hw, hh⟩
  margins := ⟨⟨1, by decide, by simp [block, oneCell]⟩, ⟨1, by decide, by simp [block, oneCell]⟩,
    ⟨1, by decide, by simp [block, oneCell]⟩, ⟨1, by decide, by simp [block, oneCell]⟩⟩
  flow := ⟨rfl, rfl, rfl, rfl, rfl⟩

/-- The hypotheses can be met, also with children that are hidden. -/
example :
    let cs := [(true, block 5 2 oneCell), (false, text 90), (true, block 8 3 oneCell)]
    (∀ c ∈ shown cs, Sized c) ∧ (∀ c ∈ shown cs, c.desiredWidth ≤ 1000 ∧ c.desiredHeight ≤ 1000) ∧
      (∀ c ∈ shown cs, outerWidth c + 2 ≤ 65535 ∧ outerHeight c + 2 ≤ 65535) ∧
      ((shown cs).map outerWidth).sum + 2 ≤ 65535 ∧ ((shown cs).map outerHeight).sum + 2 ≤ 65535 ∧ intrinsic .vertical { border := (2, 2) } cs = (12, 10) ∧
      intrinsic .horizontal { border := (2, 2) } cs = (18, 7) := by
  refine ⟨?_, by decide +kernel, by decide +kernel, by decide +kernel, by decide +kernel, by decide +kernel, by decide +kernel⟩
  intro c hc
  simp only [shown, List.filter_cons_of_pos, List.map_cons] at hc
  have : c = block 5 2 oneCell ∨ c = block 8 3 oneCell := by simpa using hc
  rcases this with rfl | rfl
  · exact block_sized 5 2 (by decide) (by decide)
  · exact block_sized 8 3 (by decide) (by decide)

end Textual.Layout.Intrinsic
