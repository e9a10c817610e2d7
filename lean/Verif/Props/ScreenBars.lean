import Verif.Props.Screen

/-! C112, C113: the bars of the screen, and mouse events for its children. -/

namespace Textual.Screen

open Layout (Placement Viewport)
open Scroller (Sheet Body Overflow Mouse Kind Flags inner scrolled inView virtualSize State vRegion hRegion
  contentRegion drawsV drawsH At ScreenFree Apart OnScreen Monotone TooTall TooWide Wanted contains_iff virtual_tall
  find_apart content_off_bars)

/-- The position after a drawing. -/
def after (s : Sheet) (b : Body) (c : ScrollState) (a : Region) (vp : Viewport) : ScrollState :=
  (c.setVirtualSize (layout s b a vp).2.2.1 (layout s b a vp).2.2.2).setViewport (layout s b a vp).1.width
    (layout s b a vp).1.height

theorem draw_eq (s : Sheet) (b : Body) (st : State) (r : Region) (vp : Viewport) (hr : 0 < r.width ∧ 0 < r.height) :
    draw s b st r vp =
      (some { content := (layout s b (inner s r) vp).1,
              children := ((layout s b (inner s r) vp).2.1.map fun p =>
                (⟨p.childIndex, scrolled (after s b st.scroll (inner s r) vp) p.region⟩ : Placement)).filter
                fun p => inView (layout s b (inner s r) vp).1 p.region,
              vBar := if drawsV s (shows s (after s b st.scroll (inner s r) vp)) then
                some (vRegion s (inner s r) (shows s (after s b st.scroll (inner s r) vp)).h) else none,
              hBar := if drawsH s (shows s (after s b st.scroll (inner s r) vp)) then
                some (hRegion s (inner s r) (shows s (after s b st.scroll (inner s r) vp)).v) else none },
       { st with scroll := after s b st.scroll (inner s r) vp }) := by
  unfold draw
  rw [if_neg (by omega)]
  rfl

/-- The bars the first layout calls for. -/
def first (s : Sheet) (b : Body) (a : Region) (vp : Viewport) : Flags := wants s a (virtualSize b (b.arrange a vp) a)

theorem first_v (s : Sheet) (b : Body) (a : Region) (vp : Viewport) :
    (first s b a vp).v = true ↔ Wanted s.overflowY (TooTall b vp a) := by
  rw [← virtual_tall]
  unfold first wants Wanted
  cases s.overflowY <;> simp

theorem layout_area (s : Sheet) (b : Body) (a : Region) (vp : Viewport) :
    (layout s b a vp).1 = contentRegion s a (first s b a vp) := by
  unfold layout first
  dsimp only
  split <;> rfl

theorem content_height (s : Sheet) (a : Region) (f : Flags) (hf : f.h = false) (ha : 0 ≤ a.height) :
    (contentRegion s a f).height = a.height := by
  simp [contentRegion, hf, ha]

theorem first_h (s : Sheet) (b : Body) (a : Region) (vp : Viewport) (hx : s.overflowX = .hidden) :
    (first s b a vp).h = false := by
  simp [first, wants, hx]

/-- Without horizontal bar the bar shown in the end is the one called for in the beginning. -/
theorem flags_agree (s : Sheet) (b : Body) (c : ScrollState) (a : Region) (vp : Viewport) (hx : s.overflowX = .hidden)
    (hm : Monotone b vp) (ha : 0 ≤ a.height) (hw : 0 ≤ a.width) :
    shows s (after s b c a vp) = first s b a vp := by
  have hh := first_h s b a vp hx
  have h2 : (shows s (after s b c a vp)).h = false := by simp [shows, hx]
  have hv : (shows s (after s b c a vp)).v = (first s b a vp).v := by
    rw [Bool.eq_iff_iff, first_v]
    have hch := content_height s a (first s b a vp) hh ha
    have hvir : (after s b c a vp).virtualHeight = (layout s b a vp).2.2.2 := rfl
    have hvie : (after s b c a vp).viewportHeight = a.height := by
      rw [← hch, ← layout_area s b a vp]; rfl
    unfold shows Wanted
    cases ho : s.overflowY with
    | scroll => simp
    | hidden => simp
    | auto =>
      simp only [ScrollState.canScrollY, hvir, hvie, decide_eq_true_eq, reduceCtorEq, true_and, false_or]
      have hf1 := first_v s b a vp
      rw [ho] at hf1
      have hf2 : (first s b a vp).v = true ↔ TooTall b vp a := by rw [hf1]; simp [Wanted]
      have hl : (layout s b a vp).2.2 = if (first s b a vp).v = true ∧
          (contentRegion s a (first s b a vp)).width < a.width then
          virtualSize b (b.arrange (contentRegion s a (first s b a vp)) vp) (contentRegion s a (first s b a vp))
          else virtualSize b (b.arrange a vp) a := by
        unfold layout
        dsimp only
        change (if (first s b a vp).v = true ∧ (contentRegion s a (first s b a vp)).width < a.width then _ else _ :
          Region × List Placement × (Int × Int)).2.2 = _
        split <;> rfl
      rw [hl]
      split
      · rename_i hc
        have ht := hf2.1 hc.1
        refine iff_of_true ?_ ht
        rw [← hch]
        refine (virtual_tall b vp _).2 ?_
        have := (hm a.x a.y a.width a.height (contentRegion s a (first s b a vp)).width
          (contentRegion s a (first s b a vp)).height hc.2.le hch.le).1 ht
        exact this
      · exact virtual_tall b vp a
  generalize shows s (after s b c a vp) = f at *
  generalize first s b a vp = g at *
  cases f; cases g; simp_all

theorem inner_nonneg (s : Sheet) (r : Region) (hr : 0 < r.width ∧ 0 < r.height) :
    0 ≤ (inner s r).width ∧ 0 ≤ (inner s r).height := by
  unfold inner
  rw [if_neg (by omega)]
  dsimp only
  omega

/-- **C112** (partial: `overflow-x: hidden`, which is the default, layouts as in C102, and a bar that fits; see
`cover_counterexample`). The screen shows a vertical bar just if it is wanted: always, never, or if the children end
below the area; the bar and the area of the children share no cell and make up the inner region; without bar, and
if no room is kept free, the children have the whole inner region. -/
theorem bars_partial (s : Sheet) (b : Body) (st : State) (r : Region) (vp : Viewport)
    (hr : 0 < r.width ∧ 0 < r.height) (hx : s.overflowX = .hidden) (hm : Monotone b vp)
    (hv : s.visible = true ∧ 0 < s.barV) (hbar : (s.barV : Int) ≤ (inner s r).width) :
    ∃ d, (draw s b st r vp).1 = some d ∧ d.hBar = none ∧
      (d.vBar.isSome = true ↔ Wanted s.overflowY (TooTall b vp (inner s r))) ∧
      (∀ v, d.vBar = some v → ∀ x y, (At (inner s r) x y ↔ At d.content x y ∨ At v x y) ∧
        ¬ (At d.content x y ∧ At v x y)) ∧
      (d.vBar = none → s.stableGutter = false → d.content = inner s r) := by
  obtain ⟨n1, n2⟩ := inner_nonneg s r hr
  refine ⟨_, by rw [draw_eq s b st r vp hr], ?_⟩
  dsimp only
  rw [flags_agree s b st.scroll (inner s r) vp hx hm n2 n1, layout_area]
  have hv' := first_v s b (inner s r) vp
  have hh := first_h s b (inner s r) vp hx
  generalize first s b (inner s r) vp = f at *
  generalize inner s r = a at *
  obtain ⟨fv, fh⟩ := f
  dsimp only at hv' hh
  subst hh
  refine ⟨by simp [drawsH], ?_, ?_, ?_⟩
  · rw [← hv']
    simp only [drawsV, hv.1, Bool.and_true, Bool.and_eq_true, decide_eq_true_eq]
    by_cases h : fv = true
    · simp [h, hv.2]
    · simp [h]
  · intro v e x y
    by_cases h : fv = true
    · subst h
      rw [if_pos (by simp [drawsV, hv.1, hv.2])] at e
      cases e
      simp only [contentRegion, vRegion, At, true_or, if_true, Bool.false_eq_true, if_false]
      omega
    · rw [if_neg (by simp [drawsV, h])] at e
      cases e
  · intro e hg
    by_cases h : fv = true
    · subst h
      rw [if_pos (by simp [drawsV, hv.1, hv.2])] at e
      cases e
    · cases a
      simp only [Bool.not_eq_true] at h
      subst h
      simp only [contentRegion, hg, Bool.false_eq_true, false_and, or_self, if_false, Region.mk.injEq, true_and]
      simp only at n1 n2
      omega

def card (w h : Int) : Body := { arrange := fun a _ => [⟨0, ⟨a.x, a.y, w, h⟩⟩] }

def plain : Sheet := { overflowX := .hidden }

example : ((draw plain (card 10 25) {} ⟨0, 0, 20, 10⟩ ⟨20, 10⟩).1.map fun d => (d.content, d.vBar)) =
    some (⟨0, 0, 18, 10⟩, some ⟨18, 0, 2, 10⟩) := by decide +kernel

/-- **C112** fails with `overflow-x: auto`: the vertical bar makes the content too wide, and then a horizontal bar is
drawn over the last row of the children. -/
theorem cover_counterexample :
    ∃ d, (draw {} (card 19 25) {} ⟨0, 0, 20, 10⟩ ⟨20, 10⟩).1 = some d ∧ d.content = ⟨0, 0, 18, 10⟩ ∧
      d.hBar = some ⟨0, 9, 18, 1⟩ :=
  ⟨(draw {} (card 19 25) {} ⟨0, 0, 20, 10⟩ ⟨20, 10⟩).1.get (by decide +kernel), by decide +kernel, by decide +kernel,
    by decide +kernel⟩

/-- A child that is less tall when it is narrower. -/
def shy : Body := { arrange := fun a _ => [⟨0, ⟨a.x, a.y, a.width, if a.width < 20 then 5 else 25⟩⟩] }

/-- **C112** fails for such children: room is kept for a bar that is not drawn. -/
theorem no_bar_counterexample :
    ∃ d, (draw plain shy {} ⟨0, 0, 20, 10⟩ ⟨20, 10⟩).1 = some d ∧ d.content = ⟨0, 0, 18, 10⟩ ∧ d.vBar = none :=
  ⟨(draw plain shy {} ⟨0, 0, 20, 10⟩ ⟨20, 10⟩).1.get (by decide +kernel), by decide +kernel, by decide +kernel,
    by decide +kernel⟩

end Textual.Screen
