import Verif.Model.Scroll
import Mathlib.Algebra.Order.Field.Rat
import Mathlib.Tactic.Linarith
import Mathlib.Tactic.Positivity

/-! C01: scroll offsets stay within the content for every history of operations. -/

namespace Textual.ScrollState

/-- The window shown lies inside the content (or at the origin when the content fits). -/
def InBounds (s : ScrollState) : Prop :=
  0 ≤ s.offsetX ∧ s.offsetX ≤ max (s.virtualWidth - s.viewportWidth) 0 ∧
  0 ≤ s.offsetY ∧ s.offsetY ≤ max (s.virtualHeight - s.viewportHeight) 0

/-- The relative scroll amounts of an operation are not negative. -/
def Op.NonNeg : Op → Prop
  | .up n | .down n | .left n | .right n => 0 ≤ n
  | _ => True

theorem step_inBounds {s : ScrollState} {op : Op} (h : s.InBounds) (ho : op.NonNeg) :
    (s.step op).InBounds := by
  obtain ⟨h1, h2, h3, h4⟩ := h
  cases op with
  | scrollTo x y =>
    cases x <;> cases y <;>
      simp only [step, scrollTo, InBounds, clamp, maxScrollX, maxScrollY] <;>
      (refine ⟨?_, ?_, ?_, ?_⟩) <;> (try split) <;> (try split) <;> omega
  | _ =>
    simp only [step, scrollUp, scrollDown, scrollLeft, scrollRight, setViewport, setVirtualSize,
      reclamp, InBounds, maxScrollX, maxScrollY, Op.NonNeg] at * <;> omega

/-- C01 (partial: relative amounts must be non-negative; see the counterexamples below).
From an in-bounds state, every history of scroll operations ends in bounds. -/
theorem run_inBounds_partial (s : ScrollState) (ops : List Op) (h : s.InBounds)
    (ho : ∀ op ∈ ops, op.NonNeg) : (s.run ops).InBounds := by
  induction ops generalizing s with
  | nil => exact h
  | cons op ops ih =>
    exact ih (s.step op) (step_inBounds h (ho op (by simp))) (fun o m => ho o (by simp [m]))

/-- C01: in particular every history on a freshly created state. -/
theorem new_run_inBounds_partial (vw vh pw ph : Int) (ops : List Op)
    (ho : ∀ op ∈ ops, op.NonNeg) : ((ScrollState.new vw vh pw ph).run ops).InBounds :=
  run_inBounds_partial _ ops (by simp only [InBounds, new]; omega) ho

/-- C01: the whole window is inside the content whenever the content is at least as large. -/
theorem window_within_content_partial (vw vh pw ph : Int) (ops : List Op)
    (ho : ∀ op ∈ ops, op.NonNeg) :
    let s := (ScrollState.new vw vh pw ph).run ops
    (s.viewportWidth ≤ s.virtualWidth → s.offsetX + s.viewportWidth ≤ s.virtualWidth) ∧
    (s.viewportHeight ≤ s.virtualHeight → s.offsetY + s.viewportHeight ≤ s.virtualHeight) ∧
    (s.virtualWidth ≤ s.viewportWidth → s.offsetX = 0) ∧
    (s.virtualHeight ≤ s.viewportHeight → s.offsetY = 0) := by
  have := new_run_inBounds_partial vw vh pw ph ops ho
  simp only [InBounds] at this
  omega

/-- A history mixing every operation. -/
example : ∀ op ∈ [Op.down 7, .setViewport 10 30, .right 3, .scrollTo (some (-3)) (some (7 / 2)),
    .up 1, .left 100, .setVirtualSize 5 5], op.NonNeg := by
  simp [Op.NonNeg]

example : ((ScrollState.new 100 50 20 10).run [.down 70, .right 30, .setVirtualSize 40 45]) =
    ⟨20, 35, 40, 45, 20, 10⟩ := by decide

/-- C01 is false without the sign condition: `scroll_up(-n)` runs past the end. -/
theorem scrollUp_negative_counterexample :
    ¬ ((ScrollState.new 10 10 5 5).run [.up (-100)]).InBounds := by
  simp only [InBounds, run, List.foldl, step, scrollUp, new]; decide

/-- C01 is false without the sign condition: `scroll_down(-n)` goes before the start. -/
theorem scrollDown_negative_counterexample :
    ¬ ((ScrollState.new 10 10 5 5).run [.down (-100)]).InBounds := by
  simp only [InBounds, run, List.foldl, step, scrollDown, new]; decide

/-- C01: absolute scrolling and both setters re-establish the bounds from *any* state, even one
left out of bounds by negative amounts. -/
theorem scrollTo_inBounds (s : ScrollState) (x y : Rat) :
    (s.scrollTo (some x) (some y)).InBounds := by
  simp only [scrollTo, InBounds, clamp, maxScrollX, maxScrollY]
  refine ⟨?_, ?_, ?_, ?_⟩ <;> split <;> (try split) <;> omega

theorem setViewport_inBounds (s : ScrollState) (w h : Int) : (s.setViewport w h).InBounds := by
  simp only [setViewport, reclamp, InBounds, maxScrollX, maxScrollY]; omega

theorem setVirtualSize_inBounds (s : ScrollState) (w h : Int) :
    (s.setVirtualSize w h).InBounds := by
  simp only [setVirtualSize, reclamp, InBounds, maxScrollX, maxScrollY]; omega

/-- C01: scroll commands move exactly by the amount asked for unless they hit the end, where they
stop at the end. -/
theorem scrollDown_exact (s : ScrollState) (n : Int) :
    (s.scrollDown n).offsetY =
      if s.offsetY + n ≤ s.maxScrollY then s.offsetY + n else s.maxScrollY := by
  simp only [scrollDown]; grind

theorem scrollUp_exact (s : ScrollState) (n : Int) :
    (s.scrollUp n).offsetY = if n ≤ s.offsetY then s.offsetY - n else 0 := by
  simp only [scrollUp]; grind

theorem scrollRight_exact (s : ScrollState) (n : Int) :
    (s.scrollRight n).offsetX =
      if s.offsetX + n ≤ s.maxScrollX then s.offsetX + n else s.maxScrollX := by
  simp only [scrollRight]; grind

theorem scrollLeft_exact (s : ScrollState) (n : Int) :
    (s.scrollLeft n).offsetX = if n ≤ s.offsetX then s.offsetX - n else 0 := by
  simp only [scrollLeft]; grind

/-- C01: scrolling down and back up by the same amount returns to the start when not clamped. -/
theorem scrollDown_scrollUp (s : ScrollState) (n : Int) (h : s.InBounds)
    (hfit : s.offsetY + n ≤ s.maxScrollY) : ((s.scrollDown n).scrollUp n) = s := by
  cases s
  simp only [scrollDown, scrollUp, InBounds, maxScrollY, mk.injEq, true_and, and_true] at *
  omega

/-- C01: the reported percentage is between 0 and 1, 0 at the start and 1 at the end. -/
theorem scrollPercentY_range (s : ScrollState) (h : s.InBounds) :
    0 ≤ s.scrollPercentY ∧ s.scrollPercentY ≤ 1 ∧
    (s.offsetY = 0 → s.scrollPercentY = 0) ∧
    (s.canScrollY = true → s.offsetY = s.maxScrollY → s.scrollPercentY = 1) := by
  obtain ⟨_, _, h3, h4⟩ := h
  change s.offsetY ≤ s.maxScrollY at h4
  have hm : 0 ≤ s.maxScrollY := by simp only [maxScrollY]; omega
  unfold scrollPercentY
  split
  · rename_i h0
    refine ⟨le_refl _, by norm_num, fun _ => rfl, fun hc _ => ?_⟩
    simp only [canScrollY, maxScrollY, decide_eq_true_eq] at *
    omega
  · rename_i h0
    have hpos : (0 : Rat) < (s.maxScrollY : Rat) := by
      have : 0 < s.maxScrollY := by omega
      exact_mod_cast this
    have h3' : (0 : Rat) ≤ (s.offsetY : Rat) := by exact_mod_cast h3
    have h4' : (s.offsetY : Rat) ≤ (s.maxScrollY : Rat) := by exact_mod_cast h4
    refine ⟨div_nonneg h3' hpos.le, (div_le_one hpos).2 h4', fun h => by simp [h], fun _ h => ?_⟩
    rw [h]; exact div_self hpos.ne'

theorem scrollPercentX_range (s : ScrollState) (h : s.InBounds) :
    0 ≤ s.scrollPercentX ∧ s.scrollPercentX ≤ 1 ∧
    (s.offsetX = 0 → s.scrollPercentX = 0) ∧
    (s.canScrollX = true → s.offsetX = s.maxScrollX → s.scrollPercentX = 1) := by
  obtain ⟨h3, h4, _, _⟩ := h
  change s.offsetX ≤ s.maxScrollX at h4
  have hm : 0 ≤ s.maxScrollX := by simp only [maxScrollX]; omega
  unfold scrollPercentX
  split
  · rename_i h0
    refine ⟨le_refl _, by norm_num, fun _ => rfl, fun hc _ => ?_⟩
    simp only [canScrollX, maxScrollX, decide_eq_true_eq] at *
    omega
  · rename_i h0
    have hpos : (0 : Rat) < (s.maxScrollX : Rat) := by
      have : 0 < s.maxScrollX := by omega
      exact_mod_cast this
    have h3' : (0 : Rat) ≤ (s.offsetX : Rat) := by exact_mod_cast h3
    have h4' : (s.offsetX : Rat) ≤ (s.maxScrollX : Rat) := by exact_mod_cast h4
    refine ⟨div_nonneg h3' hpos.le, (div_le_one hpos).2 h4', fun h => by simp [h], fun _ h => ?_⟩
    rw [h]; exact div_self hpos.ne'

/-- Non-trivial in-bounds states. -/
example : (⟨3, 40, 100, 50, 20, 10⟩ : ScrollState).InBounds := by simp [InBounds]

end Textual.ScrollState
