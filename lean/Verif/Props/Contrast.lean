import Verif.Props.Given
import Verif.Props.Color

/-!
C151: text that adapts to its background is readable on every background.
-/

namespace Textual.Theme

open RgbaColor

theorem roundU8_bounds {x : Rat} (h0 : 0 ≤ x) (h1 : x ≤ 255) :
    x - 1 / 2 ≤ (roundU8 x : Rat) ∧ (roundU8 x : Rat) ≤ x + 1 / 2 := by
  have hf0 : 0 ≤ (x + 1 / 2).floor := by
    rw [Rat.le_floor_iff]; push_cast; linarith
  have hf1 : (x + 1 / 2).floor ≤ 255 := by
    have h2 : (x + 1 / 2).floor < 256 := by rw [Rat.floor_lt_iff]; push_cast; linarith
    omega
  have e : ((roundU8 x : Nat) : Rat) = ((x + 1 / 2).floor : Rat) := by
    obtain ⟨n, hn⟩ := Int.eq_ofNat_of_zero_le hf0
    unfold roundU8
    rw [hn, Int.cast_natCast, clampU8_nat (by omega)]
  rw [e]
  have h3 := Rat.floor_le (x + 1 / 2)
  have h4 := Rat.lt_floor_add_one (x + 1 / 2)
  push_cast at h4
  constructor <;> linarith

theorem brightness_range {c : RgbaColor} (h : c.Valid) :
    0 ≤ c.perceivedBrightness ∧ c.perceivedBrightness ≤ 1 := by
  obtain ⟨hr, hg, hb⟩ := h
  have hr' : (c.r : Rat) ≤ 255 := by exact_mod_cast Nat.lt_succ_iff.1 hr
  have hg' : (c.g : Rat) ≤ 255 := by exact_mod_cast Nat.lt_succ_iff.1 hg
  have hb' : (c.b : Rat) ≤ 255 := by exact_mod_cast Nat.lt_succ_iff.1 hb
  unfold perceivedBrightness
  constructor
  · positivity
  · rw [div_le_one (by norm_num)]; linarith

/-- C151. Contrast text differs from the background in brightness by at least half of the whole range. -/
theorem contrast_readable (c : RgbaColor) (alpha : Rat) (h : c.Valid) :
    1 / 2 ≤ |(contrastText c alpha).perceivedBrightness - c.perceivedBrightness| := by
  obtain ⟨h0, h1⟩ := brightness_range h
  unfold contrastText
  split
  · rename_i hb
    rw [abs_of_nonneg] <;> simp [perceivedBrightness, rgba] at * <;> norm_num at * <;> linarith
  · rename_i hb
    rw [abs_of_nonpos] <;> simp [perceivedBrightness, rgba] at * <;> norm_num at * <;> linarith

/-- C151. Text whose colour is chosen by contrast, `ratio` of the way to black or white, differs from its
background in brightness by at least half of that ratio, less one half step of rounding. -/
theorem auto_readable (c : RgbaColor) (ratio : Rat) (h : c.Valid) (h0 : 0 ≤ ratio) (h1 : ratio ≤ 1) :
    ratio / 2 - 1 / 510 ≤ |(c.getContrastingColor ratio).perceivedBrightness - c.perceivedBrightness| := by
  obtain ⟨b0, b1⟩ := brightness_range h
  obtain ⟨hr, hg, hb⟩ := h
  have hr' : (c.r : Rat) ≤ 255 := by exact_mod_cast Nat.lt_succ_iff.1 hr
  have hg' : (c.g : Rat) ≤ 255 := by exact_mod_cast Nat.lt_succ_iff.1 hg
  have hb' : (c.b : Rat) ≤ 255 := by exact_mod_cast Nat.lt_succ_iff.1 hb
  have r0 : (0 : Rat) ≤ c.r := by positivity
  have g0 : (0 : Rat) ≤ c.g := by positivity
  have bl0 : (0 : Rat) ≤ c.b := by positivity
  have mix0 : ∀ (x y : Rat), 0 ≤ x → 0 ≤ y → 0 ≤ x * ratio + y * (1 - ratio) := fun x y hx hy =>
    add_nonneg (mul_nonneg hx h0) (mul_nonneg hy (by linarith))
  have mix1 : ∀ (x y : Rat), x ≤ 255 → y ≤ 255 → x * ratio + y * (1 - ratio) ≤ 255 := by
    intro x y hx hy
    have h3 : x * ratio ≤ 255 * ratio := mul_le_mul_of_nonneg_right hx h0
    have h4 : y * (1 - ratio) ≤ 255 * (1 - ratio) := mul_le_mul_of_nonneg_right hy (by linarith)
    linarith
  unfold getContrastingColor
  by_cases hbr : c.perceivedBrightness < 1 / 2
  · simp only [hbr, if_true]
    by_cases hra : ratio ≥ 1
    · rw [if_pos hra]
      refine le_trans ?_ (le_abs_self _)
      unfold perceivedBrightness at *
      simp only [white, rgb] at *
      norm_num at *
      linarith
    · rw [if_neg hra]
      refine le_trans ?_ (le_abs_self _)
      have e1 := (roundU8_bounds (mix0 255 c.r (by norm_num) r0) (mix1 255 c.r (by norm_num) hr')).1
      have e2 := (roundU8_bounds (mix0 255 c.g (by norm_num) g0) (mix1 255 c.g (by norm_num) hg')).1
      have e3 := (roundU8_bounds (mix0 255 c.b (by norm_num) bl0) (mix1 255 c.b (by norm_num) hb')).1
      have key : ratio * (1 - c.perceivedBrightness) ≥ ratio * (1 / 2) :=
        mul_le_mul_of_nonneg_left (by linarith) h0
      unfold perceivedBrightness at *
      simp only [white, rgb] at *
      norm_num at *
      linarith
  · simp only [hbr, if_false]
    by_cases hra : ratio ≥ 1
    · rw [if_pos hra]
      refine le_trans ?_ (neg_le_abs _)
      unfold perceivedBrightness at *
      simp only [black, rgb] at *
      norm_num at *
      linarith
    · rw [if_neg hra]
      refine le_trans ?_ (neg_le_abs _)
      have e1 := (roundU8_bounds (mix0 0 c.r (by norm_num) r0) (mix1 0 c.r (by norm_num) hr')).2
      have e2 := (roundU8_bounds (mix0 0 c.g (by norm_num) g0) (mix1 0 c.g (by norm_num) hg')).2
      have e3 := (roundU8_bounds (mix0 0 c.b (by norm_num) bl0) (mix1 0 c.b (by norm_num) hb')).2
      have key : ratio * c.perceivedBrightness ≥ ratio * (1 / 2) :=
        mul_le_mul_of_nonneg_left (by linarith) h0
      unfold perceivedBrightness at *
      simp only [black, rgb] at *
      norm_num at *
      linarith

/-- C151, in part. A foreground that was not given is the inverse of the background, so the two differ in
brightness by how far the background is from the middle. -/
theorem default_foreground_partial (s : ColorSystem) (hf : s.foreground = none)
    (h : (background s).Valid) :
    |(foreground s).perceivedBrightness - (background s).perceivedBrightness|
      = |1 - 2 * (background s).perceivedBrightness| := by
  obtain ⟨hr, hg, hb⟩ := h
  unfold foreground
  rw [hf, Option.getD_none]
  congr 1
  unfold inverse perceivedBrightness
  simp only [rgba]
  rw [Nat.cast_sub (by omega), Nat.cast_sub (by omega), Nat.cast_sub (by omega)]
  push_cast
  ring

/-- C151 fails for the foreground a theme does not give: on a medium grey background the text is the same
grey, one step off. -/
theorem default_foreground_counterexample (lab : Lab) :
    ∃ s : ColorSystem, (background s).Valid ∧
      (generate lab s).get "footer-foreground" = some (.rgb 127 127 127) ∧
      (generate lab s).get "input-cursor-foreground" = some (.rgb 128 128 128) := by
  refine ⟨{ ColorSystem.new .white true with background := some (.rgb 128 128 128) }, ?_, ?_, ?_⟩
  · unfold background Valid; decide
  · apply get_of_mem
    simp [widgetVars, foreground, background, inverse, rgb, rgba, ColorSystem.new]
  · apply get_of_mem
    simp [widgetVars, background]

/-- The variables of text, and how opaque it is. -/
def textNames : List (String × Rat) :=
  [("text", 87 / 100), ("text-muted", 60 / 100), ("text-disabled", 38 / 100), ("link-color", 87 / 100),
   ("link-color-hover", 87 / 100), ("block-cursor-foreground", 87 / 100), ("button-color-foreground", 87 / 100)]

/-- C151. Text in the colours of a theme adapts to its background, but for a theme whose foreground is a colour of the
terminal, which is used as it is. -/
theorem text_adapts (lab : Lab) (s : ColorSystem) (name : String) (alpha : Rat) (h : (name, alpha) ∈ textNames) :
    ((∀ c, s.foreground = some c → c.ansi = none) → (generate lab s).get name = some (.autoColor alpha)) ∧
    (∀ c, s.foreground = some c → c.ansi.isSome → (generate lab s).get name = some c) := by
  have hg : (generate lab s).get name = some (textColor s alpha) := by
    apply get_of_mem
    simp only [textNames, List.mem_cons, Prod.mk.injEq, List.not_mem_nil, or_false] at h
    rcases h with ⟨rfl, rfl⟩ | ⟨rfl, rfl⟩ | ⟨rfl, rfl⟩ | ⟨rfl, rfl⟩ | ⟨rfl, rfl⟩ | ⟨rfl, rfl⟩ | ⟨rfl, rfl⟩ <;>
      simp [textVars, partVars, widgetVars]
  rw [hg]
  constructor
  · intro hp
    have : (foreground s).ansi = none := by
      unfold foreground
      cases hf : s.foreground with
      | none => simp [inverse, rgba]
      | some c => exact hp c hf
    simp [textColor, this]
  · intro c hc ha
    have : foreground s = c := by simp [foreground, hc]
    rw [textColor, this, if_neg (by cases hx : c.ansi <;> simp_all)]

example : ("text-muted", 60 / 100) ∈ textNames := by simp [textNames]

example : (rgb 128 128 128).Valid ∧ (0 : Rat) ≤ 87 / 100 ∧ (87 / 100 : Rat) ≤ 1 := by
  unfold Valid; exact ⟨by decide, by norm_num, by norm_num⟩
example : (background { ColorSystem.new .white false with background := some (.rgb 200 10 30) }).Valid := by
  unfold background Valid; decide

end Textual.Theme
