import Verif.Model.ColorFn
import Verif.Spec.Hsl
import Verif.Props.Contrast

/-!
C152: `hsl(...)` colours are the ones CSS defines.
-/

namespace Textual.RgbaColor

open Textual.Hsl

theorem mod12_eq {x y : Rat} (z : Int) (h : x = y + 12 * z) (h0 : 0 ≤ y) (h1 : y < 12) : mod12 x = y := by
  unfold mod12
  have : ⌊x / 12⌋ = z := by
    rw [Int.floor_eq_iff, h]
    constructor
    · rw [le_div_iff₀ (by norm_num)]; linarith
    · rw [div_lt_iff₀ (by norm_num)]; linarith
  rw [this, h]; ring

/-- The model's channel at a hue fraction `t` between 0 and 1, in the terms of the specification. -/
theorem hue_sector {l a t : Rat} (h0 : 0 ≤ t) (h1 : t ≤ 1) :
    (if t < 1 / 6 then (l - a) + ((l + a) - (l - a)) * 6 * t
      else if t < 1 / 2 then l + a
      else if t < 2 / 3 then (l - a) + ((l + a) - (l - a)) * (2 / 3 - t) * 6
      else l - a)
    = l - a * max (-1) (min (min (mod12 (12 * t + 8) - 3) (9 - mod12 (12 * t + 8))) 1) := by
  by_cases c1 : t < 1 / 6
  · rw [if_pos c1, mod12_eq (y := 12 * t + 8) 0 (by push_cast; ring) (by linarith) (by linarith)]
    rw [min_eq_right (a := 12 * t + 8 - 3) (by linarith), min_eq_left (by linarith), max_eq_right (by linarith)]
    ring
  rw [if_neg c1]
  by_cases c2 : t < 1 / 2
  · rw [if_pos c2]
    by_cases c3 : t < 1 / 3
    · rw [mod12_eq (y := 12 * t + 8) 0 (by push_cast; ring) (by linarith) (by linarith)]
      rw [min_eq_right (a := 12 * t + 8 - 3) (by linarith), min_eq_left (by linarith), max_eq_left (by linarith)]
      ring
    · rw [mod12_eq (y := 12 * t - 4) 1 (by push_cast; ring) (by linarith) (by linarith)]
      rw [min_eq_left (a := 12 * t - 4 - 3) (by linarith), min_eq_left (by linarith), max_eq_left (by linarith)]
      ring
  rw [if_neg c2]
  rw [mod12_eq (y := 12 * t - 4) 1 (by push_cast; ring) (by linarith) (by linarith)]
  by_cases c3 : t < 2 / 3
  · rw [if_pos c3]
    rw [min_eq_left (a := 12 * t - 4 - 3) (by linarith), min_eq_left (by linarith), max_eq_right (by linarith)]
    ring
  · rw [if_neg c3, min_eq_right (a := min _ _) (le_min (by linarith) (by linarith)), max_eq_right (by norm_num)]
    ring

theorem mod12_shift (x : Rat) (z : Int) : mod12 (x + 12 * z) = mod12 x := by
  unfold mod12
  have : (x + 12 * z) / 12 = x / 12 + z := by ring
  rw [this, Int.floor_add_intCast]
  push_cast
  ring

theorem hue_channel {l a t : Rat} (h0 : -1 ≤ t) (h1 : t ≤ 2) :
    hueToRgb (l - a) (l + a) t
      = l - a * max (-1) (min (min (mod12 (12 * t + 8) - 3) (9 - mod12 (12 * t + 8))) 1) := by
  unfold hueToRgb
  by_cases c1 : t < 0
  · simp only [c1, if_true]
    have c2 : ¬ t + 1 > 1 := by linarith
    simp only [c2, if_false]
    rw [hue_sector (by linarith) (by linarith)]
    have : 12 * (t + 1) + 8 = 12 * t + 8 + 12 * ((1 : Int) : Rat) := by push_cast; ring
    rw [this, mod12_shift]
  · simp only [c1, if_false]
    by_cases c2 : t > 1
    · simp only [c2, if_true]
      rw [hue_sector (by linarith) (by linarith)]
      have : 12 * (t - 1) + 8 = 12 * t + 8 + 12 * ((-1 : Int) : Rat) := by push_cast; ring
      rw [this, mod12_shift]
    · simp only [c2, if_false]
      exact hue_sector (by linarith) (by linarith)

theorem channel_eq {h s l t : Rat} {n : Rat} (z : Int) (ht : 12 * t + 8 = n + h / 30 + 12 * z)
    (h0 : -1 ≤ t) (h1 : t ≤ 2) :
    hueToRgb (l - s * min l (1 - l)) (l + s * min l (1 - l)) t = channel h s l n := by
  rw [hue_channel h0 h1, ht, mod12_shift]
  rfl

/-- C152, in part. For every hue from -240 to 600 degrees, saturation and lightness, the three channels
are the ones of the CSS definition, rounded to whole steps. What is missing: the other hues, see
`hsl_hue_counterexample`. -/
theorem hsl_channels_partial (h s l : Rat) (h0 : -240 ≤ h) (h1 : h ≤ 600) :
    hslToRgb h s l = (roundU8 (channel h s l 0 * 255), roundU8 (channel h s l 8 * 255),
      roundU8 (channel h s l 4 * 255)) := by
  unfold hslToRgb
  by_cases hs : s = 0
  · rw [if_pos hs]
    have : ∀ n, channel h s l n = l := by
      intro n; unfold channel; simp [hs]
    simp only [this]
  · rw [if_neg hs]
    have hq : (if l < 1 / 2 then l * (1 + s) else l + s - l * s) = l + s * min l (1 - l) := by
      split
      · rw [min_eq_left (by linarith)]; ring
      · rename_i hl
        rw [min_eq_right (by linarith)]; ring
    dsimp only
    rw [hq, show 2 * l - (l + s * min l (1 - l)) = l - s * min l (1 - l) by ring]
    rw [channel_eq (h := h) (n := 0) 1 (by push_cast; ring) (by linarith) (by linarith),
      channel_eq (h := h) (n := 8) 0 (by push_cast; ring) (by linarith) (by linarith),
      channel_eq (h := h) (n := 4) 0 (by push_cast; ring) (by linarith) (by linarith)]

/-- C152. `from_hsl` gives the same channels. -/
theorem fromHsl_channels (h s l a : Rat) :
    fromHsl h s l a = rgba (hslToRgb h s l).1 (hslToRgb h s l).2.1 (hslToRgb h s l).2.2 a := by
  unfold fromHsl hslToRgb
  by_cases hs : s = 0 <;> simp [hs]

/-- C152 fails for hues of more than one turn and a half: two whole turns are not red. -/
theorem hsl_hue_counterexample :
    hslToRgb 720 1 (1 / 2) = (0, 0, 0) ∧ hslToRgb 0 1 (1 / 2) = (255, 0, 0) ∧
      ∀ n, channel 720 1 (1 / 2) n = channel 0 1 (1 / 2) n := by
  refine ⟨by decide +kernel, by decide +kernel, fun n => ?_⟩
  unfold channel
  have : n + 720 / 30 = n + 0 / 30 + 12 * ((2 : Int) : Rat) := by push_cast; norm_num
  rw [this, mod12_shift]

/-- Sea green, by hand. -/
example : hslToRgb 146 (1 / 2) (36 / 100) = (46, 138, 86) := by decide +kernel
example : channel 120 1 (1 / 2) 8 = 1 := by decide +kernel

end Textual.RgbaColor
