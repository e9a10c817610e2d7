import Verif.Model.Scrollbar
import Mathlib.Tactic.Linarith
import Mathlib.Tactic.FieldSimp
import Mathlib.Tactic.Ring
import Mathlib.Tactic.NormNum

/-! C18: the scrollbar thumb stays on its track. -/

namespace Textual.Scrollbar

theorem trunc_nonneg {q : Rat} (h : 0 ≤ q) : trunc q = ⌊q⌋ := by simp [trunc, h]

/-- The thumb length in cells before rounding: proportional, but at least one cell. -/
theorem thumbSize_bounds {n : Int} {v w : Rat} (hn : 1 ≤ n) (hw : 0 < w) (hwv : w < v) :
    1 ≤ max (w / (v / (n : Rat))) 1 ∧ max (w / (v / (n : Rat))) 1 ≤ n := by
  have hn' : (1 : Rat) ≤ n := by exact_mod_cast hn
  have hv : 0 < v := by linarith
  refine ⟨le_max_right _ _, max_le ?_ hn'⟩
  have e : w / (v / (n : Rat)) = w / v * n := by field_simp
  rw [e]
  have : w / v ≤ 1 := by rw [div_le_one hv]; linarith
  nlinarith

theorem place_bounds (n : Int) (T ρ s : Rat) (hT : T ≤ n) (hρ0 : 0 ≤ ρ) (hρ1 : ρ ≤ 1) (hs : 0 < s) (m : Int)
    (hm : (m : Rat) = n * s) :
    0 ≤ ⌊((n : Rat) - T) * ρ * s⌋ ∧ ⌊((n : Rat) - T) * ρ * s⌋ + ⌈T * s⌉ ≤ m ∧
    (ρ = 1 → ⌊((n : Rat) - T) * ρ * s⌋ + ⌈T * s⌉ = m) ∧ (ρ = 0 → ⌊((n : Rat) - T) * ρ * s⌋ = 0) := by
  have h0 : 0 ≤ ((n : Rat) - T) := by linarith
  have key : ⌊((n : Rat) - T) * s⌋ + ⌈T * s⌉ = m := by
    have e : ((n : Rat) - T) * s = (m : Rat) - T * s := by rw [hm]; ring
    rw [e, sub_eq_add_neg, Int.floor_intCast_add, Int.floor_neg]
    omega
  refine ⟨Int.floor_nonneg.2 (by positivity), ?_, ?_, ?_⟩
  · have : ⌊((n : Rat) - T) * ρ * s⌋ ≤ ⌊((n : Rat) - T) * s⌋ := by
      apply Int.floor_le_floor
      have : ((n : Rat) - T) * ρ ≤ ((n : Rat) - T) := by nlinarith
      nlinarith
    omega
  · rintro rfl; rw [mul_one]; exact key
  · rintro rfl; simp

theorem ratio_bounds {v w p : Rat} (hwv : w < v) (h0 : 0 ≤ p) (h1 : p ≤ v - w) :
    0 ≤ p / (v - w) ∧ p / (v - w) ≤ 1 := by
  have : 0 < v - w := by linarith
  exact ⟨div_nonneg h0 this.le, by rw [div_le_one this]; exact h1⟩

/-- C18 for the thumb used for mouse hits: within the track, at least one cell long, at the start of the
track at position 0 and touching its end at the last position. Missing: content exactly as long as the
track, for which no thumb is reported. -/
theorem thumbBounds_partial (n : Int) (v w p : Rat) (hn : 1 ≤ n) (hw : 0 < w) (hwv : w < v) (hvn : v ≠ n)
    (h0 : 0 ≤ p) (h1 : p ≤ v - w) :
    0 ≤ (thumbBounds n v w p).1 ∧ (thumbBounds n v w p).1 + 1 ≤ (thumbBounds n v w p).2 ∧
    (thumbBounds n v w p).2 ≤ n ∧ (p = 0 → (thumbBounds n v w p).1 = 0) ∧
    (p = v - w → (thumbBounds n v w p).2 = n) := by
  have hc : ¬ (w ≤ 0 ∨ n = 0 ∨ v = (n : Rat) ∨ v ≤ 0) := by
    rintro (h | h | h | h)
    · linarith
    · omega
    · exact hvn h
    · linarith
  obtain ⟨t1, t2⟩ := thumbSize_bounds hn hw hwv
  obtain ⟨r1, r2⟩ := ratio_bounds hwv h0 h1
  unfold thumbBounds
  simp only [if_pos hwv, if_neg hc]
  generalize max (w / (v / (n : Rat))) 1 = T at *
  have hP : 0 ≤ ((n : Rat) - T) * (p / (v - w)) := mul_nonneg (by linarith) r1
  rw [trunc_nonneg hP]
  obtain ⟨b1, b2, b3, b4⟩ := place_bounds n T (p / (v - w)) 1 t2 r1 r2 one_pos n (by simp)
  simp only [mul_one] at b1 b2 b3 b4
  have c1 : 1 ≤ ⌈T⌉ := by
    have : ⌈(1 : Rat)⌉ ≤ ⌈T⌉ := Int.ceil_le_ceil t1
    simpa using this
  refine ⟨b1, by omega, b2, ?_, ?_⟩
  · rintro rfl; exact b4 (by simp)
  · intro hp; exact b3 (by rw [hp]; exact div_self (by linarith))

/-- C18 is false when the content is exactly as long as the track although the window is smaller: no thumb. -/
theorem thumbBounds_equal_counterexample : thumbBounds 10 10 5 2 = (0, 0) := by decide +kernel

/-- Scrolling forward never moves the thumb back. -/
theorem thumbBounds_mono (n : Int) (v w p q : Rat) (hn : 1 ≤ n) (hw : 0 < w) (hwv : w < v)
    (h0 : 0 ≤ p) (hpq : p ≤ q) (h1 : q ≤ v - w) :
    (thumbBounds n v w p).1 ≤ (thumbBounds n v w q).1 ∧ (thumbBounds n v w p).2 ≤ (thumbBounds n v w q).2 := by
  unfold thumbBounds
  simp only [if_pos hwv]
  split
  · simp
  · obtain ⟨t1, t2⟩ := thumbSize_bounds hn hw hwv
    obtain ⟨r1, r2⟩ := ratio_bounds hwv h0 (by linarith)
    obtain ⟨r3, r4⟩ := ratio_bounds hwv (by linarith : 0 ≤ q) h1
    generalize max (w / (v / (n : Rat))) 1 = T at *
    rw [trunc_nonneg (mul_nonneg (by linarith) r1), trunc_nonneg (mul_nonneg (by linarith) r3)]
    have : ⌊((n : Rat) - T) * (p / (v - w))⌋ ≤ ⌊((n : Rat) - T) * (q / (v - w))⌋ := by
      apply Int.floor_le_floor
      apply mul_le_mul_of_nonneg_left _ (by linarith)
      exact div_le_div_of_nonneg_right hpq (by linarith)
    simp only
    omega

example : thumbBounds 10 100 25 30 = (3, 6) := by decide +kernel

/-! ### What is drawn -/

/-- The colour of the `k`-th eighth of a cell from the top, in a vertical scrollbar: glyph `g < 7` fills the
lower `g + 1` eighths with the foreground (U+2581 … U+2587), glyph 7 is a space. -/
def inkVertical (c : Cell) (k : Nat) : Ink :=
  if c.glyph < 7 ∧ 7 - c.glyph ≤ k then c.fg.getD c.bg else c.bg

/-- The colour of the `k`-th eighth of a cell from the left, in a horizontal scrollbar: glyph `g < 7` fills
the left `7 - g` eighths with the foreground (U+2589 … U+258F), glyph 7 is a space. -/
def inkHorizontal (c : Cell) (k : Nat) : Ink :=
  if c.glyph < 7 ∧ k < 7 - c.glyph then c.fg.getD c.bg else c.bg

/-- The thumb in eighths stays on the track, is at least one cell long, starts at 0 and ends at the end. -/
theorem thumbEighths_bounds (n : Int) (v w p : Rat) (hn : 1 ≤ n) (hw : 0 < w) (hwv : w < v)
    (h0 : 0 ≤ p) (h1 : p ≤ v - w) :
    0 ≤ (thumbEighths n v w p).1 ∧ (thumbEighths n v w p).1 + 8 ≤ (thumbEighths n v w p).2 ∧
    (thumbEighths n v w p).2 ≤ 8 * n ∧ (p = 0 → (thumbEighths n v w p).1 = 0) ∧
    (p = v - w → (thumbEighths n v w p).2 = 8 * n) := by
  obtain ⟨t1, t2⟩ := thumbSize_bounds hn hw hwv
  obtain ⟨r1, r2⟩ := ratio_bounds hwv h0 h1
  unfold thumbEighths
  simp only
  generalize max (w / (v / (n : Rat))) 1 = T at *
  have hP : 0 ≤ ((n : Rat) - T) * (p / (v - w)) * 8 := mul_nonneg (mul_nonneg (by linarith) r1) (by norm_num)
  rw [trunc_nonneg hP]
  obtain ⟨b1, b2, b3, b4⟩ := place_bounds n T (p / (v - w)) 8 t2 r1 r2 (by norm_num) (8 * n) (by push_cast; ring)
  have c1 : 8 ≤ ⌈T * 8⌉ := by
    have : ⌈(8 : Rat)⌉ ≤ ⌈T * 8⌉ := Int.ceil_le_ceil (by linarith)
    have e : ⌈(8 : Rat)⌉ = 8 := by exact_mod_cast Int.ceil_intCast (R := Rat) 8
    omega
  refine ⟨by omega, by omega, by omega, ?_, ?_⟩
  · rintro rfl; have := b4 (by simp); omega
  · intro hp; have := b3 (by rw [hp]; exact div_self (by linarith)); omega

theorem thumbEighths_order (n : Int) (v w p : Rat) :
    0 ≤ (thumbEighths n v w p).1 ∧ 0 ≤ (thumbEighths n v w p).2 ∧ ((thumbEighths n v w p).1 = 0 ∨
      (thumbEighths n v w p).1 + 8 ≤ (thumbEighths n v w p).2) := by
  unfold thumbEighths
  simp only
  have c1 : 8 ≤ ⌈max (w / (v / (n : Rat))) 1 * 8⌉ := by
    have t1 : 1 ≤ max (w / (v / (n : Rat))) 1 := le_max_right _ _
    have : ⌈(8 : Rat)⌉ ≤ ⌈max (w / (v / (n : Rat))) 1 * 8⌉ := Int.ceil_le_ceil (by linarith)
    have e : ⌈(8 : Rat)⌉ = 8 := by exact_mod_cast Int.ceil_intCast (R := Rat) 8
    omega
  omega

/-- C18: the vertical scrollbar paints exactly the eighths of the thumb in the thumb colour, whatever the
position and sizes; every track cell is painted. -/
theorem renderVertical_exact (n : Int) (v w p : Rat) (hn : 1 ≤ n) (hw : 0 < w) (hv : 0 < v) (hvn : v ≠ n)
    (off : Int) (ho : 0 ≤ off ∧ off < n) (k : Nat) (hk : k < 8) :
    ∃ c, renderVertical n v w p true off = some c ∧
      (inkVertical c k = .thumb ↔ (thumbEighths n v w p).1 ≤ 8 * off + k ∧ 8 * off + k < (thumbEighths n v w p).2) := by
  obtain ⟨o1, o3, o2⟩ := thumbEighths_order n v w p
  have hg : ¬ (n ≤ 0 ∨ off < 0 ∨ n ≤ off) := by omega
  have hg2 : (!true || decide (w ≤ 0) || decide (v ≤ 0) || decide (v = (n : Rat))) = false := by
    simp [hvn]; exact ⟨hw, hv⟩
  unfold renderVertical renderCell
  rw [if_neg hg]
  simp only [hg2]
  generalize thumbEighths n v w p = t at *
  obtain ⟨s, e⟩ := t
  simp only at o1 o2 o3 ⊢
  refine ⟨_, rfl, ?_⟩
  have hbody : body = 7 := rfl
  by_cases h1 : off = e / 8 ∧ 8 - 1 - (e % 8).toNat ≠ body
  · rw [if_pos h1]
    simp only [inkVertical, Option.getD_some]
    split <;> simp <;> omega
  · rw [if_neg h1]
    by_cases h2 : off = s / 8 ∧ 8 - 1 - (s % 8).toNat ≠ body
    · rw [if_pos h2]
      simp only [inkVertical, Option.getD_some]
      split <;> simp <;> omega
    · rw [if_neg h2]
      by_cases h3 : min (max (s / 8) 0) n ≤ off ∧ off < min (max (e / 8) 0) n
      · rw [if_pos h3]
        simp only [inkVertical, hbody, Nat.lt_irrefl, false_and, if_false, true_iff]
        omega
      · rw [if_neg h3]
        simp only [inkVertical, hbody, Nat.lt_irrefl, false_and, if_false, reduceCtorEq, false_iff]
        omega

/-- C18: likewise for the horizontal scrollbar. -/
theorem renderHorizontal_exact (n : Int) (v w p : Rat) (hn : 1 ≤ n) (hw : 0 < w) (hv : 0 < v) (hvn : v ≠ n)
    (off : Int) (ho : 0 ≤ off ∧ off < n) (k : Nat) (hk : k < 8) :
    ∃ c, renderHorizontal n v w p true off = some c ∧
      (inkHorizontal c k = .thumb ↔ (thumbEighths n v w p).1 ≤ 8 * off + k ∧ 8 * off + k < (thumbEighths n v w p).2) := by
  obtain ⟨o1, o3, o2⟩ := thumbEighths_order n v w p
  have hg : ¬ (n ≤ 0 ∨ off < 0 ∨ n ≤ off) := by omega
  have hg2 : (!true || decide (w ≤ 0) || decide (v ≤ 0) || decide (v = (n : Rat))) = false := by
    simp [hvn]; exact ⟨hw, hv⟩
  unfold renderHorizontal renderCell
  rw [if_neg hg]
  simp only [hg2]
  generalize thumbEighths n v w p = t at *
  obtain ⟨s, e⟩ := t
  simp only at o1 o2 o3 ⊢
  refine ⟨_, rfl, ?_⟩
  have hbody : body = 7 := rfl
  by_cases h1 : off = e / 8 ∧ 8 - 1 - (e % 8).toNat ≠ body
  · rw [if_pos h1]
    simp only [inkHorizontal, Option.getD_some]
    split <;> simp <;> omega
  · rw [if_neg h1]
    by_cases h2 : off = s / 8 ∧ 8 - 1 - (s % 8).toNat ≠ body
    · rw [if_pos h2]
      simp only [inkHorizontal, Option.getD_some]
      split <;> simp <;> omega
    · rw [if_neg h2]
      by_cases h3 : min (max (s / 8) 0) n ≤ off ∧ off < min (max (e / 8) 0) n
      · rw [if_pos h3]
        simp only [inkHorizontal, hbody, Nat.lt_irrefl, false_and, if_false, true_iff]
        omega
      · rw [if_neg h3]
        simp only [inkHorizontal, hbody, Nat.lt_irrefl, false_and, if_false, reduceCtorEq, false_iff]
        omega

/-- Without thumb the whole track is painted in the track colour. -/
theorem render_noThumb (a b : Ink) (n : Int) (v w p : Rat) (off : Int) (ho : 0 ≤ off ∧ off < n) (k : Nat) :
    ∃ c, renderCell a b n v w p false off = some c ∧ inkVertical c k = .track ∧ inkHorizontal c k = .track := by
  have hg : ¬ (n ≤ 0 ∨ off < 0 ∨ n ≤ off) := by omega
  refine ⟨⟨body, none, .track⟩, ?_, by simp [inkVertical, body], by simp [inkHorizontal, body]⟩
  unfold renderCell
  rw [if_neg hg]
  simp

/-- C18: a thumb of a fully transparent colour leaves only the track, any other one is drawn as a thumb. -/
theorem render_transparent (a b : Ink) (n : Int) (v w p alpha : Rat) (off : Int) (ho : 0 ≤ off ∧ off < n) (k : Nat) :
    (alpha ≤ 0 → ∃ c, renderCell a b n v w p (drawThumb alpha) off = some c ∧ inkVertical c k = .track ∧
      inkHorizontal c k = .track) ∧
    (0 < alpha → renderCell a b n v w p (drawThumb alpha) off = renderCell a b n v w p true off) := by
  constructor
  · intro h
    have e : drawThumb alpha = false := by simp only [drawThumb, decide_eq_false_iff_not]; exact not_lt.2 h
    rw [e]; exact render_noThumb a b n v w p off ho k
  · intro h
    have e : drawThumb alpha = true := by simp only [drawThumb, decide_eq_true_eq]; exact h
    rw [e]

/-- Both kinds of colour. -/
example : drawThumb 0 = false ∧ drawThumb (1 / 2) = true := by
  constructor <;> norm_num [drawThumb]

end Textual.Scrollbar
