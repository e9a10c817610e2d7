import Verif.Model.Lab
import Mathlib.Tactic.Linarith
import Mathlib.Tactic.NormNum
import Mathlib.Tactic.Ring
import Mathlib.Tactic.FieldSimp
import Mathlib.Tactic.Positivity

/-!
A lightness change of nothing keeps every channel, up to one step down.
-/

namespace Textual.Lab

theorem rpow_fifth {x y : ℝ} (hx : 0 ≤ x) (hy : 0 ≤ y) (n : Nat) (h : y ^ 5 ≤ x ^ n) :
    y ≤ x ^ ((n : ℝ) / 5) := by
  have h5 : y = (y ^ 5) ^ (1 / 5 : ℝ) := by
    rw [← Real.rpow_natCast, ← Real.rpow_mul hy]
    norm_num
  rw [h5, show (n : ℝ) / 5 = n * (1 / 5) by ring, Real.rpow_mul hx, Real.rpow_natCast]
  exact Real.rpow_le_rpow (by positivity) h (by norm_num)

theorem linear_range {v : ℝ} (h0 : 0 ≤ v) (h1 : v ≤ 1) : 0 ≤ linear v ∧ linear v ≤ 1 := by
  unfold linear
  split
  · have : 0 ≤ (v + 0.055) / 1.055 := by positivity
    refine ⟨Real.rpow_nonneg this _, Real.rpow_le_one this ?_ (by norm_num)⟩
    rw [div_le_one (by norm_num)]; linarith
  · constructor
    · positivity
    · rw [div_le_one (by norm_num)]; linarith

theorem root_range {t : ℝ} (h0 : 0 ≤ t) (h1 : t ≤ 1) : 16 / 116 ≤ root t ∧ root t ≤ 1 := by
  unfold root
  split
  · rename_i h
    refine ⟨?_, Real.rpow_le_one h0 h1 (by norm_num)⟩
    have e : (16 / 116 : ℝ) = ((16 / 116 : ℝ) ^ (3 : ℝ)) ^ (1 / 3 : ℝ) := by
      rw [← Real.rpow_mul (by norm_num)]; norm_num
    rw [e]
    refine Real.rpow_le_rpow (by positivity) ?_ (by norm_num)
    have : ((16 / 116 : ℝ) ^ (3 : ℝ)) = (16 / 116 : ℝ) ^ (3 : ℕ) := by
      rw [← Real.rpow_natCast]; norm_num
    rw [this]
    norm_num at h ⊢
    linarith
  · rename_i h
    constructor <;> norm_num at h ⊢ <;> linarith

theorem cube_root {s m t : ℝ} (h0 : 0 ≤ t) (hs : 0.9 ≤ s ∧ s ≤ 1.1) (hm : |m * 7.787 - s| ≤ 0.000004) :
    |cube s m (root t) - s * t| ≤ 0.000002 := by
  obtain ⟨hs1, hs2⟩ := hs
  obtain ⟨hm1, hm2⟩ := abs_le.1 hm
  unfold root
  split
  · rename_i h
    set u := t ^ (1 / 3 : ℝ) with hu
    have hu0 : 0 ≤ u := Real.rpow_nonneg h0 _
    have hu3 : u ^ (3 : ℝ) = t := by
      rw [hu, ← Real.rpow_mul h0]; norm_num
    have hu3' : u ^ 3 = t := by
      rw [← hu3, ← Real.rpow_natCast]; norm_num
    unfold cube
    split
    · rw [hu3]; norm_num
    · rename_i hle
      have hlow : 0.206893 ≤ u := by
        by_contra hc
        have : u ^ 3 ≤ 0.206893 ^ 3 := pow_le_pow_left₀ hu0 (le_of_not_ge hc) 3
        rw [hu3'] at this
        norm_num at this h
        linarith
      have hup : t ≤ 0.2068930344 ^ 3 := by
        rw [← hu3']
        exact pow_le_pow_left₀ hu0 (le_of_not_gt hle) 3
      have hle' : u ≤ 0.2068930344 := le_of_not_gt hle
      have hm0 : 0.1 ≤ m := by norm_num at *; linarith
      have hm3 : m ≤ 0.15 := by norm_num at *; linarith
      have hts : t = 0.008856 + (t - 0.008856) := by ring
      have h1 : (0:ℝ) ≤ t - 0.008856 := by linarith
      have h2 : t - 0.008856 ≤ 0.000000008 := by norm_num at hup ⊢; linarith
      have h3 : (0:ℝ) ≤ u - 0.206893 := by linarith
      have h4 : u - 0.206893 ≤ 0.0000000344 := by norm_num at hle' ⊢; linarith
      have h5 : 0 ≤ m * (u - 0.206893) := by positivity
      have h6 : m * (u - 0.206893) ≤ 0.15 * 0.0000000344 := by
        apply mul_le_mul hm3 h4 h3 (by norm_num)
      have h7 : 0 ≤ s * (t - 0.008856) := mul_nonneg (by linarith) h1
      have h8 : s * (t - 0.008856) ≤ 1.1 * 0.000000008 := mul_le_mul hs2 h2 h1 (by norm_num)
      have e : m * (u - 16 / 116) - s * t
          = m * (u - 0.206893) + m * (0.206893 - 16 / 116) - s * (t - 0.008856) - s * 0.008856 := by ring
      rw [e, abs_le]
      norm_num at h6 h8 hm1 hm2 ⊢
      constructor <;> linarith
  · rename_i h
    unfold cube
    have h' : t ≤ 0.008856 := le_of_not_gt h
    rw [if_neg (by norm_num at h' ⊢; linarith)]
    have e : m * (7.787 * t + 16 / 116 - 16 / 116) - s * t = (m * 7.787 - s) * t := by ring
    rw [e, abs_mul, abs_of_nonneg h0]
    calc |m * 7.787 - s| * t ≤ 0.000004 * 0.008856 := mul_le_mul hm h' h0 (by norm_num)
      _ ≤ 0.000002 := by norm_num

/-- A channel value in linear light that is off by a little comes back as the same step or the one below. -/
theorem gamma_near {k : Nat} (hk : k < 256) {x : ℝ} (h : |x - linear (k / 255)| ≤ 0.00008) :
    (k : ℝ) - 1 < gamma x * 255 ∧ gamma x * 255 < k + 1 := by
  obtain ⟨h1, h2⟩ := abs_le.1 h
  have hk' : (k : ℝ) ≤ 255 := by exact_mod_cast Nat.lt_succ_iff.1 hk
  rcases Nat.lt_or_ge k 11 with hs | hs
  · have hs' : (k : ℝ) ≤ 10 := by exact_mod_cast Nat.lt_succ_iff.1 hs
    have hlin : linear (k / 255) = k / 255 / 12.92 := by
      unfold linear
      rw [if_neg]
      norm_num
      linarith
    rw [hlin] at h1 h2
    unfold gamma
    rw [if_neg (by norm_num at h2 ⊢; linarith)]
    norm_num at h1 h2 ⊢
    constructor <;> linarith
  · have hs' : (11 : ℝ) ≤ k := by exact_mod_cast hs
    set v : ℝ := k / 255 with hv
    have hv0 : 11 / 255 ≤ v := by rw [hv]; linarith
    have hlin : linear v = ((v + 0.055) / 1.055) ^ (2.4 : ℝ) := by
      unfold linear
      rw [if_pos]
      norm_num at hv0 ⊢
      linarith
    set s : ℝ := (v + 0.055) / 1.055 with hsdef
    have hs0 : 0.093 ≤ s := by
      rw [hsdef, le_div_iff₀ (by norm_num)]
      norm_num at hv0 ⊢
      linarith
    have hspos : 0 < s := lt_of_lt_of_le (by norm_num) hs0
    have h14 : 0.035 ≤ s ^ (1.4 : ℝ) := by
      have h := rpow_fifth (x := 0.093) (y := 0.035) (by norm_num) (by norm_num) 7 (by norm_num)
      have h' : (0.093 : ℝ) ^ ((7 : ℕ) / 5 : ℝ) ≤ s ^ ((7 : ℕ) / 5 : ℝ) :=
        Real.rpow_le_rpow (by norm_num) hs0 (by norm_num)
      rw [show (1.4 : ℝ) = ((7 : ℕ) : ℝ) / 5 by norm_num]
      exact le_trans h h'
    have h24 : s ^ (2.4 : ℝ) = s * s ^ (1.4 : ℝ) := by
      rw [show (2.4 : ℝ) = 1 + 1.4 by norm_num, Real.rpow_add hspos, Real.rpow_one]
    have hlow : 0.0032 ≤ s ^ (2.4 : ℝ) := by
      rw [h24]
      calc (0.0032 : ℝ) ≤ 0.093 * 0.035 := by norm_num
        _ ≤ s * s ^ (1.4 : ℝ) := mul_le_mul hs0 h14 (by norm_num) hspos.le
    rw [hlin] at h1 h2
    have hx : 0.0031308 < x ∨ x ≤ 0.0031308 := lt_or_ge _ _
    -- the exact value of the first step above the linear part
    have hlow' : 0.0033 ≤ s ^ (2.4 : ℝ) := by
      have hs1 : 0.09302 ≤ s := by
        rw [hsdef, le_div_iff₀ (by norm_num)]
        norm_num at hv0 ⊢
        linarith
      have h := rpow_fifth (x := 0.09302) (y := 0.0033) (by norm_num) (by norm_num) 12 (by norm_num)
      have h' : (0.09302 : ℝ) ^ ((12 : ℕ) / 5 : ℝ) ≤ s ^ ((12 : ℕ) / 5 : ℝ) :=
        Real.rpow_le_rpow (by norm_num) hs1 (by norm_num)
      rw [show (2.4 : ℝ) = ((12 : ℕ) : ℝ) / 5 by norm_num]
      exact le_trans h h'
    have hxgt : 0.0031308 < x := by norm_num at *; linarith
    have hx0 : 0 ≤ x := by norm_num at *; linarith
    unfold gamma
    rw [if_pos hxgt]
    set w : ℝ := x ^ (1 / 2.4 : ℝ) with hw
    have hw0 : 0 ≤ w := Real.rpow_nonneg hx0 _
    have hw24 : w ^ (2.4 : ℝ) = x := by
      rw [hw, ← Real.rpow_mul hx0]; norm_num
    have hvs : v = 1.055 * s - 0.055 := by rw [hsdef]; ring
    have hks : (k : ℝ) = 255 * (1.055 * s - 0.055) := by rw [← hvs, hv]; ring
    -- how far the root may move
    have hη : (0 : ℝ) < 0.0025 := by norm_num
    constructor
    · have hlt : s - 0.0025 < w := by
        by_contra hc
        have hc : w ≤ s - 0.0025 := le_of_not_gt hc
        have hw' : w ^ (2.4 : ℝ) ≤ w * s ^ (1.4 : ℝ) := by
          rcases hw0.lt_or_eq with hp | he
          · rw [show (2.4 : ℝ) = 1 + 1.4 by norm_num, Real.rpow_add hp, Real.rpow_one]
            exact mul_le_mul_of_nonneg_left
              (Real.rpow_le_rpow hw0 (by linarith) (by norm_num)) hw0
          · rw [← he, Real.zero_rpow (by norm_num)]; norm_num
        have : w * s ^ (1.4 : ℝ) ≤ (s - 0.0025) * s ^ (1.4 : ℝ) :=
          mul_le_mul_of_nonneg_right hc (by linarith)
        rw [hw24] at hw'
        have e : (s - 0.0025) * s ^ (1.4 : ℝ) = s ^ (2.4 : ℝ) - 0.0025 * s ^ (1.4 : ℝ) := by
          rw [h24]; ring
        norm_num at *
        linarith
      rw [hks]
      norm_num at hlt ⊢
      linarith
    · have hlt : w < s + 0.0025 := by
        by_contra hc
        have hc : s + 0.0025 ≤ w := le_of_not_gt hc
        have hw' : w * s ^ (1.4 : ℝ) ≤ w ^ (2.4 : ℝ) := by
          have hp : 0 < w := by linarith
          rw [show (2.4 : ℝ) = 1 + 1.4 by norm_num, Real.rpow_add hp, Real.rpow_one]
          exact mul_le_mul_of_nonneg_left
            (Real.rpow_le_rpow hspos.le (by linarith) (by norm_num)) hw0
        have : (s + 0.0025) * s ^ (1.4 : ℝ) ≤ w * s ^ (1.4 : ℝ) :=
          mul_le_mul_of_nonneg_right hc (by linarith)
        rw [hw24] at hw'
        have e : (s + 0.0025) * s ^ (1.4 : ℝ) = s ^ (2.4 : ℝ) + 0.0025 * s ^ (1.4 : ℝ) := by
          rw [h24]; ring
        norm_num at *
        linarith
      rw [hks]
      norm_num at hlt ⊢
      linarith

theorem toU8_near {k : Nat} (hk : k < 256) {v : ℝ} (h : (k : ℝ) - 1 < v * 255 ∧ v * 255 < k + 1) :
    toU8 v ≤ k ∧ k ≤ toU8 v + 1 := by
  obtain ⟨h1, h2⟩ := h
  have hk' : (k : ℝ) ≤ 255 := by exact_mod_cast Nat.lt_succ_iff.1 hk
  unfold toU8
  set x : ℝ := min (max (v * 255) 0) 255 with hx
  have hx0 : 0 ≤ x := le_min (le_max_right _ _) (by norm_num)
  have hxl : (k : ℝ) - 1 < x := by
    rw [hx, lt_min_iff]
    exact ⟨lt_of_lt_of_le h1 (le_max_left _ _), by linarith⟩
  have hxu : x < k + 1 := by
    refine lt_of_le_of_lt (min_le_left _ _) (max_lt h2 ?_)
    positivity
  have hf0 : 0 ≤ ⌊x⌋ := Int.floor_nonneg.2 hx0
  have hfu : ⌊x⌋ < (k : ℤ) + 1 := by
    rw [Int.floor_lt]; push_cast; exact hxu
  have hfl : (k : ℤ) - 1 ≤ ⌊x⌋ := by
    rw [Int.le_floor]; push_cast; exact hxl.le
  omega

/-- Nothing taken off the lightness: every channel comes back as it was, or one step darker. -/
theorem exact_zero {r g b : Nat} (hr : r < 256) (hg : g < 256) (hb : b < 256) :
    let c := exact.darken r g b 0
    (c.1 ≤ r ∧ r ≤ c.1 + 1) ∧ (c.2.1 ≤ g ∧ g ≤ c.2.1 + 1) ∧ (c.2.2 ≤ b ∧ b ≤ c.2.2 + 1) := by
  have range : ∀ k : Nat, k < 256 → 0 ≤ linear (k / 255) ∧ linear (k / 255) ≤ 1 := by
    intro k hk
    have hk' : (k : ℝ) ≤ 255 := by exact_mod_cast Nat.lt_succ_iff.1 hk
    exact linear_range (by positivity) (by rw [div_le_one (by norm_num)]; exact hk')
  obtain ⟨r0, r1⟩ := range r hr
  obtain ⟨g0, g1⟩ := range g hg
  obtain ⟨b0, b1⟩ := range b hb
  dsimp only
  unfold exact fromLab toLab
  dsimp only
  set R := linear (r / 255) with hR
  set G := linear (g / 255) with hG
  set B := linear (b / 255) with hB
  have hX : 0 ≤ toX R G B := by unfold toX; positivity
  have hZ : 0 ≤ toZ R G B := by unfold toZ; positivity
  have hY : 0 ≤ toY R G B := by unfold toY; positivity
  have hY1 : toY R G B ≤ 1 := by unfold toY; norm_num; linarith
  obtain ⟨yl, yu⟩ := root_range hY hY1
  have hl : min (max (116 * root (toY R G B) - 16 - ((0 : Rat) : ℝ) * 100) 0) 100
      = 116 * root (toY R G B) - 16 := by
    rw [Rat.cast_zero, zero_mul, sub_zero, max_eq_left (by linarith), min_eq_left (by linarith)]
  rw [hl]
  have ey : (116 * root (toY R G B) - 16 + 16) / 116 = root (toY R G B) := by ring
  have ex : 500 * (root (toX R G B) - root (toY R G B)) / 500 + root (toY R G B) = root (toX R G B) := by ring
  have ez : root (toY R G B) - 200 * (root (toY R G B) - root (toZ R G B)) / 200 = root (toZ R G B) := by ring
  rw [ey, ex, ez]
  have cx := cube_root (s := 0.95047) (m := 0.122059) hX (by norm_num) (by norm_num [abs_le])
  have cy := cube_root (s := 1) (m := 1 / 7.787) hY (by norm_num) (by norm_num [abs_le])
  have cz := cube_root (s := 1.08883) (m := 0.139827) hZ (by norm_num) (by norm_num [abs_le])
  obtain ⟨cx1, cx2⟩ := abs_le.1 cx
  obtain ⟨cy1, cy2⟩ := abs_le.1 cy
  obtain ⟨cz1, cz2⟩ := abs_le.1 cz
  set x := cube 0.95047 0.122059 (root (toX R G B))
  set y := cube 1 (1 / 7.787) (root (toY R G B))
  set z := cube 1.08883 0.139827 (root (toZ R G B))
  unfold toX at cx1 cx2
  unfold toY at cy1 cy2
  unfold toZ at cz1 cz2
  have key : |x * 3.2406 + y * -1.5372 + z * -0.4986 - R| ≤ 0.00008 ∧
      |x * -0.9689 + y * 1.8758 + z * 0.0415 - G| ≤ 0.00008 ∧
      |x * 0.0557 + y * -0.2040 + z * 1.0570 - B| ≤ 0.00008 := by
    simp only [abs_le]
    norm_num at cx1 cx2 cy1 cy2 cz1 cz2 ⊢
    refine ⟨⟨?_, ?_⟩, ⟨?_, ?_⟩, ?_, ?_⟩ <;> linarith
  exact ⟨toU8_near hr (gamma_near hr key.1), toU8_near hg (gamma_near hg key.2.1),
    toU8_near hb (gamma_near hb key.2.2)⟩

end Textual.Lab
