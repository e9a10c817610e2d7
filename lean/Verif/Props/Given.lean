import Verif.Props.Theme
import Verif.Lemmas.Lab

/-!
C150: the colours a theme is made of are the ones its variables show.
-/

namespace Textual.Theme

/-- The colours a theme was given, by the variable that stands for each. -/
def Given (s : ColorSystem) (name : String) (c : RgbaColor) : Prop :=
  (name, some c) ∈ [("primary", some s.primary), ("secondary", s.secondary), ("warning", s.warning),
    ("error", s.error), ("success", s.success), ("accent", s.accent), ("foreground", s.foreground),
    ("background", s.background), ("surface", s.surface), ("panel", s.panel), ("boost", s.boost)]

/-- A colour with channels of its own: no terminal palette entry, not chosen by contrast, no variable. -/
def Plain (c : RgbaColor) : Prop := c.Valid ∧ c.ansi = none ∧ c.auto = false ∧ c.themeVar = none

/-- The same colour, but each channel may be one step darker. -/
def StepBelow (c d : RgbaColor) : Prop :=
  Plain d ∧ d.a = c.a ∧ (d.r ≤ c.r ∧ c.r ≤ d.r + 1) ∧ (d.g ≤ c.g ∧ c.g ≤ d.g + 1) ∧
    (d.b ≤ c.b ∧ c.b ≤ d.b + 1)

theorem keys_nodup : keys.Nodup := by decide +kernel

theorem lookup_of_mem {α : Type} (l : List (String × α)) (h : (l.map Prod.fst).Nodup) (k : String) (v : α)
    (hm : (k, v) ∈ l) : List.lookup k l = some v := by
  induction l with
  | nil => simp at hm
  | cons p l ih =>
    obtain ⟨k', v'⟩ := p
    simp only [List.map_cons, List.nodup_cons] at h
    rcases List.mem_cons.1 hm with e | hml
    · cases e; simp [List.lookup]
    · have hne : k ≠ k' := by
        rintro rfl
        exact h.1 (List.mem_map.2 ⟨(k, v), hml, rfl⟩)
      have e' : (k == k') = false := by simpa using hne
      simp only [List.lookup, e']
      exact ih h.2 hml

theorem get_of_mem (lab : Lab) (s : ColorSystem) (k : String) (v : RgbaColor)
    (h : (k, v) ∈ shades lab s ++ textVars s ++ partVars lab s ++ widgetVars s) :
    (generate lab s).get k = some v := by
  refine lookup_of_mem _ ?_ k v (List.mem_reverse.2 h)
  rw [generate_keys]; exact keys_nodup

theorem get_base (lab : Lab) (s : ColorSystem) (k : String) (v : RgbaColor) (h : (k, v) ∈ bases s)
    (hk : k ≠ "primary-background") (hk' : k ≠ "secondary-background") :
    (generate lab s).get k = some (lighten lab v 0) := by
  apply get_of_mem
  simp only [List.mem_append]
  left; left; left
  refine List.mem_flatMap.2 ⟨(k, v), h, List.mem_map.2 ⟨("", 0), by simp [shadeSteps], ?_⟩⟩
  simp only [String.append_empty, shadeColor, Prod.mk.injEq, true_and]
  have h1 : (k == "primary-background") = false := by simpa using hk
  have h2 : (k == "secondary-background") = false := by simpa using hk'
  simp [h1, h2]

theorem get_shade (lab : Lab) (s : ColorSystem) (k suffix : String) (n : Int) (v : RgbaColor) (h : (k, v) ∈ bases s)
    (hn : (suffix, n) ∈ shadeSteps) (hk : k ≠ "primary-background") (hk' : k ≠ "secondary-background") :
    (generate lab s).get (k ++ suffix) = some (lighten lab v (n * (s.luminositySpread / 2))) := by
  apply get_of_mem
  simp only [List.mem_append]
  left; left; left
  refine List.mem_flatMap.2 ⟨(k, v), h, List.mem_map.2 ⟨(suffix, n), hn, ?_⟩⟩
  have h1 : (k == "primary-background") = false := by simpa using hk
  have h2 : (k == "secondary-background") = false := by simpa using hk'
  simp [shadeColor, h1, h2]

theorem given_base {s : ColorSystem} {name : String} {c : RgbaColor} (h : Given s name c) :
    (name, c) ∈ bases s ∧ name ≠ "primary-background" ∧ name ≠ "secondary-background" := by
  unfold Given at h
  simp only [List.mem_cons, Prod.mk.injEq, List.not_mem_nil, or_false] at h
  have aux : ∀ {o : Option RgbaColor} {d : RgbaColor}, some c = o → o.getD d = c := by
    rintro o d rfl; rfl
  rcases h with ⟨rfl, e⟩ | ⟨rfl, e⟩ | ⟨rfl, e⟩ | ⟨rfl, e⟩ | ⟨rfl, e⟩ | ⟨rfl, e⟩ | ⟨rfl, e⟩ | ⟨rfl, e⟩ | ⟨rfl, e⟩ |
    ⟨rfl, e⟩ | ⟨rfl, e⟩ <;>
  refine ⟨?_, by decide, by decide⟩ <;>
  simp only [bases, secondary, warning, error, success, accent, foreground, background, surface, panel, boost] <;>
  simp only [List.mem_cons, Prod.mk.injEq] <;>
  first
    | simp [aux e]; done
    | simp [Option.some.inj e]; done

theorem darken_exact_plain {c : RgbaColor} (h : Plain c) :
    StepBelow c (lighten Textual.Lab.exact c 0) := by
  obtain ⟨⟨hr, hg, hb⟩, h1, h2, h3⟩ := h
  have key := Textual.Lab.exact_zero hr hg hb
  unfold lighten darken
  simp only [h1, h2, h3, Option.isSome_none, Bool.or_self, Bool.false_eq_true, if_false, neg_zero]
  dsimp only at key
  obtain ⟨k1, k2, k3⟩ := key
  refine ⟨⟨⟨?_, ?_, ?_⟩, rfl, rfl, rfl⟩, rfl, k1, k2, k3⟩
  · exact lt_of_le_of_lt k1.1 hr
  · exact lt_of_le_of_lt k2.1 hg
  · exact lt_of_le_of_lt k3.1 hb

/-- C150, in part. The variable of a colour the theme was given shows that colour, but each channel may be
one step darker. A colour of the terminal's palette is shown as it is. What is missing: the exact colour,
see `given_shown_counterexample`. -/
theorem given_shown_partial (s : ColorSystem) (name : String) (c : RgbaColor) (h : Given s name c) :
    ∃ d, (generate Textual.Lab.exact s).get name = some d ∧
      (Plain c → StepBelow c d) ∧ (c.ansi.isSome → d = c) := by
  obtain ⟨hm, h1, h2⟩ := given_base h
  refine ⟨_, get_base _ s name c hm h1 h2, darken_exact_plain, fun ha => ?_⟩
  simp [lighten, ha]

/-- C150. The parts of widgets that use a colour unshaded show exactly the one that was given. -/
theorem given_exact (lab : Lab) (s : ColorSystem) :
    (∀ name ∈ ["border", "scrollbar-active", "link-background-hover", "block-cursor-background",
        "markdown-h1-color", "markdown-h2-color", "markdown-h3-color"],
      (generate lab s).get name = some s.primary) ∧
    (∀ c, s.accent = some c → (generate lab s).get "footer-key-foreground" = some c) ∧
    (∀ c, s.panel = some c → (generate lab s).get "footer-background" = some c) ∧
    (∀ c, s.background = some c → (generate lab s).get "input-cursor-foreground" = some c) ∧
    (∀ c, s.foreground = some c →
      ∀ name ∈ ["footer-foreground", "footer-description-foreground", "input-cursor-background",
        "block-cursor-blurred-foreground", "markdown-h4-color", "markdown-h5-color", "button-foreground"],
      (generate lab s).get name = some c) := by
  refine ⟨?_, ?_, ?_, ?_, ?_⟩
  · intro name h
    apply get_of_mem
    simp only [List.mem_cons, List.not_mem_nil, or_false] at h
    rcases h with rfl | rfl | rfl | rfl | rfl | rfl | rfl <;> simp [partVars, widgetVars]
  · intro c h
    apply get_of_mem
    simp [widgetVars, accent, h]
  · intro c h
    apply get_of_mem
    simp [widgetVars, panel, h]
  · intro c h
    apply get_of_mem
    simp [widgetVars, background, h]
  · intro c h name hn
    apply get_of_mem
    simp only [List.mem_cons, List.not_mem_nil, or_false] at hn
    rcases hn with rfl | rfl | rfl | rfl | rfl | rfl | rfl <;> simp [partVars, widgetVars, foreground, h]

/-- The colour with the hue of `c` whose lightness (from 0 to 100) is `by_` higher. -/
noncomputable def Lighter (c : RgbaColor) (by_ : ℝ) : RgbaColor :=
  let lab := Textual.Lab.toLab c.r c.g c.b
  let rgb := Textual.Lab.fromLab (min (max (lab.1 + by_) 0) 100) lab.2.1 lab.2.2
  .rgba rgb.1 rgb.2.1 rgb.2.2 c.a

/-- C175. The shades of a colour given to a theme have its hue; from `darken-3` to `lighten-3` each is lighter than the
one before, by half of the theme's spread. -/
theorem shades_lightness (s : ColorSystem) (name : String) (c : RgbaColor) (h : Given s name c) (hp : Plain c) :
    ∀ x ∈ [("-darken-3", -3), ("-darken-2", -2), ("-darken-1", -1), ("", 0), ("-lighten-1", 1), ("-lighten-2", 2),
      ("-lighten-3", (3 : ℝ))],
      (generate Textual.Lab.exact s).get (name ++ x.1) = some (Lighter c (x.2 * (50 * s.luminositySpread))) := by
  obtain ⟨hm, h1, h2⟩ := given_base h
  obtain ⟨-, e1, e2, e3⟩ := hp
  have key : ∀ (suffix : String) (n : Int), (suffix, n) ∈ shadeSteps →
      (generate Textual.Lab.exact s).get (name ++ suffix) = some (Lighter c (n * (50 * s.luminositySpread))) := by
    intro suffix n hn
    rw [get_shade _ s name suffix n c hm hn h1 h2]
    unfold lighten darken Lighter Textual.Lab.exact
    simp only [e1, e2, e3, Option.isSome_none, Bool.or_self, Bool.false_eq_true, if_false]
    have : ∀ l : ℝ, l - ((-((n : Rat) * (s.luminositySpread / 2)) : Rat) : ℝ) * 100
        = l + n * (50 * s.luminositySpread) := by
      intro l; push_cast; ring
    rw [this]
  intro x hx
  simp only [List.mem_cons, List.not_mem_nil, or_false] at hx
  rcases hx with rfl | rfl | rfl | rfl | rfl | rfl | rfl
  · simpa using key "-darken-3" (-3) (by decide)
  · simpa using key "-darken-2" (-2) (by decide)
  · simpa using key "-darken-1" (-1) (by decide)
  · simpa using key "" 0 (by decide)
  · simpa using key "-lighten-1" 1 (by decide)
  · simpa using key "-lighten-2" 2 (by decide)
  · simpa using key "-lighten-3" 3 (by decide)

theorem cube_root_exact {sc m t : ℝ} (h : 0.009 ≤ t) :
    Textual.Lab.cube sc m (Textual.Lab.root t) = sc * t := by
  have h0 : 0 ≤ t := le_trans (by norm_num) h
  unfold Textual.Lab.root
  rw [if_pos (lt_of_lt_of_le (by norm_num) h)]
  have h3 : (t ^ (1 / 3 : ℝ)) ^ (3 : ℝ) = t := by
    rw [← Real.rpow_mul h0]; norm_num
  have hu : 0.2068930344 < t ^ (1 / 3 : ℝ) := by
    by_contra hc
    have hle : (t ^ (1 / 3 : ℝ)) ^ (3 : ℝ) ≤ 0.2068930344 ^ (3 : ℝ) :=
      Real.rpow_le_rpow (Real.rpow_nonneg h0 _) (le_of_not_gt hc) (by norm_num)
    rw [h3, show (0.2068930344 : ℝ) ^ (3 : ℝ) = 0.2068930344 ^ (3 : ℕ) by
      rw [← Real.rpow_natCast]; norm_num] at hle
    norm_num at hle h
    linarith
  unfold Textual.Lab.cube
  rw [if_pos hu, h3]

theorem red_darkens : (Textual.Lab.exact.darken 255 0 0 0).1 = 254 := by
  have near := Textual.Lab.exact_zero (r := 255) (g := 0) (b := 0) (by norm_num) (by norm_num) (by norm_num)
  dsimp only at near
  have hne : (Textual.Lab.exact.darken 255 0 0 0).1 ≠ 255 := by
    unfold Textual.Lab.exact Textual.Lab.fromLab Textual.Lab.toLab
    dsimp only
    have hR : Textual.Lab.linear ((255 : Nat) / 255) = 1 := by
      unfold Textual.Lab.linear
      norm_num
    have hG : Textual.Lab.linear ((0 : Nat) / 255) = 0 := by
      unfold Textual.Lab.linear
      norm_num
    rw [hR, hG]
    have hX : Textual.Lab.toX 1 0 0 = 41.24 / 95.047 := by unfold Textual.Lab.toX; norm_num
    have hY : Textual.Lab.toY 1 0 0 = 21.26 / 100 := by unfold Textual.Lab.toY; norm_num
    have hZ : Textual.Lab.toZ 1 0 0 = 1.93 / 108.883 := by unfold Textual.Lab.toZ; norm_num
    obtain ⟨yl, yu⟩ := Textual.Lab.root_range (t := Textual.Lab.toY 1 0 0) (by rw [hY]; norm_num)
      (by rw [hY]; norm_num)
    have hl : min (max (116 * Textual.Lab.root (Textual.Lab.toY 1 0 0) - 16 - ((0 : Rat) : ℝ) * 100) 0) 100
        = 116 * Textual.Lab.root (Textual.Lab.toY 1 0 0) - 16 := by
      rw [Rat.cast_zero, zero_mul, sub_zero, max_eq_left (by linarith), min_eq_left (by linarith)]
    rw [hl]
    set ry := Textual.Lab.root (Textual.Lab.toY 1 0 0) with hry
    set rx := Textual.Lab.root (Textual.Lab.toX 1 0 0) with hrx
    set rz := Textual.Lab.root (Textual.Lab.toZ 1 0 0) with hrz
    have ey : (116 * ry - 16 + 16) / 116 = ry := by ring
    have ex : 500 * (rx - ry) / 500 + ry = rx := by ring
    have ez : ry - 200 * (ry - rz) / 200 = rz := by ring
    rw [ey, ex, ez, hrx, hry, hrz, hX, hY, hZ, cube_root_exact (by norm_num), cube_root_exact (by norm_num),
      cube_root_exact (by norm_num)]
    set v : ℝ := 0.95047 * (41.24 / 95.047) * 3.2406 + 1 * (21.26 / 100) * -1.5372 +
      1.08883 * (1.93 / 108.883) * -0.4986 with hv
    have hv1 : v < 1 := by rw [hv]; norm_num
    have hv0 : 9 / 10 < v := by rw [hv]; norm_num
    have hg : Textual.Lab.gamma v < 1 := by
      unfold Textual.Lab.gamma
      rw [if_pos (lt_trans (by norm_num) hv0)]
      have : v ^ (1 / 2.4 : ℝ) < 1 := Real.rpow_lt_one (lt_trans (by norm_num) hv0).le hv1 (by norm_num)
      linarith
    unfold Textual.Lab.toU8
    intro hc
    have hlt : min (max (Textual.Lab.gamma v * 255) 0) 255 < (255 : ℝ) :=
      lt_of_le_of_lt (min_le_left _ _) (max_lt (by linarith) (by norm_num))
    have hfl : ⌊min (max (Textual.Lab.gamma v * 255) 0) 255⌋ < (255 : ℤ) := by
      rw [Int.floor_lt]; exact_mod_cast hlt
    omega
  omega

/-- C150 fails for the exact colour: a theme whose error colour is pure red shows another red. -/
theorem given_shown_counterexample :
    ¬ ∀ (s : ColorSystem) (name : String) (c : RgbaColor), Given s name c → Plain c →
      (generate Textual.Lab.exact s).get name = some c := by
  intro h
  have hp : Plain (.rgb 255 0 0) := by unfold Plain RgbaColor.Valid; decide
  have hg : Given { ColorSystem.new .black true with error := some (.rgb 255 0 0) } "error" (.rgb 255 0 0) := by
    unfold Given; simp
  have := h _ _ _ hg hp
  obtain ⟨hm, h1, h2⟩ := given_base hg
  rw [get_base _ _ _ _ hm h1 h2] at this
  have hr := congrArg RgbaColor.r (Option.some.inj this)
  simp only [lighten, darken, RgbaColor.rgb, RgbaColor.rgba, Option.isSome_none, Bool.or_self,
    Bool.false_eq_true, if_false, neg_zero] at hr
  rw [red_darkens] at hr
  exact absurd hr (by decide)

/-- The hypotheses can be met: the default dark theme is given its warning colour. -/
example : Given { ColorSystem.new (.rgb 0x01 0x78 0xd4) true with warning := some (.rgb 0xff 0xa6 0x2b) }
    "warning" (.rgb 0xff 0xa6 0x2b) ∧ Plain (.rgb 0xff 0xa6 0x2b) := by
  unfold Given Plain RgbaColor.Valid
  exact ⟨by simp, by decide⟩

end Textual.Theme
