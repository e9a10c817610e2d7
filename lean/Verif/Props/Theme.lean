import Verif.Model.Theme
import Verif.Spec.Theme
import Mathlib.Data.List.Forall2
import Mathlib.Tactic.Common

/-!
Theme variables: every documented variable exists in every theme (C148), and a colour only reaches the
variables it is for (C149).
-/

namespace Textual.Theme

open Textual.Css (TextStyle ThemeEnv)

/-! ### C148 -/

/-- The names of the variables of any theme. -/
def keys : List String :=
  (generate ⟨fun _ _ _ _ => (0, 0, 0)⟩ (.new .black true)).map Prod.fst

theorem generate_keys (lab : Lab) (s : ColorSystem) : (generate lab s).map Prod.fst = keys := by
  simp only [keys, generate, List.map_reverse, List.map_append, shades, bases, shadeSteps, List.flatMap_cons,
    List.flatMap_nil, List.map_cons, List.map_nil, textVars, partVars, widgetVars]

theorem lookup_isSome_of_mem {α : Type} (name : String) (l : List (String × α))
    (h : name ∈ l.map Prod.fst) : (List.lookup name l).isSome := by
  induction l with
  | nil => simp at h
  | cons p l ih =>
    obtain ⟨k, v⟩ := p
    by_cases e : name = k
    · subst e; simp [List.lookup]
    · simp only [List.map_cons, List.mem_cons, e, false_or] at h
      have e' : (name == k) = false := by simpa using e
      simp only [List.lookup, e']
      exact ih h

theorem defined_of_key (lab : Lab) (f : String → Option Rat) (s : ColorSystem) (name : String)
    (h : name ∈ keys) : ((themeEnv lab f s).getColor name).isSome := by
  refine lookup_isSome_of_mem name _ ?_
  rw [generate_keys]; exact h

/-- C148. Whatever colours a theme is made of, every documented variable is defined. -/
theorem documented_defined (lab : Lab) (f : String → Option Rat) (s : ColorSystem) (name : String)
    (h : Documented name) : ((themeEnv lab f s).getColor name).isSome := by
  apply defined_of_key
  have hbase : ∀ b ∈ baseNames, b ∈ keys := by decide +kernel
  have hl : ∀ b ∈ baseNames, ∀ k ∈ ["1", "2", "3"], b ++ "-lighten-" ++ k ∈ keys := by decide +kernel
  have hd : ∀ b ∈ baseNames, ∀ k ∈ ["1", "2", "3"], b ++ "-darken-" ++ k ∈ keys := by decide +kernel
  have ht : ∀ n ∈ ["text", "text-muted", "text-disabled"], n ∈ keys := by decide +kernel
  have htr : ∀ b ∈ roleNames, "text-" ++ b ∈ keys := by decide +kernel
  have hm : ∀ b ∈ roleNames, b ++ "-muted" ∈ keys := by decide +kernel
  have hs : ∀ n ∈ ["scrollbar", "scrollbar-hover", "scrollbar-active", "scrollbar-background",
      "scrollbar-background-hover", "scrollbar-background-active", "scrollbar-corner-color"], n ∈ keys := by
    decide +kernel
  have hk : ∀ n ∈ ["link-color", "link-background", "link-color-hover", "link-background-hover"],
      n ∈ keys := by decide +kernel
  cases h with
  | base b h => exact hbase _ h
  | lighten b k h hk => exact hl _ h _ hk
  | darken b k h hk => exact hd _ h _ hk
  | text n h => exact ht _ h
  | textRole b h => exact htr _ h
  | mutedRole b h => exact hm _ h
  | bar n h => exact hs _ h
  | link n h => exact hk _ h

/-- C148. Every variable the library's own style rules use is defined in every theme. -/
theorem used_defined (lab : Lab) (f : String → Option Rat) (s : ColorSystem) :
    (∀ name ∈ usedColors, ((themeEnv lab f s).getColor name).isSome) ∧
    ∀ name ∈ usedStyles, ((themeEnv lab f s).getStyle name).isSome := by
  constructor
  · intro name h
    apply defined_of_key
    have : ∀ n ∈ usedColors, n ∈ keys := by decide +kernel
    exact this name h
  · intro name h
    apply lookup_isSome_of_mem
    have : ∀ n ∈ usedStyles, n ∈ generateStyles.map Prod.fst := by decide +kernel
    exact this name h

/-- C148. So a style rule that uses a documented variable gets the theme's colour, with the opacity the
rule writes when it writes one, and never the white stand-in for unknown names. -/
theorem documented_used (lab : Lab) (f : String → Option Rat) (s : ColorSystem) (c : RgbaColor)
    (name : String) (h : Documented name ∨ name ∈ usedColors) (hc : c.themeVar = some name) :
    ∃ t, (themeEnv lab f s).getColor name = some t ∧
      (themeEnv lab f s).resolveColor c = if c.a < 1 then { t with a := c.a } else t := by
  have : ((themeEnv lab f s).getColor name).isSome :=
    h.elim (documented_defined lab f s name) ((used_defined lab f s).1 name)
  obtain ⟨t, ht⟩ := Option.isSome_iff_exists.1 this
  exact ⟨t, ht, by simp [ThemeEnv.resolveColor, hc, ht]⟩

example : Documented "success-lighten-2" := .lighten "success" "2" (by decide) (by decide)
example : Documented "text-accent" := .textRole "accent" (by decide)
example : ∃ c : RgbaColor, c.themeVar = some "panel" ∧ c.a < 1 :=
  ⟨{ r := 0, g := 0, b := 0, a := 1 / 2, themeVar := some "panel" }, rfl, by decide +kernel⟩

/-- A dark theme with a blue primary colour. -/
example : ((themeEnv ⟨fun r g b _ => (r, g, b)⟩ (fun _ => none)
    (.new (.rgb 1 0x78 0xd4) true)).getColor "scrollbar-active") = some (.rgb 1 0x78 0xd4) := by
  decide +kernel

/-! ### C149 -/

theorem lookup_congr {α : Type} (name : String) (l l' : List (String × α))
    (h : List.Forall₂ (fun p q => p.1 = q.1 ∧ (name = p.1 → p.2 = q.2)) l l') :
    List.lookup name l = List.lookup name l' := by
  induction h with
  | nil => rfl
  | @cons p q l l' hpq _ ih =>
    obtain ⟨k, v⟩ := p
    obtain ⟨k', v'⟩ := q
    obtain ⟨hk, hv⟩ := hpq
    dsimp only at hk hv
    subst hk
    by_cases e : name = k
    · rw [hv e]; simp [List.lookup, e]
    · have e' : (name == k) = false := by simpa using e
      simp only [List.lookup, e', ih]

/-- Two maps that agree on `name`. -/
def Agree (name : String) : Vars → Vars → Prop :=
  List.Forall₂ (fun p q => p.1 = q.1 ∧ (name = p.1 → p.2 = q.2))

theorem agree_cons {name k : String} {v v' : RgbaColor} {l l' : Vars} (hv : name = k → v = v')
    (h : Agree name l l') : Agree name ((k, v) :: l) ((k, v') :: l') := .cons ⟨rfl, hv⟩ h

theorem agree_append {name : String} {a a' b b' : Vars} (h : Agree name a a') (h' : Agree name b b') :
    Agree name (a ++ b) (a' ++ b') := by
  induction h with
  | nil => exact h'
  | cons h _ ih => exact .cons h ih

theorem agree_shades {name : String} {lab : Lab} {s t : ColorSystem} (hd : s.dark = t.dark)
    (hl : s.luminositySpread = t.luminositySpread) (hb : background s = background t)
    (h : List.Forall₂ (fun p q => p.1 = q.1 ∧ ((∃ x ∈ shadeSteps, name = p.1 ++ x.1) → p.2 = q.2))
      (bases s) (bases t)) : Agree name (shades lab s) (shades lab t) := by
  unfold shades
  generalize bases s = bs at h
  generalize bases t = bt at h
  induction h with
  | nil => exact .nil
  | @cons p q l l' hpq _ ih =>
    rw [List.flatMap_cons, List.flatMap_cons]
    refine agree_append ?_ ih
    obtain ⟨k, v⟩ := p
    obtain ⟨k', v'⟩ := q
    obtain ⟨hk, hv⟩ := hpq
    dsimp only at hk hv
    subst hk
    unfold Agree
    rw [List.forall₂_map_left_iff, List.forall₂_map_right_iff, List.forall₂_same]
    intro x hx
    refine ⟨rfl, fun e => ?_⟩
    dsimp only at e ⊢
    rw [hv ⟨x, hx, e⟩]
    unfold shadeColor
    rw [hd, hl, hb]

theorem get_congr {name : String} {lab : Lab} {s t : ColorSystem} (hd : s.dark = t.dark)
    (hl : s.luminositySpread = t.luminositySpread) (hb : background s = background t)
    (h : List.Forall₂ (fun p q => p.1 = q.1 ∧ ((∃ x ∈ shadeSteps, name = p.1 ++ x.1) → p.2 = q.2))
      (bases s) (bases t))
    (h1 : Agree name (textVars s) (textVars t)) (h2 : Agree name (partVars lab s) (partVars lab t))
    (h3 : Agree name (widgetVars s) (widgetVars t)) :
    (generate lab s).get name = (generate lab t).get name :=
  lookup_congr name _ _ (List.forall₂_reverse_iff.2
    (agree_append (agree_append (agree_append (agree_shades hd hl hb h) h1) h2) h3))

/-- A check for `NamedAfter`. -/
def namedAfterB (base name : String) : Bool :=
  name == base || name == "text-" ++ base || (base ++ "-").toList.isPrefixOf name.toList

theorem namedAfter_of_check {base name : String} (h : namedAfterB base name = true) :
    NamedAfter base name := by
  simp only [namedAfterB, Bool.or_eq_true, beq_iff_eq, List.isPrefixOf_iff_prefix] at h
  rcases h with (h | h) | ⟨t, ht⟩
  · exact .inl h
  · exact .inr (.inl h)
  · refine .inr (.inr ⟨String.ofList t, ?_⟩)
    rw [← String.toList_inj, String.toList_append, String.toList_ofList, ht]

theorem namedAfter_shade {base name : String} (h : ∃ x ∈ shadeSteps, name = base ++ x.1) :
    NamedAfter base name := by
  obtain ⟨x, hx, rfl⟩ := h
  have : ∀ x ∈ shadeSteps, x.1 = "" ∨ ∃ rest, x.1 = "-" ++ rest := by
    intro x hx
    simp only [shadeSteps, List.mem_cons, List.not_mem_nil, or_false] at hx
    rcases hx with rfl | rfl | rfl | rfl | rfl | rfl | rfl
    · exact .inr ⟨"darken-3", rfl⟩
    · exact .inr ⟨"darken-2", rfl⟩
    · exact .inr ⟨"darken-1", rfl⟩
    · exact .inl rfl
    · exact .inr ⟨"lighten-1", rfl⟩
    · exact .inr ⟨"lighten-2", rfl⟩
    · exact .inr ⟨"lighten-3", rfl⟩
  rcases this x hx with e | ⟨rest, e⟩
  · left; rw [e, String.append_empty]
  · right; right; exact ⟨rest, by rw [e, String.append_assoc]⟩

theorem namedAfter_longer {base key name rest : String} (hk : key = base ++ "-" ++ rest)
    (h : ∃ x ∈ shadeSteps, name = key ++ x.1) : NamedAfter base name := by
  obtain ⟨x, _, rfl⟩ := h
  exact .inr (.inr ⟨rest ++ x.1, by rw [hk, String.append_assoc]⟩)

/-- Goes through the variables: each has the same colour on both sides, or is excluded by the hypotheses. -/
macro "same_elsewhere" h:term:max h2:term:max : tactic => `(tactic| (
  apply get_congr
  case hd => rfl
  case hl => rfl
  case hb => rfl
  case h =>
    unfold bases
    repeat' first
      | exact List.Forall₂.nil
      | refine List.Forall₂.cons ⟨rfl, ?_⟩ ?_
    all_goals first
      | exact fun _ => rfl
      | exact fun e => absurd (namedAfter_shade e) $h
      | (dsimp only
         exact fun e => absurd (namedAfter_longer (rest := "background") (by decide +kernel) e) $h)
  all_goals
    first | unfold textVars | unfold partVars | unfold widgetVars
    repeat' first
      | exact List.Forall₂.nil
      | refine agree_cons ?_ ?_
    all_goals first
      | exact fun _ => rfl
      | (intro e; subst e; exact absurd (namedAfter_of_check (by decide +kernel)) $h)
      | (intro e; subst e; exact absurd (by decide +kernel) $h2)))

/-- C149. The warning colour only reaches the variables named after it. -/
theorem warning_only (lab : Lab) (s : ColorSystem) (c : Option RgbaColor) (name : String)
    (h : ¬ NamedAfter "warning" name) :
    (generate lab { s with warning := c }).get name = (generate lab s).get name := by
  same_elsewhere h h

/-- C149. The error colour only reaches the variables named after it. -/
theorem error_only (lab : Lab) (s : ColorSystem) (c : Option RgbaColor) (name : String)
    (h : ¬ NamedAfter "error" name) :
    (generate lab { s with error := c }).get name = (generate lab s).get name := by
  same_elsewhere h h

/-- C149. The success colour only reaches the variables named after it. -/
theorem success_only (lab : Lab) (s : ColorSystem) (c : Option RgbaColor) (name : String)
    (h : ¬ NamedAfter "success" name) :
    (generate lab { s with success := c }).get name = (generate lab s).get name := by
  same_elsewhere h h

/-- C149. The accent colour only reaches the variables named after it and the keys of the footer. -/
theorem accent_only (lab : Lab) (s : ColorSystem) (c : Option RgbaColor) (name : String)
    (h : ¬ NamedAfter "accent" name)
    (h' : name ∉ ["footer-key-foreground"]) :
    (generate lab { s with accent := c }).get name = (generate lab s).get name := by
  same_elsewhere h h'

/-- C149. The panel colour only reaches the variables named after it and the background of the footer. -/
theorem panel_only (lab : Lab) (s : ColorSystem) (c : Option RgbaColor) (name : String)
    (h : ¬ NamedAfter "panel" name)
    (h' : name ∉ ["footer-background"]) :
    (generate lab { s with panel := c }).get name = (generate lab s).get name := by
  same_elsewhere h h'

/-- C149. When the error and success colours are given, the secondary colour only reaches the variables named
after it. -/
theorem secondary_only (lab : Lab) (s : ColorSystem) (c : Option RgbaColor) (name : String)
    (he : s.error.isSome) (hs : s.success.isSome)
    (h : ¬ NamedAfter "secondary" name) :
    (generate lab { s with secondary := c }).get name = (generate lab s).get name := by
  obtain ⟨e, he⟩ := Option.isSome_iff_exists.1 he
  obtain ⟨u, hs⟩ := Option.isSome_iff_exists.1 hs
  cases s; cases he; cases hs
  same_elsewhere h h

/-- C149. When the panel colour is given, the surface colour only reaches the variables named after it and
the border of a widget without focus. -/
theorem surface_only (lab : Lab) (s : ColorSystem) (c : Option RgbaColor) (name : String)
    (hp : s.panel.isSome)
    (h : ¬ NamedAfter "surface" name)
    (h' : name ∉ ["border-blurred"]) :
    (generate lab { s with surface := c }).get name = (generate lab s).get name := by
  obtain ⟨e, hp⟩ := Option.isSome_iff_exists.1 hp
  cases s; cases hp
  same_elsewhere h h'

/-- C149. When the panel colour is given, the boost colour only reaches the variables named after it and the
background below the pointer. -/
theorem boost_only (lab : Lab) (s : ColorSystem) (c : Option RgbaColor) (name : String)
    (hp : s.panel.isSome)
    (h : ¬ NamedAfter "boost" name)
    (h' : name ∉ ["block-hover-background"]) :
    (generate lab { s with boost := c }).get name = (generate lab s).get name := by
  obtain ⟨e, hp⟩ := Option.isSome_iff_exists.1 hp
  cases s; cases hp
  same_elsewhere h h'

/-- C149. The foreground colour only reaches the variables named after it and the plain text of widgets. -/
theorem foreground_only (lab : Lab) (s : ColorSystem) (c : Option RgbaColor) (name : String)
    (h : ¬ NamedAfter "foreground" name)
    (h' : name ∉ ["text", "text-muted", "text-disabled", "link-color", "link-color-hover",
      "block-cursor-foreground", "block-cursor-blurred-foreground", "footer-foreground",
      "footer-description-foreground", "input-cursor-background", "markdown-h4-color",
      "markdown-h5-color", "markdown-h6-color", "button-foreground", "button-color-foreground"]) :
    (generate lab { s with foreground := c }).get name = (generate lab s).get name := by
  same_elsewhere h h'

/-- C149. When the secondary, warning, accent and panel colours are given, the primary colour only reaches the
variables named after it, the scroll bar, the link, border and cursor highlights, the selection and the first
headings. -/
theorem primary_only (lab : Lab) (s : ColorSystem) (c : RgbaColor) (name : String)
    (h1 : s.secondary.isSome) (h2 : s.warning.isSome) (h3 : s.accent.isSome) (h4 : s.panel.isSome)
    (h : ¬ NamedAfter "primary" name)
    (h' : name ∉ ["scrollbar", "scrollbar-hover", "scrollbar-active", "link-background-hover", "border",
      "block-cursor-background", "block-cursor-blurred-background", "input-selection-background",
      "markdown-h1-color", "markdown-h2-color", "markdown-h3-color"]) :
    (generate lab { s with primary := c }).get name = (generate lab s).get name := by
  obtain ⟨e1, h1⟩ := Option.isSome_iff_exists.1 h1
  obtain ⟨e2, h2⟩ := Option.isSome_iff_exists.1 h2
  obtain ⟨e3, h3⟩ := Option.isSome_iff_exists.1 h3
  obtain ⟨e4, h4⟩ := Option.isSome_iff_exists.1 h4
  cases s; cases h1; cases h2; cases h3; cases h4
  same_elsewhere h h'

example : ¬ NamedAfter "warning" "text-error" := by
  rintro (h | h | ⟨rest, h⟩)
  · exact absurd h (by decide)
  · exact absurd h (by decide)
  · have := congrArg (fun x : String => x.toList.head?) h
    simp [String.toList_append] at this

/-- The variables named after a colour do depend on it. -/
example : (generate ⟨fun r g b _ => (r, g, b)⟩ { ColorSystem.new .black true with warning := some .white }).get
    "warning" ≠ (generate ⟨fun r g b _ => (r, g, b)⟩ (ColorSystem.new .black true)).get "warning" := by
  decide +kernel

end Textual.Theme
