import Verif.Model.Cascade

/-!
Model of `/repo/crates/tcss/src/types/theme.rs` (`ColorSystem::generate`, `generate_styles`, `Theme`).

The conversion between RGB and CIE-L*ab (color.rs:622-715), which uses `powf`, is a parameter (`Lab`);
`Model/Lab.lean` gives it over the real numbers. `f32` constants are exact rationals. A `HashMap` is a
list of pairs with the latest insertion first.
-/

namespace Textual.Theme

open Textual.Css (TextStyle ThemeEnv)

/-- The lightness change of a plain colour: `from_lab` after `to_lab` with `amount * 100` taken off the
lightness (color.rs:284-286); the result is a plain colour with the same alpha (color.rs:714). -/
structure Lab where
  darken : Nat → Nat → Nat → Rat → Nat × Nat × Nat

/-- color.rs:280-287 `darken`. -/
def darken (lab : Lab) (c : RgbaColor) (amount : Rat) : RgbaColor :=
  if c.ansi.isSome || c.auto || c.themeVar.isSome then c
  else
    let (r, g, b) := lab.darken c.r c.g c.b amount
    .rgba r g b c.a

/-- color.rs:273-278 `lighten`. -/
def lighten (lab : Lab) (c : RgbaColor) (amount : Rat) : RgbaColor :=
  if c.ansi.isSome || c.auto || c.themeVar.isSome then c
  else darken lab c (-amount)

/-- color.rs:316-323 `contrast_text`. -/
def contrastText (c : RgbaColor) (alpha : Rat) : RgbaColor :=
  if c.perceivedBrightness < 1 / 2 then .rgba 255 255 255 alpha else .rgba 0 0 0 alpha

/-- color.rs:113-115 `transparent`. -/
def transparent : RgbaColor := .rgba 0 0 0 0

/-- theme.rs:51-80 `ColorSystem`. -/
structure ColorSystem where
  primary : RgbaColor
  secondary : Option RgbaColor := none
  warning : Option RgbaColor := none
  error : Option RgbaColor := none
  success : Option RgbaColor := none
  accent : Option RgbaColor := none
  foreground : Option RgbaColor := none
  background : Option RgbaColor := none
  surface : Option RgbaColor := none
  panel : Option RgbaColor := none
  boost : Option RgbaColor := none
  dark : Bool
  luminositySpread : Rat := 15 / 100
  textAlpha : Rat := 95 / 100
deriving DecidableEq, Repr

/-- theme.rs:84-101 `new`. -/
def ColorSystem.new (primary : RgbaColor) (dark : Bool) : ColorSystem := { primary, dark }

/-- theme.rs:176-182 `default_background`. -/
def defaultBackground (s : ColorSystem) : RgbaColor :=
  if s.dark then .rgb 0x12 0x12 0x12 else .rgb 0xef 0xef 0xef

/-- theme.rs:185-191 `default_surface`. -/
def defaultSurface (s : ColorSystem) : RgbaColor :=
  if s.dark then .rgb 0x1e 0x1e 0x1e else .rgb 0xf5 0xf5 0xf5

/-- theme.rs:197-198: the secondary colour. -/
def secondary (s : ColorSystem) : RgbaColor := s.secondary.getD s.primary
/-- theme.rs:199: the warning colour. -/
def warning (s : ColorSystem) : RgbaColor := s.warning.getD s.primary
/-- theme.rs:200: the error colour. -/
def error (s : ColorSystem) : RgbaColor := s.error.getD (secondary s)
/-- theme.rs:201: the success colour. -/
def success (s : ColorSystem) : RgbaColor := s.success.getD (secondary s)
/-- theme.rs:202: the accent colour. -/
def accent (s : ColorSystem) : RgbaColor := s.accent.getD s.primary
/-- theme.rs:207-210: the background. -/
def background (s : ColorSystem) : RgbaColor := s.background.getD (defaultBackground s)
/-- theme.rs:211-214: the surface. -/
def surface (s : ColorSystem) : RgbaColor := s.surface.getD (defaultSurface s)
/-- theme.rs:215-218: the foreground. -/
def foreground (s : ColorSystem) : RgbaColor := s.foreground.getD (background s).inverse
/-- theme.rs:219: the contrast text. -/
def contrast (s : ColorSystem) : RgbaColor := contrastText (background s) s.textAlpha
/-- theme.rs:220-223: the boost. -/
def boost (s : ColorSystem) : RgbaColor := s.boost.getD ((contrast s).withAlpha (4 / 100))
/-- theme.rs:224-230: the panel. -/
def panel (s : ColorSystem) : RgbaColor :=
  s.panel.getD
    (let p := (surface s).blend s.primary (1 / 10) (some 1)
     if s.dark then p.tint (boost s) else p)

/-- The map under construction; the latest insertion comes first. See theme.rs:194, 267. -/
abbrev Vars := List (String × RgbaColor)

/-- `HashMap::get`. Used at theme.rs:511. -/
def Vars.get (vars : Vars) (name : String) : Option RgbaColor := List.lookup name vars

/-- theme.rs:232-246: the thirteen colours shades are made of. -/
def bases (s : ColorSystem) : List (String × RgbaColor) :=
  [("primary", s.primary), ("secondary", secondary s), ("primary-background", s.primary),
   ("secondary-background", secondary s), ("background", background s), ("foreground", foreground s),
   ("panel", panel s), ("boost", boost s), ("surface", surface s), ("warning", warning s),
   ("error", error s), ("success", success s), ("accent", accent s)]

/-- theme.rs:252-259: the shades of a base, their suffix and their number `n`. -/
def shadeSteps : List (String × Int) :=
  [("-darken-3", -3), ("-darken-2", -2), ("-darken-1", -1), ("", 0), ("-lighten-1", 1), ("-lighten-2", 2),
   ("-lighten-3", 3)]

/-- theme.rs:250-251, 261-266: the colour of one shade. -/
def shadeColor (lab : Lab) (s : ColorSystem) (name : String) (color : RgbaColor) (n : Int) : RgbaColor :=
  let delta := n * (s.luminositySpread / 2)
  if s.dark && (name == "primary-background" || name == "secondary-background") then
    ((background s).blend color (15 / 100) (some 1)).blend .white (s.luminositySpread + delta) (some 1)
  else lighten lab color delta

/-- theme.rs:248-269: the shades, in order of insertion. -/
def shades (lab : Lab) (s : ColorSystem) : Vars :=
  (bases s).flatMap fun (name, color) =>
    shadeSteps.map fun (suffix, n) => (name ++ suffix, shadeColor lab s name color n)

/-- theme.rs:274-282: `$text` and the like. -/
def textColor (s : ColorSystem) (alpha : Rat) : RgbaColor :=
  if (foreground s).ansi.isNone then .autoColor alpha else foreground s

/-- theme.rs:328-331: the first darker background. It is always found in the map (theme.rs:267 put it
there), so the fallback is not modelled. -/
def backgroundDarken1 (lab : Lab) (s : ColorSystem) : RgbaColor :=
  shadeColor lab s "background" (background s) (-1)

/-- theme.rs:271-326: the foreground, text and muted variables. -/
def textVars (s : ColorSystem) : Vars :=
  [("foreground-muted", (foreground s).withAlpha (60 / 100)),
   ("foreground-disabled", (foreground s).withAlpha (38 / 100)),
   ("text", textColor s (87 / 100)),
   ("text-muted", textColor s (60 / 100)),
   ("text-disabled", textColor s (38 / 100)),
   ("text-primary", (contrast s).tint (s.primary.withAlpha (66 / 100))),
   ("text-secondary", (contrast s).tint ((secondary s).withAlpha (66 / 100))),
   ("text-warning", (contrast s).tint ((warning s).withAlpha (66 / 100))),
   ("text-error", (contrast s).tint ((error s).withAlpha (66 / 100))),
   ("text-success", (contrast s).tint ((success s).withAlpha (66 / 100))),
   ("text-accent", (contrast s).tint ((accent s).withAlpha (66 / 100))),
   ("primary-muted", s.primary.blend (background s) (7 / 10) none),
   ("secondary-muted", (secondary s).blend (background s) (7 / 10) none),
   ("accent-muted", (accent s).blend (background s) (7 / 10) none),
   ("warning-muted", (warning s).blend (background s) (7 / 10) none),
   ("error-muted", (error s).blend (background s) (7 / 10) none),
   ("success-muted", (success s).blend (background s) (7 / 10) none)]

/-- theme.rs:328-375: scroll bars, links, borders and cursors. -/
def partVars (lab : Lab) (s : ColorSystem) : Vars :=
  [("scrollbar", (backgroundDarken1 lab s).blend (s.primary.withAlpha (4 / 10)) (4 / 10) (some 1)),
   ("scrollbar-hover", (backgroundDarken1 lab s).blend (s.primary.withAlpha (5 / 10)) (5 / 10) (some 1)),
   ("scrollbar-active", s.primary),
   ("scrollbar-background", backgroundDarken1 lab s),
   ("scrollbar-corner-color", backgroundDarken1 lab s),
   ("scrollbar-background-hover", backgroundDarken1 lab s),
   ("scrollbar-background-active", backgroundDarken1 lab s),
   ("link-color", textColor s (87 / 100)),
   ("link-background", transparent),
   ("link-color-hover", textColor s (87 / 100)),
   ("link-background-hover", s.primary),
   ("border", s.primary),
   ("border-blurred", darken lab (surface s) (25 / 1000)),
   ("surface-active", lighten lab (surface s) (s.luminositySpread / (5 / 2))),
   ("block-cursor-foreground", textColor s (87 / 100)),
   ("block-cursor-background", s.primary),
   ("block-cursor-blurred-foreground", foreground s),
   ("block-cursor-blurred-background", s.primary.withAlpha (3 / 10)),
   ("block-hover-background", (boost s).withAlpha (1 / 10))]

/-- theme.rs:377-406: footer, input, markdown and button variables. -/
def widgetVars (s : ColorSystem) : Vars :=
  [("footer-foreground", foreground s),
   ("footer-background", panel s),
   ("footer-key-foreground", accent s),
   ("footer-key-background", transparent),
   ("footer-description-foreground", foreground s),
   ("footer-description-background", transparent),
   ("footer-item-background", transparent),
   ("input-cursor-background", foreground s),
   ("input-cursor-foreground", background s),
   ("input-selection-background", s.primary.withAlpha (4 / 10)),
   ("markdown-h1-color", s.primary),
   ("markdown-h1-background", transparent),
   ("markdown-h2-color", s.primary),
   ("markdown-h2-background", transparent),
   ("markdown-h3-color", s.primary),
   ("markdown-h3-background", transparent),
   ("markdown-h4-color", foreground s),
   ("markdown-h4-background", transparent),
   ("markdown-h5-color", foreground s),
   ("markdown-h5-background", transparent),
   ("markdown-h6-color", (foreground s).withAlpha (60 / 100)),
   ("markdown-h6-background", transparent),
   ("button-foreground", foreground s),
   ("button-color-foreground", textColor s (87 / 100))]

/-- theme.rs:194-409 `generate`. -/
def generate (lab : Lab) (s : ColorSystem) : Vars :=
  (shades lab s ++ textVars s ++ partVars lab s ++ widgetVars s).reverse

/-- theme.rs:412-470 `generate_styles`. -/
def generateStyles : List (String × TextStyle) :=
  [("link-style", { underline := true }),
   ("link-style-hover", { bold := true }),
   ("block-cursor-text-style", { bold := true }),
   ("block-cursor-blurred-text-style", {}),
   ("input-cursor-text-style", {}),
   ("markdown-h1-text-style", { bold := true }),
   ("markdown-h2-text-style", { underline := true }),
   ("markdown-h3-text-style", { bold := true }),
   ("markdown-h4-text-style", { bold := true, underline := true }),
   ("markdown-h5-text-style", { bold := true }),
   ("markdown-h6-text-style", { bold := true }),
   ("button-focus-text-style", { bold := true, reverse := true })]

/-- theme.rs:478-487, 501-508: a theme made from a colour system, as the cascade sees it
(theme.rs:511-518 `get_color`, `get_style`). -/
def themeEnv (lab : Lab) (parseF32 : String → Option Rat) (s : ColorSystem) : ThemeEnv where
  getColor := (generate lab s).get
  getStyle := fun name => List.lookup name generateStyles
  parseF32 := parseF32
  lighten := lighten lab
  darken := darken lab

end Textual.Theme
