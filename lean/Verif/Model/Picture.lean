import Verif.Model.Restyle
import Verif.Model.Cascade

/-!
# The picture of a test and the first frame of the program

Model of how `render_to_canvas` (testing.rs:55-88) and the start of the event loop (lib.rs:677-718) build the tree of widgets and
style it. What the two have in common, the cascade and the walk through the tree, is `Css.computeStyle` and
`Restyle.resolveStyles`.
-/

namespace Textual.Picture

open Css Restyle

/-- cascade.rs:231-273 `compute_style` as the resolver calls it (style_resolver.rs:87-89); `op` reads the number of an
`opacity` declaration. -/
def cascade (op : Val → Rat) (env : ThemeEnv) (ctx : Ctx) (rules : List (FlatRule Decl)) : Cascade :=
  fun w anc => ofComputed op (computeStyle env ctx w anc rules)

/-- app_widget.rs:83-91 `AppWidget::get_meta`. -/
def appMeta : Css.Widget := { typeName := "App", typeNames := ["App", "DOMNode"] }

/-- lib.rs:691-700: the tree of a program: the screen, then the tooltip and, if it is enabled, the command palette
(`others`), all in the widget of the application. -/
def program (screen : W) (others : List W) : W := .node { kind := .group, base := appMeta } (screen :: others)

/-- The first child, where there is one. -/
def firstChild : W → W
  | .node _ (c :: _) => c
  | w => w

/-- testing.rs:66-80: the widgets of a test with their styles; the root is the screen. -/
def testPicture (cas : Cascade) (inh : Inherited) (screen : W) : W := resolveStyles cas inh screen

/-- lib.rs:691-718: the widgets of the screen of a program with their styles before the first frame. -/
def firstFrame (cas : Cascade) (inh : Inherited) (screen : W) (others : List W) : W :=
  firstChild (resolveStyles cas inh (program screen others))

/-- widget.rs:167-190 `base_widget_css`: the places it writes to. -/
def baseFields : List Field :=
  [.scrollbarBackground, .scrollbarBackgroundHover, .scrollbarBackgroundActive, .scrollbarColor, .scrollbarColorHover,
   .scrollbarColorActive, .scrollbarCornerColor, .scrollbarSizeVertical, .scrollbarSizeHorizontal, .linkBackground,
   .linkBackgroundHover, .linkColor, .linkColorHover, .linkStyle, .linkStyleHover]

/-- types/color.rs:182-187 `theme_variable`. -/
def var (name : String) : RgbaColor := { RgbaColor.black with themeVar := some name }

/-- widget.rs:167-190 `base_widget_css`, parsed. -/
def baseRule : FlatRule Decl where
  selectors := [[⟨[.universal], .none⟩]]
  decls :=
    [.scrollbarBackground (var "scrollbar-background"), .scrollbarBackgroundHover (var "scrollbar-background-hover"),
     .scrollbarBackgroundActive (var "scrollbar-background-active"), .scrollbarColor (var "scrollbar"),
     .scrollbarColorHover (var "scrollbar-hover"), .scrollbarColorActive (var "scrollbar-active"),
     .scrollbarCornerColor (var "scrollbar-corner-color"), .scrollbarSizeVertical "2", .scrollbarSizeHorizontal "1",
     .linkBackground (var "link-background"), .linkBackgroundHover (var "link-background-hover"),
     .linkColor (var "link-color"), .linkColorHover (var "link-color-hover"),
     .linkStyle { themeVar := some "link-style" }, .linkStyleHover { themeVar := some "link-style-hover" }]

/-- app_widget.rs:55-58 `AppWidget::default_css`, parsed. -/
def appRule : FlatRule Decl where
  selectors := [[⟨[.type "App"], .none⟩]]
  decls := [.background (var "background"), .color (var "foreground")]

end Textual.Picture
