import Verif.Model.Value
import Verif.Model.Cascade

/-!
# From what is written to what the cascade uses

The constructors of `Declaration` that mod.rs:189-374 applies to the values it has read, by the kind of value. The cascade
model keeps values it only copies as opaque strings; `enc` says which.
-/

namespace Textual.Parse

open Css

/-- mod.rs:189-374: the properties read by `parse_color`, and their declarations. -/
def colorDecls : List (String × (RgbaColor → Decl)) :=
  [("color", .color), ("background", .background), ("tint", .tint), ("background-tint", .backgroundTint),
  ("scrollbar-color", .scrollbarColor), ("scrollbar-color-hover", .scrollbarColorHover),
  ("scrollbar-color-active", .scrollbarColorActive), ("scrollbar-background", .scrollbarBackground),
  ("scrollbar-background-hover", .scrollbarBackgroundHover), ("scrollbar-background-active",
  .scrollbarBackgroundActive), ("scrollbar-corner-color", .scrollbarCornerColor), ("link-color", .linkColor),
  ("link-color-hover", .linkColorHover), ("link-background", .linkBackground), ("link-background-hover",
  .linkBackgroundHover), ("border-title-color", .borderTitleColor), ("border-subtitle-color",
  .borderSubtitleColor), ("border-title-background", .borderTitleBackground), ("border-subtitle-background",
  .borderSubtitleBackground)]

/-- mod.rs:189-374: the properties read by `parse_scalar`, and their declarations. -/
def scalarDecls : List (String × (String → Decl)) :=
  [("width", .width), ("height", .height), ("max-height", .maxHeight), ("max-width", .maxWidth), ("min-height",
  .minHeight), ("min-width", .minWidth), ("margin-top", .marginTop), ("margin-right", .marginRight),
  ("margin-bottom", .marginBottom), ("margin-left", .marginLeft), ("padding-top", .paddingTop), ("padding-right",
  .paddingRight), ("padding-bottom", .paddingBottom), ("padding-left", .paddingLeft), ("offset-x", .offsetX),
  ("offset-y", .offsetY)]

/-- mod.rs:189-374: the properties read by `parse_border_edge`, and their declarations. -/
def edgeDecls : List (String × (Edge → Decl)) :=
  [("border", .border), ("border-top", .borderTop), ("border-bottom", .borderBottom), ("border-left",
  .borderLeft), ("border-right", .borderRight), ("outline", .outline), ("outline-top", .outlineTop),
  ("outline-right", .outlineRight), ("outline-bottom", .outlineBottom), ("outline-left", .outlineLeft)]

/-- mod.rs:189-374: the properties read by `parse_u16`, and their declarations. -/
def numDecls : List (String × (String → Decl)) :=
  [("scrollbar-size-horizontal", .scrollbarSizeHorizontal), ("scrollbar-size-vertical", .scrollbarSizeVertical),
  ("column-span", .columnSpan), ("row-span", .rowSpan), ("line-pad", .linePad)]

/-- mod.rs:189-374: the properties read by the parsers of keywords, and their declarations. -/
def wordDecls : List (String × (String → Decl)) :=
  [("scrollbar-gutter", .scrollbarGutter), ("scrollbar-visibility", .scrollbarVisibility), ("box-sizing",
  .boxSizing), ("display", .display), ("visibility", .visibility), ("position", .position), ("overflow-x",
  .overflowX), ("overflow-y", .overflowY), ("layout", .layout), ("dock", .dock), ("text-align", .textAlign),
  ("text-overflow", .textOverflow), ("text-wrap", .textWrap), ("content-align-horizontal",
  .contentAlignHorizontal), ("content-align-vertical", .contentAlignVertical), ("align-horizontal",
  .alignHorizontal), ("align-vertical", .alignVertical), ("border-title-align", .borderTitleAlign),
  ("border-subtitle-align", .borderSubtitleAlign)]

/-- mod.rs:189-374: the properties read by `parse_text_style`, and their declarations. -/
def styleDecls : List (String × (Css.TextStyle → Decl)) :=
  [("link-style", .linkStyle), ("link-style-hover", .linkStyleHover), ("text-style", .textStyle),
  ("border-title-style", .borderTitleStyle), ("border-subtitle-style", .borderSubtitleStyle)]

/-- mod.rs:189-374: the properties read by `parse_opacity`, and their declarations. -/
def opacityDecls : List (String × (String → Decl)) :=
  [("opacity", .opacity), ("text-opacity", .textOpacity)]

/-- mod.rs:189-374: the properties read by `parse_overflow_shorthand` and `parse_content_align`, and their declarations. -/
def pairDecls : List (String × (String → String → Decl)) :=
  [("overflow", .overflow), ("content-align", .contentAlign), ("align", .align)]

/-- mod.rs:189-374: the properties read by `parse_spacing`, and their declarations. -/
def spacingDecls : List (String × (String → String → String → String → Decl)) :=
  [("margin", .margin), ("padding", .padding)]

/-- mod.rs:189-374: the properties read by `parse_scalar_list`, and their declarations. -/
def scalarsDecls : List (String × (String → Decl)) :=
  [("grid-columns", .gridColumns), ("grid-rows", .gridRows)]

/-- mod.rs:189-374: which declaration a property with a value is; none if the value is of another kind than the property
asks for, which never comes out of the parsers (`decl_total`). -/
def declOf (enc : Value → String) (n : String) : Value → Option Decl
  | .color c => (colorDecls.lookup n).map (· c)
  | v@(.scalar _) => (scalarDecls.lookup n).map (· (enc v))
  | .edge k c => (edgeDecls.lookup n).map (· ⟨k, c⟩)
  | v@(.num _) => (numDecls.lookup n).map (· (enc v))
  | v@(.word _) => (wordDecls.lookup n).map (· (enc v))
  | .style s => (styleDecls.lookup n).map (· s)
  | v@(.opacity _) => (opacityDecls.lookup n).map (· (enc v))
  | .pair a b => (pairDecls.lookup n).map (fun d => d (enc (.word a)) (enc (.word b)))
  | .spacing s => (spacingDecls.lookup n).map
      (fun d => d (enc (.scalar s.top)) (enc (.scalar s.right)) (enc (.scalar s.bottom)) (enc (.scalar s.left)))
  | v@(.scalars _) => (scalarsDecls.lookup n).map (· (enc v))
  | .nums h v => if n = "scrollbar-size" then some (.scrollbarSize (enc (.num h)) (enc (.num v))) else none
  | v@(.names _) => if n = "layers" then some (.layers (enc v)) else none
  | v@(.name _) => if n = "layer" then some (.layer (enc v)) else none
  | .gridSize c r =>
    if n = "grid-size" then some (.gridSize (enc (.num c)) (r.map fun n => enc (.num n))) else none
  | .gutter v h =>
    if n = "grid-gutter" then some (.gridGutter (enc (.scalar v)) (h.map fun s => enc (.scalar s))) else none
  | v@(.hatch _ c _) => if n = "hatch" then some (.hatch (enc v) c) else none
  | .keyline k c => if n = "keyline" then some (.keyline (enc (.word k)) c) else none
  | .offset x y => if n = "offset" then some (.offset (enc (.scalar x)) (enc (.scalar y))) else none

/-- mod.rs:189-381: the declaration. -/
def decode (enc : Value → String) : Written Value → Decl
  | .known n v => (declOf enc (String.ofList n) v).getD (.unknown (String.ofList n))
  | .unknown n => .unknown (String.ofList n)

end Textual.Parse
