import Verif.Spec.Values
import Verif.Model.Cascade

/-!
# What properties mean

Which parts of a widget's style each property of a stylesheet is about: a shorthand is about all the parts it stands for.
-/

namespace Textual.Sheet

open Css Parse

/-- The parts of a style a property is about, by its name. -/
def parts : List (String × List Field) :=
  [("color", [.color, .autoColor]), ("background", [.background]), ("tint", [.tint]), ("background-tint",
  [.backgroundTint]), ("width", [.width]), ("height", [.height]), ("max-height", [.maxHeight]), ("max-width",
  [.maxWidth]), ("min-height", [.minHeight]), ("min-width", [.minWidth]), ("margin", [.marginTop, .marginRight,
  .marginBottom, .marginLeft]), ("margin-top", [.marginTop]), ("margin-right", [.marginRight]), ("margin-bottom",
  [.marginBottom]), ("margin-left", [.marginLeft]), ("padding", [.paddingTop, .paddingRight, .paddingBottom,
  .paddingLeft]), ("padding-top", [.paddingTop]), ("padding-right", [.paddingRight]), ("padding-bottom",
  [.paddingBottom]), ("padding-left", [.paddingLeft]), ("border", [.borderTop, .borderRight, .borderBottom,
  .borderLeft]), ("scrollbar-color", [.scrollbarColor]), ("scrollbar-color-hover", [.scrollbarColorHover]),
  ("scrollbar-color-active", [.scrollbarColorActive]), ("scrollbar-background", [.scrollbarBackground]),
  ("scrollbar-background-hover", [.scrollbarBackgroundHover]), ("scrollbar-background-active",
  [.scrollbarBackgroundActive]), ("scrollbar-corner-color", [.scrollbarCornerColor]), ("scrollbar-size",
  [.scrollbarSizeHorizontal, .scrollbarSizeVertical]), ("scrollbar-size-horizontal", [.scrollbarSizeHorizontal]),
  ("scrollbar-size-vertical", [.scrollbarSizeVertical]), ("scrollbar-gutter", [.scrollbarGutter]),
  ("scrollbar-visibility", [.scrollbarVisibility]), ("box-sizing", [.boxSizing]), ("display", [.display]),
  ("visibility", [.visibility, .visibilitySet]), ("opacity", [.opacity]), ("position", [.position]),
  ("overflow-x", [.overflowX]), ("overflow-y", [.overflowY]), ("overflow", [.overflowX, .overflowY]), ("layout",
  [.layout]), ("dock", [.dock]), ("layers", [.layers]), ("layer", [.layer]), ("grid-size", [.gridColumnCount,
  .gridRowCount]), ("grid-columns", [.gridColumns]), ("grid-rows", [.gridRows]), ("grid-gutter", [.gridGutterV,
  .gridGutterH]), ("column-span", [.columnSpan]), ("row-span", [.rowSpan]), ("link-color", [.linkColor]),
  ("link-color-hover", [.linkColorHover]), ("link-background", [.linkBackground]), ("link-background-hover",
  [.linkBackgroundHover]), ("link-style", [.linkStyle]), ("link-style-hover", [.linkStyleHover]), ("text-align",
  [.textAlign]), ("text-overflow", [.textOverflow]), ("text-wrap", [.textWrap]), ("line-pad", [.linePad]),
  ("text-opacity", [.textOpacity]), ("text-style", [.textStyle]), ("content-align-horizontal",
  [.contentAlignHorizontal]), ("content-align-vertical", [.contentAlignVertical]), ("content-align",
  [.contentAlignHorizontal, .contentAlignVertical]), ("align-horizontal", [.alignHorizontal]), ("align-vertical",
  [.alignVertical]), ("align", [.alignHorizontal, .alignVertical]), ("border-title-align", [.borderTitleAlign]),
  ("border-subtitle-align", [.borderSubtitleAlign]), ("border-title-color", [.borderTitleColor]),
  ("border-subtitle-color", [.borderSubtitleColor]), ("border-title-background", [.borderTitleBackground]),
  ("border-subtitle-background", [.borderSubtitleBackground]), ("border-title-style", [.borderTitleStyle]),
  ("border-subtitle-style", [.borderSubtitleStyle]), ("border-top", [.borderTop]), ("border-bottom",
  [.borderBottom]), ("border-left", [.borderLeft]), ("border-right", [.borderRight]), ("outline", [.outlineTop,
  .outlineRight, .outlineBottom, .outlineLeft]), ("outline-top", [.outlineTop]), ("outline-right",
  [.outlineRight]), ("outline-bottom", [.outlineBottom]), ("outline-left", [.outlineLeft]), ("hatch", [.hatch]),
  ("keyline", [.keyline]), ("offset", [.offsetX, .offsetY]), ("offset-x", [.offsetX]), ("offset-y", [.offsetY])]

/-- The property is about this part of a style. -/
def About (name : String) (f : Field) : Prop := ∃ fs, (name, fs) ∈ parts ∧ f ∈ fs

/-- What a written value puts into one part of a style; sizes, keywords and the like are kept as they are (`enc`), colours
and text styles are looked up in the theme. -/
inductive Gives (theme : ThemeEnv) (enc : Value → String) : Value → Field → Val → Prop
  | color {c f} : f ≠ .autoColor → Gives theme enc (.color c) f (.color (theme.resolveColor c))
  | scalar {s f} : Gives theme enc (.scalar s) f (.raw (enc (.scalar s)))
  | edge {k c f} : Gives theme enc (.edge k c) f (.edge ⟨k, c.map theme.resolveColor⟩)
  | num {n f} : Gives theme enc (.num n) f (.raw (enc (.num n)))
  | word {w f} : f ≠ .visibilitySet → Gives theme enc (.word w) f (.raw (enc (.word w)))
  | opacity {v f} : Gives theme enc (.opacity v) f (.raw (enc (.opacity v)))
  | scalars {l f} : Gives theme enc (.scalars l) f (.raw (enc (.scalars l)))
  | names {l f} : Gives theme enc (.names l) f (.raw (enc (.names l)))
  | name {n f} : Gives theme enc (.name n) f (.raw (enc (.name n)))
  | style {s f} : Gives theme enc (.style s) f (.style (theme.resolveStyle s))
  | top {s f} : f ∈ [Field.marginTop, .paddingTop] → Gives theme enc (.spacing s) f (.raw (enc (.scalar s.top)))
  | right {s f} : f ∈ [Field.marginRight, .paddingRight] → Gives theme enc (.spacing s) f (.raw (enc (.scalar s.right)))
  | bottom {s f} : f ∈ [Field.marginBottom, .paddingBottom] →
      Gives theme enc (.spacing s) f (.raw (enc (.scalar s.bottom)))
  | left {s f} : f ∈ [Field.marginLeft, .paddingLeft] → Gives theme enc (.spacing s) f (.raw (enc (.scalar s.left)))
  | first {a b f} : f ∈ [Field.overflowX, .contentAlignHorizontal, .alignHorizontal] →
      Gives theme enc (.pair a b) f (.raw (enc (.word a)))
  | second {a b f} : f ∈ [Field.overflowY, .contentAlignVertical, .alignVertical] →
      Gives theme enc (.pair a b) f (.raw (enc (.word b)))
  | barHeight {h v} : Gives theme enc (.nums h v) .scrollbarSizeHorizontal (.raw (enc (.num h)))
  | barWidth {h v} : Gives theme enc (.nums h v) .scrollbarSizeVertical (.raw (enc (.num v)))
  | columns {c r} : Gives theme enc (.gridSize c r) .gridColumnCount (.raw (enc (.num c)))
  | rows {c r} : Gives theme enc (.gridSize c (some r)) .gridRowCount (.raw (enc (.num r)))
  | anyRows {c} : Gives theme enc (.gridSize c none) .gridRowCount .unset
  | gutterV {v h} : Gives theme enc (.gutter v h) .gridGutterV (.raw (enc (.scalar v)))
  | gutterH {v h} : Gives theme enc (.gutter v (some h)) .gridGutterH (.raw (enc (.scalar h)))
  | gutterBoth {v} : Gives theme enc (.gutter v none) .gridGutterH (.raw (enc (.scalar v)))
  | offsetX {x y} : Gives theme enc (.offset x y) .offsetX (.raw (enc (.scalar x)))
  | offsetY {x y} : Gives theme enc (.offset x y) .offsetY (.raw (enc (.scalar y)))
  | hatch {p c o f} : Gives theme enc (.hatch p c o) f (.painted (enc (.hatch p c o)) (theme.resolveColor c))
  | keyline {k c f} : Gives theme enc (.keyline k c) f (.painted (enc (.word k)) (theme.resolveColor c))

end Textual.Sheet
