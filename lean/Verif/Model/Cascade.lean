import Verif.Model.Color
import Verif.Model.Css

/-!
Model of the cascade in `/repo/crates/tcss/src/parser/cascade.rs` (`compute_style`,
`apply_declaration`) with the declarations of `stylesheet.rs`.

Simplification: values the cascade only copies (sizes, keywords, ...) are opaque strings (`Val.raw`).
-/

namespace Textual.Css

/-- types/text.rs:48-72 `TextStyle`. -/
structure TextStyle where
  bold : Bool := false
  dim : Bool := false
  italic : Bool := false
  underline : Bool := false
  underline2 : Bool := false
  blink : Bool := false
  blink2 : Bool := false
  reverse : Bool := false
  strike : Bool := false
  overline : Bool := false
  themeVar : Option String := none
deriving DecidableEq, Repr

/-- types/text.rs:113-149 `merge`. -/
def TextStyle.merge (self other : TextStyle) : TextStyle where
  bold := if other.bold then true else self.bold
  dim := if other.dim then true else self.dim
  italic := if other.italic then true else self.italic
  underline := if other.underline then true else self.underline
  underline2 := if other.underline2 then true else self.underline2
  blink := if other.blink then true else self.blink
  blink2 := if other.blink2 then true else self.blink2
  reverse := if other.reverse then true else self.reverse
  strike := if other.strike then true else self.strike
  overline := if other.overline then true else self.overline
  themeVar := if other.themeVar.isSome then other.themeVar else self.themeVar

/-- types/border.rs:82-88 `BorderEdge`. -/
structure Edge where
  kind : String
  color : Option RgbaColor
deriving DecidableEq, Repr

/-- The storage locations of types/mod.rs:60-171 `ComputedStyle` that declarations write
(`margin.top` and so on are separate locations). -/
inductive Field where
  | color | autoColor | background | tint | backgroundTint | borderTitleColor 
  | borderSubtitleColor | borderTitleBackground | borderSubtitleBackground | scrollbarColor 
  | scrollbarColorHover | scrollbarColorActive | scrollbarBackground | scrollbarBackgroundHover 
  | scrollbarBackgroundActive | scrollbarCornerColor | linkColor | linkColorHover 
  | linkBackground | linkBackgroundHover | width | height | maxHeight | maxWidth | minHeight 
  | minWidth | marginTop | marginRight | marginBottom | marginLeft | paddingTop | paddingRight 
  | paddingBottom | paddingLeft | borderTitleAlign | borderSubtitleAlign 
  | scrollbarSizeHorizontal | scrollbarSizeVertical | scrollbarGutter | scrollbarVisibility 
  | boxSizing | display | opacity | overflowX | overflowY | layout | position | dock | layers 
  | layer | gridColumns | gridRows | columnSpan | rowSpan | textAlign | textOverflow | textWrap 
  | linePad | textOpacity | contentAlignHorizontal | contentAlignVertical | alignHorizontal 
  | alignVertical | offsetX | offsetY | borderTop | borderBottom | borderLeft | borderRight 
  | outlineTop | outlineRight | outlineBottom | outlineLeft | borderTitleStyle 
  | borderSubtitleStyle | visibility | visibilitySet | gridColumnCount | gridRowCount 
  | gridGutterV | gridGutterH | linkStyle | linkStyleHover | textStyle | hatch | keyline
deriving DecidableEq, Repr

/-- The values stored. `unset` stands for the default of the location.
The fields of `ComputedStyle`, tcss/src/types/mod.rs:60. -/
inductive Val where
  | unset
  | flag (b : Bool)
  | raw (s : String)
  | color (c : RgbaColor)
  | edge (e : Edge)
  | painted (s : String) (c : RgbaColor)
  | style (s : TextStyle)
deriving DecidableEq, Repr

/-- stylesheet.rs:198-424 `Declaration`. -/
inductive Decl where
  | color (c : RgbaColor)
  | background (c : RgbaColor)
  | tint (c : RgbaColor)
  | backgroundTint (c : RgbaColor)
  | borderTitleColor (c : RgbaColor)
  | borderSubtitleColor (c : RgbaColor)
  | borderTitleBackground (c : RgbaColor)
  | borderSubtitleBackground (c : RgbaColor)
  | scrollbarColor (c : RgbaColor)
  | scrollbarColorHover (c : RgbaColor)
  | scrollbarColorActive (c : RgbaColor)
  | scrollbarBackground (c : RgbaColor)
  | scrollbarBackgroundHover (c : RgbaColor)
  | scrollbarBackgroundActive (c : RgbaColor)
  | scrollbarCornerColor (c : RgbaColor)
  | linkColor (c : RgbaColor)
  | linkColorHover (c : RgbaColor)
  | linkBackground (c : RgbaColor)
  | linkBackgroundHover (c : RgbaColor)
  | width (v : String)
  | height (v : String)
  | maxHeight (v : String)
  | maxWidth (v : String)
  | minHeight (v : String)
  | minWidth (v : String)
  | marginTop (v : String)
  | marginRight (v : String)
  | marginBottom (v : String)
  | marginLeft (v : String)
  | paddingTop (v : String)
  | paddingRight (v : String)
  | paddingBottom (v : String)
  | paddingLeft (v : String)
  | borderTitleAlign (v : String)
  | borderSubtitleAlign (v : String)
  | scrollbarSizeHorizontal (v : String)
  | scrollbarSizeVertical (v : String)
  | scrollbarGutter (v : String)
  | scrollbarVisibility (v : String)
  | boxSizing (v : String)
  | display (v : String)
  | opacity (v : String)
  | overflowX (v : String)
  | overflowY (v : String)
  | layout (v : String)
  | position (v : String)
  | dock (v : String)
  | layers (v : String)
  | layer (v : String)
  | gridColumns (v : String)
  | gridRows (v : String)
  | columnSpan (v : String)
  | rowSpan (v : String)
  | textAlign (v : String)
  | textOverflow (v : String)
  | textWrap (v : String)
  | linePad (v : String)
  | textOpacity (v : String)
  | contentAlignHorizontal (v : String)
  | contentAlignVertical (v : String)
  | alignHorizontal (v : String)
  | alignVertical (v : String)
  | offsetX (v : String)
  | offsetY (v : String)
  | margin (top right bottom left : String)
  | padding (top right bottom left : String)
  | border (e : Edge)
  | outline (e : Edge)
  | borderTop (e : Edge)
  | borderBottom (e : Edge)
  | borderLeft (e : Edge)
  | borderRight (e : Edge)
  | outlineTop (e : Edge)
  | outlineRight (e : Edge)
  | outlineBottom (e : Edge)
  | outlineLeft (e : Edge)
  | scrollbarSize (horizontal vertical : String)
  | visibility (v : String)
  | overflow (x y : String)
  | gridSize (cols : String) (rows : Option String)
  | gridGutter (v : String) (h : Option String)
  | linkStyle (s : TextStyle)
  | linkStyleHover (s : TextStyle)
  | textStyle (s : TextStyle)
  | borderTitleStyle (s : TextStyle)
  | borderSubtitleStyle (s : TextStyle)
  | contentAlign (h v : String)
  | align (h v : String)
  | hatch (pattern : String) (c : RgbaColor)
  | keyline (kind : String) (c : RgbaColor)
  | offset (x y : String)
  | unknown (name : String)
deriving DecidableEq, Repr

/-- What the cascade needs from the theme (types/theme.rs:511-518) and from the colour operations
`lighten`/`darken` and `str::parse::<f32>`, which are parameters. -/
structure ThemeEnv where
  getColor : String → Option RgbaColor
  getStyle : String → Option TextStyle
  parseF32 : String → Option Rat
  lighten : RgbaColor → Rat → RgbaColor
  darken : RgbaColor → Rat → RgbaColor

/-- `rsplitn(3, '-')` on the reversed characters: the piece after the last dash and what is before it.
Used at cascade.rs:614. -/
def splitLastDash : List Char → List Char → List Char × Option (List Char)
  | acc, [] => (acc, none)
  | acc, '-' :: before => (acc, some before)
  | acc, c :: before => splitLastDash (c :: acc) before

/-- `var_name.rsplitn(3, '-')` when it yields three parts: (amount, mode, base). Used at cascade.rs:614. -/
def rsplit3 (name : String) : Option (String × String × String) :=
  match splitLastDash [] name.toList.reverse with
  | (_, none) => none
  | (amount, some before) =>
    match splitLastDash [] before with
    | (_, none) => none
    | (mode, some base) => some (String.ofList amount, String.ofList mode, String.ofList base.reverse)

/-- cascade.rs:606-653 `resolve_theme_color`. -/
def ThemeEnv.resolveColor (env : ThemeEnv) (color : RgbaColor) : RgbaColor :=
  match color.themeVar with
  | none => color
  | some name =>
    let resolved :=
      match env.getColor name with
      | some c => c
      | none =>
        match rsplit3 name with
        | some (amount, mode, base) =>
          match env.parseF32 amount with
          | some x =>
            if mode = "lighten" then env.lighten ((env.getColor base).getD RgbaColor.white) x
            else if mode = "darken" then env.darken ((env.getColor base).getD RgbaColor.white) x
            else RgbaColor.white
          | none => RgbaColor.white
        | none => RgbaColor.white
    if color.a < 1 then { resolved with a := color.a } else resolved

/-- cascade.rs:655-661 `resolve_theme_style`. -/
def ThemeEnv.resolveStyle (env : ThemeEnv) (s : TextStyle) : TextStyle :=
  match s.themeVar with
  | some name => (env.getStyle name).getD {}
  | none => s

/-- cascade.rs:306-312 and the like: a border edge with its colour resolved. -/
def ThemeEnv.resolveEdge (env : ThemeEnv) (e : Edge) : Edge :=
  { e with color := e.color.map env.resolveColor }

/-- The locations a declaration overwrites (cascade.rs:275-604 `apply_declaration`). -/
def Decl.writes (env : ThemeEnv) : Decl → List (Field × Val)
  | .color c =>
    let resolved := env.resolveColor c
    [(.autoColor, .flag (c.auto || resolved.auto)), (.color, .color resolved)]
  | .background c => [(.background, .color (env.resolveColor c))]
  | .tint c => [(.tint, .color (env.resolveColor c))]
  | .backgroundTint c => [(.backgroundTint, .color (env.resolveColor c))]
  | .borderTitleColor c => [(.borderTitleColor, .color (env.resolveColor c))]
  | .borderSubtitleColor c => [(.borderSubtitleColor, .color (env.resolveColor c))]
  | .borderTitleBackground c => [(.borderTitleBackground, .color (env.resolveColor c))]
  | .borderSubtitleBackground c => [(.borderSubtitleBackground, .color (env.resolveColor c))]
  | .scrollbarColor c => [(.scrollbarColor, .color (env.resolveColor c))]
  | .scrollbarColorHover c => [(.scrollbarColorHover, .color (env.resolveColor c))]
  | .scrollbarColorActive c => [(.scrollbarColorActive, .color (env.resolveColor c))]
  | .scrollbarBackground c => [(.scrollbarBackground, .color (env.resolveColor c))]
  | .scrollbarBackgroundHover c => [(.scrollbarBackgroundHover, .color (env.resolveColor c))]
  | .scrollbarBackgroundActive c => [(.scrollbarBackgroundActive, .color (env.resolveColor c))]
  | .scrollbarCornerColor c => [(.scrollbarCornerColor, .color (env.resolveColor c))]
  | .linkColor c => [(.linkColor, .color (env.resolveColor c))]
  | .linkColorHover c => [(.linkColorHover, .color (env.resolveColor c))]
  | .linkBackground c => [(.linkBackground, .color (env.resolveColor c))]
  | .linkBackgroundHover c => [(.linkBackgroundHover, .color (env.resolveColor c))]
  | .width v => [(.width, .raw v)]
  | .height v => [(.height, .raw v)]
  | .maxHeight v => [(.maxHeight, .raw v)]
  | .maxWidth v => [(.maxWidth, .raw v)]
  | .minHeight v => [(.minHeight, .raw v)]
  | .minWidth v => [(.minWidth, .raw v)]
  | .marginTop v => [(.marginTop, .raw v)]
  | .marginRight v => [(.marginRight, .raw v)]
  | .marginBottom v => [(.marginBottom, .raw v)]
  | .marginLeft v => [(.marginLeft, .raw v)]
  | .paddingTop v => [(.paddingTop, .raw v)]
  | .paddingRight v => [(.paddingRight, .raw v)]
  | .paddingBottom v => [(.paddingBottom, .raw v)]
  | .paddingLeft v => [(.paddingLeft, .raw v)]
  | .borderTitleAlign v => [(.borderTitleAlign, .raw v)]
  | .borderSubtitleAlign v => [(.borderSubtitleAlign, .raw v)]
  | .scrollbarSizeHorizontal v => [(.scrollbarSizeHorizontal, .raw v)]
  | .scrollbarSizeVertical v => [(.scrollbarSizeVertical, .raw v)]
  | .scrollbarGutter v => [(.scrollbarGutter, .raw v)]
  | .scrollbarVisibility v => [(.scrollbarVisibility, .raw v)]
  | .boxSizing v => [(.boxSizing, .raw v)]
  | .display v => [(.display, .raw v)]
  | .opacity v => [(.opacity, .raw v)]
  | .overflowX v => [(.overflowX, .raw v)]
  | .overflowY v => [(.overflowY, .raw v)]
  | .layout v => [(.layout, .raw v)]
  | .position v => [(.position, .raw v)]
  | .dock v => [(.dock, .raw v)]
  | .layers v => [(.layers, .raw v)]
  | .layer v => [(.layer, .raw v)]
  | .gridColumns v => [(.gridColumns, .raw v)]
  | .gridRows v => [(.gridRows, .raw v)]
  | .columnSpan v => [(.columnSpan, .raw v)]
  | .rowSpan v => [(.rowSpan, .raw v)]
  | .textAlign v => [(.textAlign, .raw v)]
  | .textOverflow v => [(.textOverflow, .raw v)]
  | .textWrap v => [(.textWrap, .raw v)]
  | .linePad v => [(.linePad, .raw v)]
  | .textOpacity v => [(.textOpacity, .raw v)]
  | .contentAlignHorizontal v => [(.contentAlignHorizontal, .raw v)]
  | .contentAlignVertical v => [(.contentAlignVertical, .raw v)]
  | .alignHorizontal v => [(.alignHorizontal, .raw v)]
  | .alignVertical v => [(.alignVertical, .raw v)]
  | .offsetX v => [(.offsetX, .raw v)]
  | .offsetY v => [(.offsetY, .raw v)]
  | .margin t r b l =>
    [(.marginTop, .raw t), (.marginRight, .raw r), (.marginBottom, .raw b), (.marginLeft, .raw l)]
  | .padding t r b l =>
    [(.paddingTop, .raw t), (.paddingRight, .raw r), (.paddingBottom, .raw b), (.paddingLeft, .raw l)]
  | .border e =>
    let e' := Val.edge (env.resolveEdge e)
    [(.borderTop, e'), (.borderRight, e'), (.borderBottom, e'), (.borderLeft, e')]
  | .outline e =>
    let e' := Val.edge (env.resolveEdge e)
    [(.outlineTop, e'), (.outlineRight, e'), (.outlineBottom, e'), (.outlineLeft, e')]
  | .borderTop e => [(.borderTop, .edge (env.resolveEdge e))]
  | .borderBottom e => [(.borderBottom, .edge (env.resolveEdge e))]
  | .borderLeft e => [(.borderLeft, .edge (env.resolveEdge e))]
  | .borderRight e => [(.borderRight, .edge (env.resolveEdge e))]
  | .outlineTop e => [(.outlineTop, .edge (env.resolveEdge e))]
  | .outlineRight e => [(.outlineRight, .edge (env.resolveEdge e))]
  | .outlineBottom e => [(.outlineBottom, .edge (env.resolveEdge e))]
  | .outlineLeft e => [(.outlineLeft, .edge (env.resolveEdge e))]
  | .scrollbarSize h v => [(.scrollbarSizeHorizontal, .raw h), (.scrollbarSizeVertical, .raw v)]
  | .visibility v => [(.visibility, .raw v), (.visibilitySet, .flag true)]
  | .overflow x y => [(.overflowX, .raw x), (.overflowY, .raw y)]
  | .gridSize c r => [(.gridColumnCount, .raw c), (.gridRowCount, (r.map Val.raw).getD .unset)]
  | .gridGutter v h => [(.gridGutterV, .raw v), (.gridGutterH, .raw (h.getD v))]
  | .linkStyle s => [(.linkStyle, .style (env.resolveStyle s))]
  | .linkStyleHover s => [(.linkStyleHover, .style (env.resolveStyle s))]
  | .textStyle _ | .borderTitleStyle _ | .borderSubtitleStyle _ => []
  | .contentAlign h v => [(.contentAlignHorizontal, .raw h), (.contentAlignVertical, .raw v)]
  | .align h v => [(.alignHorizontal, .raw h), (.alignVertical, .raw v)]
  | .hatch p c => [(.hatch, .painted p (env.resolveColor c))]
  | .keyline k c => [(.keyline, .painted k (env.resolveColor c))]
  | .offset x y => [(.offsetX, .raw x), (.offsetY, .raw y)]
  | .unknown _ => []

/-- The text style locations a declaration merges into (cascade.rs:338-343, 552-555). -/
def Decl.merges (env : ThemeEnv) : Decl → List (Field × TextStyle)
  | .textStyle s => [(.textStyle, env.resolveStyle s)]
  | .borderTitleStyle s => [(.borderTitleStyle, s)]
  | .borderSubtitleStyle s => [(.borderSubtitleStyle, s)]
  | _ => []

/-- A computed style: a value for every location. See tcss/src/types/mod.rs:60 `ComputedStyle`. -/
abbrev Computed := Field → Val

/-- Assign a location. An assignment to a field of `ComputedStyle`, tcss/src/types/mod.rs:60. -/
def Computed.set (s : Computed) (f : Field) (v : Val) : Computed := fun g => if g = f then v else s g

/-- The text style stored in a location. A field of `ComputedStyle`, tcss/src/types/mod.rs:60. -/
def Val.textStyle : Val → TextStyle
  | .style s => s
  | _ => {}

/-- cascade.rs:275-604 `apply_declaration`. -/
def applyDecl (env : ThemeEnv) (s : Computed) (d : Decl) : Computed :=
  (d.merges env).foldl (fun s m => s.set m.1 (.style ((s m.1).textStyle.merge m.2)))
    ((d.writes env).foldl (fun s w => s.set w.1 w.2) s)

/-- types/mod.rs:237-296 `ComputedStyle::default`: every location has its default. -/
def Computed.default : Computed := fun _ => .unset

/-- cascade.rs:106-111 `MatchedRule`. -/
structure Matched where
  specificity : Specificity
  order : Nat
  decls : List Decl
deriving DecidableEq, Repr

/-- cascade.rs:242-253: the first selector of the list that matches gives the precedence. -/
def matchRule (ctx : Ctx) (w : Widget) (anc : List Widget) (order : Nat) (r : FlatRule Decl) : Option Matched :=
  (r.selectors.find? fun sel => w.matchesComplex ctx sel anc).map fun sel => ⟨complexSpec sel, order, r.decls⟩

/-- cascade.rs:257-261: the comparison used for sorting. -/
def Matched.le (a b : Matched) : Bool :=
  if a.specificity = b.specificity then a.order ≤ b.order else a.specificity.le b.specificity

/-- cascade.rs:241-254: all matching rules with their position in the style sheet. -/
def matchRules (ctx : Ctx) (w : Widget) (anc : List Widget) (rules : List (FlatRule Decl)) : List Matched :=
  (rules.zipIdx).filterMap fun r => matchRule ctx w anc r.2 r.1

/-- cascade.rs:231-273 `compute_style` (`sort_by` is a stable sort; here merge sort). -/
def computeStyle (env : ThemeEnv) (ctx : Ctx) (w : Widget) (anc : List Widget)
    (rules : List (FlatRule Decl)) : Computed :=
  (((matchRules ctx w anc rules).mergeSort Matched.le).flatMap (·.decls)).foldl (applyDecl env) Computed.default

end Textual.Css
