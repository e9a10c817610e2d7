import Verif.Model.Value
import Verif.Spec.Sheet

/-!
How the values of declarations are written: for every kind of property, the texts and what they mean. The names
of the kinds and the types of values are those of `Model/Value.lean`; the grammar does not use its parsers. -/

namespace Textual.Sheet

open Parse (Kind Value Env)
open Layout (Scalar Spacing)

/-- Blanks, at least one. -/
def Space (g : List Char) : Prop := Gap g ∧ g ≠ []

/-- Decimal digits, at least one. -/
def Digits (ds : List Char) : Prop := ds ≠ [] ∧ ∀ c ∈ ds, '0' ≤ c ∧ c ≤ '9'

/-- The natural number written by digits: each digit counts ten times the next. -/
def natural : List Char → Nat
  | [] => 0
  | c :: r => (c.toNat - 48) * 10 ^ r.length + natural r

/-- `12`, `0.5`, `-3`, `-0.25`. -/
inductive NumberText : Rat → List Char → Prop
  | whole {ds} : Digits ds → NumberText (natural ds) ds
  | fraction {ds fs} : Digits ds → Digits fs →
      NumberText ((natural ds : Rat) + (natural fs : Rat) / (10 ^ fs.length : Nat)) (ds ++ '.' :: fs)
  | negWhole {ds} : Digits ds → NumberText (-(natural ds : Rat)) ('-' :: ds)
  | negFraction {ds fs} : Digits ds → Digits fs →
      NumberText (-((natural ds : Rat) + (natural fs : Rat) / (10 ^ fs.length : Nat))) ('-' :: (ds ++ '.' :: fs))

/-- The units and how they are written. -/
def unitText : Layout.Unit → Option (List Char)
  | .cells => some []
  | .percent => some ['%']
  | .width => some ['w']
  | .height => some ['h']
  | .viewWidth => some ['v', 'w']
  | .viewHeight => some ['v', 'h']
  | .fraction => some ['f', 'r']
  | .auto => none

/-- A size: a number with a unit, or `auto`. -/
inductive ScalarText : Scalar → List Char → Prop
  | number {v t u tu} : NumberText v t → unitText u = some tu → ScalarText ⟨v, u⟩ (t ++ tu)
  | auto : ScalarText ⟨0, .auto⟩ "auto".toList

/-- Sizes with blanks between them. -/
inductive ScalarsText : List Scalar → List Char → Prop
  | one {s t} : ScalarText s t → ScalarsText [s] t
  | cons {s t g l t'} : ScalarText s t → Space g → ScalarsText l t' → ScalarsText (s :: l) (t ++ g ++ t')

/-- A keyword of the table, in any case. -/
def WordText (env : Env) (table : List (String × String)) (w : String) (t : List Char) : Prop :=
  Name env.alnum t ∧ ∃ k, (k, w) ∈ table ∧ env.lower t = k.toList

/-- A number that fits sixteen bits. -/
def U16Text (n : Nat) (t : List Char) : Prop := Digits t ∧ natural t = n ∧ n < 65536

/-- A colour before any alpha: a theme variable; a word, a `#` code, or a function with its arguments in
parentheses that `RgbaColor::parse` understands (C36–C38 say what it understands). -/
inductive PlainColorText (env : Env) : RgbaColor → List Char → Prop
  | theme {n} : (∀ c ∈ n, env.ws c = false ∧ c ≠ ';' ∧ c ≠ '}' ∧ c ≠ '(' ∧ c ≠ ')') →
      PlainColorText env { r := 0, g := 0, b := 0, a := 1, themeVar := some (String.ofList n) } ('$' :: n)
  | word {c t} : t ≠ [] → t.head? ≠ some '$' →
      (∀ c ∈ t, env.ws c = false ∧ c ≠ ';' ∧ c ≠ '}' ∧ c ≠ '(' ∧ c ≠ ')') →
      RgbaColor.parse env.color t = .ok c → PlainColorText env c t
  | call {c f b} : f ≠ [] → f.head? ≠ some '$' →
      (∀ c ∈ f, env.ws c = false ∧ c ≠ ';' ∧ c ≠ '}' ∧ c ≠ '(' ∧ c ≠ ')') →
      '(' ∉ b → ')' ∉ b →
      RgbaColor.parse env.color (f ++ '(' :: (b ++ [')'])) = .ok c → PlainColorText env c (f ++ '(' :: (b ++ [')']))

/-- A colour, with an alpha in per cent or without. -/
inductive ColorText (env : Env) : RgbaColor → List Char → Prop
  | plain {c t} : PlainColorText env c t → ColorText env c t
  | alpha {c t g ds} : PlainColorText env c t → Space g → Digits ds →
      ColorText env { c with a := (natural ds : Rat) / 100 } (t ++ g ++ ds ++ ['%'])
  | alphaFraction {c t g ds fs} : PlainColorText env c t → Space g → Digits ds → Digits fs →
      ColorText env { c with a := ((natural ds : Rat) + (natural fs : Rat) / (10 ^ fs.length : Nat)) / 100 }
        (t ++ g ++ (ds ++ '.' :: fs) ++ ['%'])

/-- Keywords with blanks between them, in lower case. -/
inductive WordsText (env : Env) : List (List Char) → List Char → Prop
  | one {t} : Name env.alnum t → WordsText env [env.lower t] t
  | cons {t g l t'} : Name env.alnum t → Space g → WordsText env l t' → WordsText env (env.lower t :: l) (t ++ g ++ t')

/-- The keywords after the last `none`. -/
def afterNone (l : List (List Char)) : List (List Char) := (l.reverse.takeWhile (· ≠ "none".toList)).reverse

/-- The text style that keywords denote: those after the last `none`. -/
def styleOf (l : List (List Char)) : Css.TextStyle where
  bold := decide ("bold".toList ∈ afterNone l)
  dim := decide ("dim".toList ∈ afterNone l)
  italic := decide ("italic".toList ∈ afterNone l)
  underline := decide ("underline".toList ∈ afterNone l)
  underline2 := decide ("underline2".toList ∈ afterNone l)
  blink := decide ("blink".toList ∈ afterNone l)
  blink2 := decide ("blink2".toList ∈ afterNone l)
  reverse := decide ("reverse".toList ∈ afterNone l)
  strike := decide ("strike".toList ∈ afterNone l)
  overline := decide ("overline".toList ∈ afterNone l)

/-- The keywords of text styles. -/
def styleWords : List (List Char) :=
  ["none", "bold", "dim", "italic", "underline", "underline2", "blink", "blink2", "reverse", "strike",
    "overline"].map String.toList

/-- Border kinds. -/
def borderWords : List (String × String) :=
  [("none", "none"), ("hidden", "none")] ++ ["ascii", "blank", "block", "dashed", "double", "heavy", "hkey", "inner",
    "outer", "panel", "round", "solid", "tall", "thick", "vkey", "wide"].map fun w => (w, w)

/-- A word that stands for itself. -/
def self (l : List String) : List (String × String) := l.map fun w => (w, w)

/-- Keywords of the kinds that have only keywords. -/
def wordsOf : Kind → Option (List (String × String))
  | .gutter => some (self ["auto", "stable"])
  | .scrollbarVisibility | .visibility => some (self ["visible", "hidden"])
  | .boxSizing => some [("content-box", "content-box"), ("contentbox", "content-box"), ("border-box", "border-box"),
      ("borderbox", "border-box")]
  | .display => some (self ["block", "none"])
  | .position => some (self ["relative", "absolute"])
  | .overflow => some (self ["hidden", "auto", "scroll"])
  | .dock => some (self ["top", "bottom", "left", "right"])
  | .textAlign => some (self ["left", "center", "right", "justify", "start", "end"])
  | .textOverflow => some (self ["clip", "fold", "ellipsis"])
  | .textWrap => some (self ["wrap", "nowrap"])
  | .horizontal => some (self ["left", "center", "right"])
  | .vertical => some (self ["top", "middle", "bottom"])
  | _ => none

/-- Values cut to between nothing and one. -/
def unitInterval (v : Rat) : Rat := max 0 (min v 1)

/-- How the values of each kind of property are written. -/
inductive ValueText (env : Env) : Kind → Value → List Char → Prop
  | color {c t} : ColorText env c t → ValueText env .color (.color c) t
  | scalar {s t} : ScalarText s t → ValueText env .scalar (.scalar s) t
  | spacing1 {a t} : ScalarText a t → ValueText env .spacing (.spacing ⟨a, a, a, a⟩) t
  | spacing2 {a b t1 g t2} : ScalarText a t1 → Space g → ScalarText b t2 →
      ValueText env .spacing (.spacing ⟨a, b, a, b⟩) (t1 ++ g ++ t2)
  | spacing4 {a b c d t1 g1 t2 g2 t3 g3 t4} : ScalarText a t1 → Space g1 → ScalarText b t2 → Space g2 →
      ScalarText c t3 → Space g3 → ScalarText d t4 →
      ValueText env .spacing (.spacing ⟨a, b, c, d⟩) (t1 ++ g1 ++ (t2 ++ g2 ++ (t3 ++ g3 ++ t4)))
  | edge {k t} : WordText env borderWords k t → ValueText env .edge (.edge k none) t
  | edgeKind {k t g c t'} : WordText env borderWords k t → Space g → ColorText env c t' →
      ValueText env .edge (.edge k (some c)) (t ++ g ++ t')
  | edgeColor {k t g c t'} : ColorText env c t → Space g → WordText env borderWords k t' →
      (∀ w ∈ borderWords, env.lower (t.takeWhile (Source.isName env.alnum)) ≠ w.1.toList) →
      ValueText env .edge (.edge k (some c)) (t ++ g ++ t')
  | u16 {n t} : U16Text n t → ValueText env .u16 (.num n) t
  | trimU16 {n t} : U16Text n t → ValueText env .trimU16 (.num n) t
  | scrollbarSize1 {n t} : U16Text n t → ValueText env .scrollbarSize (.nums n n) t
  | scrollbarSize2 {n t g m t'} : U16Text n t → Space g → U16Text m t' →
      ValueText env .scrollbarSize (.nums n m) (t ++ g ++ t')
  | word {k w t table} : wordsOf k = some table → WordText env table w t → ValueText env k (.word w) t
  | opacity {v t} : NumberText v t → ValueText env .opacity (.opacity (unitInterval v)) t
  | opacityPercent {v t} : NumberText v t → ValueText env .opacity (.opacity (unitInterval (v / 100))) (t ++ ['%'])
  | overflow1 {w t} : WordText env (self ["hidden", "auto", "scroll"]) w t → ValueText env .overflow2 (.pair w w) t
  | overflow2 {w t g w' t'} : WordText env (self ["hidden", "auto", "scroll"]) w t → Space g →
      WordText env (self ["hidden", "auto", "scroll"]) w' t' → ValueText env .overflow2 (.pair w w') (t ++ g ++ t')
  | layout {w} : w ∈ ["vertical", "horizontal", "grid"] → ValueText env .layout (.word w) w.toList
  | layers {l t} : WordsText env l t → ValueText env .layers (.names l) t
  | layer {t} : Name env.alnum t → ValueText env .layer (.name (env.lower t)) t
  | gridSize1 {n t} : U16Text n t → ValueText env .gridSize (.gridSize n none) t
  | gridSize2 {n t g m t'} : U16Text n t → Space g → U16Text m t' →
      ValueText env .gridSize (.gridSize n (some m)) (t ++ g ++ t')
  | scalars {l t} : ScalarsText l t → ValueText env .scalarList (.scalars l) t
  | gutter1 {s t} : ScalarText s t → ValueText env .gridGutter (.gutter s none) t
  | gutter2 {s t g s' t'} : ScalarText s t → Space g → ScalarText s' t' →
      ValueText env .gridGutter (.gutter s (some s')) (t ++ g ++ t')
  | style {l t} : WordsText env l t → (∀ w ∈ l, w ∈ styleWords) → ValueText env .textStyle (.style (styleOf l)) t
  | align {h t g v t'} : WordText env (self ["left", "center", "right"]) h t → Space g →
      WordText env (self ["top", "middle", "bottom"]) v t' → ValueText env .contentAlign (.pair h v) (t ++ g ++ t')
  | hatch {w t g c t'} : Name env.alnum t → env.lower t = w →
      w ∈ ["left", "right", "cross", "horizontal", "vertical"].map String.toList → Space g → ColorText env c t' →
      ValueText env .hatch (.hatch w c 1) (t ++ g ++ t')
  | keyline {k t g c t'} : WordText env (self ["none", "thin", "heavy", "double"]) k t → Space g →
      ColorText env c t' → ValueText env .keyline (.keyline k c) (t ++ g ++ t')
  | noKeyline {t} : WordText env (self ["none"]) "none" t →
      ValueText env .keyline (.keyline "none" { r := 0, g := 0, b := 0, a := 0 }) t
  | offset {x t g y t'} : ScalarText x t → Space g → ScalarText y t' →
      ValueText env .offset (.offset x y) (t ++ g ++ t')

/-- The properties of stylesheets by kind. -/
def propertiesOf : Kind → List String
  | .color => ["color", "background", "tint", "background-tint", "scrollbar-color", "scrollbar-color-hover",
      "scrollbar-color-active", "scrollbar-background", "scrollbar-background-hover", "scrollbar-background-active",
      "scrollbar-corner-color", "link-color", "link-color-hover", "link-background", "link-background-hover",
      "border-title-color", "border-title-background", "border-subtitle-color", "border-subtitle-background"]
  | .scalar => ["width", "min-width", "max-width", "height", "min-height", "max-height", "margin-top", "margin-right",
      "margin-bottom", "margin-left", "padding-top", "padding-right", "padding-bottom", "padding-left", "offset-x",
      "offset-y"]
  | .spacing => ["margin", "padding"]
  | .edge => ["border", "border-top", "border-right", "border-bottom", "border-left", "outline", "outline-top",
      "outline-right", "outline-bottom", "outline-left"]
  | .textStyle => ["text-style", "link-style", "link-style-hover", "border-title-style", "border-subtitle-style"]
  | .horizontal => ["align-horizontal", "content-align-horizontal", "border-title-align", "border-subtitle-align"]
  | .vertical => ["align-vertical", "content-align-vertical"]
  | .contentAlign => ["align", "content-align"]
  | .opacity => ["opacity", "text-opacity"]
  | .overflow => ["overflow-x", "overflow-y"]
  | .overflow2 => ["overflow"]
  | .scrollbarSize => ["scrollbar-size"]
  | .u16 => ["scrollbar-size-horizontal", "scrollbar-size-vertical"]
  | .gutter => ["scrollbar-gutter"]
  | .scrollbarVisibility => ["scrollbar-visibility"]
  | .trimU16 => ["column-span", "row-span", "line-pad"]
  | .gridSize => ["grid-size"]
  | .scalarList => ["grid-columns", "grid-rows"]
  | .gridGutter => ["grid-gutter"]
  | .boxSizing => ["box-sizing"]
  | .display => ["display"]
  | .visibility => ["visibility"]
  | .position => ["position"]
  | .layout => ["layout"]
  | .dock => ["dock"]
  | .layers => ["layers"]
  | .layer => ["layer"]
  | .textAlign => ["text-align"]
  | .textOverflow => ["text-overflow"]
  | .textWrap => ["text-wrap"]
  | .hatch => ["hatch"]
  | .keyline => ["keyline"]
  | .offset => ["offset"]

/-- How the values of a property are written. -/
def PropertyText (env : Env) (n : List Char) (d : Value) (v : List Char) : Prop :=
  ∃ k, ∃ p ∈ propertiesOf k, n = p.toList ∧ ValueText env k d v

/-- The values that may be followed by `!important`: not text styles, layers and keylines. -/
def ImportantText (env : Env) (n : List Char) (d : Value) (v : List Char) : Prop :=
  ∃ k, k ∉ [Kind.textStyle, .layers, .keyline] ∧ ∃ p ∈ propertiesOf k, n = p.toList ∧ ValueText env k d v

/-- The language of stylesheets. -/
def css (env : Env) : Language (Parse.Written Value) Value where
  known := .known
  unknown := .unknown
  property n := ∃ k, ∃ p ∈ propertiesOf k, n = p.toList
  text := PropertyText env
  important := ImportantText env

end Textual.Sheet
