import Verif.Model.Parse
import Verif.Model.LayoutTypes
import Verif.Model.Cascade

/-!
Model of the value parsers of the stylesheet: `crates/tcss/src/parser/units.rs`, `values.rs`, and the table of
properties in `mod.rs:189-374`.

Simplifications: numbers are exact rationals (`str::parse::<f64>`/`<f32>` rounds); keywords are strings; a
declaration is named by its property (`Declaration::MarginTop` is `margin-top`). Parameters (`Env`): the
character classes, `str::to_lowercase`, and what `RgbaColor::parse` needs (`RgbaColor.ParseExt`). -/

namespace Textual.Parse

open RgbaColor (Outcome)
open Layout (Scalar Spacing)

/-- What the value parsers take from outside. -/
structure Env where
  ws : Char → Bool
  alnum : Char → Bool
  lower : List Char → List Char
  color : RgbaColor.ParseExt

/-- `str::trim_start`. Used at values.rs:43, 82, 164. -/
def trimStart (ws : Char → Bool) (i : List Char) : List Char := i.dropWhile ws

/-- nom's `tag`. Used at units.rs:52-54. -/
def tag (t : String) (i : List Char) : Option (List Char) :=
  if t.toList.isPrefixOf i then some (i.drop t.toList.length) else none

/-- nom's `multispace1`: what it leaves. Used at values.rs:170, 255, 316, 420. -/
def skip1 (i : List Char) : Option (List Char) := if (skip i).length < i.length then some (skip i) else none

/-- ASCII digits. Used by `digit1`, values.rs:243, units.rs:42-43. -/
def isDigit (c : Char) : Bool := decide ('0' ≤ c) && decide (c ≤ '9')

/-- nom's `digit1`. Used at values.rs:243, units.rs:42-43. -/
def digits : P (List Char) := fun i =>
  let w := i.takeWhile isDigit
  if w.isEmpty then none else some (w, i.dropWhile isDigit)

/-- The number that digits denote. See values.rs:243. -/
def numeral (ds : List Char) : Nat := ds.foldl (fun n c => 10 * n + (c.toNat - '0'.toNat)) 0

/-- The number that digits before and after a point denote. See units.rs:45. -/
def decimal (whole frac : List Char) : Rat := (numeral whole : Rat) + (numeral frac : Rat) / (10 ^ frac.length : Nat)

/-- units.rs:38-47 `parse_number`. -/
def number : P Rat := fun i => do
  let (neg, i) := match chr '-' i with
    | some r => (true, r)
    | none => (false, i)
  let (whole, i) ← digits i
  let (frac, i) := match (chr '.' i).bind digits with
    | some x => x
    | none => ([], i)
  return (if neg then - decimal whole frac else decimal whole frac, i)

/-- units.rs:50-59 `parse_unit_suffix`. -/
def unitSuffix : P Layout.Unit
  | 'v' :: 'w' :: r => some (.viewWidth, r)
  | 'v' :: 'h' :: r => some (.viewHeight, r)
  | 'f' :: 'r' :: r => some (.fraction, r)
  | '%' :: r => some (.percent, r)
  | 'w' :: r => some (.width, r)
  | 'h' :: r => some (.height, r)
  | _ => none

/-- units.rs:62-79 `parse_scalar`. -/
def scalar (ws : Char → Bool) : P Scalar := fun i =>
  let i := trimStart ws i
  match tag "auto" i with
  | some r => some (⟨0, .auto⟩, r)
  | none =>
    match number i with
    | none => none
    | some (v, i) =>
      match unitSuffix i with
      | some (u, r) => some (⟨v, u⟩, r)
      | none => some (⟨v, .cells⟩, i)

/-- nom's `opt(preceded(multispace0, p))`. -/
def optSkip {α : Type} (p : P α) (i : List Char) : Option α × List Char :=
  match p (skip i) with
  | some (a, r) => (some a, r)
  | none => (none, i)

/-- nom's `opt(preceded(multispace1, p))`. Used at values.rs:170, 255, 316. -/
def optSkip1 {α : Type} (p : P α) (i : List Char) : Option α × List Char :=
  match (skip1 i).bind p with
  | some (a, r) => (some a, r)
  | none => (none, i)

/-- units.rs:83-113 `parse_spacing`. -/
def spacing (ws : Char → Bool) : P Spacing := fun i => do
  let (first, i) ← scalar ws i
  match optSkip (scalar ws) i with
  | (none, i) => return (⟨first, first, first, first⟩, i)
  | (some h, i) =>
    let (third, i) := optSkip (scalar ws) i
    let (fourth, i) := optSkip (scalar ws) i
    match third, fourth with
    | some t, some l => return (⟨first, h, t, l⟩, i)
    | _, _ => return (⟨first, h, first, h⟩, i)

/-- values.rs:242-248 `parse_u16`. -/
def u16 : P Nat := fun i => do
  let (ds, i) ← digits i
  if numeral ds < 65536 then return (numeral ds, i) else none

/-- units.rs:116-119 `parse_u16`: blanks first. -/
def trimU16 (ws : Char → Bool) : P Nat := fun i => u16 (trimStart ws i)

/-- units.rs:122-129 `parse_layout`. -/
def layout (ws : Char → Bool) : P String := fun i =>
  let i := trimStart ws i
  ((tag "vertical" i).map fun r => ("vertical", r)).or
  (((tag "horizontal" i).map fun r => ("horizontal", r)).or
  ((tag "grid" i).map fun r => ("grid", r)))

/-- units.rs:132-136 `parse_grid_size`. -/
def gridSize (ws : Char → Bool) : P (Nat × Option Nat) := fun i => do
  let (cols, i) ← trimU16 ws i
  let (rows, i) := optSkip1 (trimU16 ws) i
  return ((cols, rows), i)

/-- units.rs:139-146 `parse_scalar_list`. -/
def scalarList (ws : Char → Bool) : P (List Scalar) := fun i => do
  let (first, i) ← scalar ws i
  let (rest, i) ← many (fun j => (skip1 j).bind (scalar ws)) i
  return (first :: rest, i)

/-- units.rs:149-153 `parse_grid_gutter`. -/
def gridGutter (ws : Char → Bool) : P (Scalar × Option Scalar) := fun i => do
  let (v, i) ← scalar ws i
  let (h, i) := optSkip1 (scalar ws) i
  return ((v, h), i)

/-- units.rs:157-161 `parse_offset`. -/
def offset (ws : Char → Bool) : P (Scalar × Scalar) := fun i => do
  let (x, i) ← scalar ws i
  let (y, i) ← (skip1 i).bind (scalar ws)
  return ((x, y), i)

/-- The keyword parsers of values.rs: a name, in any case, looked up in a table. -/
def keyword (env : Env) (table : List (String × String)) : P String := fun i => do
  let (w, i) ← ident env.alnum i
  let e ← table.find? (fun e => e.1.toList == env.lower w)
  return (e.2, i)

/-- Keywords that stand for themselves. -/
def words (l : List String) : List (String × String) := l.map fun w => (w, w)

/-- values.rs:136-157 `try_parse_border_kind`. -/
def borderKinds : List (String × String) :=
  ("none", "none") :: ("hidden", "none") ::
  words ["ascii", "blank", "block", "dashed", "double", "heavy", "hkey", "inner", "outer", "panel", "round", "solid",
    "tall", "thick", "vkey", "wide"]

/-- values.rs:384-396 `parse_align_horizontal`. -/
def horizontals : List (String × String) := words ["left", "center", "right"]

/-- values.rs:399-411 `parse_align_vertical`. -/
def verticals : List (String × String) := words ["top", "middle", "bottom"]

/-- values.rs:297-309 `parse_overflow`. -/
def overflows : List (String × String) := words ["hidden", "auto", "scroll"]

/-- values.rs:253-268 `parse_scrollbar_size`. -/
def scrollbarSize : P (Nat × Nat) := fun i => do
  let (first, i) ← u16 i
  let (second, i) := optSkip1 u16 i
  return ((first, second.getD first), i)

/-- values.rs:312-319 `parse_overflow_shorthand`. -/
def overflow2 (env : Env) : P (String × String) := fun i => do
  let (first, i) ← keyword env overflows i
  let (second, i) := optSkip1 (keyword env overflows) i
  return ((first, second.getD first), i)

/-- values.rs:416-424 `parse_content_align`. -/
def contentAlign (env : Env) : P (String × String) := fun i => do
  let (h, i) ← keyword env horizontals i
  let i ← skip1 i
  let (v, i) ← keyword env verticals i
  return ((h, v), i)

/-- values.rs:112-133 `find_color_end`: the text split there. -/
def colorToken (ws : Char → Bool) : Int → List Char → List Char × List Char
  | _, [] => ([], [])
  | d, c :: r =>
    if c = '(' then let x := colorToken ws (d + 1) r; (c :: x.1, x.2)
    else if c = ')' then
      if d - 1 = 0 then ([c], r) else let x := colorToken ws (d - 1) r; (c :: x.1, x.2)
    else if (c = ';' ∨ c = '}') ∧ d = 0 then ([], c :: r)
    else if ws c = true ∧ d = 0 then ([], c :: r)
    else let x := colorToken ws d r; (c :: x.1, x.2)

/-- Digits and points read as a number (`str::parse::<f32>` on such a text): one point at most, and a digit.
Used at values.rs:94, 622. -/
def decimal? (t : List Char) : Option Rat :=
  let whole := t.takeWhile isDigit
  match t.dropWhile isDigit with
  | [] => if whole.isEmpty then none else some (decimal whole [])
  | '.' :: frac =>
    if frac.all isDigit && !(whole.isEmpty && frac.isEmpty) then some (decimal whole frac) else none
  | _ => none

/-- A per cent number at the start of the text (values.rs:85-103, 614-632). -/
def percent : P Rat := fun i =>
  let t := i.takeWhile (fun c => isDigit c || c == '.')
  if t.isEmpty then none
  else
    match i.dropWhile (fun c => isDigit c || c == '.') with
    | '%' :: r => (decimal? t).map fun v => (v / 100, r)
    | _ => none

/-- values.rs:80-107 `parse_optional_alpha`. -/
def optionalAlpha (ws : Char → Bool) (i : List Char) (c : RgbaColor) : RgbaColor × List Char :=
  match percent (trimStart ws i) with
  | some (v, r) => ({ c with a := v }, r)
  | none => (c, i)

/-- color.rs:182-187 `theme_variable`. -/
def themeVariable (name : List Char) : RgbaColor :=
  { r := 0, g := 0, b := 0, a := 1, themeVar := some (String.ofList name) }

/-- values.rs:42-76 `parse_color`. -/
def color (env : Env) : Q RgbaColor := fun i =>
  match colorToken env.ws 0 (trimStart env.ws i) with
  | ([], _) => .err
  | ('$' :: name, r) => .ok (optionalAlpha env.ws r (themeVariable name))
  | (t, r) => Outcome.bind (RgbaColor.parse env.color t) fun c => .ok (optionalAlpha env.ws r c)

/-- values.rs:163-192 `parse_border_edge`. -/
def edge (env : Env) : Q (String × Option RgbaColor) := fun i =>
  let i := trimStart env.ws i
  match keyword env borderKinds i with
  | some (kind, r) =>
    match skip1 r with
    | none => .ok ((kind, none), r)
    | some r' =>
      match color env r' with
      | .ok (c, r'') => .ok ((kind, some c), r'')
      | .err => .ok ((kind, none), r)
      | .panic => .panic
  | none =>
    Outcome.bind (color env i) fun x =>
      match keyword env borderKinds (trimStart env.ws x.2) with
      | some (kind, r) => .ok ((kind, some x.1), r)
      | none => .err

/-- `str::split_whitespace`; `acc` is the word so far, reversed. Used at values.rs:463, 552. -/
def splitWords (ws : Char → Bool) : List Char → List Char → List (List Char)
  | acc, [] => if acc.isEmpty then [] else [acc.reverse]
  | acc, c :: r =>
    if ws c then (if acc.isEmpty then [] else [acc.reverse]) ++ splitWords ws [] r
    else splitWords ws (c :: acc) r

/-- values.rs:442-446, 537-541: the text up to `;` or `}`, and the text from there. -/
def untilEnd (i : List Char) : List Char × List Char :=
  (i.takeWhile (fun c => c ≠ ';' && c ≠ '}'), i.dropWhile (fun c => c ≠ ';' && c ≠ '}'))

/-- values.rs:463-486: one keyword of a text style. -/
def styleWord (s : Css.TextStyle) (w : List Char) : Option Css.TextStyle :=
  if w = "none".toList then some {}
  else if w = "bold".toList then some { s with bold := true }
  else if w = "dim".toList then some { s with dim := true }
  else if w = "italic".toList then some { s with italic := true }
  else if w = "underline".toList then some { s with underline := true }
  else if w = "underline2".toList then some { s with underline2 := true }
  else if w = "blink".toList then some { s with blink := true }
  else if w = "blink2".toList then some { s with blink2 := true }
  else if w = "reverse".toList then some { s with reverse := true }
  else if w = "strike".toList then some { s with strike := true }
  else if w = "overline".toList then some { s with overline := true }
  else none

/-- values.rs:439-489 `parse_text_style`. -/
def textStyle (env : Env) : P Css.TextStyle := fun i =>
  let i := trimStart env.ws i
  let t := Source.trim env.ws (untilEnd i).1
  match t with
  | [] => none
  | '$' :: name => some ({ themeVar := some (String.ofList name) }, (untilEnd i).2)
  | t =>
    ((splitWords env.ws [] t).foldl (fun s w => s.bind fun s => styleWord s (env.lower w)) (some {})).map
      fun s => (s, (untilEnd i).2)

/-- values.rs:519-523 `parse_layer`. -/
def layer (env : Env) : P (List Char) := fun i =>
  (ident env.alnum (trimStart env.ws i)).map fun x => (env.lower x.1, x.2)

/-- values.rs:534-564 `parse_layers`. -/
def layers (env : Env) : P (List (List Char)) := fun i =>
  let i := trimStart env.ws i
  let t := Source.trim env.ws (untilEnd i).1
  if t.isEmpty then none
  else
    let l := (splitWords env.ws [] t).map env.lower
    if l.isEmpty then none else some (l, (untilEnd i).2)

/-- hatch.rs:61-80 `HatchPattern::parse`: a named pattern, or a single character once quotes are removed. -/
def hatchPattern (env : Env) (s : List Char) : Option (List Char) :=
  if env.lower s ∈ ["left", "right", "cross", "horizontal", "vertical"].map String.toList then some (env.lower s)
  else
    let strip := fun (q : Char) (t : List Char) =>
      ((t.dropWhile (· == q)).reverse.dropWhile (· == q)).reverse
    match strip '\'' (strip '"' s) with
    | [c] => some [c]
    | _ => none

/-- `f64::clamp(0.0, 1.0)`. Used at values.rs:703, 713. -/
def clamp01 (v : Rat) : Rat := if v < 0 then 0 else if 1 < v then 1 else v

/-- values.rs:577-639 `parse_hatch`. -/
def hatch (env : Env) : Q (List Char × RgbaColor × Rat) := fun i =>
  let i := trimStart env.ws i
  let pattern : Option (List Char × List Char) :=
    match i with
    | q :: rest =>
      if q = '"' ∨ q = '\'' then do
        let (t, r) ← takeUntil q rest
        let p ← hatchPattern env t
        return (p, r.drop 1)
      else do
        let (w, r) ← ident env.alnum i
        let p ← hatchPattern env w
        return (p, r)
    | [] => none
  match pattern with
  | none => .err
  | some (p, i) =>
    Outcome.bind (color env (trimStart env.ws i)) fun x =>
      let i := trimStart env.ws x.2
      match percent i with
      | some (v, r) => .ok ((p, x.1, clamp01 v), r)
      | none => .ok ((p, x.1, 1), i)

/-- keyline.rs:21-29 `KeylineStyle::parse`. -/
def keylines : List (String × String) := words ["none", "thin", "heavy", "double"]

/-- values.rs:652-678 `parse_keyline`. -/
def keyline (env : Env) : Q (String × RgbaColor) := fun i =>
  match keyword env keylines (trimStart env.ws i) with
  | none => .err
  | some (kind, i) =>
    let i := trimStart env.ws i
    if kind = "none" ∧ (i = [] ∨ i.head? = some ';' ∨ i.head? = some '}') then
      .ok ((kind, RgbaColor.rgba 0 0 0 0), i)
    else Outcome.bind (color env i) fun x => .ok ((kind, x.1), x.2)

/-- A decimal number with an optional minus sign (`str::parse::<f64>` on digits, points and dashes).
Used at values.rs:709. -/
def signed? (t : List Char) : Option Rat :=
  match t with
  | '-' :: t => (decimal? t).map fun v => -v
  | t => decimal? t

/-- values.rs:690-714 `parse_opacity`. -/
def opacity (ws : Char → Bool) : P Rat := fun i =>
  let i := trimStart ws i
  match scalar ws i with
  | some (s, r) => some (clamp01 (if s.unit = .percent then s.value / 100 else s.value), r)
  | none =>
    let t := i.takeWhile (fun c => isDigit c || c == '.' || c == '-')
    if t.isEmpty then none
    else (signed? t).map fun v => (clamp01 v, i.dropWhile (fun c => isDigit c || c == '.' || c == '-'))

/-- The values of declarations (stylesheet.rs:198-424 `Declaration`). -/
inductive Value where
  | color (c : RgbaColor)
  | scalar (s : Scalar)
  | spacing (s : Spacing)
  | edge (kind : String) (c : Option RgbaColor)
  | num (n : Nat)
  | nums (horizontal vertical : Nat)
  | word (w : String)
  | pair (a b : String)
  | gridSize (cols : Nat) (rows : Option Nat)
  | scalars (l : List Scalar)
  | gutter (v : Scalar) (h : Option Scalar)
  | offset (x y : Scalar)
  | style (s : Css.TextStyle)
  | name (n : List Char)
  | names (l : List (List Char))
  | hatch (pattern : List Char) (c : RgbaColor) (opacity : Rat)
  | keyline (kind : String) (c : RgbaColor)
  | opacity (v : Rat)
deriving DecidableEq, Repr

/-- Which parser reads the values of a property. -/
inductive Kind where
  | color | scalar | spacing | edge | u16 | trimU16 | scrollbarSize | gutter | scrollbarVisibility | boxSizing
  | display | visibility | opacity | position | overflow | overflow2 | layout | dock | layers | layer | gridSize
  | scalarList | gridGutter | textStyle | textAlign | textOverflow | textWrap | horizontal | vertical | contentAlign
  | hatch | keyline | offset
deriving DecidableEq, Repr

/-- A parser that cannot panic. -/
def lift {α : Type} (p : P α) (f : α → Value) : Q Value := fun i =>
  match p i with
  | some (a, r) => .ok (f a, r)
  | none => .err

/-- The parsers themselves. The keyword tables: values.rs:271-281 gutter, 284-294 scrollbar visibility, 322-339
box sizing (the second name after a dash is never there: `parse_ident` takes dashes), 342-353 display, 356-367
visibility, 370-381 position, 495-508 dock, 195-210 text align, 213-225 text overflow, 228-239 text wrap. -/
def Kind.parser (env : Env) : Kind → Q Value
  | .color => fun i => Outcome.bind (Parse.color env i) fun x => .ok (.color x.1, x.2)
  | .scalar => lift (Parse.scalar env.ws) .scalar
  | .spacing => lift (Parse.spacing env.ws) .spacing
  | .edge => fun i => Outcome.bind (Parse.edge env i) fun x => .ok (.edge x.1.1 x.1.2, x.2)
  | .u16 => lift Parse.u16 .num
  | .trimU16 => lift (Parse.trimU16 env.ws) .num
  | .scrollbarSize => lift Parse.scrollbarSize fun x => .nums x.1 x.2
  | .gutter => lift (keyword env (words ["auto", "stable"])) .word
  | .scrollbarVisibility => lift (keyword env (words ["visible", "hidden"])) .word
  | .boxSizing => lift (keyword env [("content-box", "content-box"), ("contentbox", "content-box"),
      ("border-box", "border-box"), ("borderbox", "border-box")]) .word
  | .display => lift (keyword env (words ["block", "none"])) .word
  | .visibility => lift (keyword env (words ["visible", "hidden"])) .word
  | .opacity => lift (Parse.opacity env.ws) .opacity
  | .position => lift (keyword env (words ["relative", "absolute"])) .word
  | .overflow => lift (keyword env overflows) .word
  | .overflow2 => lift (Parse.overflow2 env) fun x => .pair x.1 x.2
  | .layout => lift (Parse.layout env.ws) .word
  | .dock => lift (keyword env (words ["top", "bottom", "left", "right"])) .word
  | .layers => lift (Parse.layers env) .names
  | .layer => lift (Parse.layer env) .name
  | .gridSize => lift (Parse.gridSize env.ws) fun x => .gridSize x.1 x.2
  | .scalarList => lift (Parse.scalarList env.ws) .scalars
  | .gridGutter => lift (Parse.gridGutter env.ws) fun x => .gutter x.1 x.2
  | .textStyle => lift (Parse.textStyle env) .style
  | .textAlign => lift (keyword env (words ["left", "center", "right", "justify", "start", "end"])) .word
  | .textOverflow => lift (keyword env (words ["clip", "fold", "ellipsis"])) .word
  | .textWrap => lift (keyword env (words ["wrap", "nowrap"])) .word
  | .horizontal => lift (keyword env horizontals) .word
  | .vertical => lift (keyword env verticals) .word
  | .contentAlign => lift (Parse.contentAlign env) fun x => .pair x.1 x.2
  | .hatch => fun i => Outcome.bind (Parse.hatch env i) fun x => .ok (.hatch x.1.1 x.1.2.1 x.1.2.2, x.2)
  | .keyline => fun i => Outcome.bind (Parse.keyline env i) fun x => .ok (.keyline x.1.1 x.1.2, x.2)
  | .offset => lift (Parse.offset env.ws) fun x => .offset x.1 x.2

/-- mod.rs:189-374: the properties. -/
def properties : List (String × Kind) := [
  ("color", .color), ("background", .color), ("tint", .color), ("background-tint", .color), ("width", .scalar),
  ("height", .scalar), ("max-height", .scalar), ("max-width", .scalar), ("min-height", .scalar),
  ("min-width", .scalar), ("margin", .spacing), ("margin-top", .scalar), ("margin-right", .scalar),
  ("margin-bottom", .scalar), ("margin-left", .scalar), ("padding", .spacing), ("padding-top", .scalar),
  ("padding-right", .scalar), ("padding-bottom", .scalar), ("padding-left", .scalar), ("border", .edge),
  ("scrollbar-color", .color), ("scrollbar-color-hover", .color), ("scrollbar-color-active", .color),
  ("scrollbar-background", .color), ("scrollbar-background-hover", .color),
  ("scrollbar-background-active", .color), ("scrollbar-corner-color", .color),
  ("scrollbar-size", .scrollbarSize), ("scrollbar-size-horizontal", .u16), ("scrollbar-size-vertical", .u16),
  ("scrollbar-gutter", .gutter), ("scrollbar-visibility", .scrollbarVisibility), ("box-sizing", .boxSizing),
  ("display", .display), ("visibility", .visibility), ("opacity", .opacity), ("position", .position),
  ("overflow-x", .overflow), ("overflow-y", .overflow), ("overflow", .overflow2), ("layout", .layout),
  ("dock", .dock), ("layers", .layers), ("layer", .layer), ("grid-size", .gridSize),
  ("grid-columns", .scalarList), ("grid-rows", .scalarList), ("grid-gutter", .gridGutter),
  ("column-span", .trimU16), ("row-span", .trimU16), ("link-color", .color), ("link-color-hover", .color),
  ("link-background", .color), ("link-background-hover", .color), ("link-style", .textStyle),
  ("link-style-hover", .textStyle), ("text-align", .textAlign), ("text-overflow", .textOverflow),
  ("text-wrap", .textWrap), ("line-pad", .trimU16), ("text-opacity", .opacity), ("text-style", .textStyle),
  ("content-align-horizontal", .horizontal), ("content-align-vertical", .vertical),
  ("content-align", .contentAlign), ("align-horizontal", .horizontal), ("align-vertical", .vertical),
  ("align", .contentAlign), ("border-title-align", .horizontal), ("border-subtitle-align", .horizontal),
  ("border-title-color", .color), ("border-subtitle-color", .color), ("border-title-background", .color),
  ("border-subtitle-background", .color), ("border-title-style", .textStyle),
  ("border-subtitle-style", .textStyle), ("border-top", .edge), ("border-bottom", .edge),
  ("border-left", .edge), ("border-right", .edge), ("outline", .edge), ("outline-top", .edge),
  ("outline-right", .edge), ("outline-bottom", .edge), ("outline-left", .edge), ("hatch", .hatch),
  ("keyline", .keyline), ("offset", .offset), ("offset-x", .scalar), ("offset-y", .scalar)]

/-- mod.rs:189-381: the parser of a property, none for an unknown one. -/
def table (env : Env) (name : List Char) : Option (Q Value) :=
  (properties.find? (fun e => e.1.toList == name)).map fun e => e.2.parser env

end Textual.Parse
