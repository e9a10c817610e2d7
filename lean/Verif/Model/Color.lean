/-!
Model of `/repo/crates/tcss/src/types/color.rs`.

Channels are naturals (`u8` means below 256, see `RgbaColor.Valid`); `f32` values are exact rationals
(float rounding is not modelled).
-/

namespace Textual

/-- color.rs:72-87 `RgbaColor`. -/
structure RgbaColor where
  r : Nat
  g : Nat
  b : Nat
  a : Rat
  ansi : Option Nat := none
  auto : Bool := false
  themeVar : Option String := none
deriving DecidableEq, Repr

/-- The type invariant of the three `u8` fields. See color.rs:72-74. -/
def RgbaColor.Valid (c : RgbaColor) : Prop := c.r < 256 ∧ c.g < 256 ∧ c.b < 256

namespace RgbaColor

/-- color.rs:232-240 `rgb`. -/
def rgb (r g b : Nat) : RgbaColor := { r, g, b, a := 1 }

/-- color.rs:242-250 `rgba`. -/
def rgba (r g b : Nat) (a : Rat) : RgbaColor := { r, g, b, a }

/-- color.rs:103-105 `white`. -/
def white : RgbaColor := rgb 255 255 255

/-- color.rs:107-109 `black`. -/
def black : RgbaColor := rgb 0 0 0

/-- color.rs:260-266 `auto`. -/
def autoColor (alpha : Rat) : RgbaColor := { r := 0, g := 0, b := 0, a := alpha, auto := true }

/-- color.rs:269-271 `is_transparent`. -/
def isTransparent (c : RgbaColor) : Bool := c.a ≤ 0

/-- `x.clamp(0.0, 255.0) as u8`, used by color.rs:302-306, 352-356, 420-424. -/
def clampU8 (x : Rat) : Nat := (min (max x 0) 255).floor.toNat

/-- The linear interpolation `x + (y - x) * t` followed by clamp and cast
(color.rs:299-305, 348-355, 415-423). -/
def lerpU8 (x y : Nat) (t : Rat) : Nat := clampU8 (x + ((y : Rat) - x) * t)

/-- color.rs:121-131 `with_alpha`. -/
def withAlpha (c : RgbaColor) (alpha : Rat) : RgbaColor := { c with a := alpha }

/-- color.rs:151-157 `with_opacity`. -/
def withOpacity (c : RgbaColor) (opacity : Rat) : RgbaColor :=
  if opacity ≥ 1 then c else c.withAlpha (c.a * opacity)

/-- color.rs:291-308 `blend`. -/
def blend (self destination : RgbaColor) (factor : Rat) (alpha : Option Rat) : RgbaColor :=
  if factor ≤ 0 then self
  else if factor ≥ 1 then destination
  else
    rgba (lerpU8 self.r destination.r factor) (lerpU8 self.g destination.g factor)
      (lerpU8 self.b destination.b factor)
      (alpha.getD (self.a + (destination.a - self.a) * factor))

/-- color.rs:311-313 `inverse`. -/
def inverse (c : RgbaColor) : RgbaColor := rgba (255 - c.r) (255 - c.g) (255 - c.b) c.a

/-- color.rs:344-358 `tint`. -/
def tint (self overlay : RgbaColor) : RgbaColor :=
  rgba (lerpU8 self.r overlay.r overlay.a) (lerpU8 self.g overlay.g overlay.a)
    (lerpU8 self.b overlay.b overlay.a) self.a

/-- color.rs:373-379 `blend_over`. -/
def blendOver (self background : RgbaColor) : RgbaColor :=
  if self.a ≥ 1 then self else background.tint self

/-- color.rs:406-426 `blend_toward`. -/
def blendToward (self destination : RgbaColor) (factor : Rat) : RgbaColor :=
  if factor ≥ 1 then self
  else if factor ≤ 0 then destination
  else
    rgba (lerpU8 destination.r self.r factor) (lerpU8 destination.g self.g factor)
      (lerpU8 destination.b self.b factor) self.a

/-- color.rs:228-230 `perceived_brightness`. -/
def perceivedBrightness (c : RgbaColor) : Rat :=
  ((299 / 1000 : Rat) * c.r + (587 / 1000 : Rat) * c.g + (114 / 1000 : Rat) * c.b) / 255

/-- `(x).round().clamp(0,255) as u8` of a non-negative value (color.rs:211-214). -/
def roundU8 (x : Rat) : Nat := clampU8 ((x + 1 / 2).floor : Int)

/-- color.rs:195-222 `get_contrasting_color`. -/
def getContrastingColor (c : RgbaColor) (ratio : Rat) : RgbaColor :=
  let contrast := if c.perceivedBrightness < 1 / 2 then white else black
  if ratio ≥ 1 then contrast
  else
    let blend (x bg : Nat) := roundU8 (x * ratio + bg * (1 - ratio))
    rgb (blend contrast.r c.r) (blend contrast.g c.g) (blend contrast.b c.b)

/-! ### Parsing -/

/-- Result of a call that may return `Err` or panic.
No counterpart in the code; used for the parsers of color.rs:436. -/
inductive Outcome (α : Type) where
  | ok (a : α)
  | err
  | panic
deriving DecidableEq, Repr

/-- color.rs:513-521 `parse_hex_digit` (input is already lower case). -/
def parseHexDigit (c : Char) : Option Nat :=
  if '0' ≤ c ∧ c ≤ '9' then some (c.toNat - '0'.toNat)
  else if 'a' ≤ c ∧ c ≤ 'f' then some (c.toNat - 'a'.toNat + 10)
  else none

/-- color.rs:523-527 `parse_hex_pair`. -/
def parseHexPair (c1 c2 : Char) : Option Nat := do
  let high ← parseHexDigit c1
  let low ← parseHexDigit c2
  return high * 16 + low

/-- color.rs:472-511 `parse_hex`, on the text after `#`. `to_lowercase` is modelled by ASCII
lower-casing (`Char.toLower`): no other character lower-cases to a hex digit. -/
def parseHex (hex : List Char) : Option RgbaColor :=
  match hex.map Char.toLower with
  | [c0, c1, c2] => do
    let r ← parseHexDigit c0
    let g ← parseHexDigit c1
    let b ← parseHexDigit c2
    return rgb (r * 17) (g * 17) (b * 17)
  | [c0, c1, c2, c3] => do
    let r ← parseHexDigit c0
    let g ← parseHexDigit c1
    let b ← parseHexDigit c2
    let a ← parseHexDigit c3
    return rgba (r * 17) (g * 17) (b * 17) (((a * 17 : Nat) : Rat) / 255)
  | [c0, c1, c2, c3, c4, c5] => do
    let r ← parseHexPair c0 c1
    let g ← parseHexPair c2 c3
    let b ← parseHexPair c4 c5
    return rgb r g b
  | [c0, c1, c2, c3, c4, c5, c6, c7] => do
    let r ← parseHexPair c0 c1
    let g ← parseHexPair c2 c3
    let b ← parseHexPair c4 c5
    let a ← parseHexPair c6 c7
    return rgba r g b ((a : Rat) / 255)
  | _ => none

/-- The code outside the modelled part of colour parsing: the body of `rgb(...)`/`hsl(...)` after the
parenthesised text has been cut out (color.rs:539-557, 570-592: comma split, number parsing, hsl
conversion; all of these return `Err` on bad input and index only after a length check) and the
table of named colours (color.rs:789-938). -/
structure ParseExt where
  rgbBody : List Char → Option RgbaColor
  hslBody : List Char → Option RgbaColor
  named : List Char → Option RgbaColor

/-- An auxiliary definition of the model, used for the parsers of color.rs:436. -/
def Outcome.ofOption {α : Type} : Option α → Outcome α
  | some a => .ok a
  | none => .err

/-- color.rs:529-540 / 560-571: cut out the text between the first `(` and the first `)`.
The slice `&input[start + 1..end]` panics when `end < start + 1`. -/
def sliceParens (input : List Char) (body : List Char → Option RgbaColor) : Outcome RgbaColor :=
  match input.findIdx? (· == '(') with
  | none => .err
  | some start =>
    match input.findIdx? (· == ')') with
    | none => .err
    | some stop =>
      if stop < start + 1 then .panic
      else .ofOption (body ((input.take stop).drop (start + 1)))

/-- `str::trim` for ASCII white space. Used at color.rs:437. -/
def trim (s : List Char) : List Char :=
  ((s.dropWhile Char.isWhitespace).reverse.dropWhile Char.isWhitespace).reverse

/-- color.rs:436-470 `parse`. -/
def parse (ext : ParseExt) (input : List Char) : Outcome RgbaColor :=
  let input := trim input
  if input.isEmpty then .err
  else
    let lower := input.map Char.toLower
    if lower = "auto".toList then .ok (autoColor 1)
    else if lower = "transparent".toList then .ok (rgba 0 0 0 0)
    else
      match input with
      | '#' :: rest => .ofOption (parseHex rest)
      | _ =>
        if "rgb".toList.isPrefixOf lower then sliceParens lower ext.rgbBody
        else if "hsl".toList.isPrefixOf lower then sliceParens lower ext.hslBody
        else .ofOption (ext.named lower)

end RgbaColor
end Textual
