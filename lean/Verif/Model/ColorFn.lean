import Verif.Model.Color
import Verif.Model.Binding

/-!
Model of the `rgb(...)` and `hsl(...)` texts of `/repo/crates/tcss/src/types/color.rs`: the bodies that
`Model/Color.lean` leaves open (`ParseExt`).

`str::parse::<f32>` is a parameter (`readF`); what it reads is an exact rational (`inf` and `nan` are not
modelled), and so is the arithmetic.
-/

namespace Textual.RgbaColor

/-- The sign of a number and the rest (`str::parse::<i32>`). Used by the parser of color.rs:529. -/
def signOf : List Char → Bool × List Char
  | '-' :: ds => (true, ds)
  | '+' :: ds => (false, ds)
  | ds => (false, ds)

/-- `str::parse::<i32>`: an optional sign and at least one digit, within the range of `i32`.
Used by the parser of color.rs:529. -/
def parseI32 (s : List Char) : Option Int :=
  let (neg, ds) := signOf s
  if ds.isEmpty || !ds.all Char.isDigit then none
  else
    let n : Int := (Nat.ofDigitChars 10 ds 0 : Nat)
    let v := if neg then -n else n
    if v < -2147483648 ∨ v > 2147483647 then none else some v

/-- color.rs:595-605 `parse_u8`. -/
def parseU8 (s : List Char) : Option Nat := do
  let v ← parseI32 s
  if v < 0 ∨ v > 255 then none else some v.toNat

/-- color.rs:540, 571: `content.split(',').map(|s| s.trim())`. -/
def components (content : List Char) : List (List Char) := (Textual.Binding.split ',' content).map trim

/-- color.rs:552-556, 583-587: the optional fourth component. -/
def alphaOf (readF : List Char → Option Rat) (rest : List (List Char)) : Option Rat :=
  match rest with
  | a :: _ => readF a
  | [] => some 1

/-- color.rs:539-558: `parse_rgb_func` after the parentheses are found. -/
def rgbBody (readF : List Char → Option Rat) (content : List Char) : Option RgbaColor :=
  match components content with
  | r :: g :: b :: rest => do
    let r ← parseU8 r
    let g ← parseU8 g
    let b ← parseU8 b
    let a ← alphaOf readF rest
    return rgba r g b a
  | _ => none

/-- color.rs:613-619 `parse_percentage`. -/
def parsePercentage (readF : List Char → Option Rat) (s : List Char) : Option Rat :=
  (readF (s.reverse.dropWhile (· == '%')).reverse).map (· / 100)

/-- color.rs:769-787 `hue_to_rgb`. -/
def hueToRgb (p q t : Rat) : Rat :=
  let t := if t < 0 then t + 1 else t
  let t := if t > 1 then t - 1 else t
  if t < 1 / 6 then p + (q - p) * 6 * t
  else if t < 1 / 2 then q
  else if t < 2 / 3 then p + (q - p) * (2 / 3 - t) * 6
  else p

/-- color.rs:744-767 `hsl_to_rgb`. -/
def hslToRgb (h s l : Rat) : Nat × Nat × Nat :=
  if s = 0 then
    let gray := roundU8 (l * 255)
    (gray, gray, gray)
  else
    let h := h / 360
    let q := if l < 1 / 2 then l * (1 + s) else l + s - l * s
    let p := 2 * l - q
    (roundU8 (hueToRgb p q (h + 1 / 3) * 255), roundU8 (hueToRgb p q h * 255),
     roundU8 (hueToRgb p q (h - 1 / 3) * 255))

/-- color.rs:718-742 `from_hsl`. -/
def fromHsl (h s l a : Rat) : RgbaColor :=
  let h := h / 360
  let (r, g, b) :=
    if s = 0 then (l, l, l)
    else
      let q := if l < 1 / 2 then l * (1 + s) else l + s - l * s
      let p := 2 * l - q
      (hueToRgb p q (h + 1 / 3), hueToRgb p q h, hueToRgb p q (h - 1 / 3))
  rgba (roundU8 (r * 255)) (roundU8 (g * 255)) (roundU8 (b * 255)) a

/-- color.rs:570-593: `parse_hsl_func` after the parentheses are found. -/
def hslBody (readF : List Char → Option Rat) (content : List Char) : Option RgbaColor :=
  match components content with
  | h :: s :: l :: rest => do
    let h ← readF h
    let s ← parsePercentage readF s
    let l ← parsePercentage readF l
    let a ← alphaOf readF rest
    let (r, g, b) := hslToRgb h s l
    return rgba r g b a
  | _ => none

/-- The colour parser with these bodies; the table of names stays a parameter. The parser is color.rs:436. -/
def colorExt (readF : List Char → Option Rat) (named : List Char → Option RgbaColor) : ParseExt where
  rgbBody := rgbBody readF
  hslBody := hslBody readF
  named := named

end Textual.RgbaColor
