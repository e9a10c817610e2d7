import Verif.Model.Theme
import Mathlib.Analysis.SpecialFunctions.Pow.Real

/-!
Model of the conversion between RGB and CIE-L*ab in `/repo/crates/tcss/src/types/color.rs`, over the real
numbers: `f32` arithmetic and `powf` are exact.
-/

namespace Textual.Lab

noncomputable section

/-- color.rs:627-641: one channel from sRGB to linear. -/
def linear (v : ℝ) : ℝ := if v > 0.04045 then ((v + 0.055) / 1.055) ^ (2.4 : ℝ) else v / 12.92

/-- color.rs:643-645: linear channels to XYZ, relative to the white point. -/
def toX (r g b : ℝ) : ℝ := (r * 41.24 + g * 35.76 + b * 18.05) / 95.047
@[inherit_doc toX] def toY (r g b : ℝ) : ℝ := (r * 21.26 + g * 71.52 + b * 7.22) / 100
@[inherit_doc toX] def toZ (r g b : ℝ) : ℝ := (r * 1.93 + g * 11.92 + b * 95.05) / 108.883

/-- color.rs:647-662: the cube root, with a linear part near zero. -/
def root (t : ℝ) : ℝ := if t > 0.008856 then t ^ (1 / 3 : ℝ) else 7.787 * t + 16 / 116

/-- color.rs:622-668 `to_lab`. -/
def toLab (r g b : Nat) : ℝ × ℝ × ℝ :=
  let r := linear (r / 255)
  let g := linear (g / 255)
  let b := linear (b / 255)
  let x := root (toX r g b)
  let y := root (toY r g b)
  let z := root (toZ r g b)
  (116 * y - 16, 500 * (x - y), 200 * (y - z))

/-- color.rs:677-691: back from the cube root; `scale` is the white point and `slope` the factor of the
linear part. -/
def cube (scale slope : ℝ) (u : ℝ) : ℝ :=
  if u > 0.2068930344 then scale * u ^ (3 : ℝ) else slope * (u - 16 / 116)

/-- color.rs:697-711: one channel from linear to sRGB. -/
def gamma (v : ℝ) : ℝ := if v > 0.0031308 then 1.055 * v ^ (1 / 2.4 : ℝ) - 0.055 else 12.92 * v

/-- color.rs:713: `to_u8`. -/
def toU8 (v : ℝ) : Nat := ⌊min (max (v * 255) 0) 255⌋.toNat

/-- color.rs:671-715 `from_lab`, without the alpha. -/
def fromLab (l a b : ℝ) : Nat × Nat × Nat :=
  let y := (l + 16) / 116
  let x := a / 500 + y
  let z := y - b / 200
  let y := cube 1 (1 / 7.787) y
  let x := cube 0.95047 0.122059 x
  let z := cube 1.08883 0.139827 z
  (toU8 (gamma (x * 3.2406 + y * -1.5372 + z * -0.4986)),
   toU8 (gamma (x * -0.9689 + y * 1.8758 + z * 0.0415)),
   toU8 (gamma (x * 0.0557 + y * -0.2040 + z * 1.0570)))

/-- color.rs:284-286: the lightness change of `darken`. -/
def exact : Textual.Theme.Lab where
  darken r g b amount :=
    let lab := toLab r g b
    fromLab (min (max (lab.1 - amount * 100) 0) 100) lab.2.1 lab.2.2

end
end Textual.Lab
