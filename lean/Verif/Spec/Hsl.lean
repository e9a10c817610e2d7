import Mathlib.Algebra.Order.Floor.Defs
import Mathlib.Data.Rat.Floor

/-!
The conversion from hue, saturation and lightness to red, green and blue, as the CSS Color specification
writes it: `f(n) = l - a * max(-1, min(k - 3, 9 - k, 1))` with `k = (n + h / 30) mod 12` and
`a = s * min(l, 1 - l)`; the channels are `f(0)`, `f(8)` and `f(4)`. Nothing here depends on the model.
-/

namespace Textual.Hsl

/-- The remainder of a division by 12, between 0 and 12. -/
def mod12 (x : Rat) : Rat := x - 12 * ⌊x / 12⌋

/-- One channel, between 0 and 1. -/
def channel (h s l n : Rat) : Rat :=
  let k := mod12 (n + h / 30)
  let a := s * min l (1 - l)
  l - a * max (-1) (min (min (k - 3) (9 - k)) 1)

end Textual.Hsl
