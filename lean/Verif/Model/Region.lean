/-!
Model of `Region` (`/repo/crates/textual/src/canvas.rs:37-109`). Coordinates are `Int`; the
saturating `i32` additions of the code are modelled exactly by `satAdd`.
-/

namespace Textual

/-- `i32::saturating_add`. Used at canvas.rs:73-78. -/
def satAdd (a b : Int) : Int := max (-2147483648) (min 2147483647 (a + b))

/-- canvas.rs:42-47 `Region`. -/
structure Region where
  x : Int
  y : Int
  width : Int
  height : Int
deriving DecidableEq, Repr

namespace Region

/-- canvas.rs:51-58 `Region::new`. -/
def new (x y width height : Int) : Region := ⟨x, y, max width 0, max height 0⟩

/-- canvas.rs:68-95 `intersection`. The final subtractions cannot overflow (`x2 - x1 ≤ self.width`). -/
def intersection (self other : Region) : Region :=
  let x1 := max self.x other.x
  let y1 := max self.y other.y
  let x2 := min (satAdd self.x self.width) (satAdd other.x other.width)
  let y2 := min (satAdd self.y self.height) (satAdd other.y other.height)
  if x2 > x1 ∧ y2 > y1 then ⟨x1, y1, x2 - x1, y2 - y1⟩ else ⟨0, 0, 0, 0⟩

/-- canvas.rs:98-103 `contains_point`. -/
def containsPoint (r : Region) (x y : Int) : Bool :=
  x ≥ r.x && x < satAdd r.x r.width && y ≥ r.y && y < satAdd r.y r.height

/-- canvas.rs:106-108 `is_empty`. -/
def isEmpty (r : Region) : Bool := r.width ≤ 0 || r.height ≤ 0

end Region
end Textual
