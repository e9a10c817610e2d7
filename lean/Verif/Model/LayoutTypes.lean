import Verif.Model.Region
import Mathlib.Data.Rat.Floor
import Mathlib.Algebra.Order.Floor.Ring

/-!
Types shared by the layout models (`/repo/crates/textual/src/layouts`), and `size_resolver.rs`.
`f64` is modelled by `Rat` (exact arithmetic), `i32` by `Int` (no overflow), `u16` by `Nat`.
-/

namespace Textual.Layout

/-- tcss/src/types/geometry.rs:13-33 `Unit`. -/
inductive Unit where
  | cells | percent | width | height | viewWidth | viewHeight | fraction | auto
deriving DecidableEq, Repr

/-- tcss/src/types/geometry.rs:43-48 `Scalar`. -/
structure Scalar where
  value : Rat
  unit : Unit
deriving DecidableEq, Repr

/-- tcss/src/types/geometry.rs:84-90 `Spacing`. -/
structure Spacing where
  top : Scalar
  right : Scalar
  bottom : Scalar
  left : Scalar
deriving DecidableEq, Repr

/-- tcss/src/types/geometry.rs:55-58 `Scalar::ZERO`, on four sides (`Spacing::default`). -/
def Spacing.zero : Spacing := ⟨⟨0, .cells⟩, ⟨0, .cells⟩, ⟨0, .cells⟩, ⟨0, .cells⟩⟩

/-- tcss/src/types/layout.rs:106-115 `Dock`. -/
inductive Dock where
  | top | bottom | left | right
deriving DecidableEq, Repr

/-- The part of `ComputedStyle` (tcss/src/types/mod.rs:60-171) read by the layouts. A border edge is represented
by whether it is shown, i.e. its kind is neither `None` nor `Hidden`. -/
structure LStyle where
  width : Option Scalar := none
  height : Option Scalar := none
  minWidth : Option Scalar := none
  maxWidth : Option Scalar := none
  minHeight : Option Scalar := none
  maxHeight : Option Scalar := none
  margin : Spacing := Spacing.zero
  padding : Spacing := Spacing.zero
  borderTop : Bool := false
  borderRight : Bool := false
  borderBottom : Bool := false
  borderLeft : Bool := false
  contentBox : Bool := false
  dock : Option Dock := none
  absolute : Bool := false
  offsetX : Option Scalar := none
  offsetY : Option Scalar := none
  layer : Option String := none
  columnSpan : Nat := 1
  rowSpan : Nat := 1

/-- layouts/mod.rs:63-68 `LayoutChild`: `node` is represented by its only method used by the layouts. -/
structure LChild where
  index : Nat
  style : LStyle
  desiredWidth : Nat
  desiredHeight : Nat
  intrinsicHeight : Nat → Nat

/-- layouts/mod.rs:72-77 `WidgetPlacement`. -/
structure Placement where
  childIndex : Nat
  region : Region
deriving DecidableEq, Repr

/-- layouts/mod.rs:81-84 `Viewport`. -/
structure Viewport where
  width : Int
  height : Int
deriving DecidableEq, Repr

/-- layouts/mod.rs:86-93 `From<Region> for Viewport`. -/
def Viewport.ofRegion (r : Region) : Viewport := ⟨r.width, r.height⟩

/-- `u16::MAX`, the desired size of a widget that wants to fill.
Used at layouts/mod.rs:621-622, layouts/vertical.rs:155, 218. -/
def fill : Nat := 65535

/-- `f64 as i32`: truncation toward zero, saturating. Used at layouts/mod.rs:567-573, 629-634. -/
def toI32 (q : Rat) : Int :=
  max (-2147483648) (min 2147483647 (if 0 ≤ q then ⌊q⌋ else ⌈q⌉))

/-- `f64 as i64`: truncation toward zero, saturating. Used at layouts/grid.rs:198-216. -/
def toI64 (q : Rat) : Int :=
  max (-9223372036854775808) (min 9223372036854775807 (if 0 ≤ q then ⌊q⌋ else ⌈q⌉))

/-- `f64::round`: to the nearest integer, halves away from zero. Used at layouts/mod.rs:630-634, 678-680. -/
def roundHalfAway (q : Rat) : Int := if 0 ≤ q then ⌊q + 1 / 2⌋ else ⌈q - 1 / 2⌉

/-- `value.clamp(0, u16::MAX as i32) as u16`. Used at layouts/mod.rs:622, 673. -/
def clampU16 (n : Int) : Nat := (max 0 (min 65535 n)).toNat

/-- `(value / 100.0) * basis as f64`. Used at layouts/mod.rs:569-572. -/
def percentOf (value : Rat) (basis : Int) : Rat := value / 100 * basis

/-- size_resolver.rs:222-240 `vertical_chrome`. -/
def verticalChrome (s : LStyle) : Int :=
  (if s.borderTop then 1 else 0) + (if s.borderBottom then 1 else 0) +
    toI32 s.padding.top.value + toI32 s.padding.bottom.value

/-- size_resolver.rs:245-266 `horizontal_chrome`. -/
def horizontalChrome (s : LStyle) : Int :=
  (if s.borderLeft then 1 else 0) + (if s.borderRight then 1 else 0) +
    toI32 s.padding.left.value + toI32 s.padding.right.value

/-- size_resolver.rs:279-284 `apply_box_sizing_height`. -/
def applyBoxSizingHeight (h : Int) (s : LStyle) : Int := if s.contentBox then h + verticalChrome s else h

/-- size_resolver.rs:297-302 `apply_box_sizing_width`. -/
def applyBoxSizingWidth (w : Int) (s : LStyle) : Int := if s.contentBox then w + horizontalChrome s else w

/-- size_resolver.rs:138-155 `resolve_width_with_intrinsic`. -/
def resolveWidthWithIntrinsic (s : LStyle) (intrinsic : Nat) (available : Int) : Int :=
  match s.width with
  | some w =>
    match w.unit with
    | .cells => toI32 w.value
    | .percent => max (-2147483648) (min 2147483647 (roundHalfAway (percentOf w.value available)))
    | .auto => intrinsic
    | .fraction => available
    | _ => toI32 w.value
  | none => available

/-- size_resolver.rs:191-213 `resolve_height_full`. -/
def resolveHeightFull (s : LStyle) (intrinsic : Nat) (availH availW vw vh : Int) : Int :=
  let sat := fun n : Int => max (-2147483648) (min 2147483647 n)
  match s.height with
  | some h =>
    match h.unit with
    | .cells => toI32 h.value
    | .percent => sat (roundHalfAway (percentOf h.value availH))
    | .width => sat (roundHalfAway (percentOf h.value availW))
    | .height => sat (roundHalfAway (percentOf h.value availH))
    | .viewWidth => sat (roundHalfAway (percentOf h.value vw))
    | .viewHeight => sat (roundHalfAway (percentOf h.value vh))
    | .auto => intrinsic
    | .fraction => availH
  | none => availH

/-- size_resolver.rs:164-177 `resolve_height_with_intrinsic`. -/
def resolveHeightWithIntrinsic (s : LStyle) (intrinsic : Nat) (avail : Int) : Int :=
  resolveHeightFull s intrinsic avail avail avail avail

/-- The value of a `min-`/`max-` constraint as `f64` (e.g. vertical.rs:228-236): percent is of `self`, the
available length in the direction constrained. -/
def constraintValue (c : Scalar) (self : Int) (available : Region) (vp : Viewport) : Rat :=
  match c.unit with
  | .cells => c.value
  | .percent => percentOf c.value self
  | .width => percentOf c.value available.width
  | .height => percentOf c.value available.height
  | .viewWidth => percentOf c.value vp.width
  | .viewHeight => percentOf c.value vp.height
  | _ => c.value

/-- The `max` then `min` constraint on an `i32` length (e.g. horizontal.rs:194-224). -/
def constrain (maxC minC : Option Scalar) (self : Int) (available : Region) (vp : Viewport) (n : Int) : Int :=
  let n := match maxC with
    | some c => min n (toI32 (constraintValue c self available vp))
    | none => n
  match minC with
  | some c => max n (toI32 (constraintValue c self available vp))
  | none => n

end Textual.Layout
