import Verif.Model.Intrinsic

/-! What it means that a container fits its children (C155). -/

namespace Textual.Layout.Intrinsic

/-- The children that are displayed: those with `true`. -/
def displayed : List (Bool × LChild) → List LChild
  | [] => []
  | (true, c) :: cs => c :: displayed cs
  | (false, _) :: cs => displayed cs

/-- A length of whole cells. -/
def Whole (q : Rat) : Prop := ∃ n : Nat, n ≤ 65535 ∧ q = n

/-- A child in the flow that asks for a size which does not depend on the space it is given: a number of
cells, or the size of its content. -/
structure Sized (c : LChild) : Prop where
  width : c.style.width = none ∨ (∃ v, c.style.width = some ⟨v, .auto⟩) ∨
    ∃ v, c.style.width = some ⟨v, .cells⟩ ∧ toI32 v = c.desiredWidth
  height : c.style.height = none ∨
    (∃ v, c.style.height = some ⟨v, .auto⟩ ∧ ∀ w, c.intrinsicHeight w = c.desiredHeight) ∨
    ∃ v, c.style.height = some ⟨v, .cells⟩ ∧ toI32 v = c.desiredHeight
  borderBox : c.style.contentBox = false
  free : c.style.minWidth = none ∧ c.style.maxWidth = none ∧ c.style.minHeight = none ∧ c.style.maxHeight = none
  given : c.desiredWidth < fill ∧ c.desiredHeight < fill
  margins : Whole c.style.margin.top.value ∧ Whole c.style.margin.right.value ∧
    Whole c.style.margin.bottom.value ∧ Whole c.style.margin.left.value
  flow : c.style.dock = none ∧ c.style.absolute = false ∧ c.style.layer = none ∧
    c.style.offsetX = none ∧ c.style.offsetY = none

/-- The columns of a child with its margins. -/
def outerWidth (c : LChild) : Nat :=
  toU16 c.style.margin.left.value + c.desiredWidth + toU16 c.style.margin.right.value

/-- The rows of a child with its margins. -/
def outerHeight (c : LChild) : Nat :=
  toU16 c.style.margin.top.value + c.desiredHeight + toU16 c.style.margin.bottom.value

/-- A rectangle in another. -/
def Inside (r area : Region) : Prop :=
  area.x ≤ r.x ∧ r.x + r.width ≤ area.x + area.width ∧ area.y ≤ r.y ∧ r.y + r.height ≤ area.y + area.height

/-- The area for the children in a container of a size. -/
def contentArea (x y : Int) (ch : Chrome) (size : Nat × Nat) : Region :=
  ⟨x, y, (size.1 : Int) - ch.border.1 - ch.padding.1, (size.2 : Int) - ch.border.2 - ch.padding.2⟩

end Textual.Layout.Intrinsic
