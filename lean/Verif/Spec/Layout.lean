import Verif.Model.Vertical

/-! What stacking children in a row or column means. -/

namespace Textual.Layout

/-- The space taken by margins in the stacking direction: the leading margin of the first child, the larger of
the two facing margins between neighbours, the trailing margin of the last child. -/
def marginSpace {α : Type} [Add α] [Zero α] [Max α] (lead trail : LChild → α) : List LChild → α
  | [] => 0
  | c :: cs => lead c + go c cs
where
  /-- The space after child `c`, before, between and after the children `cs`. -/
  go (c : LChild) : List LChild → α
    | [] => trail c
    | d :: cs => max (trail c) (lead d) + go d cs

/-- Left margin in cells. -/
def ml (c : LChild) : Int := toI32 c.style.margin.left.value
/-- Right margin in cells. -/
def mr (c : LChild) : Int := toI32 c.style.margin.right.value
/-- Top margin. -/
def mt (c : LChild) : Rat := c.style.margin.top.value
/-- Bottom margin. -/
def mb (c : LChild) : Rat := c.style.margin.bottom.value

/-- The `fr` weight of a child in a row, in thousandths; `none` if its width does not depend on the free space.
A child without width (or with `auto`) that wants to fill counts as `1fr`. -/
def rowWeight (c : LChild) : Option Int :=
  match c.style.width with
  | some ⟨v, .fraction⟩ => some (toI64 (v * 1000))
  | some ⟨_, .auto⟩ => if c.desiredWidth = fill then some 1000 else none
  | none => if c.desiredWidth = fill then some 1000 else none
  | _ => none

/-- No `min-width`, no `max-width`. -/
def FreeWidth (c : LChild) : Prop := c.style.minWidth = none ∧ c.style.maxWidth = none

/-- The total width of the children of a row that satisfy `f`. -/
def widthOf (f : LChild → Bool) (cs : List LChild) (ps : List Placement) : Int :=
  ((cs.zip ps).map (fun cp => if f cp.1 then cp.2.region.width else 0)).sum

/-- The exact (fractional) width of a child of a row that does not depend on the free space: percentages are
taken with three decimals. -/
def rowExact (available : Region) (vp : Viewport) (c : LChild) : Rat :=
  let chrome : Rat := if c.style.contentBox then horizontalChrome c.style else 0
  let part (v : Rat) (basis : Int) : Rat := basis * (roundHalfAway (v * 1000) / 1000 : Rat) / 100 + chrome
  match c.style.width with
  | some ⟨v, .cells⟩ => toI32 v + chrome
  | some ⟨v, .percent⟩ => part v available.width
  | some ⟨v, .width⟩ => part v available.width
  | some ⟨v, .height⟩ => part v available.height
  | some ⟨v, .viewWidth⟩ => part v vp.width
  | some ⟨v, .viewHeight⟩ => part v vp.height
  | _ => c.desiredWidth

/-- Heights, limits and paddings of a child are not negative. -/
def NonNegHeight (c : LChild) : Prop :=
  (∀ h, c.style.height = some h → 0 ≤ h.value) ∧ (∀ m, c.style.maxHeight = some m → 0 ≤ m.value) ∧
    0 ≤ c.style.padding.top.value ∧ 0 ≤ c.style.padding.bottom.value

/-- The `fr` weight of a child in a column, 0 for children of fixed height. A child without height that wants
to fill counts as `1fr`. -/
def columnWeight (c : LChild) : Rat :=
  match c.style.height with
  | some ⟨v, .fraction⟩ => v
  | some _ => 0
  | none => if c.desiredHeight = fill then 1 else 0

/-- The height of a child in a column depends on the size of the container (percentage or `fr`). -/
def Stretched (c : LChild) : Prop :=
  match c.style.height with
  | some ⟨_, u⟩ => u = .percent ∨ u = .height ∨ u = .fraction
  | none => c.desiredHeight = fill

/-- No `min-height`, no `max-height`. -/
def FreeHeight (c : LChild) : Prop := c.style.minHeight = none ∧ c.style.maxHeight = none

/-- The height of a child of a column that does not depend on the free space, in a container of the given size;
0 for `fr` children. -/
def columnExact (available : Region) (vp : Viewport) (c : LChild) : Rat :=
  match c.style.height with
  | some ⟨v, .cells⟩ => toI32 v + (if c.style.contentBox then (verticalChrome c.style : Rat) else 0)
  | some ⟨v, .percent⟩ => v / 100 * available.height
  | some ⟨v, .height⟩ => v / 100 * available.height
  | some ⟨v, .width⟩ => v / 100 * vp.width
  | some ⟨v, .viewWidth⟩ => v / 100 * vp.width
  | some ⟨v, .viewHeight⟩ => v / 100 * vp.height
  | some ⟨_, .auto⟩ => c.intrinsicHeight (clampU16 (Vertical.childWidth c available vp))
  | some ⟨_, .fraction⟩ => 0
  | none => if c.desiredHeight = fill then 0 else c.desiredHeight

end Textual.Layout
