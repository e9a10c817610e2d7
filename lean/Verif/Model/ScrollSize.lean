import Verif.Model.Intrinsic
import Verif.Model.Scroller

/-!
Model of `/repo/crates/textual/src/containers/scrollable.rs`, lines 289-308, 346-493 and 626-662: the size a scrolling
container asks for, and its children as the scrolled content of `Model/Scroller.lean`.  The `u16` sums in the loop are
checked: an overflow is `none` (a panic in a debug build).  The sums of border and padding are within `u16` in the
arguments; `Chrome.border` is `(2, 2)` with a border and `(0, 0)` without.
-/

namespace Textual.Layout.Intrinsic

/-- `a + b` on `u16`. Used as at container.rs:512-514. -/
def plus (a b : Nat) : Option Nat := if a + b ≤ 65535 then some (a + b) else none

/-- scrollable.rs:387-396: `capped_width`, `capped_height`. -/
def cappedScroll (n : Nat) : Nat := if n = fill then 1000 else n

/-- scrollable.rs:356-371: the variables of the loop. One layout uses either the rows or the columns, so `total`, `prev`,
`lead` and `trail` are those of the direction of the layout. -/
structure SAcc where
  total : Nat := 0
  maxW : Nat := 0
  maxH : Nat := 0
  fillW : Bool := false
  fillH : Bool := false
  prev : Nat := 0
  lead : Nat := 0
  trail : Nat := 0
  first : Bool := true

/-- scrollable.rs:406-434: the `match` for one child of size `w`, `h` with margins (`w'`, `h'`), in a column or a row:
`size` is its size along the layout, `before` and `after` its margins. -/
def along (s : SAcc) (size before after : Nat) : Option SAcc := do
  let more ← plus size (max s.prev before)
  let total ← plus s.total more
  some { s with total, prev := after, lead := if s.first then before else s.lead, trail := after, first := false }

/-- scrollable.rs:373-441: one turn of the loop, for a child that participates. -/
def stepScroll (layout : Kind) (s : SAcc) (c : LChild) : Option SAcc := do
  let w := cappedScroll c.desiredWidth
  let h := cappedScroll c.desiredHeight
  let l := toU16 c.style.margin.left.value
  let r := toU16 c.style.margin.right.value
  let t := toU16 c.style.margin.top.value
  let b := toU16 c.style.margin.bottom.value
  let wl ← plus w l
  let outerW ← plus wl r
  let ht ← plus h t
  let outerH ← plus ht b
  let s := { s with fillW := s.fillW || c.desiredWidth == fill, fillH := s.fillH || c.desiredHeight == fill }
  match layout with
  | .vertical => along { s with maxW := max s.maxW outerW } h t b
  | .horizontal => along { s with maxH := max s.maxH outerH } w l r
  | .grid => some { s with maxW := max s.maxW outerW, maxH := max s.maxH outerH }

/-- scrollable.rs:373-441: the loop. -/
def loopScroll (layout : Kind) : SAcc → List LChild → Option SAcc
  | s, [] => some s
  | s, c :: cs => (stepScroll layout s c).bind fun s => loopScroll layout s cs

/-- scrollable.rs:443-492: the size from the sums. -/
def finishScroll (layout : Kind) (ch : Chrome) (s : SAcc) : Option (Nat × Nat) :=
  match layout with
  | .vertical => do
    let total ← plus s.total s.trail
    let extraW ← plus ch.border.1 ch.padding.1
    let chromeH ← plus ch.border.2 ch.padding.2
    let extraH ← plus chromeH s.lead
    some (sat (if s.fillW then fill else s.maxW) extraW, sat (if s.fillH then fill else total) extraH)
  | .horizontal => do
    let total ← plus s.total s.trail
    let chromeW ← plus ch.border.1 ch.padding.1
    let extraW ← plus chromeW s.lead
    let extraH ← plus ch.border.2 ch.padding.2
    some (sat (if s.fillW then fill else total) extraW, sat (if s.fillH then fill else s.maxH) extraH)
  | .grid => do
    let extraW ← plus ch.border.1 ch.padding.1
    let extraH ← plus ch.border.2 ch.padding.2
    some (sat s.maxW extraW, sat s.maxH extraH)

/-- scrollable.rs:346-493 `calculate_intrinsic_size`. -/
def scrollSize (layout : Kind) (ch : Chrome) (cs : List (Bool × LChild)) : Option (Nat × Nat) :=
  if cs.isEmpty then do
    let w ← plus ch.border.1 ch.padding.1
    let h ← plus ch.border.2 ch.padding.2
    some (w, h)
  else (loopScroll layout {} (shown cs)).bind (finishScroll layout ch)

/-- scrollable.rs:626-662 `desired_size`. -/
def desiredScroll (style : LStyle) (layout : Kind) (ch : Chrome) (cs : List (Bool × LChild)) : Option (Nat × Nat) :=
  (scrollSize layout ch cs).map fun i => (desiredSide style.width i.1, desiredSide style.height i.2)

/-- scrollable.rs:289-308 `compute_child_placements` and 318-331, the margins in `compute_virtual_size`: the children as
scrolled content. -/
def scrolled (keys : List String) (p : PStyle) (cs : List (Bool × LChild)) : Scroller.Body where
  arrange := fun r vp => arrangeLayers keys p (shown cs) r vp
  marginRight := fun i => match cs[i]? with
    | some c => toI32 c.2.style.margin.right.value
    | none => 0
  marginBottom := fun i => match cs[i]? with
    | some c => toI32 c.2.style.margin.bottom.value
    | none => 0

end Textual.Layout.Intrinsic
