import Verif.Model.Arrange

/-!
Model of `/repo/crates/textual/src/containers/container.rs`, lines 504-660 and 992-1040: the size a
container asks for.  `u16` sums saturate as in the code.  The children are given with the answer to
`participates_in_layout` (widget.rs:352-355).
-/

namespace Textual.Layout.Intrinsic

/-- `f64 as u16`. Used at container.rs:512-514, 566-567. -/
def toU16 (q : Rat) : Nat := clampU16 (toI32 q)

/-- `u16::saturating_add`. Used at container.rs:574-589. -/
def sat (a b : Nat) : Nat := min 65535 (a + b)

/-- container.rs:652-656: the `border_horizontal`, `border_vertical` and padding of the container, as
`(horizontal, vertical)` sums. -/
structure Chrome where
  border : Nat × Nat := (0, 0)
  padding : Nat × Nat := (0, 0)

/-- container.rs:518-538: the variables of the loop. -/
structure Acc where
  totalW : Nat := 0
  totalH : Nat := 0
  maxW : Nat := 0
  maxH : Nat := 0
  fillW : Bool := false
  fillH : Bool := false
  prevBottom : Nat := 0
  firstTop : Nat := 0
  lastBottom : Nat := 0
  first : Bool := true
  prevRight : Nat := 0
  firstLeft : Nat := 0
  lastRight : Nat := 0
  firstH : Bool := true

/-- container.rs:557-566: `capped_width`, `capped_height`. -/
def capped (n : Nat) : Nat := if n = fill then 0 else min n 1000

/-- container.rs:540-614: one turn of the loop, for a child that participates. -/
def step (s : Acc) (c : LChild) : Acc :=
  let w := capped c.desiredWidth
  let h := capped c.desiredHeight
  let l := toU16 c.style.margin.left.value
  let r := toU16 c.style.margin.right.value
  let t := toU16 c.style.margin.top.value
  let b := toU16 c.style.margin.bottom.value
  { totalW := if s.firstH then sat s.totalW w else sat (sat s.totalW (max l s.prevRight)) w
    totalH := if s.first then sat s.totalH h else sat (sat s.totalH (max t s.prevBottom)) h
    maxW := max s.maxW (sat (sat w l) r)
    maxH := max s.maxH (sat (sat h t) b)
    fillW := s.fillW || c.desiredWidth == fill
    fillH := s.fillH || c.desiredHeight == fill
    prevBottom := b
    firstTop := if s.first then t else s.firstTop
    lastBottom := b
    first := false
    prevRight := r
    firstLeft := if s.firstH then l else s.firstLeft
    lastRight := r
    firstH := false }

/-- container.rs:540-543: the children that are looked at. -/
def shown (cs : List (Bool × LChild)) : List LChild := (cs.filter (·.1)).map (·.2)

/-- container.rs:504-660 `calculate_intrinsic_size`. -/
def intrinsic (layout : Kind) (ch : Chrome) (cs : List (Bool × LChild)) : Nat × Nat :=
  if cs.isEmpty then (ch.border.1 + ch.padding.1, ch.border.2 + ch.padding.2)
  else
    let s := (shown cs).foldl step {}
    let totalW := sat (sat s.firstLeft s.totalW) s.lastRight
    let totalH := sat (sat s.firstTop s.totalH) s.lastBottom
    let content := match layout with
      | .vertical => (s.maxW, totalH)
      | .horizontal => (totalW, s.maxH)
      | .grid => (s.maxW, s.maxH)
    (if s.fillW then fill else sat (sat content.1 ch.border.1) ch.padding.1,
     if s.fillH then fill else sat (sat content.2 ch.border.2) ch.padding.2)

/-- container.rs:1001-1018 and 1020-1037: one side of `desired_size`. -/
def desiredSide (declared : Option Scalar) (own : Nat) : Nat :=
  match declared with
  | some s => match s.unit with
    | .cells => toU16 s.value
    | .auto => own
    | _ => fill
  | none => own

/-- container.rs:992-1040 `desired_size`. -/
def desired (style : LStyle) (layout : Kind) (ch : Chrome) (cs : List (Bool × LChild)) : Nat × Nat :=
  let i := intrinsic layout ch cs
  (desiredSide style.width i.1, desiredSide style.height i.2)

end Textual.Layout.Intrinsic
