import Verif.Model.Horizontal
import Verif.Model.Vertical
import Verif.Model.Grid

/-!
Model of `/repo/crates/textual/src/layouts/mod.rs`: docked, absolute and layered children, alignment, offset.
-/

namespace Textual.Layout

/-- tcss/src/types/layout.rs:39-47 `Layout`. -/
inductive Kind where
  | vertical | horizontal | grid
deriving DecidableEq, Repr

/-- tcss/src/types/text.rs:212-221 `AlignHorizontal`. -/
inductive AlignH where
  | left | center | right
deriving DecidableEq, Repr

/-- tcss/src/types/text.rs:225-234 `AlignVertical`. -/
inductive AlignV where
  | top | middle | bottom
deriving DecidableEq, Repr

/-- The part of the parent's `ComputedStyle` (tcss/src/types/mod.rs:60-171) read by layouts/mod.rs. -/
structure PStyle where
  layout : Kind := .vertical
  grid : Grid.Parent := { grid := {} }
  alignH : AlignH := .left
  alignV : AlignV := .top
  layers : Option (List String) := none

/-- mod.rs:263-269 `DockSpacing`. -/
structure DockSpacing where
  top : Int
  right : Int
  bottom : Int
  left : Int
deriving DecidableEq, Repr

/-- mod.rs:298-339: the region of a widget docked at an edge. -/
def dockRegion (d : Dock) (c : LChild) (a : Region) : Region :=
  match d with
  | .top => ⟨a.x, a.y, a.width, c.desiredHeight⟩
  | .bottom => ⟨a.x, a.y + a.height - c.desiredHeight, a.width, c.desiredHeight⟩
  | .left => ⟨a.x, a.y, c.desiredWidth, a.height⟩
  | .right => ⟨a.x + a.width - c.desiredWidth, a.y, c.desiredWidth, a.height⟩

/-- mod.rs:298-339: the space on the edges after docking a widget. -/
def dockSpace (d : Dock) (c : LChild) (s : DockSpacing) : DockSpacing :=
  match d with
  | .top => { s with top := max s.top c.desiredHeight }
  | .bottom => { s with bottom := max s.bottom c.desiredHeight }
  | .left => { s with left := max s.left c.desiredWidth }
  | .right => { s with right := max s.right c.desiredWidth }

/-- mod.rs:280-348 `arrange_docked_widgets`; `expect` (288-291) cannot fail for children selected by the callers;
the model skips undocked ones. -/
def dockLoop (a : Region) (s : DockSpacing) : List LChild → List Placement × DockSpacing
  | [] => ([], s)
  | c :: cs =>
    match c.style.dock with
    | some d =>
      let r := dockLoop a (dockSpace d c s) cs
      (⟨c.index, dockRegion d c a⟩ :: r.1, r.2)
    | none => dockLoop a s cs

/-- mod.rs:280-348 `arrange_docked_widgets`. -/
def arrangeDocked (docked : List LChild) (a : Region) : List Placement × DockSpacing :=
  dockLoop a ⟨0, 0, 0, 0⟩ docked

/-- mod.rs:189-199, 382-392 `content_region`. `saturating_sub` on `i32` goes below zero. -/
def contentRegion (a : Region) (s : DockSpacing) : Region :=
  ⟨a.x + s.left, a.y + s.top, a.width - (s.left + s.right), a.height - (s.top + s.bottom)⟩

/-- The margins of the child of a placement (mod.rs:518-529); 0 if there is none. -/
def marginsOf (cs : List LChild) (i : Nat) : Int × Int × Int × Int :=
  match cs.find? (fun c => c.index == i) with
  | some c => (toI32 c.style.margin.left.value, toI32 c.style.margin.right.value,
      toI32 c.style.margin.top.value, toI32 c.style.margin.bottom.value)
  | none => (0, 0, 0, 0)

/-- A placement with its margins (mod.rs:531-534), as (left, top, right, bottom). -/
def outer (cs : List LChild) (p : Placement) : Int × Int × Int × Int :=
  let m := marginsOf cs p.childIndex
  (p.region.x - m.1, p.region.y - m.2.2.1, p.region.x + p.region.width + m.2.1,
    p.region.y + p.region.height + m.2.2.2)

/-- mod.rs:504-543 `get_placement_bounds_with_margins`, for a non-empty list (first placement separately instead
of `i32::MAX`/`MIN` as initial values). -/
def bounds (cs : List LChild) (ps : List Placement) : Region :=
  match ps with
  | [] => ⟨0, 0, 0, 0⟩
  | p :: ps =>
    let b := ps.foldl (fun (b : Int × Int × Int × Int) q =>
      let o := outer cs q
      (min b.1 o.1, min b.2.1 o.2.1, max b.2.2.1 o.2.2.1, max b.2.2.2 o.2.2.2)) (outer cs p)
    ⟨b.1, b.2.1, b.2.2.1 - b.1, b.2.2.2 - b.2.1⟩

/-- mod.rs:481-485 `offset_x`. -/
def alignX (h : AlignH) (available content : Int) : Int :=
  match h with
  | .left => 0
  | .center => (max (available - content) 0).tdiv 2
  | .right => max (available - content) 0

/-- mod.rs:487-491 `offset_y`. -/
def alignY (v : AlignV) (available content : Int) : Int :=
  match v with
  | .top => 0
  | .middle => (max (available - content) 0).tdiv 2
  | .bottom => max (available - content) 0

/-- Translation of a placement. The region of a placement is layouts/mod.rs:72. -/
def Placement.move (p : Placement) (dx dy : Int) : Placement :=
  ⟨p.childIndex, ⟨p.region.x + dx, p.region.y + dy, p.region.width, p.region.height⟩⟩

/-- mod.rs:457-501 `apply_alignment`. -/
def applyAlignment (ps : List Placement) (cs : List LChild) (h : AlignH) (v : AlignV) (a : Region) : List Placement :=
  if h = .left ∧ v = .top then ps
  else if ps.isEmpty then ps
  else
    let b := bounds cs ps
    let dx := alignX h a.width b.width
    let dy := alignY v a.height b.height
    if dx ≠ 0 ∨ dy ≠ 0 then ps.map (·.move dx dy) else ps

/-- mod.rs:565-581 and 584-600: one component of the offset; `own` is the placement's length in its direction. -/
def offsetOf (s : Option Scalar) (own : Int) (r : Region) (vp : Viewport) : Int :=
  match s with
  | none => 0
  | some s =>
    match s.unit with
    | .cells => toI32 s.value
    | .percent => toI32 (percentOf s.value own)
    | .viewWidth => toI32 (percentOf s.value vp.width)
    | .viewHeight => toI32 (percentOf s.value vp.height)
    | .width => toI32 (percentOf s.value r.width)
    | .height => toI32 (percentOf s.value r.height)
    | _ => toI32 s.value

/-- mod.rs:555-609 `apply_offset`. -/
def applyOffset (ps : List Placement) (cs : List LChild) (vp : Viewport) : List Placement :=
  ps.map fun p =>
    match cs.find? (fun c => c.index == p.childIndex) with
    | some c =>
      let dx := offsetOf c.style.offsetX p.region.width p.region vp
      let dy := offsetOf c.style.offsetY p.region.height p.region vp
      if dx ≠ 0 ∨ dy ≠ 0 then p.move dx dy else p
    | none => p

/-- `(value / 100.0 * basis).round() as i32`. Used at layouts/mod.rs:630-634, 678-680. -/
def roundPercent (value : Rat) (basis : Int) : Int :=
  max (-2147483648) (min 2147483647 (roundHalfAway (percentOf value basis)))

/-- mod.rs:627-640 and 674-687: the declared length of an absolute child before box sizing. -/
def absoluteRaw (s : Scalar) (own auto : Int) (a : Region) (vp : Viewport) : Int :=
  match s.unit with
  | .cells => toI32 s.value
  | .percent => roundPercent s.value own
  | .width => roundPercent s.value a.width
  | .height => roundPercent s.value a.height
  | .viewWidth => roundPercent s.value vp.width
  | .viewHeight => roundPercent s.value vp.height
  | .fraction => own
  | .auto => auto

/-- mod.rs:611-730 `resolve_absolute_placement`. -/
def absolutePlacement (c : LChild) (a : Region) (vp : Viewport) : Placement :=
  let s := c.style
  let intrinsic : Int := if c.desiredWidth = fill then clampU16 a.width else c.desiredWidth
  let w := match s.width with
    | some w => applyBoxSizingWidth (absoluteRaw w a.width intrinsic a vp) s
    | none => intrinsic
  let w := constrain s.maxWidth s.minWidth a.width a vp w
  let ih : Int := c.intrinsicHeight (clampU16 w)
  let h := match s.height with
    | some h => applyBoxSizingHeight (absoluteRaw h a.height ih a vp) s
    | none => ih
  let h := constrain s.maxHeight s.minHeight a.height a vp h
  ⟨c.index, ⟨a.x, a.y, max w 0, max h 0⟩⟩

/-- mod.rs:220-233 (and 405-422, where `pre_layout` can set `min_column_width`). -/
def runLayout (minColumn : Option Nat) (p : PStyle) (cs : List LChild) (a : Region) (vp : Viewport) : List Placement :=
  match p.layout with
  | .grid => Grid.arrange minColumn p.grid cs a
  | .vertical => Vertical.arrange cs a vp
  | .horizontal => Horizontal.arrange cs a vp

/-- mod.rs:160-260 `arrange_children_with_viewport`. -/
def arrangeChildren (p : PStyle) (cs : List LChild) (a : Region) (vp : Viewport) : List Placement :=
  let docked := cs.filter (fun c => c.style.dock.isSome)
  let nonDocked := cs.filter (fun c => !c.style.dock.isSome)
  let absolute := nonDocked.filter (fun c => c.style.absolute)
  let flow := nonDocked.filter (fun c => !c.style.absolute)
  let d := arrangeDocked docked a
  let content := contentRegion a d.2
  let placed := applyAlignment (runLayout none p flow content vp) flow p.alignH p.alignV content
  applyOffset d.1 cs vp ++ applyOffset placed cs vp ++
    applyOffset (absolute.map fun c => absolutePlacement c content vp) cs vp

/-- mod.rs:361-445 `arrange_children_with_pre_layout`; the hook is represented by the `min_column_width` it sets. -/
def arrangePreLayout (minColumn : Option Nat) (p : PStyle) (cs : List LChild) (a : Region) : List Placement :=
  let vp := Viewport.ofRegion a
  let docked := cs.filter (fun c => c.style.dock.isSome)
  let flow := cs.filter (fun c => !c.style.dock.isSome)
  let d := arrangeDocked docked a
  let content := contentRegion a d.2
  let placed := applyAlignment (runLayout minColumn p flow content vp) flow p.alignH p.alignV content
  applyOffset d.1 cs vp ++ applyOffset placed cs vp

/-- mod.rs:820-825: the layer of a child. -/
def layerOf (c : LChild) : String := c.style.layer.getD "default"

/-- mod.rs:817-826 `layer_map` looked up at a name: children of the layer in order, `none` if there are none. -/
def layerMap (cs : List LChild) (name : String) : Option (List LChild) :=
  let l := cs.filter (fun c => layerOf c == name)
  if l.isEmpty then none else some l

/-- mod.rs:810-846 `build_layers`. `keys` is the order in which the `HashMap` iterates its keys. -/
def buildLayers (keys : List String) (cs : List LChild) (order : List String) : List (String × List LChild) :=
  (keys.filter (fun n => !order.contains n)).filterMap (fun n => (layerMap cs n).map fun l => (n, l)) ++
    order.filterMap (fun n => (layerMap cs n).map fun l => (n, l))

/-- mod.rs:748-800 `arrange_children_with_layers`. -/
def arrangeLayers (keys : List String) (p : PStyle) (cs : List LChild) (a : Region) (vp : Viewport) :
    List Placement :=
  if ¬ (p.layers.isSome ∨ cs.any (fun c => c.style.layer.isSome)) then arrangeChildren p cs a vp
  else
    (buildLayers keys cs (p.layers.getD ["default"])).flatMap fun nl =>
      if nl.2.isEmpty then [] else arrangeChildren p nl.2 a vp

end Textual.Layout
