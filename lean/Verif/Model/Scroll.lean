/-!
Model of `/repo/crates/textual/src/scroll.rs` (lines 22-144).

`i32` is modelled by `Int` (no overflow); the `f32` arguments of `scroll_to` by rationals.
-/

namespace Textual

/-- scroll.rs:24-37 `ScrollState`. -/
structure ScrollState where
  offsetX : Int
  offsetY : Int
  virtualWidth : Int
  virtualHeight : Int
  viewportWidth : Int
  viewportHeight : Int
deriving DecidableEq, Repr

namespace ScrollState

/-- scroll.rs:41-55 `ScrollState::new`. -/
def new (virtualWidth virtualHeight viewportWidth viewportHeight : Int) : ScrollState :=
  { offsetX := 0, offsetY := 0, virtualWidth, virtualHeight, viewportWidth, viewportHeight }

/-- scroll.rs:58-60 `max_scroll_x`. -/
def maxScrollX (s : ScrollState) : Int := max (s.virtualWidth - s.viewportWidth) 0

/-- scroll.rs:63-65 `max_scroll_y`. -/
def maxScrollY (s : ScrollState) : Int := max (s.virtualHeight - s.viewportHeight) 0

/-- scroll.rs:68-70 `can_scroll_x`. -/
def canScrollX (s : ScrollState) : Bool := decide (s.virtualWidth > s.viewportWidth)

/-- scroll.rs:73-75 `can_scroll_y`. -/
def canScrollY (s : ScrollState) : Bool := decide (s.virtualHeight > s.viewportHeight)

/-- scroll.rs:78-84 `scroll_percent_x` (the `f32` quotient as an exact rational). -/
def scrollPercentX (s : ScrollState) : Rat :=
  if s.maxScrollX = 0 then 0 else (s.offsetX : Rat) / (s.maxScrollX : Rat)

/-- scroll.rs:87-93 `scroll_percent_y` (the `f32` quotient as an exact rational). -/
def scrollPercentY (s : ScrollState) : Rat :=
  if s.maxScrollY = 0 then 0 else (s.offsetY : Rat) / (s.maxScrollY : Rat)

/-- scroll.rs:96-98 `scroll_up`. -/
def scrollUp (s : ScrollState) (amount : Int) : ScrollState :=
  { s with offsetY := max (s.offsetY - amount) 0 }

/-- scroll.rs:101-103 `scroll_down`. -/
def scrollDown (s : ScrollState) (amount : Int) : ScrollState :=
  { s with offsetY := min (s.offsetY + amount) s.maxScrollY }

/-- scroll.rs:106-108 `scroll_left`. -/
def scrollLeft (s : ScrollState) (amount : Int) : ScrollState :=
  { s with offsetX := max (s.offsetX - amount) 0 }

/-- scroll.rs:111-113 `scroll_right`. -/
def scrollRight (s : ScrollState) (amount : Int) : ScrollState :=
  { s with offsetX := min (s.offsetX + amount) s.maxScrollX }

/-- Rust `Ord::clamp` on `i32` (core library; panics only if `lo > hi`, which cannot happen in
scroll.rs since `max_scroll_* ≥ 0`). -/
def clamp (v lo hi : Int) : Int := if v < lo then lo else if v > hi then hi else v

/-- scroll.rs:116-125 `scroll_to`. `x.floor() as i32` is the floor of the rational. -/
def scrollTo (s : ScrollState) (x y : Option Rat) : ScrollState :=
  let s := match x with
    | some x => { s with offsetX := clamp x.floor 0 s.maxScrollX }
    | none => s
  match y with
  | some y => { s with offsetY := clamp y.floor 0 s.maxScrollY }
  | none => s

/-- scroll.rs:130-133 and 139-142: the re-clamping shared by the two setters. -/
def reclamp (s : ScrollState) : ScrollState :=
  let s := { s with offsetX := max (min s.offsetX s.maxScrollX) 0 }
  { s with offsetY := max (min s.offsetY s.maxScrollY) 0 }

/-- scroll.rs:128-134 `set_viewport`. -/
def setViewport (s : ScrollState) (width height : Int) : ScrollState :=
  reclamp { s with viewportWidth := width, viewportHeight := height }

/-- scroll.rs:137-143 `set_virtual_size`. -/
def setVirtualSize (s : ScrollState) (width height : Int) : ScrollState :=
  reclamp { s with virtualWidth := width, virtualHeight := height }

/-- The public mutating operations of `ScrollState` (scroll.rs:96-143). -/
inductive Op where
  | up (n : Int) | down (n : Int) | left (n : Int) | right (n : Int)
  | scrollTo (x y : Option Rat)
  | setViewport (w h : Int) | setVirtualSize (w h : Int)

/-- One call (scroll.rs:96-143). -/
def step (s : ScrollState) : Op → ScrollState
  | .up n => s.scrollUp n
  | .down n => s.scrollDown n
  | .left n => s.scrollLeft n
  | .right n => s.scrollRight n
  | .scrollTo x y => s.scrollTo x y
  | .setViewport w h => s.setViewport w h
  | .setVirtualSize w h => s.setVirtualSize w h

/-- A history of calls, oldest first. -/
def run (s : ScrollState) (ops : List Op) : ScrollState := ops.foldl step s

end ScrollState
end Textual
