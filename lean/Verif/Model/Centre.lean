import Verif.Model.Region

/-!
# `Center` and `Middle`

Model of the two containers of containers.rs that place one child in the middle of an area. What the child draws is not
modelled, only the area it is given.
-/

namespace Textual.Centre

/-- The child: `desired_size` (widget.rs:42), `is_visible` (widget.rs:339-341) and whether its style has `display: none`
(widget.rs:352-355). Sizes are `u16`. -/
structure Child where
  width : Nat
  height : Nat
  visible : Bool := true
  displayNone : Bool := false
deriving DecidableEq, Repr

/-- containers.rs:119-129 `centered_region`; `/` of `i32` on a number that is not negative. -/
def centered (c : Child) (r : Region) : Region :=
  ⟨r.x + max (r.width - c.width) 0 / 2, r.y, c.width, r.height⟩

/-- containers.rs:261-271 `middled_region`. -/
def middled (c : Child) (r : Region) : Region :=
  ⟨r.x, r.y + max (r.height - c.height) 0 / 2, r.width, c.height⟩

/-- Which of the two containers. See containers.rs:83 `Center`, 225 `Middle`. -/
inductive Axis where
  | center | middle
deriving DecidableEq, Repr

def place : Axis → Child → Region → Region
  | .center => centered
  | .middle => middled

/-- containers.rs:148-153, 290-295 `render`: the area the child draws in, if it draws. -/
def drawn (a : Axis) (c : Child) (r : Region) : Option Region :=
  if !c.visible then none else some (place a c r)

/-- containers.rs:204-210, 346-352 `on_mouse`: the area the child is told with the event, if it gets it. -/
def heard (a : Axis) (c : Child) (r : Region) : Option Region :=
  if !c.visible then none else some (place a c r)

/-- containers.rs:133-141, 275-283 `desired_size`. -/
def size (c : Child) : Nat × Nat := if !c.visible then (0, 0) else (c.width, c.height)

/-- One of the containers as the child of the other: its size is that of its child, it is visible (widget.rs:339-341)
and has no style of its own (widget.rs:194-196), so no `display: none`. -/
def asChild (c : Child) : Child := { width := (size c).1, height := (size c).2 }

/-- containers.rs:93-98, 235-240 `new`: panics (`none`) unless there is exactly one child. -/
def new (children : List Child) : Option Child :=
  match children with
  | [c] => some c
  | _ => none

end Textual.Centre
