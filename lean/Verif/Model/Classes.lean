import Mathlib.Tactic.Common

/-!
# Classes of a widget

Model of the class bookkeeping of `Static` (widget/static_widget.rs), which also serves the containers, and of the
widgets that wrap a `Static` and hand the calls on to it (button.rs, input.rs, header.rs, parts of
command_palette.rs). In the wrappers `self.inner.add_class(…)` is the inherent method of `Static`
(static_widget.rs:165-167) and not the one of the trait (static_widget.rs:1008-1013), since inherent methods come
first. A class string is given already split at white space.
-/

namespace Textual.Classes

/-- static_widget.rs:82, 86 `classes`, `dirty`. -/
structure Holder where
  classes : List String := []
  dirty : Bool := true
deriving DecidableEq, Repr

namespace Holder

/-- static_widget.rs:1022-1024, container.rs:1666-1668, scrollable.rs:879-881 `has_class`. -/
def has (h : Holder) (c : String) : Bool := h.classes.any (· == c)

/-- static_widget.rs:1008-1013, container.rs:1652-1657, scrollable.rs:865-870 `add_class` of the trait. -/
def add (h : Holder) (c : String) : Holder :=
  if h.has c then h else { classes := h.classes ++ [c], dirty := true }

/-- static_widget.rs:165-167 the inherent `add_class`. -/
def push (h : Holder) (c : String) : Holder := { h with classes := h.classes ++ [c] }

/-- static_widget.rs:1015-1020, container.rs:1659-1664, scrollable.rs:872-877 `remove_class`: `List.erase` removes the
first one. -/
def remove (h : Holder) (c : String) : Holder :=
  if h.has c then { classes := h.classes.erase c, dirty := true } else h

/-- static_widget.rs:1026-1029, container.rs:1670-1673, scrollable.rs:883-886 `set_classes`. -/
def set (_ : Holder) (cs : List String) : Holder := { classes := cs, dirty := true }

/-- static_widget.rs:155-162 `with_classes`. -/
def withClasses (h : Holder) (cs : List String) : Holder := { h with classes := cs }

end Holder

/-- The calls of the trait (widget.rs:526-565); `clean` is the restyling. -/
inductive Op where
  | add (c : String)
  | remove (c : String)
  | toggle (c : String)
  | cond (on : Bool) (c : String)
  | set (cs : List String)
  | clean
deriving DecidableEq, Repr

/-- The calls on a `Static` or a container (`wraps = false`) or on a wrapper (button.rs:562-580, input.rs:399-417,
header.rs:170-188, command_palette.rs:222-240); widget.rs:536-542 `toggle_class`, 554-560 `set_class`. -/
def step (wraps : Bool) (h : Holder) (op : Op) : Holder :=
  let add := fun c => if wraps then h.push c else h.add c
  match op with
  | .add c => add c
  | .remove c => h.remove c
  | .toggle c => if h.has c then h.remove c else add c
  | .cond on c => if on then add c else h.remove c
  | .set cs => h.set cs
  | .clean => { h with dirty := false }

/-- A history of the calls of widget.rs:526-565. -/
def run (wraps : Bool) (h : Holder) (ops : List Op) : Holder := ops.foldl (step wraps) h

/-! ### Buttons -/

/-- button.rs:10-17 `ButtonVariant`. -/
inductive Variant where
  | default | primary | success | warning | error
deriving DecidableEq, Repr

/-- button.rs:20-28 `class_name`. -/
def Variant.className : Variant → String
  | .default => "-default"
  | .primary => "-primary"
  | .success => "-success"
  | .warning => "-warning"
  | .error => "-error"

/-- button.rs:43-55, the fields used here; `dirty` is that of the inner `Static` or of the button. -/
structure Look where
  inner : Holder
  variant : Variant := .default
  flat : Bool := false
  compact : Bool := false
deriving DecidableEq, Repr

/-- button.rs:58-77 `new`. -/
def Look.new : Look :=
  { inner := (({} : Holder).push "-style-default").push (Variant.className .default) }

/-- button.rs:143-155 `set_variant`, for a valid name (others panic). -/
def Look.setVariant (b : Look) (v : Variant) : Look :=
  if b.variant ≠ v then
    { b with inner := (b.inner.remove b.variant.className).push v.className, variant := v }
  else b

/-- button.rs:157-169 `set_flat`. -/
def Look.setFlat (b : Look) (flat : Bool) : Look :=
  if b.flat = flat then b
  else { b with
    flat := flat
    inner := if flat then (b.inner.remove "-style-default").push "-style-flat"
      else (b.inner.remove "-style-flat").push "-style-default" }

/-- button.rs:171-181 `set_compact`. -/
def Look.setCompact (b : Look) (compact : Bool) : Look :=
  if b.compact = compact then b
  else { b with
    compact := compact
    inner := if compact then b.inner.push "-textual-compact" else b.inner.remove "-textual-compact" }

/-- The calls that change the classes of a button; `withClasses` is the builder (button.rs:86-89). -/
inductive LookOp where
  | variant (v : Variant)
  | flat (on : Bool)
  | compact (on : Bool)
  | classes (op : Op)
  | withClasses (cs : List String)
deriving DecidableEq, Repr

/-- One of the calls of button.rs:143, 157, 171 or widget.rs:526-565. -/
def Look.step (b : Look) : LookOp → Look
  | .variant v => b.setVariant v
  | .flat on => b.setFlat on
  | .compact on => b.setCompact on
  | .classes op => { b with inner := Classes.step true b.inner op }
  | .withClasses cs => { b with inner := b.inner.withClasses cs }

/-- A history of the calls of button.rs:143, 157, 171 and widget.rs:526-565. -/
def Look.run (ops : List LookOp) : Look := ops.foldl Look.step Look.new

end Textual.Classes
