import Verif.Model.Region

/-!
# Who sent a message

Model of `on_mouse` and `on_mouse_with_sender` along the tree: a widget makes a message, the containers above hand it
on, and the event loop learns which widget it came from. Also the application widget, which asks its children from the
top down. Where a container sends an event (its layout, scroll position and hit tests) is a parameter; the changes that
an event makes inside the widgets are not modelled.
-/

namespace Textual.Sender

/-- widget.rs:28-33 `SenderInfo`. -/
structure Info where
  id : Option String
  typeName : String
deriving DecidableEq, Repr

/-- A tree of widgets. `Ev` are the mouse events, `M` the messages of the application.
* `leaf`: a widget that makes its messages itself (button.rs, switch.rs, static_widget.rs, label.rs, input.rs,
  option_list.rs, placeholder.rs …).
* `group`: a container that hands the event on to children one after the other, each with a region, until one answers;
  before that it may answer itself, as its scrollbars do (scrollable.rs:1179-1300): container.rs:1506-1567,
  grid.rs:390-418, item_grid.rs:272-299, screen.rs:956-1110, macros.rs:115-121, vertical_scroll.rs:152-158,
  horizontal_scroll.rs:155-161, header.rs:825-831.
* `centre`: `Center` or `Middle` (containers.rs:204-210, 346-352), `place` being the region it gives to its child and
  `shown` whether the child is visible. -/
inductive W (Ev M : Type) where
  | leaf (who : Info) (react : Ev → Region → Option M)
  | group (who : Info) (own : Ev → Region → Option M) (route : Ev → Region → List (Nat × Region))
      (children : List (W Ev M))
  | centre (who : Info) (shown : Bool) (place : Region → Region) (child : W Ev M)

variable {Ev M : Type}

mutual
/-- `on_mouse`: the message alone. See widget.rs:37 and scrollable.rs:979. -/
def mouse : W Ev M → Ev → Region → Option M
  | .leaf _ react, e, r => react e r
  | .group _ own route cs, e, r =>
    match own e r with
    | some m => some m
    | none => (route e r).findSome? fun p => ((mouseAll cs)[p.1]?).bind fun f => f e p.2
  | .centre _ shown place c, e, r => if !shown then none else mouse c e (place r)
/-- The same for a list of children. See scrollable.rs:979, 1179. -/
def mouseAll : List (W Ev M) → List (Ev → Region → Option M)
  | [] => []
  | c :: cs => mouse c :: mouseAll cs
end

mutual
/-- `on_mouse_with_sender`. Leaves and `Center`, `Middle` have the default (widget.rs:281-288): their own `on_mouse`,
and themselves as the sender. -/
def mouseFrom : W Ev M → Ev → Region → Option (M × Info)
  | .leaf who react, e, r => (react e r).map fun m => (m, who)
  | .group who own route cs, e, r =>
    match own e r with
    | some m => some (m, who)
    | none => (route e r).findSome? fun p => ((mouseFromAll cs)[p.1]?).bind fun f => f e p.2
  | .centre who shown place c, e, r => (mouse (.centre who shown place c) e r).map fun m => (m, who)
/-- The same for a list of children. See scrollable.rs:1179, screen.rs:956. -/
def mouseFromAll : List (W Ev M) → List (Ev → Region → Option (M × Info))
  | [] => []
  | c :: cs => mouseFrom c :: mouseFromAll cs
end

/-! ### The application widget -/

/-- A child of the application widget: what it answers to the event, and `blocks_mouse_events` of the widget itself
(widget.rs:294-296, command_palette.rs:1812-1814). -/
structure Layer (α : Type) where
  answer : Option α
  blocks : Bool
deriving DecidableEq, Repr

/-- `child.blocks_mouse_events()` in app_widget.rs:169, 186. There `child` is a `Box<dyn Widget<M>>`, so the method of
the implementation for boxes is called (widget.rs:576-795), which does not define it: the default of the trait
(widget.rs:294-296). -/
def Layer.asked {α : Type} (_ : Layer α) : Bool := false

/-- app_widget.rs:167-178 `on_mouse`, 185-194 `on_mouse_with_sender`, over the children from the top down; the first
component counts the children that get the event. -/
def sweep {α : Type} : List (Layer α) → Nat × Option α
  | [] => (0, none)
  | l :: ls =>
    match l.answer with
    | some m => (1, some m)
    | none => if l.asked then (1, none) else let r := sweep ls; (r.1 + 1, r.2)

/-- The event loop, lib.rs:976-991: while the palette is open it is the only one asked. `layers` are the children of the
application widget from the top down; the palette, if there is one, is the top one (lib.rs:694-699). -/
def loop {α : Type} (open_ : Bool) (layers : List (Layer α)) : Nat × Option α :=
  match open_, layers with
  | true, l :: _ => (1, l.answer)
  | _, ls => sweep ls

end Textual.Sender
