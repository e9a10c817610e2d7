import Verif.Model.Tree

/-!
# Widgets and their types

Model of the queries that give the program a widget of a type of its choice (tree.rs:337-358, 754-786 and the methods of
context.rs that call them), of the names by which widgets go (widget.rs:438-447) and of the widgets of the library as
far as these queries see them. Rust's downcast is a comparison of the type asked for with the type of the widget,
including its parameters; `std::any::type_name` is the path of the type with its parameters, as rustc writes it.
-/

namespace Textual.Typed

open Textual.Tree (Attrs SimpleSelector parseSelector)

/-- A widget: what it answers, the type it has, and whether `as_any_mut` hands it out (widget.rs:515-517 does not, the
widgets that override it do). -/
structure Item where
  attrs : Attrs
  ty : String
  any : Bool
deriving DecidableEq, Repr

/-- A widget with the children that `child_count` and `get_child_mut` give (widget.rs:407-416). -/
inductive T
  | node (item : Item) (children : List T)

namespace T

/-- The widget itself; see widget.rs:37. -/
def item : T → Item | node i _ => i
/-- The children of a widget; see widget.rs:84. -/
def children : T → List T | node _ cs => cs

mutual
/-- tree.rs:754-786 `find_and_apply_by_selector_typed` with the closure of tree.rs:345-357: the new tree, and the answer
of the program's closure if it was called. -/
def applyTyped {R : Type} (sel : SimpleSelector) (ty : String) (f : Item → Item × R) : T → T × Option R
  | node i cs =>
    if sel.matches i.attrs && i.any && i.ty == ty then (node (f i).1 cs, some (f i).2)
    else
      let r := applyTypedIn sel ty f cs
      (node i r.1, r.2)
/-- tree.rs:777-784: the loop over the children. -/
def applyTypedIn {R : Type} (sel : SimpleSelector) (ty : String) (f : Item → Item × R) : List T → List T × Option R
  | [] => ([], none)
  | c :: cs =>
    let r := applyTyped sel ty f c
    if r.2.isSome then (r.1 :: cs, r.2)
    else
      let rest := applyTypedIn sel ty f cs
      (r.1 :: rest.1, rest.2)
end

/-- tree.rs:337-358 `WidgetTree::query_one_as`, context.rs:315-321, 411-417. -/
def queryOneAs {R : Type} (ws : Char → Bool) (root : T) (selector : List Char) (ty : String) (f : Item → Item × R) :
    T × Option R :=
  applyTyped (parseSelector ws selector) ty f root

end T

/-! ### Names -/

/-- `full.split('<').next()` in widget.rs:441-442: everything before the parameters. -/
def beforeParams (full : List Char) : List Char := full.takeWhile (· ≠ '<')

/-- `split("::").last()` in widget.rs:444-445: what follows the last `::`; `acc` is the part read so far, backwards. -/
def lastPart (acc : List Char) : List Char → List Char
  | ':' :: ':' :: rest => lastPart [] rest
  | c :: rest => lastPart (c :: acc) rest
  | [] => acc.reverse

/-- widget.rs:438-447, the default `type_name`. -/
def shortName (full : List Char) : List Char := lastPart [] (beforeParams full)

/-- The widgets of the library that a program can name. -/
inductive Builtin
  | static | label | button | switch | input | optionList | placeholder | ruler | loadingIndicator | header | tooltip
  | commandPalette | screen | appWidget | container | vertical | horizontal | grid | itemGrid | scrollableContainer
  | verticalScroll | horizontalScroll | center | middle
deriving DecidableEq, Repr

/-- The module and the name of the type: widget/static_widget.rs:75, label.rs:85, button.rs:43, switch.rs:14, input.rs:31,
option_list.rs:70, placeholder.rs:100, ruler.rs:54, loading_indicator.rs:14, header.rs:627, tooltip.rs:11,
command_palette.rs:799, screen.rs:50, app_widget.rs:27; containers/container.rs:49, vertical.rs:13, horizontal.rs:13,
grid.rs:43, item_grid.rs:32, scrollable.rs:38, vertical_scroll.rs:31, horizontal_scroll.rs:31; containers.rs:83, 225. -/
def Builtin.path : Builtin → List String × String
  | .static => (["textual", "widget", "static_widget"], "Static")
  | .label => (["textual", "widget", "label"], "Label")
  | .button => (["textual", "widget", "button"], "Button")
  | .switch => (["textual", "widget", "switch"], "Switch")
  | .input => (["textual", "widget", "input"], "Input")
  | .optionList => (["textual", "widget", "option_list"], "OptionList")
  | .placeholder => (["textual", "widget", "placeholder"], "Placeholder")
  | .ruler => (["textual", "widget", "ruler"], "Ruler")
  | .loadingIndicator => (["textual", "widget", "loading_indicator"], "LoadingIndicator")
  | .header => (["textual", "widget", "header"], "Header")
  | .tooltip => (["textual", "widget", "tooltip"], "Tooltip")
  | .commandPalette => (["textual", "widget", "command_palette"], "CommandPalette")
  | .screen => (["textual", "widget", "screen"], "Screen")
  | .appWidget => (["textual", "widget", "app_widget"], "AppWidget")
  | .container => (["textual", "containers", "container"], "Container")
  | .vertical => (["textual", "containers", "vertical"], "Vertical")
  | .horizontal => (["textual", "containers", "horizontal"], "Horizontal")
  | .grid => (["textual", "containers", "grid"], "Grid")
  | .itemGrid => (["textual", "containers", "item_grid"], "ItemGrid")
  | .scrollableContainer => (["textual", "containers", "scrollable"], "ScrollableContainer")
  | .verticalScroll => (["textual", "containers", "vertical_scroll"], "VerticalScroll")
  | .horizontalScroll => (["textual", "containers", "horizontal_scroll"], "HorizontalScroll")
  | .center => (["textual", "containers"], "Center")
  | .middle => (["textual", "containers"], "Middle")

/-- The name of the type as `std::any::type_name` writes it, `params` being the parameters with their brackets, if any.
Used at widget.rs:440. -/
def fullName (path : List String) (name params : String) : List Char :=
  path.flatMap (fun m => m.toList ++ [':', ':']) ++ name.toList ++ params.toList

/-- The widgets with a `type_name` of their own: vertical_scroll.rs:236-238, horizontal_scroll.rs:239-241, vertical.rs:53
and horizontal.rs:53 (macros.rs:199-203), button.rs:453-455, command_palette.rs:1897-1899, header.rs:869-871,
input.rs:379-381, label.rs:368-370, loading_indicator.rs:192-194, option_list.rs:472-474. -/
def Builtin.ownName : Builtin → Option String
  | .verticalScroll => some "VerticalScroll"
  | .horizontalScroll => some "HorizontalScroll"
  | .vertical => some "Vertical"
  | .horizontal => some "Horizontal"
  | .button => some "Button"
  | .commandPalette => some "CommandPalette"
  | .header => some "Header"
  | .input => some "Input"
  | .label => some "Label"
  | .loadingIndicator => some "LoadingIndicator"
  | .optionList => some "OptionList"
  | _ => none

/-- `type_name()` of a widget of the library. See widget.rs:438-440. -/
def Builtin.typeName (b : Builtin) (params : String) : String :=
  match b.ownName with
  | some n => n
  | none => String.ofList (shortName (fullName b.path.1 b.path.2 params))

/-- The widgets that override `as_any_mut`: container.rs:1648, input.rs:395, tooltip.rs:135, command_palette.rs:1913,
screen.rs:749, switch.rs:430, header.rs:885, button.rs:590, label.rs:400, option_list.rs:492, static_widget.rs:1004,
ruler.rs:279, loading_indicator.rs:200. The others have the default (widget.rs:515-517). -/
def Builtin.any : Builtin → Bool
  | .container | .input | .tooltip | .commandPalette | .screen | .switch | .header | .button | .label | .optionList
  | .static | .ruler | .loadingIndicator => true
  | _ => false

/-- A widget of the library: its name, type and `as_any_mut` are those of its type, the rest of its answers are free. -/
def Builtin.item (b : Builtin) (params : String) (attrs : Attrs) : Item :=
  { attrs := { attrs with typeName := b.typeName params }
    ty := String.ofList (fullName b.path.1 b.path.2 params)
    any := b.any }

/-- widget.rs:576-795: a boxed widget used as a widget. `type_name` is the word `Widget` (726-730), everything else,
`as_any_mut` (764-766) too, is asked of the widget in the box. -/
def Item.boxed (i : Item) : Item := { i with attrs := { i.attrs with typeName := "Widget" } }

/-! ### The application -/

/-- lib.rs:690-699: the root of the application, with the screen, the tooltip and, if enabled, the palette; `composed` is
what `compose` gives, `m` the type parameters (the message of the application). -/
def appRoot (m : String) (screen : Attrs) (composed : List T) (tip : Item) (palette : Option T) : T :=
  .node (Builtin.appWidget.item m {})
    ([.node (Builtin.screen.item m screen) composed, .node tip []] ++ palette.toList)

/-- context.rs:323-329, 444-450 `screen_mut`. -/
def screenMut {R : Type} (ws : Char → Bool) (root : T) (m : String) (f : Item → Item × R) : T × Option R :=
  root.queryOneAs ws "Screen".toList (Builtin.screen.item m {}).ty f

/-- tree.rs:438-453 `collect_pending_actions`: the actions, and the tree without them. -/
def collectPendingActions : Tree.W → List String × Tree.W
  | .node k a cs => (a.action.toList, .node k { a with action := none } cs)

end Textual.Typed
