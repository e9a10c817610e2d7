import Verif.Model.Settings
import Verif.Model.Css
import Verif.Model.Restyle

/-!
# What selectors see of a widget

Model of `get_meta` and `get_state` of the widgets of the library, which describe a widget to the selectors of style
sheets and queries, next to the methods with which an application asks the widget itself: `type_name`, `id`,
`has_class`, `is_focused`, `is_disabled`. The settings are those of `Verif.Model.Settings`; the marks for being focused,
hovered over and pressed, and the name, are added here. Mouse events that set the marks (`on_mouse`) are not modelled here.
-/

namespace Textual.Face

open Textual.Settings

/-- A widget with its fields: button.rs:388-411 and switch.rs:265-280 `focused`, `hovered`, `active`; `layout` is the one
of the style a container has (container.rs:1352-1357), `responsive` the classes a screen has for its size
(screen.rs:676-680). -/
structure Live where
  fields : Fields := {}
  id : Option String := none
  focused : Bool := false
  hovered : Bool := false
  active : Bool := false
  layout : Restyle.Layout := .vertical
  responsive : List String := []
deriving DecidableEq, Repr

/-- What happens to a widget of the tree: the calls of `Verif.Model.Settings`, `set_focus` (widget.rs:240), `set_hover`
(widget.rs:301), `set_active` (widget.rs:308), `clear_hover` (widget.rs:313) and a new style (widget.rs:192). -/
inductive Act where
  | set (c : Call)
  | focus (b : Bool)
  | hover (b : Bool)
  | active (b : Bool)
  | clearHover
  | style (l : Restyle.Layout)
deriving DecidableEq, Repr

/-- The effect on each widget. The marks are kept by `Button` (button.rs:502-527, 542-547), `Switch` (switch.rs:258-263,
354-383) and `HeaderIcon` (header.rs:522-547), the focus also by `Input` (input.rs:336-341), `OptionList`
(option_list.rs:429-434) and `CommandPalette` (command_palette.rs:1824-1832). Everywhere else the calls end in the
defaults of the trait (widget.rs:240, 301-313), also after being handed on (label.rs:288-298, 344-346, macros.rs:123-133,
175-177, vertical_scroll.rs:160-170, 212-214, horizontal_scroll.rs:163-173, 215-217). -/
def act (k : Kind) (l : Live) : Act → Live
  | .set c => { l with fields := call k l.fields c }
  | .focus b =>
    match k with
    | .button | .switch | .input | .optionList | .palette => { l with focused := b }
    | _ => l
  | .hover b =>
    match k with
    | .button | .switch | .headerIcon => { l with hovered := b }
    | _ => l
  | .active b =>
    match k with
    | .button | .switch | .headerIcon => { l with active := b }
    | _ => l
  | .clearHover =>
    match k with
    | .button | .headerIcon => { l with hovered := false }
    | .switch => { l with hovered := false, active := false }
    | _ => l
  | .style s => { l with layout := s }

/-- A history. -/
def run (k : Kind) (l : Live) (as : List Act) : Live := as.foldl (act k) l

/-- static_widget.rs:859-871 `Static::get_meta`. -/
def staticMeta (l : Live) : Css.Widget where
  typeName := "Static"
  typeNames := ["Static", "Widget", "DOMNode"]
  id := l.id
  classes := l.fields.classes
  disabled := l.fields.disabled

/-- container.rs:1345-1366 `Container::get_meta`. -/
def containerMeta (l : Live) : Css.Widget :=
  Restyle.withLayout l.layout { typeName := "Container", id := l.id, classes := l.fields.classes }

/-- `meta.type_name = …; meta.type_names = vec![…]` in the widgets built from another one.
See label.rs:240, header.rs:66, 225, 406, 777. -/
def named (m : Css.Widget) (n : String) (ns : List String) : Css.Widget := { m with typeName := n, typeNames := ns }

/-- `meta.states = self.get_state()`. See button.rs:392. -/
def marked (m : Css.Widget) (focus hover active disabled : Bool) : Css.Widget :=
  { m with focus := focus, hover := hover, active := active, disabled := disabled }

/-- A `WidgetMeta` without states. See tcss/src/parser/cascade.rs:90. -/
def plain (n : String) (ns : List String) (id : Option String) (classes : List String) : Css.Widget where
  typeName := n
  typeNames := ns
  id := id
  classes := classes

/-- The default `get_meta` of the trait (widget.rs:108-127) with its default `get_state` (widget.rs:96-105). -/
def defaultMeta (n : String) (id : Option String) (focused disabled : Bool) : Css.Widget where
  typeName := n
  typeNames := [n, "Widget", "DOMNode"]
  id := id
  focus := focused
  disabled := disabled

/-- `get_meta` of the widgets of the library. See button.rs:388, label.rs:237, header.rs:63, 222, 403, 773. -/
def «meta» (k : Kind) (l : Live) : Css.Widget :=
  match k with
  | .static => staticMeta l
  -- label.rs:237-242
  | .label => named (staticMeta l) "Label" ["Label", "Static", "Widget", "DOMNode"]
  -- button.rs:388-411
  | .button =>
    marked (named (staticMeta l) "Button" ["Button", "Widget", "DOMNode"]) l.focused l.hovered l.active l.fields.disabled
  -- input.rs:277-294
  | .input =>
    marked (named (staticMeta l) "Input" ["Input", "Static", "Widget", "DOMNode"]) l.focused false false
      l.fields.disabled
  -- option_list.rs:369-386; `is_disabled` is the one of the inner container, the default
  | .optionList =>
    marked (named (containerMeta l) "OptionList" ["OptionList", "Container", "Widget", "DOMNode"]) l.focused false false
      false
  -- widget.rs:108-127 with switch.rs:265-280
  | .switch =>
    marked (defaultMeta "Switch" l.id l.focused l.fields.disabled) l.focused l.hovered l.active l.fields.disabled
  -- placeholder.rs:555-563
  | .placeholder => plain "Placeholder" ["Placeholder", "Widget", "DOMNode"] l.id l.fields.classes
  -- ruler.rs:211-219
  | .ruler => plain "Ruler" ["Ruler", "Widget", "DOMNode"] l.id l.fields.classes
  -- loading_indicator.rs:100-116, with 182-184 `is_disabled`
  | .loadingIndicator => plain "LoadingIndicator" ["LoadingIndicator", "Widget", "DOMNode"] l.id l.fields.classes
  | .container => containerMeta l
  -- macros.rs:59-64, vertical.rs:53, horizontal.rs:53
  | .vertical => named (containerMeta l) "Vertical" ["Vertical", "Widget", "DOMNode"]
  | .horizontal => named (containerMeta l) "Horizontal" ["Horizontal", "Widget", "DOMNode"]
  -- scrollable.rs:851-859
  | .scrollable => plain "ScrollableContainer" ["ScrollableContainer", "Widget", "DOMNode"] l.id l.fields.classes
  -- vertical_scroll.rs:98-110, horizontal_scroll.rs:96-113: states of the inner container by the default `get_state`
  | .verticalScroll =>
    plain "VerticalScroll" ["VerticalScroll", "ScrollableContainer", "Widget", "DOMNode"] l.id l.fields.classes
  | .horizontalScroll =>
    plain "HorizontalScroll" ["HorizontalScroll", "ScrollableContainer", "Widget", "DOMNode"] l.id l.fields.classes
  -- grid.rs:287-295, item_grid.rs:171-179
  | .grid => plain "Grid" ["Grid", "Widget", "DOMNode"] l.id []
  | .itemGrid => plain "ItemGrid" ["ItemGrid", "Widget", "DOMNode"] l.id []
  -- containers.rs:132, 274: the default
  | .center => defaultMeta "Center" none false false
  | .middle => defaultMeta "Middle" none false false
  -- screen.rs:671-684
  | .screen => plain "Screen" ["Screen", "Widget", "DOMNode"] none l.responsive
  -- header.rs:773-783
  | .header => named (containerMeta l) "Header" ["Header", "Widget", "DOMNode"]
  -- header.rs:63-72
  | .headerTitle => named (staticMeta l) "HeaderTitle" ["HeaderTitle", "Static", "Widget", "DOMNode"]
  -- header.rs:403-423
  | .headerIcon =>
    marked (named (staticMeta l) "HeaderIcon" ["HeaderIcon", "Static", "Widget", "DOMNode"]) false l.hovered l.active
      l.fields.disabled
  -- tooltip.rs:123-129; its inner widget is made without id and classes (tooltip.rs:17-24) and never gets any
  | .tooltip => plain "Tooltip" ["Tooltip", "Static", "Widget", "DOMNode"] none []
  -- command_palette.rs:1676-1690
  | .palette =>
    marked (named (containerMeta l) "CommandPalette" ["CommandPalette", "Container", "Widget", "DOMNode"]) l.focused
      false false false

/-- `type_name`: the names given in button.rs:453, input.rs:379, label.rs:368, option_list.rs:472,
loading_indicator.rs:192, vertical_scroll.rs:236, horizontal_scroll.rs:239, macros.rs:199-203, header.rs:150, 585, 869,
command_palette.rs:1897; elsewhere the name of the Rust type (widget.rs:438-448). -/
def typeName : Kind → String
  | .static => "Static" | .label => "Label" | .button => "Button" | .input => "Input" | .optionList => "OptionList"
  | .switch => "Switch" | .placeholder => "Placeholder" | .ruler => "Ruler" | .loadingIndicator => "LoadingIndicator"
  | .container => "Container" | .vertical => "Vertical" | .horizontal => "Horizontal"
  | .scrollable => "ScrollableContainer" | .verticalScroll => "VerticalScroll"
  | .horizontalScroll => "HorizontalScroll" | .grid => "Grid" | .itemGrid => "ItemGrid" | .center => "Center"
  | .middle => "Middle" | .screen => "Screen" | .header => "Header" | .headerTitle => "HeaderTitle"
  | .headerIcon => "HeaderIcon" | .tooltip => "Tooltip" | .palette => "CommandPalette"

/-- `id`: static_widget.rs:919-921, container.rs:1412-1414, switch.rs:385-387 and the like; the default (widget.rs:430-432)
for `Center`, `Middle`, `Screen` and `Tooltip`. -/
def idOf (k : Kind) (l : Live) : Option String :=
  match k with
  | .center | .middle | .screen | .tooltip => none
  | _ => l.id

/-- `is_focused`: button.rs:549, switch.rs:254, input.rs:343, option_list.rs:436, command_palette.rs:1834; elsewhere the
default (widget.rs:242-244), also where the call is handed on. -/
def isFocused (k : Kind) (l : Live) : Bool :=
  match k with
  | .button | .switch | .input | .optionList | .palette => l.focused
  | _ => false

/-- The text after the last `::`, for `split("::").last()` (widget.rs:117-118); `acc` holds the characters since the last
separator, last first. -/
def lastPart (acc : List Char) : List Char → List Char
  | [] => acc.reverse
  | ':' :: ':' :: cs => lastPart [] cs
  | c :: cs => lastPart (c :: acc) cs

/-- widget.rs:109-118 and 438-447: the name of a Rust type without its path and parameters. -/
def simpleName (full : List Char) : List Char := lastPart [] (full.takeWhile (· ≠ '<'))

end Textual.Face
