import Mathlib.Tactic.Common

/-!
# Settings of widgets

Model of the calls of the trait `Widget` with which an application changes a widget it has found in the tree: being
visible, loading or disabled, the tooltip, the titles in the border and the classes. Each widget of the library either
has a field for a setting, hands the calls on to the widget it is built from, or leaves them to the default of the
trait, which does nothing. The field `dirty`, inherent methods and the builders (`with_…`) are not modelled; removing
classes is the subject of `Verif.Model.Classes`.
-/

namespace Textual.Settings

/-- The widgets of the library that an application puts into its tree or finds there. -/
inductive Kind where
  | static | label | button | input | optionList | switch | placeholder | ruler | loadingIndicator
  | container | vertical | horizontal | scrollable | verticalScroll | horizontalScroll
  | grid | itemGrid | center | middle | screen | header | headerTitle | headerIcon | tooltip | palette
deriving DecidableEq, Repr

/-- The fields behind the settings: switch.rs:393-424 `visible`, `loading`, `disabled`, static_widget.rs:923-947,
1008-1046 `border_title`, `border_subtitle`, `disabled`, `classes`, `tooltip`. -/
structure Fields where
  visible : Bool := true
  loading : Bool := false
  disabled : Bool := false
  tip : Option String := none
  title : Option String := none
  subtitle : Option String := none
  classes : List String := []
deriving DecidableEq, Repr

/-- The calls: widget.rs:209, 358, 368, 378, 465, 471, 526. -/
inductive Call where
  | visible (b : Bool)
  | loading (b : Bool)
  | disabled (b : Bool)
  | tip (t : Option String)
  | title (t : String)
  | subtitle (t : String)
  | addClass (c : String)
deriving DecidableEq, Repr

/-- `Static`: static_widget.rs:923-931 titles, 945-948 `set_disabled`, 1008-1013 `add_class`, 1043-1046 `set_tooltip`;
`set_visible` and `set_loading` are the defaults (widget.rs:358, 368). -/
def callStatic (f : Fields) : Call → Fields
  | .disabled b => { f with disabled := b }
  | .tip t => { f with tip := t }
  | .title t => { f with title := some t }
  | .subtitle t => { f with subtitle := some t }
  | .addClass c => if f.classes.any (· == c) then f else { f with classes := f.classes ++ [c] }
  | _ => f

/-- static_widget.rs:165-167 the inherent `add_class`, which widgets built from a `Static` call. -/
def pushClass (f : Fields) (c : String) : Fields := { f with classes := f.classes ++ [c] }

/-- `Container`: container.rs:1629-1637 titles, 1652-1657 `add_class`; the rest are the defaults. -/
def callContainer (f : Fields) : Call → Fields
  | .title t => { f with title := some t }
  | .subtitle t => { f with subtitle := some t }
  | .addClass c => if f.classes.any (· == c) then f else { f with classes := f.classes ++ [c] }
  | _ => f

/-- Only `add_class` is implemented: `ScrollableContainer` (scrollable.rs:865-870), `Placeholder`
(placeholder.rs:631-636), `Ruler` (ruler.rs:283-288). -/
def callClasses (f : Fields) : Call → Fields
  | .addClass c => if f.classes.any (· == c) then f else { f with classes := f.classes ++ [c] }
  | _ => f

/-- A call to a widget of the tree. The trait is widget.rs:37. -/
def call (k : Kind) (f : Fields) (c : Call) : Fields :=
  match k, c with
  | .static, c => callStatic f c
  -- label.rs:312-330, 372-378, 404-406: all but the tooltip are handed on
  | .label, .tip _ => f
  | .label, .addClass c => pushClass f c
  | .label, c => callStatic f c
  -- button.rs:557-564
  | .button, .disabled b => callStatic f (.disabled b)
  | .button, .addClass c => pushClass f c
  | .button, _ => f
  -- input.rs:351-369, 399-401, header.rs:122-140, 170-172
  | .input, .addClass c | .headerTitle, .addClass c => pushClass f c
  | .input, .visible b | .headerTitle, .visible b => callStatic f (.visible b)
  | .input, .loading b | .headerTitle, .loading b => callStatic f (.loading b)
  | .input, .disabled b | .headerTitle, .disabled b => callStatic f (.disabled b)
  | .input, _ | .headerTitle, _ => f
  -- header.rs:518-520, 557-575, 605-607: with a tooltip of its own
  | .headerIcon, .tip t => { f with tip := t }
  | .headerIcon, .addClass c => pushClass f c
  | .headerIcon, .visible b => callStatic f (.visible b)
  | .headerIcon, .loading b => callStatic f (.loading b)
  | .headerIcon, .disabled b => callStatic f (.disabled b)
  | .headerIcon, _ => f
  -- switch.rs:397-424
  | .switch, .visible b => { f with visible := b }
  | .switch, .loading b => { f with loading := b }
  | .switch, .disabled b => { f with disabled := b }
  | .switch, _ => f
  -- loading_indicator.rs:172-188, 204-209
  | .loadingIndicator, .visible b => { f with visible := b }
  | .loadingIndicator, c => callClasses f c
  | .placeholder, c | .ruler, c | .scrollable, c => callClasses f c
  | .container, c => callContainer f c
  -- option_list.rs:444-462, 496-498, header.rs:841-859, 889-891: built from a container
  | .optionList, .visible b | .header, .visible b => callContainer f (.visible b)
  | .optionList, .loading b | .header, .loading b => callContainer f (.loading b)
  | .optionList, .disabled b | .header, .disabled b => callContainer f (.disabled b)
  | .optionList, .addClass c | .header, .addClass c => callContainer f (.addClass c)
  | .optionList, _ | .header, _ => f
  -- macros.rs:143-161, built from a container: only these calls are handed on
  | .vertical, .visible b | .horizontal, .visible b => callContainer f (.visible b)
  | .vertical, .loading b | .horizontal, .loading b => callContainer f (.loading b)
  | .vertical, .disabled b | .horizontal, .disabled b => callContainer f (.disabled b)
  | .vertical, _ | .horizontal, _ => f
  -- vertical_scroll.rs:180-198, horizontal_scroll.rs:183-201, built from a scrollable container
  | .verticalScroll, .visible b | .horizontalScroll, .visible b => callClasses f (.visible b)
  | .verticalScroll, .loading b | .horizontalScroll, .loading b => callClasses f (.loading b)
  | .verticalScroll, .disabled b | .horizontalScroll, .disabled b => callClasses f (.disabled b)
  | .verticalScroll, _ | .horizontalScroll, _ => f
  -- command_palette.rs:1839-1844, 1917-1919: built from a container
  | .palette, .visible b => { f with visible := b }
  | .palette, .addClass c => callContainer f (.addClass c)
  | .palette, _ => f
  -- containers/grid.rs:217, item_grid.rs:137, containers.rs:132, 274, screen.rs:485, tooltip.rs:54: defaults only
  | .grid, _ | .itemGrid, _ | .center, _ | .middle, _ | .screen, _ | .tooltip, _ => f

/-- A history of calls. -/
def run (k : Kind) (f : Fields) (cs : List Call) : Fields := cs.foldl (call k) f

/-- What the widget answers: `is_visible`, `is_loading`, `is_disabled`, `tooltip`, `border_title`, `border_subtitle`
(widget.rs:204-207, 339-341, 363-376, 474-481). -/
structure Answers where
  visible : Bool
  loading : Bool
  disabled : Bool
  tip : Option String
  title : Option String
  subtitle : Option String
deriving DecidableEq, Repr

/-- `Static`: static_widget.rs:933-943, 1039-1041; visibility and loading are the defaults (widget.rs:339-341, 363-365). -/
def askStatic (f : Fields) : Answers := ⟨true, false, f.disabled, f.tip, f.title, f.subtitle⟩

/-- `Container`: container.rs:1621-1627; the rest are the defaults (widget.rs:204-206, 339-341, 363-375). -/
def askContainer (f : Fields) : Answers := ⟨true, false, false, none, f.title, f.subtitle⟩

/-- The defaults of the trait: widget.rs:204-206, 339-341, 363-375, 474-481. -/
def askDefault : Answers := ⟨true, false, false, none, none, none⟩

/-- The answers of a widget, with the same division into own, handed on and default methods as `call`. -/
def ask (k : Kind) (f : Fields) : Answers :=
  match k with
  | .static => askStatic f
  | .label => { askStatic f with tip := none }
  | .button | .input | .headerTitle => { askStatic f with tip := none, title := none, subtitle := none }
  | .headerIcon => { askStatic f with tip := f.tip, title := none, subtitle := none }
  | .switch => { askDefault with visible := f.visible, loading := f.loading, disabled := f.disabled }
  | .loadingIndicator | .palette | .tooltip => { askDefault with visible := f.visible }
  | .container => askContainer f
  | .optionList | .header | .vertical | .horizontal => { askContainer f with title := none, subtitle := none }
  | .placeholder | .ruler | .scrollable | .verticalScroll | .horizontalScroll
  | .grid | .itemGrid | .center | .middle | .screen => askDefault

/-- `has_class`: static_widget.rs:1022-1024, container.rs:1666-1668, scrollable.rs:879-881, placeholder.rs:645-647,
ruler.rs:297-299, loading_indicator.rs:218-220 and the widgets handing the call on; elsewhere the default
(widget.rs:547-549). -/
def hasClass (k : Kind) (f : Fields) (c : String) : Bool :=
  match k with
  | .static | .label | .button | .input | .headerTitle | .headerIcon | .loadingIndicator | .placeholder | .ruler
  | .scrollable | .container | .optionList | .header | .palette => f.classes.any (· == c)
  | .switch | .vertical | .horizontal | .verticalScroll | .horizontalScroll
  | .grid | .itemGrid | .center | .middle | .screen | .tooltip => false

/-- widget.rs:352-355 `participates_in_layout`, which no widget changes; `shown` says that the style does not have
`display: none`. -/
def participates (k : Kind) (f : Fields) (shown : Bool) : Bool := (ask k f).visible && shown

end Textual.Settings
