/-!
Model of the `Widget` trait of `/repo/crates/textual/src/widget.rs` as calls with default bodies, and of the widgets that
are made of another one and pass calls on to it: `label.rs`, `header.rs`, `vertical_scroll.rs`, `horizontal_scroll.rs` and
parts of `command_palette.rs`. What the inner widget does is left open.
-/

namespace Textual.Wrap

/-- widget.rs:37-574: the methods of `Widget`. -/
inductive Method where
  | render | desiredSize | intrinsicHeightForWidth | contentHeightForScroll | contentWidthForScroll | forEachChild
  | onResize | getState | getMeta | defaultCss | baseWidgetCss | setStyle
  | getStyle | setInlineStyle | tooltip | setTooltip | inlineStyle | clearInlineStyle
  | preLayout | setFocus | isFocused | isDirty | markDirty | markClean
  | onEvent | onMouse | onMouseWithSender | blocksMouseEvents | setHover | setActive
  | clearHover | takePendingAction | isFocusable | isVisible | participatesInLayout | setVisible
  | isLoading | setLoading | isDisabled | setDisabled | countFocusable | clearFocus
  | focusNth | childCount | getChildMut | handleMessage | id | typeName
  | senderInfo | setBorderTitle | setBorderSubtitle | borderTitle | borderSubtitle | asAny
  | asAnyMut | addClass | removeClass | toggleClass | hasClass | setClass
  | setClasses | classes
deriving DecidableEq, Repr

/-- Arguments of a call, as far as default bodies look at them; `rest` stands for all else (events, regions, styles).
The methods are those of widget.rs:37-574. -/
structure Arg where
  width : Nat := 0
  height : Nat := 0
  flag : Bool := false
  text : String := ""
  rest : Nat := 0
deriving DecidableEq, Repr

/-- Answers; `other` stands for those no default body looks at. The methods are those of widget.rs:37-574. -/
inductive Value where
  | unit
  | flag (b : Bool)
  | count (n : Nat)
  | size (w h : Nat)
  | text (s : Option String)
  | texts (l : List String)
  | states (focus disabled : Bool)
  | meta_ (type : String) (id : Option String) (states : Value)
  | style (displayed : Bool) (rest : Nat)
  | msg (m : Option Nat)
  | sent (m : Option (Nat × Option String × String))
  | sender (id : Option String) (type : String)
  | other (n : Nat)
deriving DecidableEq, Repr

/-- The answer read as a default body of widget.rs:37-574 reads it. -/
def Value.isTrue : Value → Bool
  | .flag b => b
  | _ => false

/-- The answer read as a default body of widget.rs:37-574 reads it. -/
def Value.str : Value → Option String
  | .text s => s
  | _ => none

/-- The answer read as a default body of widget.rs:37-574 reads it. -/
def Value.displayed : Value → Bool
  | .style b _ => b
  | _ => true

/-- The answer read as a default body of widget.rs:37-574 reads it. -/
def Value.width : Value → Nat
  | .size w _ => w
  | _ => 0

/-- The answer read as a default body of widget.rs:37-574 reads it. -/
def Value.height : Value → Nat
  | .size _ h => h
  | _ => 0

/-- A method body that calls other methods of the same widget. The bodies are those of widget.rs:37-574. -/
inductive Prog where
  | ret (v : Value)
  | call (m : Method) (a : Arg) (k : Value → Prog)

/-- The default bodies; `name` is the simple type name (widget.rs:108-126, 438-448).
`on_mouse_with_sender` widget.rs:281-288, `intrinsic_height_for_width` 48-50, `content_height_for_scroll` 59-66,
`content_width_for_scroll` 75-82, `get_state` 96-105, `participates_in_layout` 352-355, `count_focusable` 381-385,
`clear_focus` 388-390, `focus_nth` 394-402, `sender_info` 450-455, `toggle_class` 536-542, `set_class` 554-560;
the others are constants (widget.rs:84-573). `render` and `desired_size` have no default. -/
def default (name : String) : Method → Arg → Prog
  | .intrinsicHeightForWidth, _ => .call .desiredSize {} fun s => .ret (.count s.height)
  | .contentHeightForScroll, a => .call .desiredSize {} fun s => .ret (.count (if s.height = 65535 then a.height else s.height))
  | .contentWidthForScroll, a => .call .desiredSize {} fun s => .ret (.count (if s.width = 65535 then a.width else s.width))
  | .getState, _ => .call .isFocused {} fun f => .call .isDisabled {} fun d => .ret (.states f.isTrue d.isTrue)
  | .getMeta, _ => .call .id {} fun i => .call .getState {} fun s => .ret (.meta_ name i.str s)
  | .defaultCss, _ => .ret (.text (some ""))
  | .baseWidgetCss, _ => .ret (.other 1)
  | .getStyle, _ => .ret (.style true 0)
  | .tooltip, _ => .ret (.text none)
  | .isFocused, _ => .ret (.flag false)
  | .isDirty, _ => .ret (.flag false)
  | .onEvent, _ => .ret (.msg none)
  | .onMouse, _ => .ret (.msg none)
  | .onMouseWithSender, a => .call .onMouse a fun r => match r with
    | .msg (some m) => .call .senderInfo {} fun s => match s with
      | .sender i t => .ret (.sent (some (m, i, t)))
      | _ => .ret (.sent none)
    | _ => .ret (.sent none)
  | .blocksMouseEvents, _ => .ret (.flag false)
  | .setHover, _ => .ret (.flag false)
  | .setActive, _ => .ret (.flag false)
  | .takePendingAction, _ => .ret (.text none)
  | .isFocusable, _ => .ret (.flag false)
  | .isVisible, _ => .ret (.flag true)
  | .participatesInLayout, _ => .call .isVisible {} fun v =>
    if v.isTrue then .call .getStyle {} fun s => .ret (.flag s.displayed) else .ret (.flag false)
  | .isLoading, _ => .ret (.flag false)
  | .isDisabled, _ => .ret (.flag false)
  | .countFocusable, _ => .call .isFocusable {} fun f => .ret (.count (if f.isTrue then 1 else 0))
  | .clearFocus, _ => .call .setFocus { flag := false } fun _ => .ret .unit
  | .focusNth, a => .call .isFocusable {} fun f =>
    if f.isTrue then if a.rest = 0 then .call .setFocus { flag := true } fun _ => .ret (.flag true) else .ret (.flag false)
    else .ret (.flag false)
  | .childCount, _ => .ret (.count 0)
  | .getChildMut, _ => .ret (.msg none)
  | .handleMessage, _ => .ret (.msg none)
  | .id, _ => .ret (.text none)
  | .typeName, _ => .ret (.text (some name))
  | .senderInfo, _ => .call .id {} fun i => .call .typeName {} fun t => .ret (.sender i.str (t.str.getD ""))
  | .borderTitle, _ => .ret (.text none)
  | .borderSubtitle, _ => .ret (.text none)
  | .asAny, _ => .ret (.msg none)
  | .asAnyMut, _ => .ret (.msg none)
  | .toggleClass, a => .call .hasClass { text := a.text } fun h =>
    if h.isTrue then .call .removeClass { text := a.text } fun _ => .ret .unit
    else .call .addClass { text := a.text } fun _ => .ret .unit
  | .hasClass, _ => .ret (.flag false)
  | .setClass, a => if a.flag then .call .addClass { text := a.text } fun _ => .ret .unit
    else .call .removeClass { text := a.text } fun _ => .ret .unit
  | .classes, _ => .ret (.texts [])
  | _, _ => .ret .unit

/-- A widget: its type name and the methods it implements itself. An implementation of the trait of widget.rs:37. -/
structure Impl (S : Type) where
  name : String
  own : Method → Option (Arg → S → S × Value)

/-- Running a body. The bodies are those of widget.rs:37-574. -/
def exec {S : Type} (call : Method → Arg → S → S × Value) : Prog → S → S × Value
  | .ret v, s => (s, v)
  | .call m a k, s => exec call (k (call m a s).2) (call m a s).1

/-- One method: the widget's own, or else the default. See widget.rs:37. -/
def step {S : Type} (i : Impl S) (call : Method → Arg → S → S × Value) (m : Method) (a : Arg) (s : S) : S × Value :=
  match i.own m with
  | some f => f a s
  | none => exec call (default i.name m a) s

/-- Calling a method. Default bodies are at most three deep (`call_eq` in `Props/Wrap.lean`). -/
def Impl.call {S : Type} (i : Impl S) : Method → Arg → S → S × Value :=
  step i (step i (step i fun _ _ s => (s, .unit)))

/-- The state after some calls. A history of calls of the methods of widget.rs:37-574. -/
def Impl.after {S : Type} (i : Impl S) (cs : List (Method × Arg)) (s : S) : S :=
  cs.foldl (fun s c => (i.call c.1 c.2 s).1) s

/-- A widget with another inside: the calls passed on to it, and the calls it answers itself without changing anything;
`T` is what it has of its own (the id and classes of `VerticalScroll`). The methods are those of widget.rs:37-574. -/
def wrap {S T : Type} (inner : Impl S) (name : String) (forwards : List Method)
    (reads : Method → Option (Arg → S × T → Value)) : Impl (S × T) where
  name := name
  own m :=
    if m ∈ forwards then some fun a st => (((inner.call m a st.1).1, st.2), (inner.call m a st.1).2)
    else (reads m).map fun f a st => (st, f a st)

/-- static_widget.rs:450-1047: the methods `Static` implements. -/
def staticOwn : List Method :=
  [.render, .desiredSize, .intrinsicHeightForWidth, .getState, .getMeta, .defaultCss, .setStyle, .getStyle,
   .setInlineStyle, .tooltip, .setTooltip, .inlineStyle, .clearInlineStyle, .isDirty, .markDirty, .markClean,
   .onEvent, .onMouse, .clearHover, .takePendingAction, .isDisabled, .setDisabled, .id, .setBorderTitle,
   .setBorderSubtitle, .borderTitle, .borderSubtitle, .asAny, .asAnyMut, .addClass, .removeClass, .hasClass,
   .setClasses, .classes]

/-- container.rs:663-1678: the methods `Container` implements. -/
def containerOwn : List Method :=
  [.render, .desiredSize, .contentHeightForScroll, .contentWidthForScroll, .forEachChild, .onResize, .getMeta,
   .defaultCss, .setStyle, .getStyle, .setInlineStyle, .inlineStyle, .clearInlineStyle, .preLayout, .isDirty,
   .markDirty, .markClean, .onEvent, .onMouse, .onMouseWithSender, .clearHover, .countFocusable, .clearFocus,
   .focusNth, .childCount, .getChildMut, .id, .setBorderTitle, .setBorderSubtitle, .borderTitle, .borderSubtitle,
   .asAny, .asAnyMut, .addClass, .removeClass, .hasClass, .setClasses, .classes]

/-- scrollable.rs:613-1429: the methods `ScrollableContainer` implements. -/
def scrollerOwn : List Method :=
  [.render, .desiredSize, .forEachChild, .onResize, .getMeta, .defaultCss, .setStyle, .getStyle, .setInlineStyle,
   .inlineStyle, .clearInlineStyle, .isDirty, .markDirty, .markClean, .onEvent, .onMouse, .onMouseWithSender,
   .clearHover, .countFocusable, .clearFocus, .focusNth, .childCount, .getChildMut, .id, .addClass, .removeClass,
   .hasClass, .setClasses, .classes]

/-- input.rs:205-418: the methods `Input` implements. -/
def inputOwn : List Method :=
  [.render, .desiredSize, .intrinsicHeightForWidth, .forEachChild, .onResize, .getState, .getMeta, .defaultCss,
   .setStyle, .getStyle, .setInlineStyle, .inlineStyle, .clearInlineStyle, .setFocus, .isFocused, .isDirty,
   .markDirty, .markClean, .onEvent, .onMouse, .isFocusable, .isVisible, .setVisible, .isLoading, .setLoading,
   .isDisabled, .setDisabled, .handleMessage, .id, .typeName, .asAny, .asAnyMut, .addClass, .removeClass, .hasClass,
   .setClasses, .classes]

/-- label.rs:215-423: what `Label` passes on. -/
def labelForwards : List Method :=
  [.render, .desiredSize, .intrinsicHeightForWidth, .forEachChild, .onResize, .getState, .setStyle, .getStyle,
   .setInlineStyle, .inlineStyle, .clearInlineStyle, .setFocus, .isFocused, .isDirty, .markDirty, .markClean,
   .onEvent, .onMouse, .setHover, .setActive, .clearHover, .takePendingAction, .isFocusable, .isVisible, .setVisible,
   .isLoading, .setLoading, .isDisabled, .setDisabled, .countFocusable, .clearFocus, .focusNth, .childCount,
   .getChildMut, .handleMessage, .id, .setBorderTitle, .setBorderSubtitle, .borderTitle, .borderSubtitle, .addClass,
   .removeClass, .hasClass, .setClasses, .classes]

/-- label.rs:215-423: what `Label` answers itself. -/
def labelReads : List Method :=
  [.getMeta, .defaultCss, .typeName, .asAny, .asAnyMut]

/-- header.rs:39-189: what `HeaderTitle` passes on. -/
def headerTitleForwards : List Method :=
  [.render, .desiredSize, .intrinsicHeightForWidth, .forEachChild, .onResize, .getState, .setStyle, .getStyle,
   .setInlineStyle, .inlineStyle, .clearInlineStyle, .isDirty, .markDirty, .markClean, .onEvent, .onMouse,
   .isFocusable, .isVisible, .setVisible, .isLoading, .setLoading, .isDisabled, .setDisabled, .handleMessage, .id,
   .addClass, .removeClass, .hasClass, .setClasses, .classes]

/-- header.rs:39-189: what `HeaderTitle` answers itself. -/
def headerTitleReads : List Method :=
  [.getMeta, .defaultCss, .typeName, .asAny, .asAnyMut]

/-- header.rs:203-348: what `HeaderClockSpace` passes on. -/
def headerClockForwards : List Method :=
  [.render, .desiredSize, .forEachChild, .onResize, .getState, .setStyle, .getStyle, .setInlineStyle, .inlineStyle,
   .clearInlineStyle, .isDirty, .markDirty, .markClean, .onEvent, .onMouse, .isFocusable, .isVisible, .setVisible,
   .isLoading, .setLoading, .isDisabled, .setDisabled, .handleMessage, .id, .addClass, .removeClass, .hasClass,
   .setClasses, .classes]

/-- header.rs:203-348: what `HeaderClockSpace` answers itself. -/
def headerClockReads : List Method :=
  [.getMeta, .defaultCss, .typeName, .asAny, .asAnyMut]

/-- command_palette.rs:54-241: what `SearchIcon` passes on. -/
def searchIconForwards : List Method :=
  [.render, .desiredSize, .forEachChild, .onResize, .getState, .setStyle, .getStyle, .setInlineStyle, .inlineStyle,
   .clearInlineStyle, .setFocus, .isFocused, .isDirty, .markDirty, .markClean, .onEvent, .onMouse,
   .onMouseWithSender, .takePendingAction, .isFocusable, .isVisible, .setVisible, .isLoading, .setLoading,
   .isDisabled, .setDisabled, .countFocusable, .clearFocus, .focusNth, .childCount, .getChildMut, .handleMessage,
   .id, .addClass, .removeClass, .hasClass, .setClasses, .classes]

/-- command_palette.rs:54-241: what `SearchIcon` answers itself. -/
def searchIconReads : List Method :=
  [.getMeta, .defaultCss, .typeName, .asAny, .asAnyMut]

/-- header.rs:747-908: what `Header` passes on. -/
def headerForwards : List Method :=
  [.render, .desiredSize, .forEachChild, .onResize, .getState, .setStyle, .getStyle, .setInlineStyle, .inlineStyle,
   .clearInlineStyle, .isDirty, .markDirty, .markClean, .onEvent, .onMouse, .onMouseWithSender, .isFocusable,
   .isVisible, .setVisible, .isLoading, .setLoading, .isDisabled, .setDisabled, .handleMessage, .id, .addClass,
   .removeClass, .hasClass, .setClasses, .classes]

/-- header.rs:747-908: what `Header` answers itself. -/
def headerReads : List Method :=
  [.getMeta, .defaultCss, .typeName, .asAny, .asAnyMut]

/-- vertical_scroll.rs:77-247: what `VerticalScroll` passes on. -/
def verticalScrollForwards : List Method :=
  [.render, .desiredSize, .forEachChild, .onResize, .getState, .setStyle, .getStyle, .setInlineStyle, .inlineStyle,
   .clearInlineStyle, .setFocus, .isFocused, .isDirty, .markDirty, .markClean, .onEvent, .onMouse,
   .onMouseWithSender, .setHover, .setActive, .clearHover, .isFocusable, .isVisible, .setVisible, .isLoading,
   .setLoading, .isDisabled, .setDisabled, .countFocusable, .clearFocus, .focusNth, .childCount, .getChildMut,
   .handleMessage]

/-- vertical_scroll.rs:77-247: what `VerticalScroll` answers itself. -/
def verticalScrollReads : List Method :=
  [.getMeta, .defaultCss, .id, .typeName]

/-- horizontal_scroll.rs:75-250: what `HorizontalScroll` passes on. -/
def horizontalScrollForwards : List Method :=
  [.render, .desiredSize, .forEachChild, .onResize, .getState, .setStyle, .getStyle, .setInlineStyle, .inlineStyle,
   .clearInlineStyle, .setFocus, .isFocused, .isDirty, .markDirty, .markClean, .onEvent, .onMouse,
   .onMouseWithSender, .setHover, .setActive, .clearHover, .isFocusable, .isVisible, .setVisible, .isLoading,
   .setLoading, .isDisabled, .setDisabled, .countFocusable, .clearFocus, .focusNth, .childCount, .getChildMut,
   .handleMessage]

/-- horizontal_scroll.rs:75-250: what `HorizontalScroll` answers itself. -/
def horizontalScrollReads : List Method :=
  [.getMeta, .defaultCss, .id, .typeName]

/-- command_palette.rs:274-463: what `CommandInput` passes on. -/
def commandInputForwards : List Method :=
  [.render, .desiredSize, .forEachChild, .onResize, .getState, .setStyle, .getStyle, .setInlineStyle, .inlineStyle,
   .clearInlineStyle, .setFocus, .isFocused, .isDirty, .markDirty, .markClean, .onEvent, .onMouse,
   .onMouseWithSender, .takePendingAction, .isFocusable, .isVisible, .setVisible, .isLoading, .setLoading,
   .isDisabled, .setDisabled, .countFocusable, .clearFocus, .focusNth, .childCount, .getChildMut, .handleMessage,
   .id, .addClass, .removeClass, .hasClass, .setClasses, .classes]

/-- command_palette.rs:274-463: what `CommandInput` answers itself. -/
def commandInputReads : List Method :=
  [.getMeta, .defaultCss, .typeName, .asAny, .asAnyMut]

/-- option_list.rs:294-515: the methods `OptionList` implements. -/
def optionListOwn : List Method :=
  [.render, .desiredSize, .intrinsicHeightForWidth, .forEachChild, .onResize, .getState, .getMeta, .defaultCss,
   .setStyle, .getStyle, .setInlineStyle, .inlineStyle, .clearInlineStyle, .setFocus, .isFocused, .isDirty,
   .markDirty, .markClean, .onEvent, .onMouse, .isFocusable, .isVisible, .setVisible, .isLoading, .setLoading,
   .isDisabled, .setDisabled, .handleMessage, .id, .typeName, .asAny, .asAnyMut, .addClass, .removeClass, .hasClass,
   .setClasses, .classes]

/-- command_palette.rs:492-717: what `CommandList` passes on. -/
def commandListForwards : List Method :=
  [.render, .desiredSize, .forEachChild, .onResize, .getState, .setStyle, .getStyle, .setInlineStyle, .inlineStyle,
   .clearInlineStyle, .isDirty, .markDirty, .markClean, .onEvent, .onMouse, .onMouseWithSender, .takePendingAction,
   .isVisible, .setVisible, .isLoading, .setLoading, .isDisabled, .setDisabled, .childCount, .getChildMut,
   .handleMessage, .id, .addClass, .removeClass, .hasClass, .setClasses, .classes]

/-- command_palette.rs:492-717: what `CommandList` answers itself. -/
def commandListReads : List Method :=
  [.getMeta, .defaultCss, .setFocus, .isFocused, .isFocusable, .countFocusable, .clearFocus, .focusNth, .typeName,
   .asAny, .asAnyMut]

end Textual.Wrap
