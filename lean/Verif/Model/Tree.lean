/-!
Model of `/repo/crates/textual/src/tree.rs` (lines 1-1124): the widget tree, the focus index with its
cached path, the query functions, message bubbling and the tree-wide walks; together with the trait
methods of `widget.rs` they call and their implementations in the containers.

A widget is a node with the answers it gives to the trait's questions (`Attrs`) and its children.  What
the trait methods do depends on the kind of widget only:

* `leaf`: every widget that keeps the default `count_focusable`, `clear_focus` and `focus_nth`
  (widget.rs:381-401) and the default `child_count` (widget.rs:407): Static, Label, Input, OptionList,
  Tooltip, Placeholder, ….  Its children, if any, are reached by `for_each_child` only (OptionList).
* `press`: Switch and Button, whose `focus_nth` does not ask `is_focusable` (switch.rs:299-306,
  button.rs:533-540).
* `container`: Container, Grid, ItemGrid, ScrollableContainer and their wrappers (container.rs:1571-1619,
  grid.rs:420-468, item_grid.rs:301-349, scrollable.rs:1380-1419, macros.rs:163-189).
* `wrapper`: Center and Middle (containers.rs:179-221, 321-363), which hold exactly one child.
* `screen` (screen.rs:1164-1203), `app` (app_widget.rs:219-258): containers that also forward messages.
* `palette`: CommandPalette (command_palette.rs:1820-1887), focused as a whole although its children are
  exposed.

Not modelled: widgets written by users that override these methods in another way, and downcasting
(`query_one_as` is `query_one` with an extra test, passed as a predicate).
-/

namespace Textual.Tree

/-- Which implementation of the tree methods a widget has (see the module comment). The trait is widget.rs:37. -/
inductive Kind
  | leaf | press | container | wrapper | screen | app | palette
deriving DecidableEq, Repr

/-- What a widget answers to the trait's questions: `id` widget.rs:430, `type_name` widget.rs:438,
`is_visible` widget.rs:339, `get_style().display != None` widget.rs:354, `is_focusable` widget.rs:328,
`is_focused` widget.rs:242, the HOVER state widget.rs:96, `tooltip` widget.rs:204, the pending action
widget.rs:320, `classes` widget.rs:570, `is_disabled` widget.rs:373. -/
structure Attrs where
  id : Option String := none
  typeName : String := "Static"
  visible : Bool := true
  displayed : Bool := true
  focusable : Bool := false
  focused : Bool := false
  hovered : Bool := false
  tooltip : Option String := none
  action : Option String := none
  classes : List String := []
  disabled : Bool := false
deriving DecidableEq, Repr

/-- widget.rs:36-600 `Widget`, as a tree. -/
inductive W
  | node (kind : Kind) (attrs : Attrs) (children : List W)

namespace W

/-- The kind of a widget; see widget.rs:37. -/
def kind : W → Kind | node k _ _ => k
/-- The answers of a widget; see widget.rs:37. -/
def attrs : W → Attrs | node _ a _ => a
/-- The children of a widget; see widget.rs:84. -/
def children : W → List W | node _ _ cs => cs

/-- widget.rs:352-355 `participates_in_layout`. -/
def participates (w : W) : Bool := w.attrs.visible && w.attrs.displayed

/-- widget.rs:407-416 `child_count` and `get_child_mut`: the children that can be reached by index. -/
def exposed : W → List W
  | node .leaf _ _ => []
  | node .press _ _ => []
  | node _ _ cs => cs

/-- The attributes after `set_focus` (switch.rs:258-263, button.rs:542-547, input.rs:336-341). -/
def setFocus (on : Bool) : W → W
  | node k a cs => node k { a with focused := on } cs

/-! ### Focus methods -/

mutual
/-- `count_focusable`: widget.rs:381-385, container.rs:1571-1577, containers.rs:179-184,
screen.rs:1174-1180, app_widget.rs:228-234, command_palette.rs:1861-1863. -/
def countFocusable : W → Nat
  | node .leaf a _ => if a.focusable then 1 else 0
  | node .press a _ => if a.focusable then 1 else 0
  | node .palette a _ => if a.focusable then 1 else 0
  | node .wrapper _ (c :: _) => if c.attrs.visible then countFocusable c else 0
  | node .wrapper _ [] => 0
  | node .container _ cs => countParticipating cs
  | node .screen _ cs => countParticipating cs
  | node .app _ cs => countParticipating cs
/-- container.rs:1572-1576: the sum over the children that participate in the layout. -/
def countParticipating : List W → Nat
  | [] => 0
  | c :: cs => (if c.participates then countFocusable c else 0) + countParticipating cs
end

mutual
/-- `clear_focus`: widget.rs:388-390, container.rs:1579-1585, containers.rs:186-190,
screen.rs:1196-1202, app_widget.rs:251-257, command_palette.rs:1865-1867. -/
def clearFocus : W → W
  | node .leaf a cs => node .leaf { a with focused := false } cs
  | node .press a cs => node .press { a with focused := false } cs
  | node .palette a cs => node .palette { a with focused := false } cs
  | node .wrapper a (c :: cs) => node .wrapper a ((if c.attrs.visible then clearFocus c else c) :: cs)
  | node .wrapper a [] => node .wrapper a []
  | node .container a cs => node .container a (clearParticipating cs)
  | node .screen a cs => node .screen a (clearParticipating cs)
  | node .app a cs => node .app a (clearParticipating cs)
/-- container.rs:1580-1584: the loop over the children. -/
def clearParticipating : List W → List W
  | [] => []
  | c :: cs => (if c.participates then clearFocus c else c) :: clearParticipating cs
end

mutual
/-- `focus_nth`: widget.rs:394-402 (default), switch.rs:299-306, button.rs:533-540,
container.rs:1587-1599, containers.rs:192-197, screen.rs:1182-1194, app_widget.rs:236-249,
command_palette.rs:1869-1879. -/
def focusNth : W → Nat → W × Bool
  | node .leaf a cs, n =>
    if a.focusable ∧ n = 0 then (node .leaf { a with focused := true } cs, true) else (node .leaf a cs, false)
  | node .press a cs, n =>
    if n = 0 then (node .press { a with focused := true } cs, true) else (node .press a cs, false)
  | node .palette a cs, n =>
    if a.focusable ∧ n = 0 then (node .palette { a with focused := true } cs, true)
    else (node .palette a cs, false)
  | node .wrapper a (c :: cs), n =>
    if c.attrs.visible then
      let r := focusNth c n
      (node .wrapper a (r.1 :: cs), r.2)
    else (node .wrapper a (c :: cs), false)
  | node .wrapper a [], _ => (node .wrapper a [], false)
  | node .container a cs, n => let r := focusNthIn cs n; (node .container a r.1, r.2)
  | node .screen a cs, n => let r := focusNthIn cs n; (node .screen a r.1, r.2)
  | node .app a cs, n => let r := focusNthIn cs n; (node .app a r.1, r.2)
/-- container.rs:1588-1598: the loop over the children. -/
def focusNthIn : List W → Nat → List W × Bool
  | [], _ => ([], false)
  | c :: cs, n =>
    if c.participates then
      if n < countFocusable c then
        let r := focusNth c n
        (r.1 :: cs, r.2)
      else
        let r := focusNthIn cs (n - countFocusable c)
        (c :: r.1, r.2)
    else
      let r := focusNthIn cs n
      (c :: r.1, r.2)
end

mutual
/-- tree.rs:528-554 `find_focus_path_recursive`: the path if the widget was found, and the number of
focusable widgets still to skip. -/
def findFocusPath : W → Nat → Option (List Nat) × Nat
  | node k a cs, remaining =>
    if a.focusable ∧ remaining = 0 then (some [], remaining)
    else
      let remaining := if a.focusable then remaining - 1 else remaining
      match k with
      | .leaf => (none, remaining)
      | .press => (none, remaining)
      | _ => findFocusPathIn 0 cs remaining
/-- tree.rs:542-551: the loop over the children. -/
def findFocusPathIn : Nat → List W → Nat → Option (List Nat) × Nat
  | _, [], remaining => (none, remaining)
  | i, c :: cs, remaining =>
    match findFocusPath c remaining with
    | (some p, r) => (some (i :: p), r)
    | (none, r) => findFocusPathIn (i + 1) cs r
end

mutual
/-- tree.rs:557-581 `find_focus_index_by_id`: the index if found, and the counter. -/
def findFocusIndexById : W → String → Nat → Option Nat × Nat
  | node k a cs, id, index =>
    if !(a.visible && a.displayed) then (none, index)
    else if a.focusable ∧ a.id = some id then (some index, index)
    else
      let index := if a.focusable then index + 1 else index
      match k with
      | .leaf => (none, index)
      | .press => (none, index)
      | _ => findFocusIndexByIdIn cs id index
/-- tree.rs:572-579: the loop over the children. -/
def findFocusIndexByIdIn : List W → String → Nat → Option Nat × Nat
  | [], _, index => (none, index)
  | c :: cs, id, index =>
    match findFocusIndexById c id index with
    | (some i, n) => (some i, n)
    | (none, n) => findFocusIndexByIdIn cs id n
end

/-- tree.rs:191-196, 515-520: the widget at the end of a path of child indices. -/
def at? : W → List Nat → Option W
  | w, [] => some w
  | w, i :: p => match w.exposed[i]? with
    | some c => at? c p
    | none => none

/-! ### Queries -/

mutual
/-- tree.rs:724-746 `find_and_apply_by_selector`, 587-605 `find_and_apply_by_id`, 611-629
`find_and_apply_by_type`, 1101-1125 `find_first_filtered`: `f` on the first match; whether there was
one. -/
def applyFirst (test : Attrs → Bool) (f : Attrs → Attrs) : W → W × Bool
  | node k a cs =>
    if test a then (node k (f a) cs, true)
    else match k with
      | .leaf => (node k a cs, false)
      | .press => (node k a cs, false)
      | _ => let r := applyFirstIn test f cs; (node k a r.1, r.2)
/-- tree.rs:737-744: the loop over the children. -/
def applyFirstIn (test : Attrs → Bool) (f : Attrs → Attrs) : List W → List W × Bool
  | [] => ([], false)
  | c :: cs =>
    let r := applyFirst test f c
    if r.2 then (r.1 :: cs, true)
    else
      let rest := applyFirstIn test f cs
      (r.1 :: rest.1, rest.2)
end

mutual
/-- tree.rs:794-810 `find_all_and_apply`, 813-835 `find_all_and_apply_filtered`. -/
def applyAll (test : Attrs → Bool) (f : Attrs → Attrs) : W → W
  | node k a cs =>
    let a' := if test a then f a else a
    match k with
    | .leaf => node k a' cs
    | .press => node k a' cs
    | _ => node k a' (applyAllIn test f cs)
/-- tree.rs:804-809: the loop over the children. -/
def applyAllIn (test : Attrs → Bool) (f : Attrs → Attrs) : List W → List W
  | [] => []
  | c :: cs => applyAll test f c :: applyAllIn test f cs
end

mutual
/-- tree.rs:799-801, 927-931 `DOMQuery::count`: the number of calls of the closure. -/
def countAll (test : Attrs → Bool) : W → Nat
  | node k a cs =>
    (if test a then 1 else 0) + match k with
      | .leaf => 0
      | .press => 0
      | _ => countAllIn test cs
/-- tree.rs:804-809: the loop over the children. -/
def countAllIn (test : Attrs → Bool) : List W → Nat
  | [] => 0
  | c :: cs => countAll test c + countAllIn test cs
end

mutual
/-- tree.rs:1052-1070 `collect_matching_paths`, 1075-1096 `collect_matching_paths_filtered`. -/
def matchingPaths (test : Attrs → Bool) : W → List (List Nat)
  | node k a cs =>
    (if test a then [[]] else []) ++ match k with
      | .leaf => []
      | .press => []
      | _ => matchingPathsIn test 0 cs
/-- tree.rs:1062-1069: the loop over the children. -/
def matchingPathsIn (test : Attrs → Bool) : Nat → List W → List (List Nat)
  | _, [] => []
  | i, c :: cs => (matchingPaths test c).map (i :: ·) ++ matchingPathsIn test (i + 1) cs
end

/-- `f` on the attributes of the widget at a path (tree.rs:989-994: navigate, then call the closure). -/
def modifyAt (f : Attrs → Attrs) : W → List Nat → W
  | node k a cs, [] => node k (f a) cs
  | node k a cs, i :: p => match k with
    | .leaf => node k a cs
    | .press => node k a cs
    | _ => node k a (cs.modify i (modifyAt f · p))

/-- tree.rs:964-999 `DOMQuery::last`. -/
def applyLast (test : Attrs → Bool) (f : Attrs → Attrs) (w : W) : W × Bool :=
  match (matchingPaths test w).getLast? with
  | some p => (modifyAt f w p, true)
  | none => (w, false)

/-! ### Walks over the whole tree -/

mutual
/-- tree.rs:459-473 `collect_pending_actions_mut` with `take_pending_action`: the actions, and the tree
without them. -/
def collectActions : W → List String × W
  | node k a cs =>
    let r := collectActionsIn cs
    (a.action.toList ++ r.1, node k { a with action := none } r.2)
/-- tree.rs:468-470: the loop over `for_each_child`. -/
def collectActionsIn : List W → List String × List W
  | [] => ([], [])
  | c :: cs =>
    let r := collectActions c
    let rest := collectActionsIn cs
    (r.1 ++ rest.1, r.2 :: rest.2)
end

mutual
/-- tree.rs:479-487 `clear_all_hover`: `clear_hover` resets the widget's own flag (switch.rs:374-379,
button.rs:512-517); the recursion into the children that containers add (container.rs:1601-1607) does
what the walk does anyway. -/
def clearAllHover : W → W
  | node k a cs => node k { a with hovered := false } (clearAllHoverIn cs)
/-- tree.rs:484-486: the loop over `for_each_child`. -/
def clearAllHoverIn : List W → List W
  | [] => []
  | c :: cs => clearAllHover c :: clearAllHoverIn cs
end

mutual
/-- tree.rs:490-505 `find_hovered_tooltip_mut`. -/
def hoveredTooltip : W → Option String
  | node _ a cs =>
    if a.hovered then
      match a.tooltip with
      | some t => some t
      | none => hoveredTooltipIn cs
    else hoveredTooltipIn cs
/-- tree.rs:497-502: the loop over `for_each_child`, which keeps the first answer. -/
def hoveredTooltipIn : List W → Option String
  | [] => none
  | c :: cs => match hoveredTooltip c with
    | some t => some t
    | none => hoveredTooltipIn cs
end

end W

/-! ### The tree with its focus -/

/-- tree.rs:61-68 `WidgetTree`. -/
structure WidgetTree where
  root : W
  path : List Nat := []
  index : Nat := 0

namespace WidgetTree

/-- tree.rs:171-182 `update_focus`. -/
def updateFocus (t : WidgetTree) (n : Nat) : WidgetTree :=
  if n = t.index ∧ t.path ≠ [] then t
  else { root := t.root, index := n, path := (t.root.findFocusPath n).1.getD [] }

/-- tree.rs:115-133 `set_focus_index`. -/
def setFocusIndex (t : WidgetTree) (n : Nat) : WidgetTree × Bool :=
  let count := t.root.countFocusable
  if count = 0 then ({ root := t.root.clearFocus, path := [], index := 0 }, false)
  else if n ≥ count then (t, false)
  else
    let r := t.root.clearFocus.focusNth n
    if r.2 then (updateFocus { t with root := r.1 } n, true)
    else ({ t with root := r.1 }, false)

/-- tree.rs:136-147 `focus_next`. -/
def focusNext (t : WidgetTree) : WidgetTree × Option Nat :=
  let count := t.root.countFocusable
  if count = 0 then (t, none)
  else
    let next := (t.index + 1) % count
    let r := t.setFocusIndex next
    (r.1, if r.2 then some next else none)

/-- tree.rs:150-165 `focus_previous`. -/
def focusPrevious (t : WidgetTree) : WidgetTree × Option Nat :=
  let count := t.root.countFocusable
  if count = 0 then (t, none)
  else
    let prev := if t.index = 0 then count - 1 else t.index - 1
    let r := t.setFocusIndex prev
    (r.1, if r.2 then some prev else none)

/-- tree.rs:106-112 `focus_by_id`. -/
def focusById (t : WidgetTree) (id : String) : WidgetTree × Bool :=
  match (t.root.findFocusIndexById id 0).1 with
  | some n => t.setFocusIndex n
  | none => (t, false)

/-- tree.rs:187-199, 204-206 `with_focused`, `dispatch_key`: the widget that gets the keys. -/
def target (t : WidgetTree) : Option W := t.root.at? t.path

/-- lib.rs:792-801: the event loop's test before each frame; a focused widget that can no longer have
the focus gives it up to the first one that can. -/
def fallback (t : WidgetTree) : WidgetTree :=
  match t.target with
  | some w => if w.attrs.focusable then t else (t.setFocusIndex 0).1
  | none => t

end WidgetTree

/-! ### Simple selectors -/

/-- tree.rs:642-647 `SimpleSelector`. -/
structure SimpleSelector where
  typeName : Option String
  id : Option String
deriving DecidableEq, Repr

/-- tree.rs:651-668 `SimpleSelector::matches`. -/
def SimpleSelector.matches (s : SimpleSelector) (a : Attrs) : Bool :=
  if s.typeName.isSome ∧ s.typeName ≠ some a.typeName then false
  else if s.id.isSome ∧ s.id ≠ a.id then false
  else s.typeName.isSome || s.id.isSome

/-- `str::trim`: `ws` is `char::is_whitespace`. Used at tree.rs:678. -/
def trim (ws : Char → Bool) (s : List Char) : List Char :=
  ((s.dropWhile ws).reverse.dropWhile ws).reverse

/-- tree.rs:677-718 `parse_simple_selector` on the characters of the selector. -/
def parseSelector (ws : Char → Bool) (s : List Char) : SimpleSelector :=
  let s := trim ws s
  match s with
  | [] => ⟨none, none⟩
  | '#' :: id => ⟨none, some (String.ofList id)⟩
  | _ =>
    if '#' ∈ s then
      let ty := s.takeWhile (· ≠ '#')
      let id := (s.dropWhile (· ≠ '#')).drop 1
      ⟨if ty = [] then none else some (String.ofList ty), if id = [] then none else some (String.ofList id)⟩
    else ⟨some (String.ofList s), none⟩

/-! ### Messages -/

/-- message.rs:14-31 `MessageEnvelope`. -/
structure Envelope (M : Type) where
  message : M
  senderId : Option String
  senderType : String
  bubbling : Bool := true

/-- A widget's own `handle_message` (widget.rs:422-424): it may change the envelope and may return a new
message.  The state a handler keeps in its widget is not modelled. -/
abbrev Handler (M : Type) := Attrs → Envelope M → Envelope M × Option M

mutual
/-- `handle_message` of a widget: its own handler, except that the screen asks its children until one
answers (screen.rs:1164-1171), the application asks all of them and keeps the last answer
(app_widget.rs:219-225), and the palette and the label forward to a widget that does nothing
(command_palette.rs:1889).  The first component lists the widgets whose own handler ran. -/
def handle {M : Type} (h : Handler M) : W → Envelope M → List Attrs × Envelope M × Option M
  | .node .screen _ cs, e => handleFirst h cs e
  | .node .app _ cs, e => handleLast h cs e none
  | .node .palette _ _, e => ([], e, none)
  | .node .leaf a _, e => let r := h a e; ([a], r.1, r.2)
  | .node .press a _, e => let r := h a e; ([a], r.1, r.2)
  | .node .container a _, e => let r := h a e; ([a], r.1, r.2)
  | .node .wrapper a _, e => let r := h a e; ([a], r.1, r.2)
/-- screen.rs:1165-1170. -/
def handleFirst {M : Type} (h : Handler M) : List W → Envelope M → List Attrs × Envelope M × Option M
  | [], e => ([], e, none)
  | c :: cs, e =>
    match handle h c e with
    | (tr, e', some m) => (tr, e', some m)
    | (tr, e', none) => let r := handleFirst h cs e'; (tr ++ r.1, r.2)
/-- app_widget.rs:220-224. -/
def handleLast {M : Type} (h : Handler M) : List W → Envelope M → Option M →
    List Attrs × Envelope M × Option M
  | [], e, m => ([], e, m)
  | c :: cs, e, _ =>
    let r := handle h c e
    let rest := handleLast h cs r.2.1 r.2.2
    (r.1 ++ rest.1, rest.2)
end

/-- tree.rs:510-522 `navigate_and_handle`. -/
def navigateAndHandle {M : Type} (h : Handler M) (w : W) (p : List Nat) (e : Envelope M) :
    List Attrs × Envelope M × Option M :=
  match w.at? p with
  | some c => handle h c e
  | none => ([], e, none)

/-- tree.rs:416-430 `bubble_message`, the loop over the depths `depth, depth - 1, …, 0` below the
widget at `path`. -/
def bubbleLoop {M : Type} (h : Handler M) (root : W) (path : List Nat) : Nat → Envelope M →
    List Attrs × Envelope M
  | 0, e => ([], e)
  | depth + 1, e =>
    if e.bubbling then
      let r := navigateAndHandle h root (path.take depth) e
      let e' := match r.2.2 with
        | some m => { r.2.1 with message := m }
        | none => r.2.1
      let rest := bubbleLoop h root path depth e'
      (r.1 ++ rest.1, rest.2)
    else ([], e)

/-- tree.rs:410-433 `bubble_message`. -/
def WidgetTree.bubble {M : Type} (h : Handler M) (t : WidgetTree) (e : Envelope M) :
    List Attrs × Envelope M :=
  bubbleLoop h t.root t.path t.path.length e

end Textual.Tree
