import Verif.Model.Markup

/-!
Model of `/repo/crates/textual/src/widget/option_list.rs`: a list of options with a selected one.

Options are lists of characters.  The `Static` children are modelled by what is set on them: the content
(markup), the disabled flag and the highlight class.  Not modelled: styles, rendering of the inner container,
the container's own reaction to the mouse, overflow of `i32`.
-/

namespace Textual.OptionList

open Textual.Markup (escape)

/-- What `refresh_display` sets on a child (option_list.rs:233-249). -/
structure Row where
  content : List Char
  disabled : Bool
  highlighted : Bool
deriving DecidableEq, Repr

/-- option_list.rs:70-82 `OptionList`; `off` and `visible` are those of the inner container, `rows` its
children. -/
structure OptionList where
  items : List (List Char) := []
  disabled : List Bool := []
  lineCounts : List Nat := []
  selected : Nat := 0
  focused : Bool := false
  allowMarkup : Bool := false
  pendingSelection : Option Nat := none
  off : Bool := false
  visible : Bool := true
  rows : List Row := []
deriving DecidableEq, Repr

namespace OptionList

/-- option_list.rs:186-188 `disabled_at`. -/
def disabledAt (l : OptionList) (i : Nat) : Bool := (l.disabled[i]?).getD false

/-- option_list.rs:210-223 `next_enabled_from`, the loop; `fuel` bounds the number of rounds. -/
def nextEnabledLoop (dis : Nat → Bool) (len : Nat) (delta : Int) : Nat → Int → Option Nat
  | 0, _ => none
  | fuel + 1, index =>
    let index := index + delta
    if index < 0 ∨ index ≥ len then none
    else if !dis index.toNat then some index.toNat
    else nextEnabledLoop dis len delta fuel index

/-- option_list.rs:210-223 `next_enabled_from`; at most `len` rounds stay inside the list. -/
def nextEnabledFrom (l : OptionList) (start : Nat) (delta : Int) : Option Nat :=
  nextEnabledLoop l.disabledAt l.items.length delta (l.items.length + 1) start

/-- option_list.rs:190-208 `normalize_selected`. -/
def normalizeSelected (l : OptionList) : OptionList :=
  if l.items.isEmpty then { l with selected := 0 }
  else
    let l := if l.selected ≥ l.items.length then { l with selected := l.items.length - 1 } else l
    if l.disabledAt l.selected then
      match l.nextEnabledFrom l.selected 1 with
      | some i => { l with selected := i }
      | none => match l.nextEnabledFrom l.selected (-1) with
        | some i => { l with selected := i }
        | none => l
    else l

/-- `str::split('\n').count()`. Used at option_list.rs:229. -/
def lineCount (s : List Char) : Nat := s.count '\n' + 1

/-- option_list.rs:233-249: the child for an option. -/
def row (l : OptionList) (i : Nat) (item : List Char) : Row :=
  { content := if l.allowMarkup then item else escape item
    disabled := l.disabledAt i
    highlighted := i == l.selected && !l.disabledAt i }

/-- option_list.rs:225-260 `refresh_display`. -/
def refresh (l : OptionList) : OptionList :=
  let rows := l.items.mapIdx (fun i item => l.row i item)
  { l with
    lineCounts := l.items.map (fun s => max (lineCount s) 1)
    rows := if rows.isEmpty then [⟨[], false, false⟩] else rows }

/-- option_list.rs:85-104 `new`. -/
def new (items : List (List Char)) : OptionList :=
  ({ items := items, disabled := List.replicate items.length false : OptionList }.normalizeSelected).refresh

/-- option_list.rs:137-142 `set_items`. -/
def setItems (l : OptionList) (items : List (List Char)) : OptionList :=
  ({ l with items := items, disabled := List.replicate items.length false }.normalizeSelected).refresh

/-- option_list.rs:144-149 `set_items_with_state`. -/
def setItemsWithState (l : OptionList) (items : List (List Char × Bool)) : OptionList :=
  ({ l with items := items.map Prod.fst, disabled := items.map Prod.snd }.normalizeSelected).refresh

/-- option_list.rs:152-157 `set_markup`. -/
def setMarkup (l : OptionList) (allow : Bool) : OptionList :=
  if l.allowMarkup ≠ allow then { l with allowMarkup := allow }.refresh else l

/-- option_list.rs:159-168 `set_selected`. -/
def setSelected (l : OptionList) (n : Nat) : OptionList :=
  if l.items.isEmpty then { l with selected := 0 }.refresh
  else ({ l with selected := min n (l.items.length - 1) }.normalizeSelected).refresh

/-- option_list.rs:262-280 `move_selection`: the loop is that of `next_enabled_from`. -/
def moveSelection (l : OptionList) (delta : Int) : OptionList :=
  if l.items.isEmpty then l
  else match nextEnabledLoop l.disabledAt l.items.length delta (l.items.length + 1) l.selected with
    | some i => { l with selected := i }.refresh
    | none => l

/-- option_list.rs:282-291 `index_for_row`: the loop over the line counts. -/
def indexForRow : List Nat → Nat → Nat → Option Nat
  | [], _, _ => none
  | count :: counts, index, remaining =>
    if remaining < count then some index else indexForRow counts (index + 1) (remaining - count)

/-- option_list.rs:338-364: the left button is released on a row of the widget. -/
def click (l : OptionList) (localY : Nat) : OptionList :=
  if l.off || !l.visible then l
  else match indexForRow l.lineCounts 0 localY with
    | some i =>
      if !l.disabledAt i then
        let l := if l.selected ≠ i then { l with selected := i }.refresh else l
        { l with pendingSelection := some i }
      else l
    | none => l

/-- Everything a user or a program can do with an option list. See option_list.rs:137, 144, 159, 182, 322, 338. -/
inductive Op
  | up | down | otherKey
  | click (localY : Nat)
  | setItems (items : List (List Char))
  | setItemsWithState (items : List (List Char × Bool))
  | setMarkup (allow : Bool)
  | setSelected (n : Nat)
  | takePending
  | setFocus (on : Bool)
  | setDisabled (on : Bool)
  | setVisible (on : Bool)
  | restyle

/-- The operations: option_list.rs:322-336 `on_event`, 338-367 `on_mouse`, 182-184 `take_pending_selection`,
429-434 `set_focus`, 444-446 `set_visible`, 460-462 `set_disabled`, 388-391 `set_style` and 476-482
`on_resize` (`restyle`). -/
def step (l : OptionList) : Op → OptionList
  | .up => if l.off || !l.visible then l else l.moveSelection (-1)
  | .down => if l.off || !l.visible then l else l.moveSelection 1
  | .otherKey => l
  | .click y => l.click y
  | .setItems items => l.setItems items
  | .setItemsWithState items => l.setItemsWithState items
  | .setMarkup allow => l.setMarkup allow
  | .setSelected n => l.setSelected n
  | .takePending => { l with pendingSelection := none }
  | .setFocus on => if l.focused ≠ on then { l with focused := on }.refresh else l
  | .setDisabled on => { l with off := on }
  | .setVisible on => { l with visible := on }
  | .restyle => l.refresh

end OptionList

end Textual.OptionList
