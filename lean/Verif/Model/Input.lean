import Verif.Model.Markup

/-!
Model of `/repo/crates/textual/src/widget/input.rs` and `grapheme.rs`: the single-line input.

The division of a text into grapheme clusters is a parameter, `seg`.  Positions are numbers of characters
where the code has numbers of bytes: both are sums over the same clusters.
-/

namespace Textual.Input

open Textual.Markup (escape)

/-- The keys that input.rs:237-269 tells apart. -/
inductive Key
  | char (c : Char) | backspace | delete | left | right | home | «end» | other
deriving DecidableEq, Repr

/-- input.rs:31-39 `Input`; `shown` is the markup given to the inner `Static`. -/
structure Input where
  value : List Char := []
  placeholder : Option (List Char) := none
  cursor : Nat := 0
  focused : Bool := false
  disabled : Bool := false
  visible : Bool := true
  shown : List Char := []
deriving DecidableEq, Repr

/-- input.rs:119 (cursor style). -/
def cursorStyle : List Char := "#121212 on #e0e0e0".toList
/-- input.rs:121 (placeholder style). -/
def placeholderStyle : List Char := "#6d7479".toList

/-- A piece of markup `[style]text[/]` (input.rs:126, 129, 135-138, 155, 160-163), `text` already
escaped. -/
def tagged (style text : List Char) : List Char := '[' :: style ++ ']' :: text ++ "[/]".toList

/-- input.rs:117-167 `build_display`. -/
def Input.buildDisplay (seg : List Char → List (List Char)) (i : Input) : List Char :=
  if i.value.isEmpty then
    match i.placeholder with
    | some p =>
      if !i.focused then tagged placeholderStyle (escape p)
      else if p.isEmpty then tagged cursorStyle " ".toList
      else
        match seg p with
        | first :: rest => tagged cursorStyle (escape first) ++ tagged placeholderStyle (escape rest.flatten)
        | [] => tagged cursorStyle (escape " ".toList) ++ tagged placeholderStyle (escape [])
    | none => if !i.focused then [] else tagged cursorStyle " ".toList
  else if !i.focused then escape i.value
  else
    let gs := seg i.value
    let cursor := min i.cursor gs.length
    match gs[cursor]? with
    | none => escape i.value ++ tagged cursorStyle " ".toList
    | some g =>
      escape (gs.take cursor).flatten ++ tagged cursorStyle (escape g) ++ escape (gs.drop (cursor + 1)).flatten

/-- input.rs:111-115 `refresh_display`. -/
def Input.refresh (seg : List Char → List (List Char)) (i : Input) : Input :=
  { i with shown := i.buildDisplay seg }

/-- grapheme.rs:20-25 `grapheme_byte_index`, in characters. -/
def byteIndex (seg : List Char → List (List Char)) (text : List Char) (n : Nat) : Nat :=
  if n < (seg text).length then ((seg text).take n).flatten.length else text.length

/-- grapheme.rs:27-32 `grapheme_byte_range`, in characters. -/
def byteRange (seg : List Char → List (List Char)) (text : List Char) (n : Nat) : Option (Nat × Nat) :=
  if n < (seg text).length then
    some (((seg text).take n).flatten.length,
      if n + 1 < (seg text).length then ((seg text).take (n + 1)).flatten.length else text.length)
  else none

/-- input.rs:169-175 `insert_char`. -/
def Input.insertChar (seg : List Char → List (List Char)) (i : Input) (c : Char) : Input :=
  let cursor := min i.cursor (seg i.value).length
  let at_ := byteIndex seg i.value cursor
  { i with value := i.value.take at_ ++ c :: i.value.drop at_, cursor := cursor + 1 }.refresh seg

/-- input.rs:177-188 `backspace`. -/
def Input.backspace (seg : List Char → List (List Char)) (i : Input) : Input :=
  if i.cursor = 0 then i
  else
    let cursor := min i.cursor (seg i.value).length
    let remove := cursor - 1
    match byteRange seg i.value remove with
    | some (a, b) => { i with value := i.value.take a ++ i.value.drop b, cursor := remove }.refresh seg
    | none => i.refresh seg

/-- input.rs:190-196 `delete`. -/
def Input.delete (seg : List Char → List (List Char)) (i : Input) : Input :=
  let cursor := min i.cursor (seg i.value).length
  match byteRange seg i.value cursor with
  | some (a, b) => { i with value := i.value.take a ++ i.value.drop b }.refresh seg
  | none => i.refresh seg

/-- input.rs:233-271 `on_event`. -/
def Input.onKey (seg : List Char → List (List Char)) (i : Input) (k : Key) : Input :=
  if i.disabled || !i.visible then i
  else match k with
    | .char c => i.insertChar seg c
    | .backspace => i.backspace seg
    | .delete => i.delete seg
    | .left => if 0 < i.cursor then { i with cursor := i.cursor - 1 }.refresh seg else i
    | .right => if i.cursor < (seg i.value).length then { i with cursor := i.cursor + 1 }.refresh seg else i
    | .home => { i with cursor := 0 }.refresh seg
    | .end => { i with cursor := (seg i.value).length }.refresh seg
    | .other => i

/-- Everything a program can do with an input. See input.rs:82, 96, 101, 106, 233, 273. -/
inductive Op
  | key (k : Key)
  | setValue (v : List Char)
  | setCursor (n : Nat)
  | setPlaceholder (p : List Char)
  | clearPlaceholder
  | setFocus (on : Bool)
  | setDisabled (on : Bool)
  | setVisible (on : Bool)

/-- `on_event`; input.rs:82-86 `set_value`; 96-99 `set_placeholder`; 101-104 `clear_placeholder`; 106-109
`set_cursor`; 336-341 `set_focus`; 351-353, 367-369 `set_visible`, `set_disabled`. -/
def Input.step (seg : List Char → List (List Char)) (i : Input) : Op → Input
  | .key k => i.onKey seg k
  | .setValue v => { i with value := v, cursor := min i.cursor (seg v).length }.refresh seg
  | .setCursor n => { i with cursor := min n (seg i.value).length }.refresh seg
  | .setPlaceholder p => { i with placeholder := some p }.refresh seg
  | .clearPlaceholder => { i with placeholder := none }.refresh seg
  | .setFocus on => if i.focused ≠ on then { i with focused := on }.refresh seg else i
  | .setDisabled on => { i with disabled := on }
  | .setVisible on => { i with visible := on }

end Textual.Input
