import Verif.Model.OptionList
import Verif.Model.Input
import Verif.Model.Binding

/-!
Model of the state of `/repo/crates/textual/src/widget/command_palette.rs` (lines 718-1575, 1724-1880) with
its option list, its input, the spawned tasks and the channel they send to.

The runtime: a spawned task is the message it will send.  `tasks` are the tasks that have not sent yet,
`channel` the messages not yet received.  Tasks may finish in any order and at any time (`Op.finish`);
`JoinHandle::abort` is not modelled, i.e. an aborted task may still send, as one that has already finished
does in the code.

Parameters: `seg` is the grapheme segmentation, `ws` is `char::is_whitespace`.  A provider answers a search
(number of the search, trimmed query) with any list of hits; the number stands for whatever the provider
depends on.  Scores are rationals.  Not modelled: styles and geometry, the go button, the wrap-around of the
`u64` counters, startup and shutdown of providers, `set_visible`.
-/

namespace Textual.Palette

open Textual.OptionList (OptionList)
open Textual.Input (Input)
open Textual.Markup (escape)

/-- command.rs:67-90 `Hit`, `DiscoveryHit` and `CommandHit`; a discovery hit has no score. -/
structure Hit where
  score : Option Rat
  display : List Char
  action : List Char
  text : List Char
  help : Option (List Char)
deriving DecidableEq, Repr

/-- command_palette.rs:719-728 `CommandEntry`. -/
structure Entry where
  display : List Char
  action : Option (List Char)
  text : List Char
  help : Option (List Char)
  score : Rat
  seq : Nat
  disabled : Bool
deriving DecidableEq, Repr

/-- command_palette.rs:771-782 `build_prompt`; the help style is `dim` (:907). -/
def buildPrompt (prompt : List Char) : Option (List Char) → List Char
  | none => prompt
  | some help => prompt ++ '\n' :: "[dim]".toList ++ escape help ++ "[/]".toList

/-- command_palette.rs:731-755 `from_hit`, `from_discovery`. -/
def Entry.ofHit (h : Hit) (seq : Nat) : Entry :=
  { display := buildPrompt h.display h.help, action := some h.action, text := h.text, help := h.help
    score := h.score.getD 0, seq := seq, disabled := false }

/-- command_palette.rs:757-768 `no_matches`. -/
def Entry.noMatches : Entry :=
  { display := buildPrompt "[dim]No matches found[/]".toList none, action := none, text := "No matches found".toList
    help := none, score := 0, seq := 0, disabled := true }

/-- command_palette.rs:784-796 `PaletteUpdate`. -/
inductive Update
  | results (generation : Nat) (hits : List Hit)
  | showBusy (generation : Nat)
  | showNoMatches (generation : Nat) (queryNonEmpty : Bool)
deriving DecidableEq, Repr

/-- command.rs:92-107 `CommandPaletteEvent`. -/
inductive Event
  | opened
  | closed (optionSelected : Bool)
  | highlighted (index : Nat) (text action : List Char) (help : Option (List Char))
deriving DecidableEq, Repr

/-- command.rs:109-124 `Provider`: the answer to a search. -/
abbrev Provider := Nat → List Char → List Hit

/-- command_palette.rs:799-841 `CommandPalette`.  `listShown` and `loadingShown` are the class `--visible` of
the list and the visibility of the loading indicator; `log` are the events that the application has taken. -/
structure Palette where
  visible : Bool := false
  focused : Bool := false
  runOnSelect : Bool := true
  query : List Char := []
  entries : List Entry := []
  pending : List Entry := []
  selected : Nat := 0
  listVisible : Bool := false
  showBusy : Bool := false
  clearCurrent : Bool := false
  seq : Nat := 0
  expected : Nat := 0
  completed : Nat := 0
  providers : List Provider := []
  generation : Nat := 0
  pendingAction : Option (List Char) := none
  selectedAction : Option (List Char) := none
  events : List Event := []
  log : List Event := []
  restoreFocus : Option Nat := none
  list : OptionList := (OptionList.new []).setMarkup true
  input : Input := {}
  listShown : Bool := false
  loadingShown : Bool := false
  tasks : List Update := []
  channel : List Update := []

namespace Palette

/-- command_palette.rs:1033-1035 `enqueue_event`. -/
def enqueue (p : Palette) (e : Event) : Palette := { p with events := p.events ++ [e] }

/-- command_palette.rs:1381-1410 `sync_visibility_classes`. -/
def sync (p : Palette) : Palette :=
  let shown := p.visible && p.listVisible
  if !shown then { p with listShown := shown, showBusy := false, loadingShown := false }
  else { p with listShown := shown }

/-- command_palette.rs:1412-1425 `update_list_widget`. -/
def updateList (p : Palette) : Palette :=
  { p with list := (p.list.setItemsWithState (p.entries.map (fun e => (e.display, e.disabled)))).setSelected p.selected }

/-- command_palette.rs:1427-1437 `update_input_widget`. -/
def updateInput (seg : List Char → List (List Char)) (p : Palette) (cursor : Option Nat) : Palette :=
  let input := if p.input.value ≠ p.query then p.input.step seg (.setValue p.query) else p.input
  { p with input := match cursor with
      | some n => input.step seg (.setCursor n)
      | none => input }

/-- command_palette.rs:1439-1456 `emit_highlight`. -/
def emitHighlight (p : Palette) : Palette :=
  if !p.visible || !p.listVisible then p
  else match p.entries[p.selected]? with
    | none => p
    | some e =>
      if e.disabled then p
      else p.enqueue (.highlighted p.selected e.text (e.action.getD []) e.help)

/-- command_palette.rs:1481-1494 `next_enabled_index`: the loop is that of the option list
(option_list.rs:210-223). -/
def nextEnabled (p : Palette) (start : Nat) (delta : Int) : Option Nat :=
  OptionList.nextEnabledLoop (fun i => ((p.entries[i]?).map (·.disabled)).getD true) p.entries.length delta
    (p.entries.length + 1) start

/-- command_palette.rs:1458-1479 `normalize_selection`. -/
def normalize (p : Palette) : Palette :=
  if p.entries.isEmpty then { p with selected := 0 }
  else
    let p := if p.selected ≥ p.entries.length then { p with selected := p.entries.length - 1 } else p
    if ((p.entries[p.selected]?).map (·.disabled)).getD false then
      match p.nextEnabled p.selected 1 with
      | some i => { p with selected := i }
      | none => match p.nextEnabled p.selected (-1) with
        | some i => { p with selected := i }
        | none => p
    else p

/-- command_palette.rs:1338-1343: the order of the entries, best score first, then in order of arrival. -/
def before (a b : Entry) : Bool := decide (b.score < a.score) || (decide (a.score = b.score) && decide (a.seq ≤ b.seq))

/-- Inserts an entry in front of the first one that it may precede. One step of `sort_by`, command_palette.rs:1338. -/
def insert (a : Entry) : List Entry → List Entry
  | [] => [a]
  | b :: bs => if before a b then a :: b :: bs else b :: insert a bs

/-- command_palette.rs:1338-1343: `sort_by` is a stable sort; so is insertion sort, and stable sorts agree. -/
def sortEntries : List Entry → List Entry
  | [] => []
  | a :: as => insert a (sortEntries as)

/-- command_palette.rs:1337-1379 `refresh_results`. -/
def refreshResults (seg : List Char → List (List Char)) (p : Palette) : Palette :=
  let p := { p with entries := sortEntries p.entries }
  let p :=
    if p.entries.isEmpty then { p with selected := 0, listVisible := false }
    else
      let p := { p with selected := min p.selected (p.entries.length - 1) }.normalize
      { p with listVisible := p.selectedAction.isNone }
  let p := (p.updateList.updateInput seg none).sync
  let p := if p.listVisible then p.emitHighlight else p
  { p with loadingShown := p.showBusy }

/-- command_palette.rs:1056-1076 `cancel_search` (without the aborts). -/
def cancelSearch (p : Palette) : Palette :=
  { p with showBusy := false, loadingShown := false, expected := 0, completed := 0 }

/-- `str::trim`. Used at command_palette.rs:1113, 1234. -/
def trim (ws : Char → Bool) (s : List Char) : List Char := Textual.Binding.trim ws s

/-- command_palette.rs:1100-1165 `start_search`, with the timers 1167-1184. -/
def startSearch (seg : List Char → List (List Char)) (ws : Char → Bool) (p : Palette) (query : List Char)
    (cursor : Option Nat) : Palette :=
  let p := p.cancelSearch
  let p := { p with
    query := query, selected := 0, selectedAction := none, pending := [], seq := 0, completed := 0
    expected := p.providers.length, clearCurrent := true, generation := p.generation + 1 }
  let value := trim ws p.query
  let p := if p.visible && p.selectedAction.isNone then { p with listVisible := true } else p
  let p := (p.updateInput seg cursor).sync
  if p.expected = 0 then
    let p := ({ p with entries := [], listVisible := false }.sync).refreshResults seg
    if value.isEmpty then p else { p with tasks := p.tasks ++ [.showNoMatches p.generation true] }
  else
    { p with tasks := p.tasks ++ .showBusy p.generation ::
        p.providers.map (fun provider => .results p.generation (provider p.generation value)) }

/-- command_palette.rs:1278-1288 `flush_pending_entries`. -/
def flush (seg : List Char → List (List Char)) (p : Palette) : Palette :=
  if p.pending.isEmpty then p
  else
    let p := if p.clearCurrent then { p with entries := [], clearCurrent := false } else p
    { p with entries := p.entries ++ p.pending, pending := [] }.refreshResults seg

/-- command_palette.rs:1194-1210: the loop over the hits of an answer. -/
def addHits : Palette → List Hit → Palette
  | p, [] => p
  | p, h :: hs => addHits { p with seq := p.seq + 1, pending := p.pending ++ [Entry.ofHit h (p.seq + 1)] } hs

/-- command_palette.rs:1186-1276 `apply_update`; `slow`: more than 250 ms since the last flush (:1212-1216). -/
def applyUpdate (seg : List Char → List (List Char)) (ws : Char → Bool) (slow : Bool) (p : Palette) : Update → Palette
  | .results generation hits =>
    if generation ≠ p.generation then p
    else
      let p := { p with completed := p.completed + 1 }.addHits hits
      let p := if slow then p.flush seg else p
      if p.completed ≥ p.expected then
        let p := { p with showBusy := false }
        let cleared := p.clearCurrent && p.pending.isEmpty
        let p := if cleared then { p with entries := [], clearCurrent := false } else p
        let p := p.flush seg
        let p := if cleared then p.refreshResults seg else p
        if p.entries.isEmpty && !(trim ws p.query).isEmpty then
          { p with tasks := p.tasks ++ [.showNoMatches generation true] }
        else p
      else p
  | .showBusy generation =>
    if generation ≠ p.generation then p
    else if p.listVisible then { p with showBusy := true, loadingShown := true } else p
  | .showNoMatches generation nonEmpty =>
    if generation ≠ p.generation then p
    else if nonEmpty then
      ({ p with entries := [Entry.noMatches], selected := 0, listVisible := true }.sync).updateList
    else { p with listVisible := false }.sync

/-- command_palette.rs:1037-1054 `close_with_selected`. -/
def closeWith (seg : List Char → List (List Char)) (p : Palette) (optionSelected : Bool) : Palette :=
  if p.visible then
    let p := { p with visible := false }.cancelSearch
    let p := { p with
      query := [], selected := 0, selectedAction := none, entries := [], pending := [], listVisible := false
      showBusy := false }
    (p.sync.refreshResults seg).enqueue (.closed optionSelected)
  else p

/-- command_palette.rs:939-957 `open`, `open_with_focus`. -/
def openWith (seg : List Char → List (List Char)) (ws : Char → Bool) (p : Palette) (focus : Option Nat) : Palette :=
  if p.visible then p
  else
    let p := match focus with
      | some n => { p with restoreFocus := some n }
      | none => p
    (({ p with visible := true }.sync).enqueue .opened).startSearch seg ws [] (some 0)

/-- command_palette.rs:975-986 `set_providers`. -/
def setProviders (seg : List Char → List (List Char)) (ws : Char → Bool) (p : Palette) (ps : List Provider) : Palette :=
  let p := p.cancelSearch
  let p := { p with providers := ps, expected := ps.length }
  if p.visible then p.startSearch seg ws p.query none else p

/-- command_palette.rs:1496-1515 `move_selection`: the loop is that of `next_enabled_index` (an index in
range always has an entry). -/
def moveSelection (p : Palette) (delta : Int) : Palette :=
  if p.entries.isEmpty then p
  else match p.nextEnabled p.selected delta with
    | some i => ({ p with selected := i }.updateList).emitHighlight
    | none => p

/-- command_palette.rs:1517-1545 `activate_selected`. -/
def activate (seg : List Char → List (List Char)) (p : Palette) : Palette :=
  if p.entries.isEmpty then p
  else match p.entries[p.selected]? with
    | none => p
    | some e =>
      if e.disabled then p
      else if p.runOnSelect then
        match e.action with
        | some a => { p with pendingAction := some a }.closeWith seg true
        | none => p
      else
        let p := { p with
          query := e.text, selectedAction := e.action, listVisible := false, entries := [], pending := [], selected := 0 }
        (p.sync.updateInput seg (some (seg p.query).length)).refreshResults seg

/-- command_palette.rs:988-995 `submit`. -/
def submit (seg : List Char → List (List Char)) (p : Palette) : Palette :=
  if p.listVisible then p.activate seg
  else match p.selectedAction with
    | some a => { p with pendingAction := some a, selectedAction := none }.closeWith seg true
    | none => p

/-- command_palette.rs:1731-1751: Up and Down. -/
def arrow (p : Palette) (delta : Int) : Palette :=
  if !p.listVisible && !p.entries.isEmpty then
    ({ p with listVisible := true }.sync.updateList).emitHighlight
  else p.moveSelection delta

/-- command_palette.rs:1752-1764: any other key goes to the input. -/
def typeKey (seg : List Char → List (List Char)) (ws : Char → Bool) (p : Palette) (k : Textual.Input.Key) : Palette :=
  let input := p.input.onKey seg k
  if input.value ≠ p.input.value then
    { p with input := input, query := input.value, selected := 0, selectedAction := none }.startSearch seg ws input.value none
  else { p with input := input }

/-- command_palette.rs:1770-1787 and 1547-1568: the left button is released on a row of the list.  A list that is
not shown has `visibility: hidden` (command_palette.rs:498-508), which only keeps it from being drawn
(option_list.rs:307-312): it keeps its place in the layout and gets the mouse (option_list.rs:338-367). -/
def clickRow (seg : List Char → List (List Char)) (p : Palette) (y : Nat) : Palette :=
  if !p.visible then p
  else
    let list := p.list.click y
    match list.pendingSelection with
    | none => { p with list := list }
    | some i =>
      let p := { p with list := { list with pendingSelection := none } }
      let p := if i ≠ p.selected then { p with selected := i }.updateList else p
      p.emitHighlight.activate seg

/-- command_palette.rs:997-1003 `take_restore_focus`: the value returned. -/
def takenFocus (p : Palette) : Option Nat := if p.visible then none else p.restoreFocus

/-- What can happen to a palette: user input, calls by the application, and the runtime. -/
inductive Op
  | openPalette (focus : Option Nat)
  | close
  | setProviders (ps : List Provider)
  | submit
  | esc | enter | up | down
  | key (k : Textual.Input.Key)
  | clickRow (y : Nat)
  | clickOutside
  | takeAction | takeEvents | takeRestore
  | setFocus (on : Bool)
  /-- the `n`-th unfinished task sends its message -/
  | finish (n : Nat)
  /-- `drain_updates` receives one message (command_palette.rs:1009-1020) -/
  | receive (slow : Bool)

/-- The operations: `on_event` command_palette.rs:1724-1768, `on_mouse` 1770-1787, `take_pending_action` 1816,
`take_events` 1005, `take_restore_focus` 997-1003, `set_focus` 1824-1832. -/
def step (seg : List Char → List (List Char)) (ws : Char → Bool) (p : Palette) : Op → Palette
  | .openPalette focus => p.openWith seg ws focus
  | .close => p.closeWith seg false
  | .setProviders ps => p.setProviders seg ws ps
  | .submit => p.submit seg
  | .esc => if p.visible then p.closeWith seg false else p
  | .enter => if p.visible then p.submit seg else p
  | .up => if p.visible then p.arrow (-1) else p
  | .down => if p.visible then p.arrow 1 else p
  | .key k => if p.visible then p.typeKey seg ws k else p
  | .clickRow y => p.clickRow seg y
  | .clickOutside => if p.visible then p.closeWith seg false else p
  | .takeAction => { p with pendingAction := none }
  | .takeEvents => { p with events := [], log := p.log ++ p.events }
  | .takeRestore => if p.visible then p else { p with restoreFocus := none }
  | .setFocus on => if p.focused ≠ on then { p with focused := on, input := p.input.step seg (.setFocus on) } else p
  | .finish n => match p.tasks[n]? with
    | some u => { p with tasks := p.tasks.eraseIdx n, channel := p.channel ++ [u] }
    | none => p
  | .receive slow => match p.channel with
    | u :: rest => { p with channel := rest }.applyUpdate seg ws slow u
    | [] => p

end Palette

end Textual.Palette
