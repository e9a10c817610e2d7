import Verif.Model.Binding
import Verif.Model.Input

/-!
Model of what the event loop of `/repo/crates/textual/src/lib.rs` does with a key event. Widgets, program and
palette are one state `σ`; the calls the loop makes on them are functions given by `Prog`.
-/

namespace Textual.Keys

/-- crossterm's `KeyEventKind`; lib.rs does not read it.
The events are read at lib.rs:152-160 and by the loop from lib.rs:648 on. -/
inductive Kind where
  | press | repeated | release
deriving DecidableEq, Repr

/-- crossterm's `KeyEvent`. Used at lib.rs:152-160. -/
structure Event where
  code : Binding.Key
  mods : Binding.Mods := {}
  kind : Kind := .press
deriving DecidableEq, Repr

/-- The calls the loop makes. They are made at lib.rs:869-946. -/
structure Prog (σ μ : Type) where
  /-- lib.rs:869-870 `ENABLE_COMMAND_PALETTE && matches_binding(..)` -/
  shortcut : Binding.Event → Bool := fun _ => false
  /-- lib.rs:875 `dispatch_action("app.command_palette")` -/
  openPalette : σ → σ := id
  /-- lib.rs:882-887 `is_open` of the palette, `false` without one -/
  paletteOpen : σ → Bool := fun _ => false
  /-- lib.rs:893 `focus_next`; `none` if there is nothing to focus -/
  focusNext : σ → Option σ := fun _ => none
  /-- lib.rs:898 `focus_previous` -/
  focusPrevious : σ → Option σ := fun _ => none
  /-- lib.rs:905 `dispatch_key`, with the message of the widget -/
  widgetKey : Binding.Key → σ → σ × Option μ
  /-- lib.rs:906-917: bubbling and `handle_message` -/
  message : μ → σ → σ := fun _ s => s
  /-- lib.rs:924 `on_key` -/
  programKey : Binding.Key → σ → σ := fun _ s => s
  /-- lib.rs:928 `collect_pending_actions_mut` -/
  actions : σ → σ × List String := fun s => (s, [])
  /-- lib.rs:934 `dispatch_action` -/
  action : String → σ → σ := fun _ s => s
  /-- lib.rs:937-945: the focus is given back after the palette -/
  restoreFocus : σ → σ := id
  /-- lib.rs:946 and 876 `drain_command_palette`, its answer is not used here -/
  drain : σ → σ := id

/-- What the loop does with a key. The branches of lib.rs:869-946. -/
inductive Did where
  | opened
  | moved
  | widget (k : Binding.Key)
  | told
  | program (k : Binding.Key)
  | acted (a : String)
deriving DecidableEq, Repr

variable {σ μ τ : Type}

/-- lib.rs:888-902: Tab and Shift+Tab move the focus unless the palette is open. -/
def moveFocus (p : Prog σ μ) (isOpen : Bool) (code : Binding.Key) (s : σ) : σ × List Did :=
  match code with
  | .tab => if isOpen then (s, []) else match p.focusNext s with
    | some s => (s, [.moved])
    | none => (s, [])
  | .backTab => if isOpen then (s, []) else match p.focusPrevious s with
    | some s => (s, [.moved])
    | none => (s, [])
  | _ => (s, [])

/-- lib.rs:904-918: the focused widget gets the key, the program its message. -/
def toWidget (p : Prog σ μ) (code : Binding.Key) (s : σ) : σ × List Did :=
  match p.widgetKey code s with
  | (s, some m) => (p.message m s, [.widget code, .told])
  | (s, none) => (s, [.widget code])

/-- lib.rs:919-926: the program gets the key unless the palette was open. -/
def toProgram (p : Prog σ μ) (isOpen : Bool) (code : Binding.Key) (s : σ) : σ × List Did :=
  if isOpen then (s, []) else (p.programKey code s, [.program code])

/-- lib.rs:927-936: the actions widgets have asked for. -/
def toActions (p : Prog σ μ) (s : σ) : σ × List Did :=
  let (s, as) := p.actions s
  (as.foldl (fun s a => p.action a s) s, as.map .acted)

/-- lib.rs:868-950: a key event. -/
def key (p : Prog σ μ) (e : Event) (s : σ) : σ × List Did :=
  if p.shortcut ⟨e.code, e.mods⟩ then (p.drain (p.openPalette s), [.opened])
  else
    let isOpen := p.paletteOpen s
    let (s, d1) := moveFocus p isOpen e.code s
    let (s, d2) := toWidget p e.code s
    let (s, d3) := toProgram p isOpen e.code s
    let (s, d4) := toActions p s
    (p.drain (p.restoreFocus s), d1 ++ d2 ++ d3 ++ d4)

/-- lib.rs:750-1110: key events until the program quits. -/
def keys (p : Prog σ μ) (quits : σ → Bool) : List Event → σ → σ × List Did
  | [], s => (s, [])
  | e :: es, s =>
    if quits s then (s, [])
    else
      let (s, d) := key p e s
      let (s, ds) := keys p quits es s
      (s, d ++ ds)

/-- A program on its own widgets `τ` that keeps the default `on_key` (lib.rs:332-336), `request_quit`
(430-432) and `should_quit` (339-341): the quit flag is the first part of the state. The widgets ask for no
actions. -/
def default (p : Prog τ μ) : Prog (Bool × τ) μ where
  shortcut := p.shortcut
  openPalette := fun s => (s.1, p.openPalette s.2)
  paletteOpen := fun s => p.paletteOpen s.2
  focusNext := fun s => (p.focusNext s.2).map (s.1, ·)
  focusPrevious := fun s => (p.focusPrevious s.2).map (s.1, ·)
  widgetKey := fun k s => ((s.1, (p.widgetKey k s.2).1), (p.widgetKey k s.2).2)
  message := fun m s => (s.1, p.message m s.2)
  programKey := fun k s => (s.1 || k == .char 'q' || k == .esc, s.2)
  restoreFocus := fun s => (s.1, p.restoreFocus s.2)
  drain := fun s => (s.1, p.drain s.2)

/-- The keys of an input (input.rs:237-269) among the keys of the loop; 0 and 1 stand for Backspace and Delete. -/
def inputKey : Binding.Key → Input.Key
  | .char c => .char c
  | .left => .left
  | .right => .right
  | .home => .home
  | .end => .end
  | .other 0 => .backspace
  | .other 1 => .delete
  | _ => .other

/-- A program whose only widget is an input with the focus; input.rs:233-271 `on_event`. -/
def inputProg (seg : List Char → List (List Char)) (shortcut : Binding.Event → Bool) : Prog Input.Input Unit where
  shortcut := shortcut
  widgetKey := fun k i => (i.onKey seg (inputKey k), none)

end Textual.Keys
