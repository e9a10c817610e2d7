import Verif.Model.Keys
import Verif.Model.Tree
import Verif.Model.Press

/-!
# The keyboard and the tree of widgets

The key branch of the run loop (`Model/Keys.lean`) with the focus of `Model/Tree.lean`: the state is the tree with its focus
and whatever the widgets and the program hold (`τ`). The focused widget is known by its path in the tree.

Simplifications: no command palette; neither widgets nor program change the tree or its focus; a key for a path that leads
to no widget is lost (`with_focused`).
-/

namespace Textual.Tabs

open Tree (WidgetTree)

/-- What widgets and program do with a key: the widget at a path is given it (`on_event`), the program handles the message
(`handle_message`) and gets the key (`on_key`), then the actions are collected and dispatched. See lib.rs:905, 924. -/
structure App (τ μ : Type) where
  on : List Nat → Binding.Key → τ → τ × Option μ
  message : μ → τ → τ := fun _ s => s
  programKey : Binding.Key → τ → τ := fun _ s => s
  actions : τ → τ × List String := fun s => (s, [])
  action : String → τ → τ := fun _ s => s

variable {τ μ : Type}

/-- The calls of the run loop: lib.rs:893 `focus_next`, 898 `focus_previous`, 905 `dispatch_key` (tree.rs:187-206), and those
of the program. -/
def prog (a : App τ μ) (shortcut : Binding.Event → Bool) : Keys.Prog (WidgetTree × τ) μ where
  shortcut := shortcut
  focusNext := fun s => s.1.focusNext.2.map fun _ => (s.1.focusNext.1, s.2)
  focusPrevious := fun s => s.1.focusPrevious.2.map fun _ => (s.1.focusPrevious.1, s.2)
  widgetKey := fun k s => match s.1.target with
    | some _ => ((s.1, (a.on s.1.path k s.2).1), (a.on s.1.path k s.2).2)
    | none => (s, none)
  message := fun m s => (s.1, a.message m s.2)
  programKey := fun k s => (s.1, a.programKey k s.2)
  actions := fun s => ((s.1, (a.actions s.2).1), (a.actions s.2).2)
  action := fun n s => (s.1, a.action n s.2)

/-- lib.rs:792-801, then 868-950: a turn of the run loop with a key. -/
def turn (a : App τ μ) (shortcut : Binding.Event → Bool) (s : WidgetTree × τ) (e : Keys.Event) : WidgetTree × τ :=
  (Keys.key (prog a shortcut) e (s.1.fallback, s.2)).1

/-- The loop with keys. See lib.rs:826. -/
def run (a : App τ μ) (shortcut : Binding.Event → Bool) (es : List Keys.Event) (s : WidgetTree × τ) : WidgetTree × τ :=
  es.foldl (turn a shortcut) s

/-- The keys as the buttons see them. Read by switch.rs:236. -/
def pressKey : Binding.Key → Press.Key
  | .char ' ' => .space
  | .enter => .enter
  | _ => .other

/-- A program of buttons with messages: the buttons by their paths, and the messages handled so far, each known by its
button. button.rs:457-465 `on_event`. -/
def buttons : App ((List Nat → Press.Button) × List (List Nat)) (List Nat) where
  on := fun p k s =>
    let r := (s.1 p).onKey (pressKey k)
    ((fun q => if q = p then r.2 else s.1 q, s.2), if r.1 then some p else none)
  message := fun m s => (s.1, s.2 ++ [m])

end Textual.Tabs
