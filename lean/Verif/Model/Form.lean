import Verif.Model.Tabs

/-!
# Several widgets that take keys, such as the inputs of a form

The keyboard of `Model/Tabs.lean` for a program whose widgets keep their own state and send no messages.

Simplifications: the state of a widget is given by its path; `set_focus`, which changes how an input looks but not its text
and its cursor, is left out (`Model/Tree.lean` has the focus).
-/

namespace Textual.Form

variable {σ : Type}

/-- A program that does nothing itself with keys; the widget at a path makes `step` of a key (tree.rs:187-206 `dispatch_key`
leads to `on_event` of the focused widget). -/
def each (step : List Nat → Binding.Key → σ → σ) : Tabs.App (List Nat → σ) Unit where
  on := fun p k s => (fun q => if q = p then step p k (s p) else s q, none)

/-- The focusable widgets are inputs: input.rs:233-271 `on_event`. -/
def inputs (seg : List Char → List (List Char)) : Tabs.App (List Nat → Input.Input) Unit :=
  each fun _ k i => i.onKey seg (Keys.inputKey k)

end Textual.Form
