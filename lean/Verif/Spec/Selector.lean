import Verif.Model.Css

/-!
What selectors mean, independently of the matching algorithm. A widget is given with its ancestors as
a path: the widget first, then its parent, up to the root.
-/

namespace Textual.Css

/-- A widget satisfies a simple selector. -/
def Satisfies (ctx : Ctx) (w : Widget) : Selector → Prop
  | .type n => if w.typeNames = [] then n = w.typeName else n ∈ w.typeNames
  | .id i => w.id = some i
  | .cls c => c ∈ w.classes
  | .universal => True
  | .pseudo n =>
    (n = "focus" ∧ w.focus = true) ∨ (n = "hover" ∧ w.hover = true) ∨
    (n = "active" ∧ w.active = true) ∨ (n = "disabled" ∧ w.disabled = true) ∨
    (n = "dark" ∧ ctx.isDark = true) ∨ (n = "light" ∧ ctx.isDark = false) ∨
    (n = "ansi" ∧ ctx.isAnsi = true) ∨ (n = "nocolor" ∧ ctx.isNocolor = true)
  | .parent => False
  | .attribute _ _ => False

/-- The widget at the start of a path satisfies all simple selectors of a compound. -/
def Fits (ctx : Ctx) (path : List Widget) (c : Compound) : Prop :=
  ∃ w ws, path = w :: ws ∧ ∀ s ∈ c, Satisfies ctx w s

/-- `lower` is the path of a widget related to the widget at `upper` by a combinator: a child of it
(`>`) or a proper descendant (blank). Sibling combinators are never satisfied: the matching interface
has no sibling information. -/
def Below (comb : Combinator) (upper lower : List Widget) : Prop :=
  match comb with
  | .child => ∃ w, lower = w :: upper
  | .descendant | .none => ∃ w ws, lower = w :: (ws ++ upper)
  | .adjacentSibling | .generalSibling => False

/-- The parts of a selector are satisfied by widgets from `top` (first part) down to `bot` (last part),
each related to the next by its combinator. -/
def Chain (ctx : Ctx) : Complex → List Widget → List Widget → Prop
  | [], _, _ => False
  | [p], top, bot => top = bot ∧ Fits ctx bot p.compound
  | p :: q :: r, top, bot =>
    Fits ctx top p.compound ∧ ∃ mid, Below p.combinator top mid ∧ Chain ctx (q :: r) mid bot

/-- A selector applies to the widget of a path. -/
def Applies (ctx : Ctx) (sel : Complex) (path : List Widget) : Prop := ∃ top, Chain ctx sel top path

end Textual.Css
