import Verif.Spec.Selector

/-! What nested rules mean, independently of flattening. -/

namespace Textual.Css

/-- The simple selectors of a compound other than `&`. -/
def withoutAmp (c : Compound) : Compound := c.filter (· != .parent)

/-- The nested selector `c` inside a block that applies to the widgets in `S`.
`&rest`: the widget itself is in `S` and satisfies the rest. `&rest > B ...`: some widget in `S`
satisfies the rest and the remaining parts go on from it. Otherwise: a proper ancestor of the widget
matched by the first part is in `S`. -/
def Within (ctx : Ctx) (S : List Widget → Prop) (c : Complex) (path : List Widget) : Prop :=
  match c with
  | [] => S path
  | first :: rest =>
    if .parent ∈ first.compound then
      match rest with
      | [] => S path ∧ Fits ctx path (withoutAmp first.compound)
      | q :: r => ∃ top mid, S top ∧ Fits ctx top (withoutAmp first.compound) ∧
          Below first.combinator top mid ∧ Chain ctx (q :: r) mid path
    else ∃ top mid, S top ∧ Below .descendant top mid ∧ Chain ctx (first :: rest) mid path

/-- The scope of a selector list. -/
def Scope (ctx : Ctx) (sels : List Complex) (path : List Widget) : Prop :=
  ∃ s ∈ sels, Applies ctx s path

/-- Declaration `d` of the block, or of a rule nested in it, is meant for the widget at `path`, when
the block itself is for the widgets in `S`. -/
def Declares {Decl : Type} (ctx : Ctx) (S : List Widget → Prop) : Items Decl → Decl → List Widget → Prop
  | .nil, _, _ => False
  | .decl d' rest, d, path => (d = d' ∧ S path) ∨ Declares ctx S rest d path
  | .rule cs body rest, d, path =>
    Declares ctx (fun π => ∃ c ∈ cs, Within ctx S c π) body d path ∨ Declares ctx S rest d path

/-- All declarations in source order. -/
def Items.source {Decl : Type} : Items Decl → List Decl
  | .nil => []
  | .decl d rest => d :: rest.source
  | .rule _ body rest => body.source ++ rest.source

/-- What the parser produces: at least one part, a combinator between any two parts and none after the
last. -/
def WellFormed (sel : Complex) : Prop :=
  ∃ init last, sel = init ++ [last] ∧ last.combinator = .none ∧ ∀ p ∈ init, p.combinator ≠ .none

/-- Every selector in the block is well formed. -/
def Items.WF {Decl : Type} : Items Decl → Prop
  | .nil => True
  | .decl _ rest => rest.WF
  | .rule cs body rest => (∀ c ∈ cs, WellFormed c) ∧ body.WF ∧ rest.WF

end Textual.Css
