import Verif.Model.Restyle

/-! Specification of style resolution, used by `Verif/Props/Restyle.lean`. -/

namespace Textual.Restyle

/-- The style a widget should have: the cascade's, completed from the parent, then overridden inline. -/
def Attrs.due (cas : Cascade) (a : Attrs) (anc : List Css.Widget) (inh : Inherited) : Style :=
  a.inline.applyTo (applyInheritance (cas a.meta anc) inh)

mutual
/-- Every widget not below an invisible one is clean and has the style due for its present state and
that of its ancestors. -/
def W.Exact (cas : Cascade) (anc : List Css.Widget) (inh : Inherited) : W → Prop
  | .node a cs => a.visible = true →
    a.dirty = false ∧ a.style = a.due cas anc inh ∧
      AllExact cas (a.meta :: anc) (childContext a.style inh) cs
/-- `Exact` for the children. -/
def AllExact (cas : Cascade) (anc : List Css.Widget) (inh : Inherited) : List W → Prop
  | [] => True
  | c :: cs => c.Exact cas anc inh ∧ AllExact cas anc inh cs
end

mutual
/-- Every widget of the tree stores the style it is given. -/
def W.Stores : W → Prop
  | .node a cs => a.kind ≠ .bare ∧ AllStore cs
/-- `Stores` for the children. -/
def AllStore : List W → Prop
  | [] => True
  | c :: cs => c.Stores ∧ AllStore cs
end

/-- The cascade gives a `Container` the same style whichever layout name it advertises. -/
def Settled (cas : Cascade) : Prop :=
  ∀ base l l' anc, cas (withLayout l base) anc = cas (withLayout l' base) anc

/-- The events whose new widgets all store their styles. -/
def Ev.Stores : Ev → Prop
  | .setChildren _ new => AllStore new
  | _ => True

mutual
/-- The tree without styles and flags. -/
def W.bones : W → W
  | .node a cs => .node { a with style := {}, dirty := false } (allBones cs)
/-- `bones` for the children. -/
def allBones : List W → List W
  | [] => []
  | c :: cs => c.bones :: allBones cs
end

/-- The widgets from the root to the one at a path, the root first. -/
def W.chain : List Nat → W → Option (List Attrs)
  | [], .node a _ => some [a]
  | i :: p, .node a cs => match cs[i]? with
    | some c => (c.chain p).map (a :: ·)
    | none => none

/-- The text colour a widget sets itself: inline, else by the cascade. -/
def Attrs.ownColor (cas : Cascade) (a : Attrs) (anc : List Css.Widget) : Option RgbaColor :=
  match a.inline.color with
  | some c => some c
  | none => (cas a.meta anc).color

/-- The text colour the nearest widget of the chain sets, root first with the metas above it. -/
def nearestColor (cas : Cascade) : List Css.Widget → Option RgbaColor → List Attrs → Option RgbaColor
  | _, fallback, [] => fallback
  | anc, fallback, a :: as =>
    nearestColor cas (a.meta :: anc) (match a.ownColor cas anc with | some c => some c | none => fallback) as

/-- Whether the nearest widget of the chain that sets `visibility` sets it to hidden. -/
def nearestHidden (cas : Cascade) : List Css.Widget → Bool → List Attrs → Bool
  | _, fallback, [] => fallback
  | anc, fallback, a :: as =>
    nearestHidden cas (a.meta :: anc)
      (if (cas a.meta anc).visibilitySet then (cas a.meta anc).hidden else fallback) as

/-- What is seen behind the children of a widget: its own background, laid over what is behind it and
tinted, or what is behind it. -/
def paint (behind background tint : Option RgbaColor) : Option RgbaColor :=
  match background with
  | none => behind
  | some bg =>
    let shown := match behind with | some b => bg.blendOver b | none => bg
    some (match tint with | some t => shown.tint t | none => shown)

/-- What is seen behind the last widget of the chain. -/
def behindLast : Option RgbaColor → List Attrs → Option RgbaColor
  | behind, [] => behind
  | behind, [_] => behind
  | behind, a :: as => behindLast (paint behind a.style.background a.style.backgroundTint) as

end Textual.Restyle
