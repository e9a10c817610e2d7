import Verif.Model.Tree

/-! Specification vocabulary for the widget tree (C68–C74).

A widget is named by the list of child indices that leads to it from the root; comparing these lists
lexicographically is document order. -/

namespace Textual.Tree.W

mutual
/-- The widgets that can be reached by child index. -/
def paths : W → List (List Nat)
  | node k _ cs => [] :: match k with
    | .leaf => []
    | .press => []
    | _ => pathsIn 0 cs
def pathsIn : Nat → List W → List (List Nat)
  | _, [] => []
  | i, c :: cs => (paths c).map (i :: ·) ++ pathsIn (i + 1) cs
end

/-- A property of the widget at a path. -/
def has (w : W) (test : Attrs → Bool) (p : List Nat) : Bool := (w.at? p).any fun c => test c.attrs

/-- Does a widget let the focus into this child?  A container does unless the child is hidden or not
displayed; `Center` and `Middle` unless it is hidden; the command palette is focused as a whole. -/
def lets (w c : W) : Bool :=
  match w.kind with
  | .container => c.participates
  | .screen => c.participates
  | .app => c.participates
  | .wrapper => c.attrs.visible
  | _ => false

/-- Every step of the path is let in. -/
def reach : W → List Nat → Bool
  | _, [] => true
  | w, i :: p => match w.exposed[i]? with
    | some c => w.lets c && reach c p
    | none => false

/-- The widgets that Tab visits, in document order. -/
def ring (w : W) : List (List Nat) := w.paths.filter fun p => w.reach p && w.has (·.focusable) p

/-- The widget and all its ancestors participate in the layout. -/
def shown : W → List Nat → Bool
  | w, [] => w.participates
  | w, i :: p => w.participates && match w.exposed[i]? with
    | some c => shown c p
    | none => false

/-- The widgets that have the focus. -/
def focusedPaths (w : W) : List (List Nat) := w.paths.filter (w.has (·.focused))

/-- The widgets that can have a focus of their own. -/
def takesFocus (k : Kind) : Bool :=
  match k with
  | .leaf => true
  | .press => true
  | .palette => true
  | _ => false

/-- A tree as the constructors make it: only widgets with a focus of their own are focusable or focused,
and `Center` and `Middle` have one child. -/
def Ok (w : W) : Prop :=
  ∀ p c, w.at? p = some c →
    (c.attrs.focusable = true → takesFocus c.kind = true) ∧ (c.attrs.focused = true → takesFocus c.kind = true) ∧
    (c.kind = .wrapper → c.children.length = 1)

mutual
/-- The tree without its focus flags. -/
def unfocused : W → W
  | node k a cs => node k { a with focused := false } (match k with
    | .leaf => cs
    | .press => cs
    | _ => unfocusedIn cs)
def unfocusedIn : List W → List W
  | [] => []
  | c :: cs => unfocused c :: unfocusedIn cs
end

/-- Every focusable widget that comes before a widget of the ring can be reached itself: no focusable
widget is hidden in front of one that is not. -/
def NoHiddenBefore (w : W) : Prop :=
  ∀ p ∈ w.ring, ∀ q ∈ w.paths, q < p → w.has (·.focusable) q = true → w.reach q = true

/-- The attributes of the widget at a path. -/
def attrsAt (w : W) (p : List Nat) : Option Attrs := (w.at? p).map (·.attrs)

mutual
/-- Every widget of the tree in document order, the children of an option list included. -/
def nodes : W → List Attrs
  | node _ a cs => a :: nodesIn cs
def nodesIn : List W → List Attrs
  | [] => []
  | c :: cs => nodes c ++ nodesIn cs
end

/-- The ancestors at the depths `k + m - 1, …, k` on the way to `p`, nearest first. -/
def ancestors (w : W) (p : List Nat) (k : Nat) : Nat → List Attrs
  | 0 => []
  | m + 1 => (w.attrsAt (p.take (k + m))).toList ++ ancestors w p k m

/-- The widgets that handle a message themselves. -/
def handlesItself (k : Kind) : Bool :=
  match k with
  | .screen => false
  | .app => false
  | .palette => false
  | _ => true

end W

/-- What bubbling is meant to be: the handlers are asked one after the other until the message is
stopped, and each sees the message as the one before left it.  The first component lists the widgets that
were asked. -/
def climb {M : Type} (h : Handler M) : List Attrs → Envelope M → List Attrs × Envelope M
  | [], e => ([], e)
  | a :: as, e =>
    if e.bubbling then
      let r := h a e
      let rest := climb h as { r.1 with message := r.2.getD r.1.message }
      (a :: rest.1, rest.2)
    else ([], e)

end Textual.Tree
