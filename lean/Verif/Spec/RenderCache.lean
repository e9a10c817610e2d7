import Verif.Lemmas.Strip
import Verif.Model.RenderCache

/-!
What the lines of a widget should show, column by column, for C90-C94.
-/

namespace Textual.RenderCache

open Strip (AlignH)

/-- A column showing the one-column character `c`. -/
def shows (c : String) (style : Option Style) : StripCell := ⟨⟨c, 1⟩, 0, style, []⟩

/-- The column a piece of border takes. -/
def col (s : Segment) : StripCell := ⟨s.text.headD Grapheme.space, 0, s.style, s.info⟩

/-- `x` if `b` holds. -/
def only {α : Type} (b : Bool) (x : α) : List α := if b then [x] else []

/-- The first `n` columns of a line, filled up with `pad`. -/
def window (line : Option Strip) (n : Nat) (pad : StripCell) : List StripCell :=
  match line with
  | some s => s.cells.take n ++ List.replicate (n - s.cells.length) pad
  | none => List.replicate n pad

/-- A line that may be cut at column `n`. -/
def CutAt (line : Option Strip) (n : Nat) : Prop :=
  ∀ s, line = some s → s.WF ∧ OnBoundary s.cells n

/-- A line all of whose characters take one column. -/
def Narrow (line : Option Strip) : Prop :=
  ∀ s, line = some s → s.WF ∧ ∀ x ∈ s.cells, x.g.width = 1

/-- Whether `l` columns before and `r` columns after a label follow the alignment. -/
def Aligned (align : AlignH) (l r : Nat) : Prop :=
  match align with
  | .left => l = 1
  | .center => l ≤ r ∧ r ≤ l + 1
  | .right => r = 1

/-- A label shown whole between fill characters `f`, with `gap` around it. -/
def LabelWhole (line : List StripCell) (label : List StripCell) (gap : List StripCell) (f : StripCell)
    (align : AlignH) (width : Nat) : Prop :=
  ∃ l r, 1 ≤ l ∧ 1 ≤ r ∧ Aligned align l r ∧ line.length = width ∧
    line = List.replicate l f ++ gap ++ label ++ gap ++ List.replicate r f

/-- The column of the ellipsis. -/
def dots (st : Option Style) : StripCell := ⟨ellipsis, 0, st, []⟩

/-- The beginning of a label and an ellipsis between fill characters `f`, with `gap` around it. -/
def LabelCut (line : List StripCell) (label : List StripCell) (gap : List StripCell) (f : StripCell)
    (width : Nat) : Prop :=
  ∃ k st j, k < label.length ∧ j ≤ 1 ∧ (j = 0 → k = 0) ∧ line.length = width ∧
    line = [f] ++ gap ++ label.take k ++ [dots st] ++ gap ++ List.replicate j f

/-- A row of `w` columns showing `label` between at most a column of border on either side, whole if it
fits and otherwise cut short with an ellipsis. -/
def ShowsLabel (line : List StripCell) (label : List StripCell) (align : AlignH) (w : Nat) : Prop :=
  ∃ pre mid post gap f, pre.length ≤ 1 ∧ post.length ≤ 1 ∧ gap.length ≤ 1 ∧
    (∀ x ∈ gap, x.g = Grapheme.space) ∧ line = pre ++ mid ++ post ∧ mid.length + pre.length + post.length = w ∧
    if label.length + 2 + 2 * gap.length ≤ mid.length then LabelWhole mid label gap f align mid.length
    else LabelCut mid label gap f mid.length

/-- The boxes remembered after widgets with the styles `hist` have been drawn. -/
def boxesAfter (hist : List Sheet) : Boxes := hist.foldl (fun b s => (Cache.new b s).2) []

/-- The cache of a widget with style `s`, drawn after widgets with the styles `hist`. -/
def cacheAfter (hist : List Sheet) (s : Sheet) : Cache := (Cache.new (boxesAfter hist) s).1

end Textual.RenderCache
