import Verif.Model.Static
import Verif.Lemmas.Strip
import Verif.Props.Justify

/-!
What a static text should show and where its links are, for C96-C100.
-/

namespace Textual.Static

open Content (WrappedLine)
open Strip (AlignH SpacesNarrow)

/-- A line of text that may be cut at column `n`. -/
structure Fit (n : Nat) (line : WrappedLine) : Prop where
  wf : line.strip.WF
  spaces : SpacesNarrow line.strip.segments
  cut : OnBoundary line.strip.cells n

/-- The link a column belongs to. -/
def linkOf (x : StripCell) : Option String := x.info.lookup "@click"

/-- No segment has metadata. -/
def NoInfo (segs : List Segment) : Prop := ∀ s ∈ segs, s.info = []

/-- A label without links. -/
def Unlinked (label : Option Strip) : Prop := ∀ t, label = some t → NoInfo t.segments

/-- Free space before and after, as a horizontal alignment asks for it. -/
def SplitH (a : AlignH) (before after : Nat) : Prop :=
  match a with
  | .left => before = 0
  | .center => before ≤ after ∧ after ≤ before + 1
  | .right => after = 0

/-- Free columns left and right of a line of text, as `text-align` asks for them. -/
def SplitLine (a : TextAlign) (before after : Nat) : Prop :=
  match a with
  | .start | .left | .justify => before = 0
  | .center => before ≤ after ∧ after ≤ before + 1
  | .stop | .right => after = 0

/-- Free rows above and below, as a vertical alignment asks for them. -/
def SplitV (a : AlignV) (above below : Nat) : Prop :=
  match a with
  | .top => above = 0
  | .middle => above ≤ below ∧ below ≤ above + 1
  | .bottom => below = 0

/-- What happens to a static text, as far as its links are concerned. -/
inductive Event where
  | drawn (regions : List LinkRegion)
  | mouse (kind : Mouse) (column row : Nat) (region : Region)
  | leave
  | take
deriving DecidableEq, Repr

/-- The state after an event. -/
def step (l : Links) : Event → Links
  | .drawn regions => { l with regions := regions, dirty := false }
  | .mouse kind column row region => l.onMouse kind column row region
  | .leave => l.clearHover
  | .take => l.take.2

/-- The state after a history. -/
def run (events : List Event) : Links := events.foldl step {}

/-- The links on screen after a history: those of the last drawing. -/
def onScreen (events : List Event) : List LinkRegion :=
  (events.reverse.findSome? fun | .drawn r => some r | _ => none).getD []

/-- The link of `regions` under a point of the screen, for a widget drawn in `region`. -/
def LinkAt (regions : List LinkRegion) (region : Region) (column row : Nat) (action : String) : Prop :=
  region.containsPoint column row = true ∧
  findLink regions (column - region.x : Int).toNat (row - region.y : Int).toNat = some action

/-- The event is a press of the left button on a link. -/
def Clicks (regions : List LinkRegion) (e : Event) (action : String) : Prop :=
  ∃ column row region, e = .mouse .leftDown column row region ∧ LinkAt regions region column row action

/-- The event is a move of the pointer inside the widget. -/
def Moves (e : Event) : Prop :=
  ∃ column row region, e = .mouse .moved column row region ∧ region.containsPoint column row = true

end Textual.Static
