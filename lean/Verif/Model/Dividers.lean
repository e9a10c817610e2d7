import Verif.Model.GridWidget

/-!
# The lines of plain containers

`Model/GridWidget.lean` has the lines of a horizontal container; here those of a vertical one, and both beside the
children as they are drawn. Colours, `visibility: hidden` and containers with grid layout are left out.
-/

namespace Textual.GridWidget

open Layout (Placement)
open Keyline (KCanvas)

/-- container.rs:431-461: the keylines of a vertical container with content region `r`. -/
def columnLines (lineType : Nat) (ps : List Placement) (r : Region) : Option KCanvas :=
  if ps.isEmpty then none
  else some ((KCanvas.new r.width.toNat r.height.toNat lineType).addGrid
    [0, r.width.toNat - 1] (dividers (ps.map fun p => p.region.y + p.region.height - r.y) r.height.toNat))

/-- container.rs:912-941: a container scrolled by `(ox, oy)` draws its children moved by that much and the lines over
them; the lines are made from the places before scrolling (`&placements` at 940). -/
def paneDraw (horizontal : Bool) (lineType : Nat) (ps : List Placement) (ox oy : Int) (r : Region) : Drawn where
  children := (ps.map fun p => ⟨p.childIndex, Scroller.scrolled ⟨ox, oy, 0, 0, 0, 0⟩ p.region⟩).filter
    fun p => Scroller.inView r p.region
  lines := if horizontal then rowLines lineType ps r else columnLines lineType ps r

end Textual.GridWidget
