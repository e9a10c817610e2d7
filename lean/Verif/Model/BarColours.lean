import Verif.Model.Screen
import Verif.Model.Color

/-!
# The colours of scrollbars

Model of `ScrollbarStyle` in `/repo/crates/tcss/src/types/scrollbar.rs` and of the colours in which scrolling containers,
screens and plain containers draw their bars, along a history of mouse events.

Simplifications: as in `Model/Scroller.lean` and `Model/Screen.lean`; the layout does not change during a history. A
container inside others gets the mouse events at pointers inside its region (C106, C109, C113).
-/

namespace Textual.BarColours

open Scroller (Sheet Body Mouse State)

/-- scrollbar.rs:49-67 `ScrollbarStyle`, the colours. -/
structure Colours where
  color : Option RgbaColor := none
  colorHover : Option RgbaColor := none
  colorActive : Option RgbaColor := none
  background : Option RgbaColor := none
  backgroundHover : Option RgbaColor := none
  backgroundActive : Option RgbaColor := none
deriving DecidableEq, Repr

/-- scrollbar.rs:73-75 `fallback_thumb`. -/
def fallbackThumb : RgbaColor := .rgb 0 48 84
/-- scrollbar.rs:79-81 `fallback_track`. -/
def fallbackTrack : RgbaColor := .rgb 0 0 0

namespace Colours

variable (c : Colours)

/-- scrollbar.rs:89-91 `effective_color`. -/
def effColor : RgbaColor := c.color.getD fallbackThumb
/-- scrollbar.rs:94-99 `effective_color_hover`. -/
def effColorHover : RgbaColor := (c.colorHover.or c.color).getD fallbackThumb
/-- scrollbar.rs:102-108 `effective_color_active`. -/
def effColorActive : RgbaColor := ((c.colorActive.or c.colorHover).or c.color).getD fallbackThumb
/-- scrollbar.rs:111-113 `effective_background`. -/
def effBackground : RgbaColor := c.background.getD fallbackTrack
/-- scrollbar.rs:116-121 `effective_background_hover`. -/
def effBackgroundHover : RgbaColor := (c.backgroundHover.or c.background).getD fallbackTrack
/-- scrollbar.rs:124-130 `effective_background_active`. -/
def effBackgroundActive : RgbaColor := ((c.backgroundActive.or c.backgroundHover).or c.background).getD fallbackTrack

end Colours

/-- scrollable.rs:577-592 `vertical_colors` (`vertical = true`), 595-610 `horizontal_colors`; the same in screen.rs:338-353,
355-370 and container.rs:294-309, 312-327: thumb and track. -/
def barColours (c : Colours) (st : State) (vertical : Bool) : RgbaColor × RgbaColor :=
  if (st.drag.map fun d => d.1 == vertical).getD false then (c.effColorActive, c.effBackgroundActive)
  else if st.hover = some vertical then (c.effColorHover, c.effBackgroundHover)
  else (c.effColor, c.effBackground)

/-- lib.rs:969-971 `clear_all_hover` before a move, with scrollable.rs:1421-1428; then the event, if the pointer is in the
region of the container. -/
def step (s : Sheet) (b : Body) (r : Region) (st : State) (m : Mouse) : State :=
  let st := if m.kind = .moved then st.clearHover else st
  if r.containsPoint m.column m.row then (st.onMouse s b m r).1 else st

/-- A history of mouse events for a scrolling container in region `r`.
Each event is a call of `on_mouse`, scrollable.rs:979. -/
def run (s : Sheet) (b : Body) (r : Region) (st : State) (ms : List Mouse) : State := ms.foldl (step s b r) st

/-- The same for the screen, whose region is the terminal; `clear_hover` (screen.rs:1146-1152) leaves its bars alone. -/
def screenStep (s : Sheet) (b : Body) (pinned : Nat → Bool) (r : Region) (st : State) (m : Mouse) : State :=
  (Screen.onMouse s b pinned st m r).1

/-- A history of mouse events for a screen. Each event is a call of `on_mouse`, screen.rs:771. -/
def screenRun (s : Sheet) (b : Body) (pinned : Nat → Bool) (r : Region) (st : State) (ms : List Mouse) : State :=
  ms.foldl (screenStep s b pinned r) st

/-- container.rs:1445-1569: `on_mouse` and `on_mouse_with_sender` of a plain container change its position only. -/
def containerStep (scroll : ScrollState → Mouse → ScrollState) (st : State) (m : Mouse) : State :=
  { st with scroll := scroll st.scroll m }

end Textual.BarColours
