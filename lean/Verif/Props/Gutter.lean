import Verif.Props.PaneMouse
import Verif.Props.ScreenBars

/-! C117: a stable gutter. -/

namespace Textual

open Layout (Placement Viewport)
open Scroller (Sheet Body inner scrolled)

namespace Scroller

theorem rounds_gutter (s : Sheet) (b : Body) (r : Region) (vp : Viewport) (hg : s.stableGutter = true)
    (hy : s.overflowY = .auto) : ∀ (n : Nat) (f : Flags),
    (rounds s b r vp n f).content.x = r.x ∧ (rounds s b r vp n f).content.width = max (r.width - s.barV) 0 ∧
    (rounds s b r vp n f).placements = b.arrange (rounds s b r vp n f).content vp
  | 0, f => by
    unfold rounds
    exact ⟨rfl, by simp [contentRegion, hg, hy], rfl⟩
  | n + 1, f => by
    unfold rounds
    dsimp only
    split
    · exact ⟨rfl, by simp [contentRegion, hg, hy], rfl⟩
    · exact rounds_gutter s b r vp hg hy n _

/-- **C117** for scrolling containers: with a stable gutter the columns in which the children are laid out and shown
are those beside the bar, whatever the children are. -/
theorem gutter_stable (s : Sheet) (b : Body) (r : Region) (vp : Viewport) (hg : s.stableGutter = true)
    (hy : s.overflowY = .auto) :
    (plan s b r vp).placements = b.arrange (plan s b r vp).content vp ∧
    (plan s b r vp).content.x = r.x ∧ (plan s b r vp).content.width = max (r.width - s.barV) 0 :=
  have h := rounds_gutter s b r vp hg hy 2 {}
  ⟨h.2.2, h.1, h.2.1⟩

example : (plan { stableGutter := true } (Screen.card 5 3) ⟨0, 0, 20, 10⟩ ⟨80, 24⟩).content = ⟨0, 0, 18, 10⟩ ∧
    (plan { stableGutter := true } (Screen.card 5 30) ⟨0, 0, 20, 10⟩ ⟨80, 24⟩).content = ⟨0, 0, 18, 10⟩ := by
  decide +kernel

end Scroller

namespace Pane

/-- **C117** for plain containers, in part: the area in which the children are shown is the same whatever they are. -/
theorem gutter_area_partial (s : Sheet) (es : List Event) (b : Body) (r : Region) (vp : Viewport)
    (h : Told none (es ++ [.draw b r vp])) (hr : 0 < r.width ∧ 0 < r.height) (hg : s.stableGutter = true) :
    ((State.history s es).draw s b r vp).1.content =
      ⟨(inner s r).x, (inner s r).y, max ((inner s r).width - s.barV) 0, max ((inner s r).height - s.barH) 0⟩ := by
  rw [(drawn_limit s es b r vp h (by omega)).1]
  unfold drawPlain
  dsimp only
  split <;> simp [contentRegion, hg]

/-- A child that fills the width. -/
def fill (h : Int) : Body := { arrange := fun a _ => [⟨0, ⟨a.x, a.y, a.width, h⟩⟩] }

example : let s : Sheet := { stableGutter := true }
    Told none ([] ++ [.draw (fill 3) ⟨0, 0, 20, 10⟩ ⟨80, 24⟩]) ∧
    ((State.history s []).draw s (fill 3) ⟨0, 0, 20, 10⟩ ⟨80, 24⟩).1.content = ⟨0, 0, 18, 9⟩ :=
  ⟨⟨.inl rfl, trivial⟩, by decide +kernel⟩

/-- **C117** fails for plain containers: while the children fit they are laid out under the gutter, so that their last
columns are cut off, and they jump when they no longer fit. -/
theorem gutter_counterexample :
    let s : Sheet := { stableGutter := true }
    ((State.history s []).draw s (fill 3) ⟨0, 0, 20, 10⟩ ⟨80, 24⟩).1 = ⟨⟨0, 0, 18, 9⟩, [⟨0, ⟨0, 0, 20, 3⟩⟩]⟩ ∧
    ((State.history s []).draw s (fill 30) ⟨0, 0, 20, 10⟩ ⟨80, 24⟩).1 = ⟨⟨0, 0, 18, 9⟩, [⟨0, ⟨0, 0, 18, 30⟩⟩]⟩ := by
  decide +kernel

end Pane

namespace Screen

/-- **C117** for screens, in part: the columns in which the children are shown are the same whatever they are. -/
theorem gutter_area_partial (s : Sheet) (b : Body) (st : Scroller.State) (r : Region) (vp : Viewport)
    (hr : 0 < r.width ∧ 0 < r.height) (hg : s.stableGutter = true) (hy : s.overflowY = .auto) :
    ∃ d, (draw s b st r vp).1 = some d ∧ d.content.x = (inner s r).x ∧
      d.content.width = max ((inner s r).width - s.barV) 0 := by
  refine ⟨_, by rw [draw_eq s b st r vp hr], ?_⟩
  dsimp only
  rw [layout_area]
  exact ⟨rfl, by simp [Scroller.contentRegion, hg, hy]⟩

example : let s : Sheet := { overflowX := .hidden, stableGutter := true }
    (draw s (card 5 3) {} ⟨0, 0, 20, 10⟩ ⟨20, 10⟩).1.map (·.content) = some ⟨0, 0, 18, 10⟩ := by decide +kernel

/-- **C117** fails for screens, too. -/
theorem gutter_counterexample :
    let s : Sheet := { overflowX := .hidden, stableGutter := true }
    (draw s (Pane.fill 3) {} ⟨0, 0, 20, 10⟩ ⟨20, 10⟩).1.map (fun d => (d.content, d.children)) =
      some (⟨0, 0, 18, 10⟩, [⟨0, ⟨0, 0, 20, 3⟩⟩]) ∧
    (draw s (Pane.fill 30) {} ⟨0, 0, 20, 10⟩ ⟨20, 10⟩).1.map (fun d => (d.content, d.children)) =
      some (⟨0, 0, 18, 10⟩, [⟨0, ⟨0, 0, 18, 30⟩⟩]) := by decide +kernel

end Screen

end Textual
