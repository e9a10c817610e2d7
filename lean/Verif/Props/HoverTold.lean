import Verif.Model.HoverTold
import Verif.Props.NestOnce
import Verif.Props.Clicks

/-!
# Only the widget seen under the pointer is told to be hovered (C205)
-/

namespace Textual.Nest

open Layout (Viewport)
open Scroller (Mouse At OnScreen)

/-- There is no screen in the tree. -/
def Screenless : Node → Prop
  | .leaf .. => True
  | .box b child => (∀ s body p st, b ≠ .screen s body p st) ∧ ∀ k, Screenless (child k)

/-- A screen is at the root if anywhere. -/
def OneScreen : Node → Prop
  | .leaf .. => True
  | .box _ child => ∀ k, Screenless (child k)

theorem setHover_screenless {n : Node} (hn : Screenless n) {i : Nat} (h : SetHover n i) : ∃ a, n = .leaf i a := by
  cases h with
  | leaf id a => exact ⟨a, rfl⟩
  | screen area vp c hc h => exact absurd rfl (hn.1 _ _ _ _)

theorem told_reached_aux (vp : Viewport) (m : Mouse) {n : Node} {r : Region} {i : Nat} (h : TellsHover vp m n r i) :
    OneScreen n → ∃ q, (i, q) ∈ (reach vp m n r).1 := by
  induction h with
  | here hb c hc h =>
    intro hn
    obtain ⟨a, ha⟩ := setHover_screenless (hn _) h
    exact ⟨c.region, List.mem_flatMap.2 ⟨c, hc, by rw [ha]; exact List.mem_singleton.2 rfl⟩⟩
  | @deeper b child r c hc i h ih =>
    intro hn
    have h1 : OneScreen (child c.childIndex) := by
      have := hn c.childIndex
      cases hx : child c.childIndex with
      | leaf id a => trivial
      | box b' child' => rw [hx] at this; exact this.2
    obtain ⟨q, hq⟩ := ih h1
    exact ⟨q, List.mem_flatMap.2 ⟨c, hc, hq⟩⟩

/-- **C205** (partial: containers as in C174, no screen inside a container). A move tells only the widget seen under the
pointer, if any, that it is hovered. -/
theorem told_seen_partial (t : Clicks.Touch) (hf : t.Fair) (hn : OneScreen t.node) (i : Nat)
    (h : TellsHover t.viewport t.mouse t.node t.screen i) :
    ∃ r ks, (i, r, ks) ∈ painted t.viewport t.node t.screen [] ∧ SeenAt (i, r, ks) t.event.column t.event.row := by
  obtain ⟨r, hr⟩ := told_reached_aux _ _ h hn
  obtain ⟨ks, hp, hs⟩ := reached_seen_partial t.viewport t.mouse hf.onScreen (Clicks.points t hf.kind) _ t.screen
    hf.inside hf.good [] (by simp) i r hr
  exact ⟨r, ks, hp, hs⟩

/-- The widget below the container of `Nest.tree` is told. -/
example : (Clicks.touch .moved 3 6).Fair ∧ OneScreen (Clicks.touch .moved 3 6).node ∧
    TellsHover ⟨20, 10⟩ (Clicks.touch .moved 3 6).mouse tree ⟨0, 0, 20, 10⟩ 2 := by
  refine ⟨Clicks.touch_fair _ _ _ (by decide) (by decide) (by decide), ?_, ?_⟩
  · intro k
    show Screenless (if k = 0 then _ else _)
    by_cases hk : k = 0
    · rw [if_pos hk]; exact ⟨fun _ _ _ _ h => (nomatch h), fun _ => trivial⟩
    · rw [if_neg hk]; trivial
  · have h1 : (⟨1, ⟨0, 6, 20, 2⟩⟩ : Layout.Placement) ∈ (Box.screen { overflowX := .hidden } above (fun _ => false) {}).asked ⟨20, 10⟩
        ⟨0, 0, 20, 10⟩ (Clicks.touch .moved 3 6).mouse fun _ _ => true := by decide +kernel
    exact .here rfl ⟨1, ⟨0, 6, 20, 2⟩⟩ h1 (.leaf 2 true)

/-- A screen with two widgets inside a plain container. -/
def innerScreen : Node := .box (.screen {} { arrange := fun a _ => [⟨0, ⟨a.x, a.y, 20, 2⟩⟩, ⟨1, ⟨a.x, a.y + 2, 20, 2⟩⟩] } (fun _ => false) {})
  fun i => .leaf i true

def outerPane : Node := .box (.pane {} { arrange := fun a _ => [⟨0, ⟨a.x, a.y, 20, 10⟩⟩] } {}) fun _ => innerScreen

/-- **C205** fails with a screen inside a container: a move on the first widget of the screen is given to that one only, and the
second is told that it is hovered too. -/
theorem told_screen_counterexample : let m : Mouse := ⟨.moved, 3, 1, false⟩
    (reach ⟨20, 10⟩ m outerPane ⟨0, 0, 20, 10⟩).1 = [(0, ⟨0, 0, 20, 2⟩)] ∧
    (painted ⟨20, 10⟩ outerPane ⟨0, 0, 20, 10⟩ []).map (fun p => (p.1, p.2.1)) = [(0, ⟨0, 0, 20, 2⟩), (1, ⟨0, 2, 20, 2⟩)] ∧
    TellsHover ⟨20, 10⟩ m outerPane ⟨0, 0, 20, 10⟩ 0 ∧ TellsHover ⟨20, 10⟩ m outerPane ⟨0, 0, 20, 10⟩ 1 := by
  have h1 : (⟨0, ⟨0, 0, 20, 10⟩⟩ : Layout.Placement) ∈ (Box.pane {} { arrange := fun a _ => [⟨0, ⟨a.x, a.y, 20, 10⟩⟩] } {}).asked ⟨20, 10⟩
      ⟨0, 0, 20, 10⟩ ⟨.moved, 3, 1, false⟩ fun _ r' => (reach ⟨20, 10⟩ ⟨.moved, 3, 1, false⟩ innerScreen r').2 := by decide +kernel
  refine ⟨by decide +kernel, by decide +kernel, ?_, ?_⟩
  · exact .here rfl ⟨0, ⟨0, 0, 20, 10⟩⟩ h1 (.screen ⟨0, 0, 20, 10⟩ ⟨20, 10⟩ ⟨0, ⟨0, 0, 20, 2⟩⟩ (by decide) (.leaf 0 true))
  · exact .here rfl ⟨0, ⟨0, 0, 20, 10⟩⟩ h1 (.screen ⟨0, 0, 20, 10⟩ ⟨20, 10⟩ ⟨1, ⟨0, 2, 20, 2⟩⟩ (by decide) (.leaf 1 true))

end Textual.Nest
