import Verif.Props.ScrollerDrag

/-! C105, the horizontal bar. -/

namespace Textual.Scroller

open Layout (Placement Viewport)

theorem drag_horizontal (s : Sheet) (b : Body) (st : State) (m : Mouse) (r : Region) (grab : Int)
    (hmono : Monotone b (Viewport.ofRegion r)) (hh : st.drag = some (false, grab))
    (hk : m.kind = .drag ∨ m.kind = .moved) (hg : s.stableGutter = false ∨ s.overflowY ≠ .auto) :
    let p := plan s b (inner s r) (Viewport.ofRegion r)
    let bar := hRegion s (inner s r) p.show_.v
    0 < p.content.height → 0 < p.content.width → p.content.width < p.virtualWidth →
    bar.width = p.content.width ∧
    (st.onMouse s b m r).1.scroll = (st.laidOut p).scroll.scrollTo
      (some (((m.column - bar.x - grab : Int) : Rat) * p.virtualWidth / p.content.width)) none := by
  intro p bar hw hW hV
  have hbars := bars_partial s b (inner s r) (Viewport.ofRegion r) hmono
  dsimp only at hbars
  obtain ⟨hH, _, hcont, hpl, _⟩ := hbars
  have hbar : bar.width = p.content.width := by
    show (hRegion s (inner s r) p.show_.v).width = p.content.width
    rw [hcont]
    have hno : ¬ (s.stableGutter = true ∧ s.overflowY = .auto) := by
      rintro ⟨h1, h2⟩; rcases hg with h | h
      · rw [h] at h1; cases h1
      · exact h h2
    simp only [hRegion, contentRegion, hno, or_false]; rfl
  refine ⟨hbar, ?_⟩
  have hvs : p.virtualHeight = (virtualSize b (b.arrange p.content (Viewport.ofRegion r)) p.content).2 := by
    show (plan s b (inner s r) (Viewport.ofRegion r)).virtualHeight = _
    unfold plan
    rw [rounds]; dsimp only
    split
    · rename_i e; simp only [p, plan]; rw [rounds]; dsimp only; rw [if_pos e]
    rename_i e
    rw [rounds]; dsimp only
    split
    · rename_i e'; simp only [p, plan]; rw [rounds]; dsimp only; rw [if_neg e, rounds]; dsimp only; rw [if_pos e']
    rename_i e'
    simp only [p, plan]; rw [rounds, rounds]; dsimp only; rw [if_neg e, rounds]; dsimp only; rw [if_neg e', rounds]
  have hshow : ((st.laidOut p).shows s).v = p.show_.v := by
    rw [Bool.eq_iff_iff, hH, ← virtual_tall]
    show _ ↔ Wanted s.overflowY ((virtualSize b (b.arrange p.content (Viewport.ofRegion r)) p.content).2 > p.content.height)
    rw [← hvs]
    simp only [State.shows, State.laidOut, ScrollState.setViewport, ScrollState.setVirtualSize, ScrollState.reclamp,
      Wanted]
    cases s.overflowY <;> simp [hw]
  have hfin : ((st.laidOut p).dragBar s m (inner s r) false grab).scroll = (st.laidOut p).scroll.scrollTo
      (some (((m.column - bar.x - grab : Int) : Rat) * p.virtualWidth / p.content.width)) none := by
    simp only [State.dragBar, Bool.false_eq_true, if_false, hshow]
    rw [show (hRegion s (inner s r) p.show_.v) = bar from rfl, hbar,
      show (st.laidOut p).scroll.virtualWidth = p.virtualWidth from rfl,
      show (st.laidOut p).scroll.viewportWidth = p.content.width from rfl, dragTo_exact _ _ _ hW hV]
    rfl
  have hd : (st.laidOut p).drag = some (false, grab) := hh
  rw [← hfin]
  unfold State.onMouse
  dsimp only
  rcases hk with e | e <;> rw [e] <;> dsimp only <;> rw [show (st.laidOut (plan s b (inner s r) (Viewport.ofRegion r))).drag = some (false, grab) from hh]

/-- **C105** (partial: horizontal bar, no gutter kept free, layouts as in C102, a thumb of at least one cell, and a pointer
that does not ask for a place outside the track; see the counterexamples). While the bar is held, the thumb is drawn where the
pointer holds it, or one cell before. -/
theorem drag_follows_sideways_partial (s : Sheet) (b : Body) (st : State) (m : Mouse) (r : Region) (grab : Int)
    (hmono : Monotone b (Viewport.ofRegion r)) (hh : st.drag = some (false, grab))
    (hk : m.kind = .drag ∨ m.kind = .moved) (hg : s.stableGutter = false ∨ s.overflowY ≠ .auto) :
    let p := plan s b (inner s r) (Viewport.ofRegion r)
    let bar := hRegion s (inner s r) p.show_.v
    let W := p.content.width
    let V := p.virtualWidth
    let n := m.column - bar.x - grab
    0 < p.content.height → 0 < W → W < V → V ≤ W * W → 0 ≤ n → n * V ≤ W * (V - W) →
    let c := (st.onMouse s b m r).1.scroll
    let thumb := (Scrollbar.thumbBounds bar.width c.virtualWidth c.viewportWidth c.offsetX).1
    thumb = n - 1 ∨ thumb = n := by
  intro p bar W V n hw hW hV hT hn hmax c thumb
  obtain ⟨hbar, hc⟩ := drag_horizontal s b st m r grab hmono hh hk hg hw hW hV
  have hwq : (0 : Rat) < W := by exact_mod_cast hW
  have hfl : 0 ≤ ((n : Rat) * V / W).floor ∧ ((n : Rat) * V / W).floor ≤ V - W := by
    have hvq : (0 : Rat) < V := by exact_mod_cast hW.trans hV
    have hnq : (0 : Rat) ≤ n := by exact_mod_cast hn
    refine ⟨(Int.floor_nonneg (a := (n : Rat) * V / W)).2 (by positivity), ?_⟩
    have h1 : (((n : Rat) * V / W).floor : Rat) ≤ n * V / W := Int.floor_le _
    have h2 : (n : Rat) * V / W ≤ ((V - W : Int) : Rat) := by
      rw [div_le_iff₀ hwq]; push_cast; have : (n : Rat) * V ≤ W * (V - W) := by exact_mod_cast hmax
      linarith
    exact_mod_cast h1.trans h2
  have e1 : c.virtualWidth = V ∧ c.viewportWidth = W ∧ c.offsetX = ((n : Rat) * V / W).floor := by
    show (st.onMouse s b m r).1.scroll.virtualWidth = V ∧ (st.onMouse s b m r).1.scroll.viewportWidth = W ∧
      (st.onMouse s b m r).1.scroll.offsetX = _
    rw [hc]
    refine ⟨rfl, rfl, ?_⟩
    have hmx : (st.laidOut p).scroll.maxScrollX = max (V - W) 0 := rfl
    show ScrollState.clamp ((n : Rat) * V / W).floor 0 (st.laidOut p).scroll.maxScrollX = _
    rw [hmx, ScrollState.clamp, if_neg (by omega), if_neg (by omega)]
  have ht : thumb = (Scrollbar.thumbBounds W V W (((n : Rat) * V / W).floor : Int)).1 := by
    show (Scrollbar.thumbBounds bar.width c.virtualWidth c.viewportWidth c.offsetX).1 = _
    rw [hbar, e1.1, e1.2.1, e1.2.2]
  rw [ht]
  exact thumb_of_drag W V n hW hV hT hn


/-- A window of twenty columns on fifty, held by the third cell of the thumb and dragged to column 10. -/
example :
    let s : Sheet := { overflowY := .hidden }
    let st : State := { drag := some (false, 2) }
    let p := plan s (card 50 5) (inner s ⟨0, 0, 20, 10⟩) ⟨20, 10⟩
    p.content = ⟨0, 0, 20, 9⟩ ∧ p.virtualWidth = 50 ∧ (8 : Int) * 50 ≤ 20 * (50 - 20) ∧
    (st.onMouse s (card 50 5) ⟨.drag, 10, 9, false⟩ ⟨0, 0, 20, 10⟩).1.scroll.offsetX = 20 := by decide +kernel

/-- **C105**: a bar that is let go is no longer held, whatever is under the pointer, and the next movements of the
pointer do not scroll. -/
theorem release_lets_go (s : Sheet) (b b' : Body) (st : State) (m m' : Mouse) (r r' : Region) (hk : m.kind = .up)
    (hk' : m'.kind = .moved ∨ m'.kind = .drag) :
    (st.onMouse s b m r).1.drag = none ∧
    ((st.onMouse s b m r).1.onMouse s b' m' r').1.scroll =
      ((st.onMouse s b m r).1.laidOut (plan s b' (inner s r') (Viewport.ofRegion r'))).scroll := by
  have h1 : (st.onMouse s b m r).1.drag = none := by
    unfold State.onMouse
    dsimp only
    rw [hk]
    dsimp only
    split
    · rfl
    · rename_i h
      simpa using h
  refine ⟨h1, ?_⟩
  generalize (st.onMouse s b m r).1 = t at *
  have h2 : (t.laidOut (plan s b' (inner s r') (Viewport.ofRegion r'))).drag = none := h1
  unfold State.onMouse
  dsimp only
  rcases hk' with e | e <;> rw [e] <;> dsimp only <;> rw [h2] <;> dsimp only
  generalize (if (drawsV s _ && _) = true then _ else _ : Option Bool) = hov
  split <;> rfl

example : let st : State := { drag := some (true, 1) }
    (st.onMouse {} (card 10 25) ⟨.up, 3, 3, false⟩ ⟨0, 0, 20, 10⟩).1.drag = none := by decide +kernel

end Textual.Scroller
