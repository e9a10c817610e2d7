import Verif.Props.ScrollerMouse
import Mathlib.Tactic.FieldSimp
import Mathlib.Tactic.Ring

/-! C105: a dragged scrollbar follows the pointer. -/

namespace Textual.Scroller

open Layout (Placement Viewport)

/-- With a track as long as the window, dragging the thumb to `n` asks for the position `n * V / W`. -/
theorem dragTo_exact (W V n : Int) (hW : 0 < W) (hV : W < V) : dragTo W V W n = some ((n : Rat) * V / W) := by
  have hw : (0 : Rat) < W := by exact_mod_cast hW
  have hv : (0 : Rat) < V := by exact_mod_cast hW.trans hV
  have hd : (0 : Rat) < V - W := by have : (W : Rat) < V := by exact_mod_cast hV
                                    linarith
  have hr : (W : Rat) - W / V * W = W * (V - W) / V := by field_simp
  simp only [dragTo, hr]
  rw [if_pos (by positivity)]
  congr 1
  field_simp

theorem thumb_of_drag (W V n : Int) (hW : 0 < W) (hV : W < V) (hT : V ≤ W * W) (hn : 0 ≤ n) :
    let p := (((n : Rat) * V / W).floor : Int)
    (Scrollbar.thumbBounds W V W p).1 = n - 1 ∨ (Scrollbar.thumbBounds W V W p).1 = n := by
  have hw : (0 : Rat) < W := by exact_mod_cast hW
  have hwv : (W : Rat) < V := by exact_mod_cast hV
  have hv : (0 : Rat) < V := hw.trans hwv
  have hd : (0 : Rat) < V - W := by linarith
  have hn' : (0 : Rat) ≤ n := by exact_mod_cast hn
  have hT' : (V : Rat) ≤ W * W := by exact_mod_cast hT
  intro p
  have p0 : 0 ≤ p := (Int.floor_nonneg (a := (n : Rat) * V / W)).2 (by positivity)
  have p0' : (0 : Rat) ≤ p := by exact_mod_cast p0
  have p1 : (p : Rat) ≤ n * V / W := Int.floor_le _
  have p2 : (n : Rat) * V / W < p + 1 := Int.lt_floor_add_one _
  have hs : max ((W : Rat) / (V / W)) 1 = W * W / V := by
    have e : (W : Rat) / (V / W) = W * W / V := by field_simp
    rw [e, max_eq_left]
    rw [le_div_iff₀ hv]; linarith
  have hq : ((W : Rat) - W * W / V) * (p / (V - W)) = p * W / V := by field_simp
  have hb : (Scrollbar.thumbBounds W V W p).1 = ⌊(p : Rat) * W / V⌋ := by
    simp only [Scrollbar.thumbBounds, if_pos hwv]
    rw [if_neg (by rintro (h | h | h | h) <;> first | linarith | omega)]
    dsimp only
    rw [hs, hq, Scrollbar.trunc, if_pos (by positivity)]
  rw [hb]
  have u : (p : Rat) * W / V ≤ n := by
    rw [div_le_iff₀ hv]
    rw [le_div_iff₀ hw] at p1
    linarith
  have l : (n : Rat) - 1 < p * W / V := by
    rw [lt_div_iff₀ hv]
    rw [div_lt_iff₀ hw] at p2
    nlinarith
  have f1 : ⌊(p : Rat) * W / V⌋ ≤ n := by
    have := Int.floor_le ((p : Rat) * W / V)
    exact_mod_cast this.trans u
  have f2 : n - 1 ≤ ⌊(p : Rat) * W / V⌋ := by
    rw [Int.le_floor]; push_cast; exact l.le
  omega

theorem drag_vertical (s : Sheet) (b : Body) (st : State) (m : Mouse) (r : Region) (grab : Int)
    (hmono : Monotone b (Viewport.ofRegion r)) (hh : st.drag = some (true, grab))
    (hk : m.kind = .drag ∨ m.kind = .moved) :
    let p := plan s b (inner s r) (Viewport.ofRegion r)
    let bar := vRegion s (inner s r) p.show_.h
    0 < p.content.width → 0 < p.content.height → p.content.height < p.virtualHeight →
    bar.height = p.content.height ∧
    (st.onMouse s b m r).1.scroll = (st.laidOut p).scroll.scrollTo none
      (some (((m.row - bar.y - grab : Int) : Rat) * p.virtualHeight / p.content.height)) := by
  intro p bar hw hW hV
  have hbars := bars_partial s b (inner s r) (Viewport.ofRegion r) hmono
  dsimp only at hbars
  obtain ⟨_, hH, hcont, hpl, _⟩ := hbars
  have hbar : bar.height = p.content.height := by
    show (vRegion s (inner s r) p.show_.h).height = p.content.height
    rw [hcont]; simp only [vRegion, contentRegion]; rfl
  refine ⟨hbar, ?_⟩
  have hvs : p.virtualWidth = (virtualSize b (b.arrange p.content (Viewport.ofRegion r)) p.content).1 := by
    show (plan s b (inner s r) (Viewport.ofRegion r)).virtualWidth = _
    unfold plan
    rw [rounds]; dsimp only
    split
    · rename_i e; simp only [p, plan]; rw [rounds]; dsimp only; rw [if_pos e]
    rename_i e
    rw [rounds]; dsimp only
    split
    · rename_i e'; simp only [p, plan]; rw [rounds]; dsimp only; rw [if_neg e, rounds]; dsimp only; rw [if_pos e']
    rename_i e'
    simp only [p, plan]; rw [rounds, rounds]; dsimp only; rw [if_neg e, rounds]; dsimp only; rw [if_neg e', rounds]
  have hshow : ((st.laidOut p).shows s).h = p.show_.h := by
    rw [Bool.eq_iff_iff, hH, ← virtual_wide]
    show _ ↔ Wanted s.overflowX ((virtualSize b (b.arrange p.content (Viewport.ofRegion r)) p.content).1 > p.content.width)
    rw [← hvs]
    simp only [State.shows, State.laidOut, ScrollState.setViewport, ScrollState.setVirtualSize, ScrollState.reclamp,
      Wanted]
    cases s.overflowX <;> simp [hw]
  have hfin : ((st.laidOut p).dragBar s m (inner s r) true grab).scroll = (st.laidOut p).scroll.scrollTo none
      (some (((m.row - bar.y - grab : Int) : Rat) * p.virtualHeight / p.content.height)) := by
    simp only [State.dragBar, if_true, hshow]
    rw [show (vRegion s (inner s r) p.show_.h) = bar from rfl, hbar,
      show (st.laidOut p).scroll.virtualHeight = p.virtualHeight from rfl,
      show (st.laidOut p).scroll.viewportHeight = p.content.height from rfl, dragTo_exact _ _ _ hW hV]
    rfl
  have hd : (st.laidOut p).drag = some (true, grab) := hh
  rw [← hfin]
  unfold State.onMouse
  dsimp only
  rcases hk with e | e <;> rw [e] <;> dsimp only <;> rw [show (st.laidOut (plan s b (inner s r) (Viewport.ofRegion r))).drag = some (true, grab) from hh]

/-- **C105** (partial: vertical bar, layouts as in C102, a thumb of at least one cell, and a pointer that does not
ask for a place outside the track; see the counterexamples). While the bar is held, the thumb is drawn where the
pointer holds it, or one cell before. -/
theorem drag_follows_partial (s : Sheet) (b : Body) (st : State) (m : Mouse) (r : Region) (grab : Int)
    (hmono : Monotone b (Viewport.ofRegion r)) (hh : st.drag = some (true, grab))
    (hk : m.kind = .drag ∨ m.kind = .moved) :
    let p := plan s b (inner s r) (Viewport.ofRegion r)
    let bar := vRegion s (inner s r) p.show_.h
    let W := p.content.height
    let V := p.virtualHeight
    let n := m.row - bar.y - grab
    0 < p.content.width → 0 < W → W < V → V ≤ W * W → 0 ≤ n → n * V ≤ W * (V - W) →
    let c := (st.onMouse s b m r).1.scroll
    let thumb := (Scrollbar.thumbBounds bar.height c.virtualHeight c.viewportHeight c.offsetY).1
    thumb = n - 1 ∨ thumb = n := by
  intro p bar W V n hw hW hV hT hn hmax c thumb
  obtain ⟨hbar, hc⟩ := drag_vertical s b st m r grab hmono hh hk hw hW hV
  have hwq : (0 : Rat) < W := by exact_mod_cast hW
  have hfl : 0 ≤ ((n : Rat) * V / W).floor ∧ ((n : Rat) * V / W).floor ≤ V - W := by
    have hvq : (0 : Rat) < V := by exact_mod_cast hW.trans hV
    have hnq : (0 : Rat) ≤ n := by exact_mod_cast hn
    refine ⟨(Int.floor_nonneg (a := (n : Rat) * V / W)).2 (by positivity), ?_⟩
    have h1 : (((n : Rat) * V / W).floor : Rat) ≤ n * V / W := Int.floor_le _
    have h2 : (n : Rat) * V / W ≤ ((V - W : Int) : Rat) := by
      rw [div_le_iff₀ hwq]; push_cast; have : (n : Rat) * V ≤ W * (V - W) := by exact_mod_cast hmax
      linarith
    exact_mod_cast h1.trans h2
  have e1 : c.virtualHeight = V ∧ c.viewportHeight = W ∧ c.offsetY = ((n : Rat) * V / W).floor := by
    show (st.onMouse s b m r).1.scroll.virtualHeight = V ∧ (st.onMouse s b m r).1.scroll.viewportHeight = W ∧
      (st.onMouse s b m r).1.scroll.offsetY = _
    rw [hc]
    refine ⟨rfl, rfl, ?_⟩
    have hmx : (st.laidOut p).scroll.maxScrollY = max (V - W) 0 := rfl
    show ScrollState.clamp ((n : Rat) * V / W).floor 0 (st.laidOut p).scroll.maxScrollY = _
    rw [hmx, ScrollState.clamp, if_neg (by omega), if_neg (by omega)]
  have ht : thumb = (Scrollbar.thumbBounds W V W (((n : Rat) * V / W).floor : Int)).1 := by
    show (Scrollbar.thumbBounds bar.height c.virtualHeight c.viewportHeight c.offsetY).1 = _
    rw [hbar, e1.1, e1.2.1, e1.2.2]
  rw [ht]
  exact thumb_of_drag W V n hW hV hT hn

/-- A window of ten rows on twenty-five, held by the top of the thumb and dragged to row 4. -/
example :
    let s : Sheet := { overflowX := .hidden }
    let st : State := { drag := some (true, 0) }
    let p := plan s (card 10 25) (inner s ⟨0, 0, 20, 10⟩) ⟨20, 10⟩
    p.content = ⟨0, 0, 18, 10⟩ ∧ p.virtualHeight = 25 ∧ (4 : Int) * 25 ≤ 10 * (25 - 10) ∧
    (st.onMouse s (card 10 25) ⟨.drag, 19, 4, false⟩ ⟨0, 0, 20, 10⟩).1.scroll.offsetY = 10 := by decide +kernel

/-- **C105** fails for a pointer that does not move: the position was reached with the keys, and the first drag
event at the very cell of the press scrolls back from 4 to 2. -/
theorem drag_jump_counterexample :
    let s : Sheet := { overflowX := .hidden }
    let go := State.event s
    let st := (List.replicate 4 (Event.key .down)).foldl go (go {} (.draw (card 10 25) ⟨0, 0, 20, 10⟩ ⟨80, 24⟩))
    let held := go st (.mouse (card 10 25) ⟨0, 0, 20, 10⟩ ⟨.down, 19, 1, false⟩)
    let dragged := go held (.mouse (card 10 25) ⟨0, 0, 20, 10⟩ ⟨.drag, 19, 1, false⟩)
    held.drag = some (true, 0) ∧ held.scroll.offsetY = 4 ∧ dragged.scroll.offsetY = 2 := by decide +kernel

/-- **C105** fails at the end: held by the last cell of the thumb and dragged to the last cell of the bar, the
content is not scrolled to its end (12 of 14). -/
theorem drag_end_counterexample :
    let s : Sheet := { overflowX := .hidden }
    let go := State.event s
    let st := go {} (.draw (card 10 24) ⟨0, 0, 20, 10⟩ ⟨80, 24⟩)
    let held := go st (.mouse (card 10 24) ⟨0, 0, 20, 10⟩ ⟨.down, 19, 4, false⟩)
    let dragged := go held (.mouse (card 10 24) ⟨0, 0, 20, 10⟩ ⟨.drag, 19, 9, false⟩)
    held.drag = some (true, 4) ∧ dragged.scroll.offsetY = 12 ∧ dragged.scroll.maxScrollY = 14 := by decide +kernel

end Textual.Scroller
