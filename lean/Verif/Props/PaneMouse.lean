import Verif.Props.Pane

/-! C108, C109: reaching the rows of a plain container, and mouse events for its children. -/

namespace Textual.Pane

open Layout (Placement Viewport)
open Scroller (Sheet Body Overflow Mouse Kind Flags inner scrolled inView At ScreenFree OnScreen contains_iff)

/-! ### C108: reaching the rows -/

def wheel (k : Kind) (r : Region) : Mouse := { kind := k, column := r.x, row := r.y }

/-- `n` turns of the wheel. -/
def State.turns (s : Sheet) (b : Body) (r : Region) (k : Kind) (st : State) : Nat → State
  | 0 => st
  | n + 1 => ((State.turns s b r k st n).onMouse s b (wheel k r) r fun _ => false).2

/-- The height of the content laid out in `a`. -/
def tall (b : Body) (vp : Viewport) (a : Region) : Int := (extent b (b.arrange a vp) a).2

theorem turn_down (s : Sheet) (b : Body) (r : Region) (st : State) (hr : At r r.x r.y) (hx : 0 ≤ r.x ∧ r.x < 65536)
    (hy : 0 ≤ r.y ∧ r.y < 65536) (ho : s.overflowY ≠ .hidden) :
    (st.onMouse s b (wheel .scrollDown r) r fun _ => false).2 = { st with scroll := st.scroll.scrollDown 3 } := by
  have hc := (contains_iff r r.x r.y hx hy).2 hr
  have hs : (st.shows s).v = true ∨ s.overflowY = .auto := by
    cases h : s.overflowY <;> simp_all [State.shows]
  simp [State.onMouse, wheel, hc, hs]

theorem turn_up (s : Sheet) (b : Body) (r : Region) (st : State) (hr : At r r.x r.y) (hx : 0 ≤ r.x ∧ r.x < 65536)
    (hy : 0 ≤ r.y ∧ r.y < 65536) (ho : s.overflowY ≠ .hidden) :
    (st.onMouse s b (wheel .scrollUp r) r fun _ => false).2 = { st with scroll := st.scroll.scrollUp 3 } := by
  have hc := (contains_iff r r.x r.y hx hy).2 hr
  have hs : (st.shows s).v = true ∨ s.overflowY = .auto := by
    cases h : s.overflowY <;> simp_all [State.shows]
  simp [State.onMouse, wheel, hc, hs]

theorem turns_up (s : Sheet) (b : Body) (r : Region) (st : State) (hr : At r r.x r.y) (hx : 0 ≤ r.x ∧ r.x < 65536)
    (hy : 0 ≤ r.y ∧ r.y < 65536) (ho : s.overflowY ≠ .hidden) (h0 : 0 ≤ st.scroll.offsetY) : ∀ n : Nat,
    let t := State.turns s b r .scrollUp st n
    t.cache = st.cache ∧ t.scroll.virtualHeight = st.scroll.virtualHeight ∧
    t.scroll.viewportHeight = st.scroll.viewportHeight ∧ t.scroll.offsetY = max (st.scroll.offsetY - 3 * n) 0 := by
  intro n
  induction n with
  | zero => exact ⟨rfl, rfl, rfl, by simp [State.turns, h0]⟩
  | succ n ih =>
    obtain ⟨i1, i2, i3, i4⟩ := ih
    dsimp only at *
    rw [State.turns, turn_up s b r _ hr hx hy ho]
    refine ⟨i1, i2, i3, ?_⟩
    simp only [ScrollState.scrollUp, i4]
    omega

theorem turns_down (s : Sheet) (b : Body) (r : Region) (st : State) (hr : At r r.x r.y) (hx : 0 ≤ r.x ∧ r.x < 65536)
    (hy : 0 ≤ r.y ∧ r.y < 65536) (ho : s.overflowY ≠ .hidden) (h0 : st.scroll.offsetY = 0) : ∀ n : Nat,
    let t := State.turns s b r .scrollDown st n
    t.cache = st.cache ∧ t.scroll.virtualHeight = st.scroll.virtualHeight ∧
    t.scroll.viewportHeight = st.scroll.viewportHeight ∧
    t.scroll.offsetY = min (3 * (n : Int)) (max (st.scroll.virtualHeight - st.scroll.viewportHeight) 0) := by
  intro n
  induction n with
  | zero => exact ⟨rfl, rfl, rfl, by simp [State.turns, h0]⟩
  | succ n ih =>
    obtain ⟨i1, i2, i3, i4⟩ := ih
    dsimp only at *
    rw [State.turns, turn_down s b r _ hr hx hy ho]
    refine ⟨i1, i2, i3, ?_⟩
    simp only [ScrollState.scrollDown, ScrollState.maxScrollY, i2, i3, i4]
    omega

theorem shows_hidden (s : Sheet) (c : ScrollState) (hx : s.overflowX = .hidden) : (flagsOf s c).h = false := by
  simp [flagsOf, State.shows, hx]

theorem flags_v (s : Sheet) (c c' : ScrollState) (h1 : c.virtualHeight = c'.virtualHeight)
    (h2 : c.viewportHeight = c'.viewportHeight) : (flagsOf s c).v = (flagsOf s c').v := by
  simp only [flagsOf, State.shows, ScrollState.canScrollY, h1, h2]

theorem content_plain (s : Sheet) (a : Region) (f : Flags) (hg : s.stableGutter = false) (hh : f.h = false)
    (ha : 0 ≤ a.height) :
    contentRegion s a f = ⟨a.x, a.y, max (a.width - if f.v = true then s.barV else 0) 0, a.height⟩ := by
  simp [contentRegion, hg, hh, ha]

/-- What a drawing without horizontal bar does to the position and where the content goes. -/
theorem drawPlain_rows (s : Sheet) (b : Body) (c : ScrollState) (a : Region) (vp : Viewport)
    (hx : s.overflowX = .hidden) (hg : s.stableGutter = false) (ha : 0 < a.width ∧ 0 ≤ a.height) :
    let f : Flags := { v := (flagsOf s (firstScroll b c a vp)).v }
    let area := contentRegion s a f
    (drawPlain s b c a vp).1 = ⟨area, ((b.arrange area vp).map fun p =>
      (⟨p.childIndex, scrolled (drawPlain s b c a vp).2 p.region⟩ : Placement)).filter fun p => inView area p.region⟩ ∧
    (drawPlain s b c a vp).2.virtualHeight = tall b vp area ∧
    (drawPlain s b c a vp).2.viewportHeight = a.height ∧
    (c.viewportHeight = a.height → (c.offsetY ≤ max (tall b vp a - a.height) 0) →
      (c.offsetY ≤ max (tall b vp area - a.height) 0) → 0 ≤ c.offsetY → (drawPlain s b c a vp).2.offsetY = c.offsetY) := by
  intro f area
  have hh := shows_hidden s (firstScroll b c a vp) hx
  have hfe : flagsOf s (firstScroll b c a vp) = f := by
    simp only [f]
    generalize flagsOf s (firstScroll b c a vp) = g at *
    cases g; simp_all
  have harea : area = ⟨a.x, a.y, max (a.width - if f.v = true then s.barV else 0) 0, a.height⟩ :=
    content_plain s a f hg rfl ha.2
  have hd : drawPlain s b c a vp = if f.v = true ∧ area.width < a.width then
      (⟨area, ((b.arrange area vp).map fun p => (⟨p.childIndex, scrolled (firstScroll b (firstScroll b c a vp) area vp)
        p.region⟩ : Placement)).filter fun p => inView area p.region⟩, firstScroll b (firstScroll b c a vp) area vp)
      else (⟨area, ((b.arrange a vp).map fun p => (⟨p.childIndex, scrolled (firstScroll b c a vp) p.region⟩ :
        Placement)).filter fun p => inView area p.region⟩, firstScroll b c a vp) := by
    unfold drawPlain
    dsimp only
    rw [hfe]
  rw [hd]
  clear_value area
  clear hd hfe hh
  clear_value f
  by_cases hv : f.v = true ∧ area.width < a.width
  · rw [if_pos hv]
    refine ⟨rfl, rfl, by simp only [harea]; rfl, ?_⟩
    intro h1 h2 h3 h4
    have hah : area.height = a.height := by rw [harea]
    simp only [firstScroll, ScrollState.setViewport, ScrollState.setVirtualSize, ScrollState.reclamp,
      ScrollState.maxScrollY, ScrollState.maxScrollX, tall, h1] at *
    change max (min (max (min (max (min (max (min c.offsetY _) 0) _) 0) _) 0) _) 0 = _
    rw [hah]
    omega
  · rw [if_neg hv]
    have hae : area = a := by
      rw [harea]
      rw [harea] at hv
      dsimp only at hv
      cases a
      simp only [Region.mk.injEq, true_and, and_true] at *
      by_cases hfv : f.v = true
      · simp only [hfv, if_true, true_and] at hv ⊢; omega
      · simp only [hfv]; simp; omega
    refine ⟨by rw [hae], by rw [hae]; rfl, rfl, ?_⟩
    intro h1 h2 h3 h4
    simp only [firstScroll, ScrollState.setViewport, ScrollState.setVirtualSize, ScrollState.reclamp,
      ScrollState.maxScrollY, ScrollState.maxScrollX, tall, h1] at *
    omega

theorem le_foldl_max {α : Type} (f : α → Int) : ∀ (l : List α) (m : Int), m ≤ l.foldl (fun m q => max m (f q)) m ∧
    ∀ q ∈ l, f q ≤ l.foldl (fun m q => max m (f q)) m
  | [], m => ⟨le_refl m, fun _ h => by cases h⟩
  | q :: l, m => by
    obtain ⟨h1, h2⟩ := le_foldl_max f l (max m (f q))
    refine ⟨le_trans (le_max_left _ _) h1, fun p hp => ?_⟩
    rcases List.mem_cons.1 hp with e | e
    · subst e; exact le_trans (le_max_right _ _) h1
    · exact h2 p e

theorem le_extent (b : Body) (ps : List Placement) (base : Region) (p : Placement) (h : p ∈ ps) :
    p.region.y - base.y + p.region.height + b.marginBottom p.childIndex ≤ (extent b ps base).2 := by
  cases ps with
  | nil => cases h
  | cons q rest =>
    have hm := le_foldl_max (fun p : Placement => p.region.y - base.y + p.region.height + b.marginBottom p.childIndex) rest
      (q.region.y - base.y + q.region.height + b.marginBottom q.childIndex)
    rcases List.mem_cons.1 h with e | e
    · subst e; exact hm.1
    · exact hm.2 p e

theorem drawPlain_nonneg (s : Sheet) (b : Body) (c : ScrollState) (a : Region) (vp : Viewport) :
    0 ≤ (drawPlain s b c a vp).2.offsetY := by
  have h : ∀ c a, 0 ≤ (firstScroll b c a vp).offsetY := fun c a => by
    simp only [firstScroll, ScrollState.setViewport, ScrollState.reclamp]; omega
  unfold drawPlain
  dsimp only
  split
  · exact h _ _
  · exact h _ _

theorem turns_x (s : Sheet) (b : Body) (r : Region) (k : Kind) (st : State) (h : st.scroll.offsetX = 0) :
    ∀ n, (st.turns s b r k n).scroll.offsetX = 0
  | 0 => h
  | n + 1 => event_x s _ (turns_x s b r k st h n) (.mouse b r (wheel k r) fun _ => false)

/-- **C108** (partial: no horizontal bar, no stable gutter, content that is not taller when narrower, an area of three
rows or more; see `sideways_counterexample`, `last_row_counterexample`, `wrapping_counterexample` and
`small_counterexample`). Each cell of each child in a column of the content area can be brought into view by turning
the wheel: up often enough and then down. -/
theorem rows_reachable_partial (s : Sheet) (es : List Event) (b : Body) (r : Region) (vp : Viewport)
    (htold : Told none (es ++ [.draw b r vp]))
    (hx : s.overflowX = .hidden) (hg : s.stableGutter = false) (ho : s.overflowY ≠ .hidden)
    (hr : 0 < r.width ∧ 0 < r.height) (hrx : 0 ≤ r.x ∧ r.x < 65536) (hry : 0 ≤ r.y ∧ r.y < 65536)
    (hi : 0 < (inner s r).width ∧ 3 ≤ (inner s r).height)
    (hnarrow : ∀ w ≤ (inner s r).width, tall b vp { inner s r with width := w } ≤ tall b vp (inner s r))
    (hmargin : ∀ i, 0 ≤ b.marginBottom i) :
    let shown := (State.history s es).draw s b r vp
    ∀ c ∈ b.arrange shown.1.content vp, ∀ x y, At c.region x y → (inner s r).y ≤ y →
      shown.1.content.x ≤ x → x < shown.1.content.x + shown.1.content.width →
      ∃ up down dy, 
        let later := ((shown.2.turns s b r .scrollUp up).turns s b r .scrollDown down).draw s b r vp
        later.1.content = shown.1.content ∧ At shown.1.content x (y - dy) ∧
        (⟨c.childIndex, { c.region with y := c.region.y - dy }⟩ : Placement) ∈ later.1.children := by
  intro shown c hc x y hat hy hx1 hx2
  have hv : Valid (State.history s es) b := told_valid s es none {} b r vp
    (fun _ _ => fun _ _ _ e => by cases e) htold
  have hrat : At r r.x r.y := by simp only [At]; omega
  have hnr : ¬ (r.width ≤ 0 ∨ r.height ≤ 0) := by omega
  have hdraw : ∀ st, State.draw s b st r vp = State.drawInner s b st (inner s r) vp := fun st => by
    unfold State.draw; rw [if_neg hnr]
  have hzero : shown.2.scroll.offsetX = 0 := 
    event_x s _ (never_sideways s es) (.draw b r vp)
  have hsv : Valid shown.2 b := draw_valid s b _ hv r vp
  obtain ⟨e1, e2, -⟩ := drawInner_plain s b _ hv (inner s r) vp
  have hshown : shown = State.drawInner s b (State.history s es) (inner s r) vp := hdraw _
  rw [← hshown] at e1 e2
  generalize (State.history s es).scroll = c0 at e1 e2
  generalize inner s r = a at *
  have ha : 0 < a.width ∧ 0 ≤ a.height := by omega
  obtain ⟨p1, p2, p3, -⟩ := drawPlain_rows s b c0 a vp hx hg ha
  have p0 := drawPlain_nonneg s b c0 a vp
  rw [← e2] at p0 p1 p2 p3
  rw [← e1] at p1
  have hflag : ∀ c, (flagsOf s (firstScroll b c a vp)).v = (flagsOf s (firstScroll b c0 a vp)).v :=
    fun c => flags_v s _ _ rfl rfl
  generalize hareaeq : contentRegion s a { v := (flagsOf s (firstScroll b c0 a vp)).v } = area at *
  have harea : shown.1.content = area := by rw [p1]
  rw [harea] at hc hx1 hx2 ⊢
  have hform := content_plain s a { v := (flagsOf s (firstScroll b c0 a vp)).v } hg rfl ha.2
  rw [hareaeq] at hform
  have hle : tall b vp area ≤ tall b vp a := by
    rw [hform]; apply hnarrow; split <;> omega
  have hay : area.y = a.y ∧ area.height = a.height := by rw [hform]; exact ⟨rfl, rfl⟩
  have hext := le_extent b _ area c hc
  have hm := hmargin c.childIndex
  change _ ≤ tall b vp area at hext
  simp only [At] at hat
  -- the wheel
  obtain ⟨u1, u2, u3, u4⟩ := turns_up s b r shown.2 hrat hrx hry ho p0 shown.2.scroll.offsetY.toNat
  have u5 : (State.turns s b r .scrollUp shown.2 shown.2.scroll.offsetY.toNat).scroll.offsetY = 0 := by
    rw [u4]; omega
  obtain ⟨d1, d2, d3, d4⟩ := turns_down s b r _ hrat hrx hry ho u5 ((y - a.y) / 3).toNat
  refine ⟨shown.2.scroll.offsetY.toNat, ((y - a.y) / 3).toNat,
    min (3 * (((y - a.y) / 3).toNat : Int)) (max (tall b vp area - a.height) 0), ?_⟩
  rw [u1] at d1
  rw [u2, p2] at d2
  rw [u3, p3] at d3
  rw [u2, u3, p2, p3] at d4
  have hx3 := turns_x s b r .scrollDown _ (turns_x s b r .scrollUp _ hzero shown.2.scroll.offsetY.toNat)
    ((y - a.y) / 3).toNat
  generalize State.turns s b r .scrollDown (State.turns s b r .scrollUp shown.2 shown.2.scroll.offsetY.toNat)
    ((y - a.y) / 3).toNat = t at *
  have htv : Valid t b := fun a vp ps h => hsv a vp ps (d1 ▸ h)
  have hx4 : (t.draw s b r vp).2.scroll.offsetX = 0 := event_x s t hx3 (.draw b r vp)
  obtain ⟨f1, f2, -⟩ := drawInner_plain s b t htv a vp
  rw [← hdraw] at f1 f2
  obtain ⟨q1, q2, q3, q4⟩ := drawPlain_rows s b t.scroll a vp hx hg ha
  rw [hflag, hareaeq] at q1 q2 q4
  rw [← f2] at q1 q2 q3 q4
  rw [← f1] at q1
  have q5 := q4 d3 (by omega) (by omega) (by omega)
  dsimp only
  rw [q1]
  refine ⟨rfl, ?_, ?_⟩
  · simp only [At]; omega
  · refine List.mem_filter.2 ⟨List.mem_map.2 ⟨c, hc, ?_⟩, ?_⟩
    · simp only [scrolled, hx4, q5, d4, Placement.mk.injEq, true_and, sub_zero]
    · simp only [inView, decide_eq_true_eq]
      omega

/-- A column of text of 20 rows, 24 when it is less than 20 wide. -/
def text : Body := { arrange := fun a _ => [⟨0, ⟨a.x, a.y, a.width, if a.width < 20 then 24 else 20⟩⟩] }

example : let s : Sheet := { overflowX := .hidden, chromeLeft := 1, chromeTop := 1, chromeRight := 1, chromeBottom := 1 }
    let r : Region := ⟨3, 2, 20, 10⟩
    Told none ([.draw (slab 10 50) r ⟨80, 24⟩] ++ [.draw (slab 10 50) r ⟨80, 24⟩]) ∧
    3 ≤ (inner s r).height ∧
    (∀ w ≤ (inner s r).width, tall (slab 10 50) ⟨80, 24⟩ { inner s r with width := w } ≤
      tall (slab 10 50) ⟨80, 24⟩ (inner s r)) ∧
    (((State.history s []).draw s (slab 10 50) r ⟨80, 24⟩).2.shows s).v = true ∧
    (⟨0, ⟨4, 3, 10, 50⟩⟩ : Placement) ∈
      (slab 10 50).arrange ((State.history s []).draw s (slab 10 50) r ⟨80, 24⟩).1.content ⟨80, 24⟩ :=
  ⟨⟨.inl rfl, .inr rfl, trivial⟩, by decide +kernel, fun _ _ => le_refl _, by decide +kernel, by decide +kernel⟩

theorem drawn_limit (s : Sheet) (es : List Event) (b : Body) (r : Region) (vp : Viewport)
    (h : Told none (es ++ [.draw b r vp])) (hr : ¬ (r.width ≤ 0 ∨ r.height ≤ 0)) :
    ((State.history s es).draw s b r vp).1 = (drawPlain s b (State.history s es).scroll (inner s r) vp).1 ∧
    0 ≤ (drawPlain s b (State.history s es).scroll (inner s r) vp).2.offsetY ∧
    (drawPlain s b (State.history s es).scroll (inner s r) vp).2.offsetX = 0 ∧
    (drawPlain s b (State.history s es).scroll (inner s r) vp).2.offsetY ≤
      max (tall b vp (inner s r) - (inner s r).height) 0 := by
  have hv : Valid (State.history s es) b := told_valid s es none {} b r vp (fun _ _ => fun _ _ _ e => by cases e) h
  have hx := event_x s _ (never_sideways s es) (.draw b r vp)
  simp only [State.event] at hx
  unfold State.draw at hx ⊢
  rw [if_neg hr] at hx ⊢
  rw [(drawInner_plain s b _ hv _ _).2.1] at hx
  refine ⟨(drawInner_plain s b _ hv _ _).1, drawPlain_nonneg _ _ _ _ _, hx, ?_⟩
  have h1 : ∀ c a, (firstScroll b c a vp).offsetY ≤ max (tall b vp a - a.height) 0 := fun c a => by
    simp only [firstScroll, ScrollState.setViewport, ScrollState.setVirtualSize, ScrollState.reclamp,
      ScrollState.maxScrollY, tall]
    omega
  have h2 : ∀ c a, (firstScroll b c a vp).offsetY ≤ max c.offsetY 0 := fun c a => by
    simp only [firstScroll, ScrollState.setViewport, ScrollState.setVirtualSize, ScrollState.reclamp,
      ScrollState.maxScrollY]
    omega
  unfold drawPlain
  dsimp only
  split
  · refine le_trans (h2 _ _) (max_le (h1 _ _) (le_max_right _ _))
  · exact h1 _ _

/-- **C108** fails with a horizontal bar: content as tall as the container and wider loses its last row to the bar,
whatever has happened. -/
theorem last_row_counterexample (es : List Event)
    (h : Told none (es ++ [.draw (slab 30 10) ⟨0, 0, 20, 10⟩ ⟨80, 24⟩])) :
    ((State.history {} es).draw {} (slab 30 10) ⟨0, 0, 20, 10⟩ ⟨80, 24⟩).1 =
      ⟨⟨0, 0, 20, 9⟩, [⟨0, ⟨0, 0, 30, 10⟩⟩]⟩ := by
  obtain ⟨h1, h2, h3, h4⟩ := drawn_limit {} es (slab 30 10) ⟨0, 0, 20, 10⟩ ⟨80, 24⟩ h (by decide)
  rw [h1]
  clear h1 h
  generalize (State.history {} es).scroll = c at *
  have hi : inner {} (⟨0, 0, 20, 10⟩ : Region) = ⟨0, 0, 20, 10⟩ := by decide
  rw [hi] at h2 h3 h4 ⊢
  have ht : tall (slab 30 10) ⟨80, 24⟩ ⟨0, 0, 20, 10⟩ = 10 := by decide
  rw [ht] at h4
  have hf : flagsOf {} (firstScroll (slab 30 10) c ⟨0, 0, 20, 10⟩ ⟨80, 24⟩) = { v := false, h := true } := rfl
  have hd : drawPlain {} (slab 30 10) c ⟨0, 0, 20, 10⟩ ⟨80, 24⟩ =
      (⟨⟨0, 0, 20, 9⟩, ([(⟨0, scrolled (firstScroll (slab 30 10) c ⟨0, 0, 20, 10⟩ ⟨80, 24⟩) ⟨0, 0, 30, 10⟩⟩ : Placement)]).filter
        fun p => inView ⟨0, 0, 20, 9⟩ p.region⟩, firstScroll (slab 30 10) c ⟨0, 0, 20, 10⟩ ⟨80, 24⟩) := by
    unfold drawPlain
    dsimp only
    rw [hf]
    rfl
  rw [hd] at h2 h3 h4 ⊢
  dsimp only at h2 h3 h4 ⊢
  have h5 : (firstScroll (slab 30 10) c ⟨0, 0, 20, 10⟩ ⟨80, 24⟩).offsetY = 0 := by omega
  simp only [scrolled, h3, h5]
  decide

/-- **C108** fails for text that wraps when the bar appears: the position is cut back to what the wider layout
allows, and the last four of the 24 rows stay below the area, whatever has happened. -/
theorem wrapping_counterexample (es : List Event)
    (h : Told none (es ++ [.draw text ⟨0, 0, 20, 10⟩ ⟨80, 24⟩])) :
    let d := ((State.history {} es).draw {} text ⟨0, 0, 20, 10⟩ ⟨80, 24⟩).1
    d.content = ⟨0, 0, 18, 10⟩ ∧ ∀ c ∈ d.children, c.region.height = 24 ∧ 14 ≤ c.region.y + c.region.height := by
  obtain ⟨h1, h2, h3, h4⟩ := drawn_limit {} es text ⟨0, 0, 20, 10⟩ ⟨80, 24⟩ h (by decide)
  dsimp only
  rw [h1]
  clear h1 h
  generalize (State.history {} es).scroll = c at *
  have hi : inner {} (⟨0, 0, 20, 10⟩ : Region) = ⟨0, 0, 20, 10⟩ := by decide
  rw [hi] at h2 h3 h4 ⊢
  have ht : tall text ⟨80, 24⟩ ⟨0, 0, 20, 10⟩ = 20 := by decide
  rw [ht] at h4
  have hf : flagsOf {} (firstScroll text c ⟨0, 0, 20, 10⟩ ⟨80, 24⟩) = { v := true, h := false } := rfl
  generalize hc2 : firstScroll text (firstScroll text c ⟨0, 0, 20, 10⟩ ⟨80, 24⟩) ⟨0, 0, 18, 10⟩ ⟨80, 24⟩ = c2
  have hd : drawPlain {} text c ⟨0, 0, 20, 10⟩ ⟨80, 24⟩ =
      (⟨⟨0, 0, 18, 10⟩, ([(⟨0, scrolled c2 ⟨0, 0, 18, 24⟩⟩ : Placement)]).filter
        fun p => inView ⟨0, 0, 18, 10⟩ p.region⟩, c2) := by
    unfold drawPlain
    dsimp only
    rw [hf]
    subst hc2
    rfl
  rw [hd] at h2 h3 h4 ⊢
  dsimp only at h2 h3 h4 ⊢
  refine ⟨rfl, fun p hp => ?_⟩
  have hp' := (List.mem_filter.1 hp).1
  simp only [List.mem_singleton] at hp'
  subst hp'
  simp only [scrolled]
  exact ⟨trivial, by omega⟩

/-- **C108** fails in an area of one row: the wheel goes by threes, so of ten rows only every third is ever shown. -/
theorem small_counterexample (es : List Event) (b : Body) (hb : b = slab 5 10) (r : Region) (hr : r = ⟨0, 0, 20, 1⟩)
    (h : ∀ e ∈ es, e = .draw b r ⟨80, 24⟩ ∨ ∃ m f, e = .mouse b r m f) :
    3 ∣ (State.history {} es).scroll.offsetY := by
  subst hb hr
  let Inv (c : ScrollState) : Prop := ((c.virtualHeight = 0 ∧ c.viewportHeight = 0) ∨
    (c.virtualHeight = 10 ∧ c.viewportHeight = 1)) ∧ 0 ≤ c.offsetY ∧ 3 ∣ c.offsetY ∧ c.offsetY ≤ 9
  have hfs : ∀ c a, a.height = 1 → Inv c → Inv (firstScroll (slab 5 10) c a ⟨80, 24⟩) := by
    intro c a ha ⟨h1, h2, h3, h4⟩
    have he : extent (slab 5 10) ((slab 5 10).arrange a ⟨80, 24⟩) a = (5, 10) := by simp [extent, slab]
    refine ⟨.inr ⟨by simp [firstScroll, he, ScrollState.setViewport, ScrollState.setVirtualSize, ScrollState.reclamp],
      ha⟩, ?_⟩
    simp only [firstScroll, he, ScrollState.setViewport, ScrollState.setVirtualSize, ScrollState.reclamp,
      ScrollState.maxScrollY, ha]
    rcases h1 with ⟨h1, h5⟩ | ⟨h1, h5⟩ <;> rw [h5] <;> omega
  have hdr : ∀ c, Inv c → Inv (drawPlain {} (slab 5 10) c ⟨0, 0, 20, 1⟩ ⟨80, 24⟩).2 := by
    intro c hc
    have hd : (drawPlain {} (slab 5 10) c ⟨0, 0, 20, 1⟩ ⟨80, 24⟩).2 = firstScroll (slab 5 10)
        (firstScroll (slab 5 10) c ⟨0, 0, 20, 1⟩ ⟨80, 24⟩) ⟨0, 0, 18, 1⟩ ⟨80, 24⟩ := by
      have hf : flagsOf {} (firstScroll (slab 5 10) c ⟨0, 0, 20, 1⟩ ⟨80, 24⟩) = { v := true, h := false } := rfl
      unfold drawPlain
      dsimp only
      rw [hf]
      rfl
    rw [hd]
    exact hfs _ _ rfl (hfs _ _ rfl hc)
  have key : ∀ (es : List Event) (st : State), (∀ e ∈ es, e = .draw (slab 5 10) ⟨0, 0, 20, 1⟩ ⟨80, 24⟩ ∨
      ∃ m f, e = .mouse (slab 5 10) ⟨0, 0, 20, 1⟩ m f) → Valid st (slab 5 10) → Inv st.scroll →
      3 ∣ (es.foldl (State.event {}) st).scroll.offsetY := by
    intro es
    induction es with
    | nil => intro st _ _ h; exact h.2.2.1
    | cons e es ih =>
      intro st hes hv hinv
      have hrest := fun e he => hes e (List.mem_cons_of_mem _ he)
      rcases hes e (List.mem_cons_self ..) with rfl | ⟨m, f, rfl⟩
      · refine ih _ hrest (draw_valid {} (slab 5 10) st hv ⟨0, 0, 20, 1⟩ ⟨80, 24⟩) ?_
        have hi : inner {} (⟨0, 0, 20, 1⟩ : Region) = ⟨0, 0, 20, 1⟩ := by decide
        simp only [State.event, State.draw]
        rw [if_neg (by decide), (drawInner_plain {} _ st hv _ _).2.1, hi]
        exact hdr _ hinv
      · refine ih _ hrest (onMouse_valid {} (slab 5 10) st hv m _ f) ?_
        obtain ⟨h1, h2, h3, h4⟩ := hinv
        simp only [State.event, State.onMouse]
        split
        · exact ⟨h1, h2, h3, h4⟩
        split
        · refine ⟨h1, ?_⟩
          simp only [ScrollState.scrollDown, ScrollState.maxScrollY]
          rcases h1 with ⟨h1, h5⟩ | ⟨h1, h5⟩ <;> rw [h1, h5] <;> omega
        split
        · refine ⟨h1, ?_⟩
          simp only [ScrollState.scrollUp]
          omega
        · dsimp only
          rw [place_scroll]
          exact ⟨h1, h2, h3, h4⟩
  exact key es {} h (fun _ _ _ e => by cases e) ⟨.inl ⟨rfl, rfl⟩, le_refl _, by decide, by decide⟩

end Textual.Pane
