import Verif.Props.ScrollerDrag

/-! C110: scroll commands move by their amount. -/

namespace Textual.Scroller

open Layout (Placement Viewport)

theorem page_eq {n : Int} (h : 0 ≤ n) : page n = 9 * n / 10 := by
  have hq : (n : Rat) * (9 / 10) = ((9 * n : Int) : Rat) / ((10 : Int) : Rat) := by push_cast; ring
  have : (0 : Rat) ≤ (n : Rat) * (9 / 10) := mul_nonneg (by exact_mod_cast h) (by norm_num)
  rw [page, Scrollbar.trunc, if_pos this, hq]
  exact Rat.floor_intCast_div_natCast (9 * n) 10

/-- The border and the padding are left out on all sides, and nothing else. -/
theorem inside_chrome (s : Sheet) (r : Region) (x y : Int) :
    At (inner s r) x y ↔ r.x + s.chromeLeft ≤ x ∧ x < r.x + r.width - s.chromeRight ∧
      r.y + s.chromeTop ≤ y ∧ y < r.y + r.height - s.chromeBottom := by
  unfold inner
  split <;> simp only [At] <;> omega

example : At (inner padded ⟨0, 0, 20, 10⟩) 18 8 ∧ ¬ At (inner padded ⟨0, 0, 20, 10⟩) 19 8 ∧
    ¬ At (inner padded ⟨0, 0, 20, 10⟩) 0 8 := by decide +kernel

theorem clampTo_nearest (c : ScrollState) (q : Int) (hb : 0 ≤ c.maxScrollY) :
    Nearest c.maxScrollY q (ScrollState.clamp ((q : Rat)).floor 0 c.maxScrollY) := by
  have : ((q : Rat)).floor = q := Rat.floor_intCast q
  rw [this]
  unfold ScrollState.clamp Nearest
  split_ifs <;> omega

theorem clampTo_nearestX (c : ScrollState) (q : Int) (hb : 0 ≤ c.maxScrollX) :
    Nearest c.maxScrollX q (ScrollState.clamp ((q : Rat)).floor 0 c.maxScrollX) := by
  have : ((q : Rat)).floor = q := Rat.floor_intCast q
  rw [this]
  unfold ScrollState.clamp Nearest
  split_ifs <;> omega

/-- What the position must be after a move by `dx`, `dy` on the axes that may scroll. -/
def Steps (s : Sheet) (c : ScrollState) (dx dy : Int) (c' : ScrollState) : Prop :=
  (s.overflowY ≠ .hidden → Nearest c.maxScrollY (c.offsetY + dy) c'.offsetY) ∧
  (s.overflowY = .hidden → c'.offsetY = c.offsetY) ∧
  (s.overflowX ≠ .hidden → Nearest c.maxScrollX (c.offsetX + dx) c'.offsetX) ∧
  (s.overflowX = .hidden → c'.offsetX = c.offsetX)

theorem nearest_refl {last x : Int} (h0 : 0 ≤ x) (h1 : x ≤ last) : Nearest last (x + 0) x := by
  unfold Nearest; omega

/-- **C110** (keys). On an axis that may scroll, each key moves the position by its amount, or to the end if that is
nearer; on an axis that may not scroll it does nothing. -/
theorem key_steps (s : Sheet) (st : State) (k : Key) (hf : Fine st.scroll) :
    Steps s st.scroll (k.columns st.scroll.virtualWidth)
      (k.rows st.scroll.viewportHeight st.scroll.virtualHeight) (st.onKey s k).1.scroll := by
  obtain ⟨⟨b1, b2, b3, b4⟩, w0, h0⟩ := hf
  have hp := page_eq h0
  have hpn := page_nonneg h0
  have fx : ∀ q : Int, ((q : Rat)).floor = q := fun q => Rat.floor_intCast q
  have f0 : ((0 : Rat)).floor = 0 := Rat.floor_intCast 0
  obtain ⟨c, hov, dr, di⟩ := st
  dsimp only at *
  by_cases hy : s.overflowY = .hidden <;> by_cases hx : s.overflowX = .hidden <;> cases k <;>
    simp only [State.onKey, State.scrollBy, hx, hy, ne_eq, not_true_eq_false, not_false_eq_true, if_true, if_false,
      or_self, or_true, true_or, Key.rows, Key.columns, Steps, Nearest, ScrollState.scrollUp, ScrollState.scrollDown,
      ScrollState.scrollLeft, ScrollState.scrollRight, ScrollState.scrollTo, ScrollState.maxScrollX,
      ScrollState.maxScrollY, ScrollState.clamp, fx, f0, hp, true_implies, false_implies, and_true, true_and] at * <;>
    (try split_ifs) <;> omega

example : Fine ⟨0, 4, 10, 50, 10, 20⟩ ∧
    ((({ scroll := ⟨0, 4, 10, 50, 10, 20⟩ } : State).onKey {} .pageDown).1.scroll.offsetY,
     (({ scroll := ⟨0, 4, 10, 50, 10, 20⟩ } : State).onKey {} .stop).1.scroll.offsetY) = (22, 30) := by
  refine ⟨?_, by decide +kernel⟩
  unfold Fine ScrollState.InBounds; decide

/-- The direction the wheel asks for: Shift or Ctrl turns it sideways. -/
def Mouse.turn (m : Mouse) : Option (Int × Int) :=
  match m.kind, m.sideways with
  | .scrollDown, false => some (0, 1)
  | .scrollUp, false => some (0, -1)
  | .scrollDown, true => some (1, 0)
  | .scrollUp, true => some (-1, 0)
  | .scrollLeft, _ => some (-1, 0)
  | .scrollRight, _ => some (1, 0)
  | _, _ => none

theorem laidOut_bounds (st : State) (s : Sheet) (b : Body) (r : Region) (vp : Viewport) :
    let c := (st.laidOut (plan s b r vp)).scroll
    0 ≤ c.offsetX ∧ c.offsetX ≤ c.maxScrollX ∧ 0 ≤ c.offsetY ∧ c.offsetY ≤ c.maxScrollY := by
  simp only [State.laidOut, ScrollState.setViewport, ScrollState.setVirtualSize, ScrollState.reclamp,
    ScrollState.maxScrollX, ScrollState.maxScrollY]
  omega

/-- **C110** (wheel). A turn of the wheel moves the position by one cell in its direction if that axis may scroll, and
is given to no child. -/
theorem wheel_steps (s : Sheet) (b : Body) (st : State) (m : Mouse) (r : Region) (dx dy : Int)
    (h : m.turn = some (dx, dy)) :
    Steps s (st.laidOut (plan s b (inner s r) (Viewport.ofRegion r))).scroll dx dy (st.onMouse s b m r).1.scroll ∧
    (st.onMouse s b m r).2 = none := by
  have hb := laidOut_bounds st s b (inner s r) (Viewport.ofRegion r)
  unfold State.onMouse
  dsimp only at hb ⊢
  generalize st.laidOut (plan s b (inner s r) (Viewport.ofRegion r)) = t at *
  obtain ⟨c, hov, dr, di⟩ := t
  dsimp only at hb
  obtain ⟨k, mx, my, sw⟩ := m
  unfold Mouse.turn at h
  by_cases hy : s.overflowY = .hidden <;> by_cases hx : s.overflowX = .hidden <;> cases k <;> cases sw <;>
    simp only [Option.some.injEq, Prod.mk.injEq, reduceCtorEq] at h <;>
    obtain ⟨rfl, rfl⟩ := h <;>
    simp only [State.scrollBy, hx, hy, ne_eq, not_true_eq_false, not_false_eq_true, if_true, if_false,
      Bool.false_eq_true, Steps, Nearest, ScrollState.scrollUp, ScrollState.scrollDown,
      ScrollState.scrollLeft, ScrollState.scrollRight, ScrollState.maxScrollX,
      ScrollState.maxScrollY, true_implies, false_implies, and_true, true_and] at * <;>
    omega

example : (Mouse.mk .scrollDown 3 3 true).turn = some (1, 0) ∧
    (({} : State).onMouse {} (card 30 25) ⟨.scrollDown, 3, 3, true⟩ ⟨0, 0, 20, 10⟩).1.scroll.offsetX = 1 := by
  decide +kernel

/-- **C110** (bars). A press on a vertical bar before the thumb moves one page up, after the thumb one page down, and
on the thumb it does not scroll but takes hold of the thumb at the cell pressed. -/
theorem press_vertical (s : Sheet) (b : Body) (st : State) (m : Mouse) (r : Region) :
    let p := plan s b (inner s r) (Viewport.ofRegion r)
    let bar := vRegion s (inner s r) p.show_.h
    let c := (st.laidOut p).scroll
    let thumb := Scrollbar.thumbBounds bar.height c.virtualHeight c.viewportHeight c.offsetY
    let after := (st.onMouse s b m r).1
    m.kind = .down → OnScreen m → drawsV s p.show_ = true → At bar m.column m.row → 0 ≤ p.content.height →
    (st.onMouse s b m r).2 = none ∧ after.scroll.offsetX = c.offsetX ∧
    (m.row - bar.y < thumb.1 → after.drag = st.drag ∧
      Nearest c.maxScrollY (c.offsetY - 9 * p.content.height / 10) after.scroll.offsetY) ∧
    (thumb.1 ≤ m.row - bar.y → thumb.2 ≤ m.row - bar.y → after.drag = st.drag ∧
      Nearest c.maxScrollY (c.offsetY + 9 * p.content.height / 10) after.scroll.offsetY) ∧
    (thumb.1 ≤ m.row - bar.y → m.row - bar.y < thumb.2 → after.scroll = c ∧
      after.drag = some (true, m.row - (bar.y + thumb.1))) := by
  intro p bar c thumb after hk hm hd hat hH
  have hb := laidOut_bounds st s b (inner s r) (Viewport.ofRegion r)
  have hcp := (contains_iff bar _ _ ⟨hm.1, hm.2.1⟩ ⟨hm.2.2.1, hm.2.2.2⟩).2 hat
  have hon : st.onMouse s b m r = ((st.laidOut p).clickV m.row bar, none) := by
    unfold State.onMouse
    dsimp only
    rw [hk]
    dsimp only
    rw [if_pos]
    simp only [Bool.and_eq_true]
    exact ⟨hd, hcp⟩
  have hafter : after = (st.laidOut p).clickV m.row bar := by simp only [after, hon]
  have hpage : page c.viewportHeight = 9 * p.content.height / 10 := page_eq hH
  have hpn : 0 ≤ page c.viewportHeight := page_nonneg hH
  have hmax : 0 ≤ c.maxScrollY := by simp only [ScrollState.maxScrollY]; omega
  dsimp only at hb
  rw [show st.laidOut (plan s b (inner s r) (Viewport.ofRegion r)) = st.laidOut p from rfl] at hb
  rw [show (st.laidOut p).scroll = c from rfl] at hb
  have hdr : (st.laidOut p).drag = st.drag := rfl
  rw [hafter, hon]
  refine ⟨rfl, ?_, ?_, ?_, ?_⟩
  · simp only [State.clickV]
    split_ifs <;> rfl
  · intro h
    simp only [State.clickV]
    rw [if_neg (fun q => absurd q.1 (by change ¬ thumb.1 ≤ _; omega)), if_pos h]
    refine ⟨hdr, ?_⟩
    change Nearest _ _ (max (c.offsetY - page c.viewportHeight) 0)
    rw [hpage] at hpn ⊢
    unfold Nearest; omega
  · intro h h'
    simp only [State.clickV]
    rw [if_neg (fun q => absurd q.2 (by change ¬ _ < thumb.2; omega)), if_neg (by change ¬ _ < thumb.1; omega)]
    refine ⟨hdr, ?_⟩
    change Nearest _ _ (min (c.offsetY + page c.viewportHeight) c.maxScrollY)
    rw [hpage] at hpn ⊢
    unfold Nearest; omega
  · intro h h'
    simp only [State.clickV]
    rw [if_pos ⟨h, h'⟩]
    refine ⟨rfl, ?_⟩
    change some (true, m.row - bar.y - thumb.1) = _
    congr 2; omega

/-- **C110** (bars), the horizontal bar. -/
theorem press_horizontal (s : Sheet) (b : Body) (st : State) (m : Mouse) (r : Region) :
    let p := plan s b (inner s r) (Viewport.ofRegion r)
    let bar := hRegion s (inner s r) p.show_.v
    let c := (st.laidOut p).scroll
    let thumb := Scrollbar.thumbBounds bar.width c.virtualWidth c.viewportWidth c.offsetX
    let after := (st.onMouse s b m r).1
    m.kind = .down → OnScreen m → drawsH s p.show_ = true → At bar m.column m.row → 0 ≤ p.content.width →
    ¬ (drawsV s p.show_ = true ∧ At (vRegion s (inner s r) p.show_.h) m.column m.row) →
    (st.onMouse s b m r).2 = none ∧ after.scroll.offsetY = c.offsetY ∧
    (m.column - bar.x < thumb.1 → after.drag = st.drag ∧
      Nearest c.maxScrollX (c.offsetX - 9 * p.content.width / 10) after.scroll.offsetX) ∧
    (thumb.1 ≤ m.column - bar.x → thumb.2 ≤ m.column - bar.x → after.drag = st.drag ∧
      Nearest c.maxScrollX (c.offsetX + 9 * p.content.width / 10) after.scroll.offsetX) ∧
    (thumb.1 ≤ m.column - bar.x → m.column - bar.x < thumb.2 → after.scroll = c ∧
      after.drag = some (false, m.column - (bar.x + thumb.1))) := by
  intro p bar c thumb after hk hm hd hat hH hnv
  have hb := laidOut_bounds st s b (inner s r) (Viewport.ofRegion r)
  have hcp := (contains_iff bar _ _ ⟨hm.1, hm.2.1⟩ ⟨hm.2.2.1, hm.2.2.2⟩).2 hat
  have hon : st.onMouse s b m r = ((st.laidOut p).clickH m.column bar, none) := by
    unfold State.onMouse
    dsimp only
    rw [hk]
    dsimp only
    rw [if_neg, if_pos]
    · simp only [Bool.and_eq_true]
      exact ⟨hd, hcp⟩
    · simp only [Bool.and_eq_true, contains_iff _ _ _ ⟨hm.1, hm.2.1⟩ ⟨hm.2.2.1, hm.2.2.2⟩]
      exact hnv
  have hafter : after = (st.laidOut p).clickH m.column bar := by simp only [after, hon]
  have hpage : page c.viewportWidth = 9 * p.content.width / 10 := page_eq hH
  have hpn : 0 ≤ page c.viewportWidth := page_nonneg hH
  have hmax : 0 ≤ c.maxScrollX := by simp only [ScrollState.maxScrollX]; omega
  dsimp only at hb
  rw [show st.laidOut (plan s b (inner s r) (Viewport.ofRegion r)) = st.laidOut p from rfl] at hb
  rw [show (st.laidOut p).scroll = c from rfl] at hb
  have hdr : (st.laidOut p).drag = st.drag := rfl
  rw [hafter, hon]
  refine ⟨rfl, ?_, ?_, ?_, ?_⟩
  · simp only [State.clickH]
    split_ifs <;> rfl
  · intro h
    simp only [State.clickH]
    rw [if_neg (fun q => absurd q.1 (by change ¬ thumb.1 ≤ _; omega)), if_pos h]
    refine ⟨hdr, ?_⟩
    change Nearest _ _ (max (c.offsetX - page c.viewportWidth) 0)
    rw [hpage] at hpn ⊢
    unfold Nearest; omega
  · intro h h'
    simp only [State.clickH]
    rw [if_neg (fun q => absurd q.2 (by change ¬ _ < thumb.2; omega)), if_neg (by change ¬ _ < thumb.1; omega)]
    refine ⟨hdr, ?_⟩
    change Nearest _ _ (min (c.offsetX + page c.viewportWidth) c.maxScrollX)
    rw [hpage] at hpn ⊢
    unfold Nearest; omega
  · intro h h'
    simp only [State.clickH]
    rw [if_pos ⟨h, h'⟩]
    refine ⟨rfl, ?_⟩
    change some (false, m.column - bar.x - thumb.1) = _
    congr 2; omega

example :
    let p := plan {} (card 30 25) (inner {} ⟨0, 0, 20, 10⟩) ⟨20, 10⟩
    drawsV {} p.show_ = true ∧ drawsH {} p.show_ = true ∧ At (vRegion {} ⟨0, 0, 20, 10⟩ p.show_.h) 19 8 ∧
    At (hRegion {} ⟨0, 0, 20, 10⟩ p.show_.v) 17 9 ∧
    (({} : State).onMouse {} (card 30 25) ⟨.down, 19, 8, false⟩ ⟨0, 0, 20, 10⟩).1.scroll.offsetY = 8 ∧
    (({} : State).onMouse {} (card 30 25) ⟨.down, 3, 9, false⟩ ⟨0, 0, 20, 10⟩).1.drag = some (false, 3) := by
  decide +kernel

/-- **C110** (keys). A key is given to the children just if it moves along no axis that may scroll; then it changes
nothing here. -/
theorem key_passes (s : Sheet) (st : State) (k : Key) (hw : 0 < st.scroll.virtualWidth)
    (hh : 0 < st.scroll.virtualHeight) (hp : 2 ≤ st.scroll.viewportHeight) :
    ((st.onKey s k).2 = true ↔
      (k.rows st.scroll.viewportHeight st.scroll.virtualHeight = 0 ∨ s.overflowY = .hidden) ∧
      (k.columns st.scroll.virtualWidth = 0 ∨ s.overflowX = .hidden)) ∧
    ((st.onKey s k).2 = true → (st.onKey s k).1 = st) := by
  by_cases hy : s.overflowY = .hidden <;> by_cases hx : s.overflowX = .hidden <;> cases k <;>
    simp only [State.onKey, hx, hy, ne_eq, not_true_eq_false, not_false_eq_true, if_true, if_false,
      or_self, or_true, true_or, Key.rows, Key.columns, Bool.false_eq_true, false_iff, true_iff, false_implies,
      and_true, true_and, true_implies, reduceCtorEq, or_false, false_or, IsEmpty.forall_iff, implies_true] <;>
    (try trivial) <;> omega

example : (({ scroll := ⟨0, 4, 10, 50, 10, 20⟩ } : State).onKey { overflowX := .hidden } .left).2 = true ∧
    (({ scroll := ⟨0, 4, 10, 50, 10, 20⟩ } : State).onKey {} .left).2 = false := by decide +kernel

end Textual.Scroller
