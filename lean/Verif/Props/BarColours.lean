import Verif.Spec.BarColours
import Mathlib.Tactic.Common

/-!
# The colours of scrollbars follow what the mouse does (C172)
-/

namespace Textual.BarColours

open Scroller (Sheet Body Mouse State Kind)
open Layout (Viewport)

/-! ### The colour of a bar in a given state -/

/-- The state agrees with what the user does. -/
def Agrees (st : State) (d : Doing) : Prop := st.drag.map (·.1) = d.held ∧ st.hover = d.over

/-- **C172**, the colours: a held bar has the active colours, a bar under the pointer the hover colours, any other the
normal ones; a colour that is not given is the one of the weaker state, down to the built-in one. -/
theorem colours_of (c : Colours) (st : State) (d : Doing) (h : Agrees st d) (v : Bool) :
    barColours c st v = expected c d v := by
  obtain ⟨h1, h2⟩ := h
  obtain ⟨c1, c2, c3, c4, c5, c6⟩ := c
  unfold barColours expected
  rw [← h1, ← h2]
  have e : (Option.map (fun d => d.1 == v) st.drag).getD false = true ↔ Option.map (·.1) st.drag = some v := by
    cases st.drag <;> simp
  simp only [e, Colours.effColor, Colours.effColorHover, Colours.effColorActive, Colours.effBackground,
    Colours.effBackgroundHover, Colours.effBackgroundActive, firstGiven, fallbackThumb, fallbackTrack]
  split
  · cases c1 <;> cases c2 <;> cases c3 <;> cases c4 <;> cases c5 <;> cases c6 <;> rfl
  · split
    · cases c1 <;> cases c2 <;> cases c4 <;> cases c5 <;> rfl
    · cases c1 <;> cases c4 <;> rfl

/-! ### Events -/

theorem scrollBy_agrees (st : State) (f : ScrollState → ScrollState) (d : Doing) (h : Agrees st d) :
    Agrees (st.scrollBy f) d := h

theorem dragBar_agrees (s : Sheet) (st : State) (m : Mouse) (r : Region) (v : Bool) (g : Int) (d : Doing)
    (h : Agrees st d) : Agrees (st.dragBar s m r v g) d := by
  unfold Scroller.State.dragBar
  dsimp only
  split <;> split <;> exact h

theorem screen_dragBar_agrees (s : Sheet) (st : State) (m : Mouse) (r : Region) (v : Bool) (g : Int) (d : Doing)
    (h : Agrees st d) : Agrees (Screen.dragBar s st m r v g) d := by
  unfold Screen.dragBar
  dsimp only
  split <;> split <;> exact h

theorem clickV_agrees (k : Bars) (bar : Region) (hb : k.vertical = some bar) (st : State) (m : Mouse)
    (hs : k.scroll = st.scroll) (d : Doing) (h : Agrees st d) (hat : bar.containsPoint m.column m.row = true) :
    Agrees (st.clickV m.row bar) { d with held := (k.thumbAt m).or d.held } := by
  have e : k.barAt m = some true := by simp [Bars.barAt, hb, hat]
  unfold Scroller.State.clickV Bars.thumbAt
  simp only [e, hb, hs, ge_iff_le]
  split
  · exact ⟨rfl, h.2⟩
  · split <;> exact h

theorem clickH_agrees (k : Bars) (bar : Region) (hb : k.horizontal = some bar) (st : State) (m : Mouse)
    (hs : k.scroll = st.scroll) (d : Doing) (h : Agrees st d) (hat : k.barAt m = some false) :
    Agrees (st.clickH m.column bar) { d with held := (k.thumbAt m).or d.held } := by
  unfold Scroller.State.clickH Bars.thumbAt
  simp only [hat, hb, hs, ge_iff_le]
  split
  · exact ⟨rfl, h.2⟩
  · split <;> exact h

/-- Pressing: the bars of the model and of the specification. -/
theorem press_agrees (k : Bars) (onV onH : Bool) (bv bh : Region) (st : State) (m : Mouse) (d : Doing)
    (hv : k.vertical = if onV then some bv else none) (hh : k.horizontal = if onH then some bh else none)
    (hs : k.scroll = st.scroll) (h : Agrees st d) :
    Agrees (if (onV && bv.containsPoint m.column m.row) = true then st.clickV m.row bv
      else if (onH && bh.containsPoint m.column m.row) = true then st.clickH m.column bh else st)
      { d with held := (k.thumbAt m).or d.held } := by
  by_cases c1 : (onV && bv.containsPoint m.column m.row) = true
  · rw [if_pos c1]
    rw [Bool.and_eq_true] at c1
    rw [c1.1, if_pos rfl] at hv
    exact clickV_agrees k bv hv st m hs d h c1.2
  · rw [if_neg c1]
    have n1 : (k.vertical.any fun x => x.containsPoint m.column m.row) = false := by
      rw [hv]; cases onV <;> simp_all
    by_cases c2 : (onH && bh.containsPoint m.column m.row) = true
    · rw [if_pos c2]
      rw [Bool.and_eq_true] at c2
      rw [c2.1, if_pos rfl] at hh
      exact clickH_agrees k bh hh st m hs d h (by simp [Bars.barAt, n1, hh, c2.2])
    · rw [if_neg c2]
      have n2 : (k.horizontal.any fun x => x.containsPoint m.column m.row) = false := by
        rw [hh]; cases onH <;> simp_all
      have e : k.barAt m = none := by simp [Bars.barAt, n1, n2]
      have : k.thumbAt m = none := by unfold Bars.thumbAt; rw [e]
      rw [this]
      exact h

/-- Moving: the bar under the pointer. -/
theorem barAt_eq (k : Bars) (onV onH : Bool) (bv bh : Region) (m : Mouse)
    (hv : k.vertical = if onV then some bv else none) (hh : k.horizontal = if onH then some bh else none) :
    k.barAt m = (if (onV && bv.containsPoint m.column m.row) = true then some true
      else if (onH && bh.containsPoint m.column m.row) = true then some false else none) := by
  unfold Bars.barAt
  rw [hv, hh]
  cases onV <;> cases onH <;> simp

theorem hover_agrees (st : State) (hov : Option Bool) (d : Doing) (h : Agrees st d) :
    Agrees (if st.hover ≠ hov then { st with hover := hov, dirty := true } else st) { d with over := hov } := by
  split
  · exact ⟨h.1, rfl⟩
  · rename_i hc
    exact ⟨h.1, by simpa using hc⟩

theorem laidOut_agrees (st : State) (p : Scroller.Plan) (d : Doing) : Agrees (st.laidOut p) d ↔ Agrees st d := Iff.rfl

/-- One event at a place inside the container. -/
theorem onMouse_agrees (s : Sheet) (b : Body) (r : Region) (st : State) (m : Mouse) (d : Doing)
    (h : Agrees st d) (hm : m.kind = .moved → d.over = none) :
    Agrees (st.onMouse s b m r).1 (d.next (fun _ => none) (scrollerBars s b r st) true m) := by
  obtain ⟨kind, x, y, sw⟩ := m
  have hl : Agrees (st.laidOut (Scroller.plan s b (Scroller.inner s r) (Viewport.ofRegion r))) d := h
  cases kind
  case down =>
    have := press_agrees (scrollerBars s b r st) _ _ _ _ _ ⟨.down, x, y, sw⟩ d rfl rfl rfl hl
    unfold Scroller.State.onMouse Doing.next
    dsimp only at this ⊢
    rw [if_pos rfl]
    convert this using 1
    split
    · rfl
    · split <;> rfl
  case up =>
    unfold Scroller.State.onMouse Doing.next
    dsimp only
    split
    · exact ⟨rfl, h.2⟩
    · rename_i hn
      refine ⟨?_, h.2⟩
      show Option.map _ st.drag = none
      have : st.drag = none := by
        have : ¬ st.drag.isSome = true := hn
        simpa using this
      rw [this]; rfl
  case moved =>
    have ho := hm rfl
    unfold Scroller.State.onMouse Doing.next
    dsimp only
    rw [if_pos rfl]
    have hd : Option.map (·.1) st.drag = d.held := h.1
    split
    · rename_i v g hg
      have hg : st.drag = some (v, g) := hg
      rw [hg] at hd
      have : d.held.isSome = true := by rw [← hd]; rfl
      rw [if_pos this]
      have := dragBar_agrees s _ ⟨.moved, x, y, sw⟩ (Scroller.inner s r) v g d hl
      exact ⟨this.1, this.2.trans ho⟩
    · rename_i hg
      have hg : st.drag = none := hg
      rw [hg] at hd
      have : ¬ d.held.isSome = true := by rw [← hd]; simp
      rw [if_neg this, barAt_eq (scrollerBars s b r st) _ _ _ _ ⟨.moved, x, y, sw⟩ rfl rfl]
      exact hover_agrees _ _ d hl
  case drag =>
    unfold Scroller.State.onMouse Doing.next
    dsimp only
    split
    · exact dragBar_agrees s _ _ _ _ _ d hl
    · exact hl
  all_goals
    unfold Scroller.State.onMouse Doing.next
    dsimp only
    repeat' split
    all_goals exact h

theorem step_agrees (s : Sheet) (b : Body) (r : Region) (st : State) (m : Mouse) (d : Doing) (h : Agrees st d)
    (hin : m.kind = .up → r.containsPoint m.column m.row = true) :
    Agrees (step s b r st m) (d.next (fun _ => none) (scrollerBars s b r st) (r.containsPoint m.column m.row) m) := by
  unfold step
  dsimp only
  by_cases hk : m.kind = .moved
  · rw [if_pos hk]
    have h0 : Agrees st.clearHover { d with over := none } := ⟨h.1, rfl⟩
    by_cases hr : r.containsPoint m.column m.row = true
    · rw [if_pos hr, hr]
      have := onMouse_agrees s b r st.clearHover m { d with over := none } h0 (fun _ => rfl)
      unfold Doing.next at this ⊢
      rw [hk] at this ⊢
      exact this
    · rw [if_neg hr]
      unfold Doing.next
      rw [hk]
      simp only [hr]
      exact h0
  · rw [if_neg hk]
    by_cases hr : r.containsPoint m.column m.row = true
    · rw [if_pos hr, hr]
      exact onMouse_agrees s b r st m d h (fun e => absurd e hk)
    · rw [if_neg hr]
      unfold Doing.next
      split
      · simpa [hr] using h
      · rename_i e
        exact absurd (hin e) hr
      · rename_i e
        exact absurd e hk
      · exact h

/-- **C172**, for scrolling containers, if every release happens inside the container: at every moment the bars have the
colours for what the user is doing with them, for every stylesheet, content, region and history of mouse events.
Missing: releases elsewhere (`sticky_counterexample`). -/
theorem scroller_colours_partial (c : Colours) (s : Sheet) (b : Body) (r : Region) (st : State) (d : Doing)
    (h : Agrees st d) (ms : List Mouse)
    (hin : ∀ m ∈ ms, m.kind = .up → r.containsPoint m.column m.row = true) (v : Bool) :
    barColours c (run s b r st ms) v = expected c (doing s b r st d ms) v := by
  refine colours_of c _ _ ?_ v
  induction ms generalizing st d with
  | nil => exact h
  | cons m ms ih =>
    exact ih _ _ (step_agrees s b r st m d h (hin m (by simp))) (fun m' hm => hin m' (by simp [hm]))

/-! A container of ten cells by ten with forty lines: pressed on the thumb, dragged, released, moved away. -/

/-- Forty lines. -/
def lines : Body := { arrange := fun a _ => [⟨0, ⟨a.x, a.y, a.width, 40⟩⟩] }

/-- Red while held, green under the pointer; the tracks are given for the normal state only. -/
def traffic : Colours :=
  { color := some (.rgb 1 1 1), colorHover := some (.rgb 0 255 0), colorActive := some (.rgb 255 0 0),
    background := some (.rgb 9 9 9) }

example : Agrees {} {} := ⟨rfl, rfl⟩

example : (∀ m ∈ [(⟨.moved, 9, 0, false⟩ : Mouse), ⟨.down, 9, 0, false⟩, ⟨.drag, 9, 5, false⟩, ⟨.up, 9, 5, false⟩],
      m.kind = .up → (⟨0, 0, 10, 10⟩ : Region).containsPoint m.column m.row = true) ∧
    doing {} lines ⟨0, 0, 10, 10⟩ {} {} [⟨.moved, 9, 0, false⟩] = ⟨none, some true⟩ ∧
    doing {} lines ⟨0, 0, 10, 10⟩ {} {} [⟨.moved, 9, 0, false⟩, ⟨.down, 9, 0, false⟩] = ⟨some true, some true⟩ ∧
    doing {} lines ⟨0, 0, 10, 10⟩ {} {} [⟨.moved, 9, 0, false⟩, ⟨.down, 9, 7, false⟩] = ⟨none, some true⟩ ∧
    doing {} lines ⟨0, 0, 10, 10⟩ {} {} [⟨.moved, 9, 0, false⟩, ⟨.moved, 3, 0, false⟩] = ⟨none, none⟩ ∧
    expected traffic ⟨some true, some true⟩ true = (.rgb 255 0 0, .rgb 9 9 9) ∧
    expected traffic ⟨none, some true⟩ true = (.rgb 0 255 0, .rgb 9 9 9) ∧
    barColours traffic (run {} lines ⟨0, 0, 10, 10⟩ {}
      [⟨.moved, 9, 0, false⟩, ⟨.down, 9, 0, false⟩, ⟨.drag, 9, 5, false⟩]) true = (.rgb 255 0 0, .rgb 9 9 9) := by
  decide +kernel

/-- **C172** fails for scrolling containers: the button is released outside the container, which does not learn of it;
later moves of the pointer, with no button down, find the bar still held, and scroll the content. -/
theorem sticky_counterexample :
    let r : Region := ⟨0, 0, 10, 10⟩
    let ms : List Mouse := [⟨.down, 9, 0, false⟩, ⟨.drag, 15, 3, false⟩, ⟨.up, 15, 3, false⟩, ⟨.moved, 9, 5, false⟩]
    doing {} lines r {} {} ms = ⟨none, some true⟩ ∧
    barColours traffic (run {} lines r {} ms) true = (.rgb 255 0 0, .rgb 9 9 9) ∧
    expected traffic (doing {} lines r {} {} ms) true = (.rgb 0 255 0, .rgb 9 9 9) ∧
    (run {} lines r {} (ms.take 3)).scroll.offsetY = 0 ∧ (run {} lines r {} ms).scroll.offsetY = 20 := by
  decide +kernel

/-- **C172** fails for plain containers: their bars never change colour, whatever the mouse does. -/
theorem container_counterexample (c : Colours) (scroll : ScrollState → Mouse → ScrollState) (ms : List Mouse) (v : Bool) :
    barColours c (ms.foldl (containerStep scroll) {}) v = expected c {} v := by
  refine colours_of c _ _ ?_ v
  generalize hst : ({} : State) = st
  have h : Agrees st {} := by rw [← hst]; exact ⟨rfl, rfl⟩
  clear hst
  induction ms generalizing st with
  | nil => exact h
  | cons m ms ih => exact ih _ h

/-! ### Screens -/

/-- One event on the screen. -/
theorem screenStep_agrees (s : Sheet) (b : Body) (pinned : Nat → Bool) (r : Region) (st : State) (m : Mouse) (d : Doing)
    (h : Agrees st d) (hin : r.containsPoint m.column m.row = true) :
    Agrees (screenStep s b pinned r st m) (d.next id (screenBars s r st) (r.containsPoint m.column m.row) m) := by
  obtain ⟨kind, x, y, sw⟩ := m
  unfold screenStep Screen.onMouse
  simp only [hin] at hin ⊢
  rw [if_neg (by simp)]
  have hl : Agrees { st with scroll := (screenBars s r st).scroll } d := h
  cases kind
  case down =>
    have := press_agrees (screenBars s r st) _ _ _ _ _ ⟨.down, x, y, sw⟩ d rfl rfl rfl hl
    unfold Doing.next
    dsimp only at this ⊢
    rw [if_pos rfl]
    convert this using 1
    split
    · rfl
    · split <;> rfl
  case up =>
    unfold Doing.next
    dsimp only
    split
    · exact ⟨rfl, h.2⟩
    · rename_i hn
      refine ⟨?_, h.2⟩
      have : st.drag = none := by simpa using hn
      show Option.map _ st.drag = none
      rw [this]; rfl
  case moved =>
    unfold Doing.next
    dsimp only
    rw [if_pos rfl]
    have hd : Option.map (·.1) st.drag = d.held := h.1
    split
    · rename_i v g hg
      rw [hg] at hd
      have : d.held.isSome = true := by rw [← hd]; rfl
      rw [if_pos this]
      exact screen_dragBar_agrees s _ _ _ v g d hl
    · rename_i hg
      rw [hg] at hd
      have : ¬ d.held.isSome = true := by rw [← hd]; simp
      rw [if_neg this, barAt_eq (screenBars s r st) _ _ _ _ ⟨.moved, x, y, sw⟩ rfl rfl]
      exact hover_agrees _ _ d hl
  case drag =>
    unfold Doing.next
    dsimp only
    split
    · exact screen_dragBar_agrees s _ _ _ _ _ d hl
    · exact hl
  all_goals
    unfold Doing.next
    dsimp only
    repeat' split
    all_goals exact h

/-- **C172**, for the screen, which fills the terminal: at every moment its bars have the colours for what the user is
doing with them. -/
theorem screen_colours (c : Colours) (s : Sheet) (b : Body) (pinned : Nat → Bool) (r : Region) (st : State) (d : Doing)
    (h : Agrees st d) (ms : List Mouse) (hin : ∀ m ∈ ms, r.containsPoint m.column m.row = true) (v : Bool) :
    barColours c (screenRun s b pinned r st ms) v = expected c (screenDoing s b pinned r st d ms) v := by
  refine colours_of c _ _ ?_ v
  induction ms generalizing st d with
  | nil => exact h
  | cons m ms ih =>
    exact ih _ _ (screenStep_agrees s b pinned r st m d h (hin m (by simp))) (fun m' hm => hin m' (by simp [hm]))

/-- A screen drawn once, with forty lines in ten. -/
example : let st : State := { scroll := ⟨0, 0, 8, 40, 8, 10⟩ }
    let r : Region := ⟨0, 0, 10, 10⟩
    let none' : Nat → Bool := fun _ => false
    (∀ m ∈ [(⟨.moved, 9, 0, false⟩ : Mouse), ⟨.down, 9, 0, false⟩], r.containsPoint m.column m.row = true) ∧
    screenDoing {} lines none' r st {} [⟨.moved, 9, 0, false⟩, ⟨.down, 9, 0, false⟩] = ⟨some true, some true⟩ ∧
    screenDoing {} lines none' r st {} [⟨.moved, 9, 0, false⟩, ⟨.down, 9, 0, false⟩, ⟨.moved, 2, 2, false⟩] =
      ⟨some true, some true⟩ ∧
    barColours traffic (screenRun {} lines none' r st [⟨.moved, 9, 0, false⟩, ⟨.down, 9, 0, false⟩]) true =
      (.rgb 255 0 0, .rgb 9 9 9) := by
  decide +kernel

end Textual.BarColours
