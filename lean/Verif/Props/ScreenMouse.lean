import Verif.Props.ScreenBars

/-! C113, C114: mouse events for the children of the screen, and reaching the rows. -/

namespace Textual.Screen

open Layout (Placement Viewport)
open Scroller (Sheet Body Overflow Mouse Kind Flags inner scrolled inView virtualSize State vRegion hRegion
  contentRegion drawsV drawsH At ScreenFree Apart OnScreen Monotone TooTall TooWide Wanted contains_iff virtual_tall
  find_apart content_off_bars)

theorem setViewport_after (s : Sheet) (b : Body) (c : ScrollState) (a : Region) (vp : Viewport) :
    (after s b c a vp).setViewport (layout s b a vp).1.width (layout s b a vp).1.height = after s b c a vp := by
  unfold after
  simp only [ScrollState.setVirtualSize, ScrollState.setViewport, ScrollState.reclamp,
    ScrollState.maxScrollX, ScrollState.maxScrollY]
  congr 1 <;> omega

theorem content_in (s : Sheet) (r : Region) (f : Flags) (x y : Int) (hr : 0 < r.width ∧ 0 < r.height)
    (h : At (contentRegion s (inner s r) f) x y) : At (inner s r) x y ∧ At r x y := by
  unfold inner at *
  rw [if_neg (by omega)] at *
  simp only [At, contentRegion] at *
  split at h <;> split at h <;> omega

/-- The area the children are laid out in, for drawing and for the mouse. -/
theorem layout_placements (s : Sheet) (b : Body) (a : Region) (vp : Viewport) (hg : s.stableGutter = false)
    (hh : (first s b a vp).h = false) (ha : 0 ≤ a.height ∧ 0 ≤ a.width) :
    (layout s b a vp).2.1 = b.arrange (layout s b a vp).1 vp ∧
    (if (first s b a vp).v = true ∧ (layout s b a vp).1.width < a.width then (layout s b a vp).1 else a) =
      (layout s b a vp).1 := by
  have hp : (layout s b a vp).2.1 = if (first s b a vp).v = true ∧ (contentRegion s a (first s b a vp)).width < a.width
      then b.arrange (contentRegion s a (first s b a vp)) vp else b.arrange a vp := by
    unfold layout
    dsimp only
    change (if (first s b a vp).v = true ∧ (contentRegion s a (first s b a vp)).width < a.width then _ else _ :
      Region × List Placement × (Int × Int)).2.1 = _
    split <;> rfl
  rw [hp, layout_area]
  by_cases hc : (first s b a vp).v = true ∧ (contentRegion s a (first s b a vp)).width < a.width
  · rw [if_pos hc, if_pos hc]; exact ⟨rfl, rfl⟩
  · rw [if_neg hc, if_neg hc]
    have : contentRegion s a (first s b a vp) = a := by
      generalize first s b a vp = f at *
      obtain ⟨fv, fh⟩ := f
      dsimp only at hh hc
      subst hh
      cases fv
      · cases a; simp only [contentRegion, hg, Bool.false_eq_true, false_and, or_self, if_false, Region.mk.injEq,
          true_and]; simp only at ha; omega
      · cases a
        simp only [contentRegion, true_or, if_true, Bool.false_eq_true, if_false, Region.mk.injEq, true_and] at hc ⊢
        simp only at ha
        omega
    rw [this]; exact ⟨rfl, rfl⟩

/-- **C113** (partial: `overflow-x: hidden`, no room kept free, no docked or absolute children, layouts as in C102
without `vw`/`vh` lengths; see the counterexamples). While no bar is held, moving, pressing, dragging or releasing after
a drawing gives the event only to a child drawn at the pointer, with the region it was drawn in; and if children do
not overlap, to the child drawn there. -/
theorem mouse_to_drawn_partial (s : Sheet) (b : Body) (pinned : Nat → Bool) (st : State) (m : Mouse) (r : Region)
    (vp : Viewport) (hx : s.overflowX = .hidden) (hg : s.stableGutter = false) (hpin : ∀ i, pinned i = false)
    (hb : ScreenFree b) (hmono : Monotone b vp) (hm : OnScreen m) (hr : 0 < r.width ∧ 0 < r.height)
    (hd : st.drag = none) (hk : m.kind.points = true) :
    ∃ d, (draw s b st r vp).1 = some d ∧
      (∀ c ∈ (onMouse s b pinned (draw s b st r vp).2 m r).2,
        c ∈ d.children ∧ At c.region m.column m.row ∧ At d.content m.column m.row) ∧
      (Apart b vp → ∀ c ∈ d.children, At c.region m.column m.row → At d.content m.column m.row →
        (onMouse s b pinned (draw s b st r vp).2 m r).2 = [c]) := by
  obtain ⟨n1, n2⟩ := inner_nonneg s r hr
  have hci := fun (r : Region) => contains_iff r m.column m.row ⟨hm.1, hm.2.1⟩ ⟨hm.2.2.1, hm.2.2.2⟩
  refine ⟨_, by rw [draw_eq s b st r vp hr], ?_⟩
  rw [draw_eq s b st r vp hr]
  dsimp only
  have hfl := flags_agree s b st.scroll (inner s r) vp hx hmono n2 n1
  have hh := first_h s b (inner s r) vp hx
  obtain ⟨hpl, harea⟩ := layout_placements s b (inner s r) vp hg hh ⟨n2, n1⟩
  have hlay := layout_area s b (inner s r) vp
  have hset := setViewport_after s b st.scroll (inner s r) vp
  have hps : b.arrange (layout s b (inner s r) vp).1 (Viewport.ofRegion r) = (layout s b (inner s r) vp).2.1 := by
    rw [hpl]; exact hb ..
  generalize after s b st.scroll (inner s r) vp = c2 at *
  rw [hpl] at hps ⊢
  generalize hL : layout s b (inner s r) vp = L at *
  have hmap : ((b.arrange L.1 (Viewport.ofRegion r)).map fun p =>
      if pinned p.childIndex then p else (⟨p.childIndex, scrolled c2 p.region⟩ : Placement)) =
      (b.arrange L.1 vp).map fun p => (⟨p.childIndex, scrolled c2 p.region⟩ : Placement) := by
    rw [hps]; simp [hpin]
  have hmem : ∀ c, (L.1.containsPoint m.column m.row = true ∧
      ((b.arrange L.1 vp).map fun p => (⟨p.childIndex, scrolled c2 p.region⟩ : Placement)).find?
        (fun p => p.region.containsPoint m.column m.row) = some c) →
      c ∈ (((b.arrange L.1 vp).map fun p =>
        (⟨p.childIndex, scrolled c2 p.region⟩ : Placement)).filter fun p => inView L.1 p.region) ∧
      At c.region m.column m.row ∧ At L.1 m.column m.row := by
    intro c ⟨h1, h2⟩
    have g1 := (hci _).1 h1
    have g2 := (hci _).1 (List.find?_some (p := fun c : Placement => c.region.containsPoint m.column m.row) h2)
    refine ⟨List.mem_filter.2 ⟨List.mem_of_find?_eq_some h2, ?_⟩, g2, g1⟩
    simp only [inView, decide_eq_true_eq, At] at *
    omega
  have key : ∀ l, (l = [] ∨ l = (if L.1.containsPoint m.column m.row then
      (((b.arrange L.1 vp).map fun p => (⟨p.childIndex, scrolled c2 p.region⟩ : Placement)).find?
        fun p => p.region.containsPoint m.column m.row).toList else [])) → ∀ c ∈ l,
      c ∈ (((b.arrange L.1 vp).map fun p =>
        (⟨p.childIndex, scrolled c2 p.region⟩ : Placement)).filter fun p => inView L.1 p.region) ∧
      At c.region m.column m.row ∧ At L.1 m.column m.row := by
    intro l hl c hc
    rcases hl with e | e
    · subst e; cases hc
    · subst e
      split at hc
      · rename_i h1
        exact hmem c ⟨h1, by simpa using hc⟩
      · cases hc
  have hform : (onMouse s b pinned { st with scroll := c2 } m r).2 = [] ∧ ¬ At L.1 m.column m.row ∨
      (onMouse s b pinned { st with scroll := c2 } m r).2 = (if L.1.containsPoint m.column m.row then
      (((b.arrange L.1 vp).map fun p => (⟨p.childIndex, scrolled c2 p.region⟩ : Placement)).find?
        fun p => p.region.containsPoint m.column m.row).toList else []) := by
    unfold onMouse
    by_cases hat : r.containsPoint m.column m.row = false
    · rw [if_pos hat]
      refine .inl ⟨rfl, fun h => ?_⟩
      rw [hlay] at h
      have := (hci r).2 (content_in s r _ _ _ hr h).2
      rw [this] at hat; cases hat
    · rw [if_neg hat]
      dsimp only
      rw [hfl, ← hlay, harea, hset, childAt, hmap, hd]
      have hoff := content_off_bars s (inner s r) (first s b (inner s r) vp) m.column m.row
      rw [← hlay] at hoff
      cases hk' : m.kind <;> rw [hk'] at hk <;> (try (cases hk; done)) <;> dsimp only
      · exact .inr rfl
      · split
        · rename_i hv
          refine .inl ⟨rfl, fun h => ?_⟩
          simp only [Bool.and_eq_true, drawsV] at hv
          exact (hoff h).1 hv.1.1.1 ((hci _).1 hv.2)
        · split
          · rename_i hv
            simp [drawsH, hh] at hv
          · exact .inr rfl
      · exact .inr rfl
      · exact .inr rfl
  constructor
  · exact key _ (hform.imp (·.1) id)
  · intro hap c hc hcr hcon
    rcases hform with ⟨-, h⟩ | h
    · exact absurd hcon h
    · rw [h, if_pos ((hci _).2 hcon), find_apart _ _ c (List.mem_filter.1 hc).1 ((hci _).2 hcr)]
      · rfl
      · rw [List.pairwise_map]
        refine (hap L.1).imp fun {p q} hpq hb2 => ?_
        have e1 := (hci _).1 hb2.1
        have e2 := (hci _).1 hb2.2
        refine hpq (m.column + c2.offsetX) (m.row + c2.offsetY) ?_
        simp only [At, scrolled] at *
        omega

/-- Two children, one above the other, and more rows below. -/
def two : Body := { arrange := fun a _ => [⟨0, ⟨a.x, a.y, 8, 2⟩⟩, ⟨1, ⟨a.x, a.y + 2, 8, 20⟩⟩] }

def at_ (k : Kind) (x y : Int) : Mouse := { kind := k, column := x, row := y }

example : let r : Region := ⟨0, 0, 20, 10⟩
    let st : State := { scroll := ⟨0, 1, 8, 22, 18, 10⟩ }
    ScreenFree two ∧ Monotone two ⟨20, 10⟩ ∧ Apart two ⟨20, 10⟩ ∧ OnScreen (at_ .down 3 1) ∧
    (onMouse plain two (fun _ => false) (draw plain two st r ⟨20, 10⟩).2 (at_ .down 3 1) r).2 = [⟨1, ⟨0, 1, 8, 20⟩⟩] := by
  refine ⟨fun _ _ _ => rfl, ?_, ?_, by unfold OnScreen; decide, by decide +kernel⟩
  · intro x y w h w' h' h1 h2
    simp only [TooTall, TooWide, two, List.mem_cons, List.not_mem_nil, or_false, exists_eq_or_imp, exists_eq_left]
    omega
  · intro a
    simp only [two, List.pairwise_cons, List.mem_singleton, forall_eq, List.not_mem_nil, false_implies, implies_true,
      List.Pairwise.nil, and_true, At]
    omega

/-- **C113** fails for a docked child of a scrolled screen: it is drawn three rows up, but a click on what is drawn is
not given to it. -/
theorem docked_counterexample :
    let r : Region := ⟨0, 0, 20, 10⟩
    let b : Body := { arrange := fun a _ => [⟨0, ⟨a.x, a.y + 4, 20, 2⟩⟩, ⟨1, ⟨a.x, a.y + 6, 8, 20⟩⟩] }
    let shown := draw plain b { scroll := ⟨0, 3, 20, 26, 18, 10⟩ } r ⟨20, 10⟩
    (shown.1.map (·.children)) = some [⟨0, ⟨0, 1, 20, 2⟩⟩, ⟨1, ⟨0, 3, 8, 20⟩⟩] ∧
    (onMouse plain b (fun i => i == 0) shown.2 (at_ .down 3 1) r).2 = [] ∧
    (onMouse plain b (fun i => i == 0) shown.2 (at_ .down 3 4) r).2 = [⟨0, ⟨0, 4, 20, 2⟩⟩] := by decide +kernel

/-- **C113** fails with a horizontal bar: moving over the bar is given to the child that would be under it. -/
theorem under_bar_counterexample :
    let r : Region := ⟨0, 0, 20, 10⟩
    let s : Sheet := { overflowY := .hidden }
    let shown := draw s (card 30 10) {} r ⟨20, 10⟩
    (shown.1.map fun d => (d.content, d.hBar)) = some (⟨0, 0, 20, 9⟩, some ⟨0, 9, 20, 1⟩) ∧
    (onMouse s (card 30 10) (fun _ => false) shown.2 (at_ .moved 3 9) r).2 = [⟨0, ⟨0, 0, 30, 10⟩⟩] := by
  decide +kernel

end Textual.Screen
