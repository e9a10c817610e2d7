import Verif.Props.Pick
import Verif.Props.Pane

/-!
C191: which options of an option list are seen.
-/

namespace Textual.Pick

open OptionList (OptionList rowStart)
open OptionList.OptionList (Op)
open Layout (LChild Viewport Placement PStyle)
open Layout.Vertical (childWidth topMargins)
open Scroller (Sheet Body)

/-- An option that begins at the left edge and has some width, in every area at least `narrow` wide. -/
def Wide (vp : Viewport) (narrow : Int) (c : LChild) : Prop :=
  c.style.margin.left.value = 0 ∧ ∀ a : Region, narrow ≤ a.width → 0 < childWidth c a vp

/-- The container is never scrolled sideways. -/
theorem history_x (s : Sheet) (layout : List OptionList.Row → Body) (events : List Event) (v : View)
    (h : v.pane.scroll.offsetX = 0) : (events.foldl (View.step s layout) v).pane.scroll.offsetX = 0 := by
  induction events generalizing v with
  | nil => exact h
  | cons e events ih =>
    refine ih _ ?_
    cases e with
    | op o =>
      show (if refreshes v.list o then ({} : Pane.State) else v.pane).scroll.offsetX = 0
      split
      · rfl
      · exact h
    | wheel m r =>
      unfold View.step
      dsimp only
      split
      · exact h
      · exact Pane.event_x s _ h (.mouse _ r m fun _ => false)
    | draw r vp => exact Pane.event_x s _ h (.draw _ r vp)

/-- The layout a container draws that is not scrolled: all children that are in its content area, which begins at the top and
without horizontal bar is as high as the inside. -/
theorem draw_all (s : Sheet) {b : Body} {st : Pane.State} (h : Rest b st) (hx0 : st.scroll.offsetX = 0) (r : Region)
    (vp : Viewport) (hr : 0 < r.width ∧ 0 < r.height) (hx : s.overflowX = .hidden) (hg : s.stableGutter = false) :
    let content := (st.draw s b r vp).1.content
    content.x = (Scroller.inner s r).x ∧ content.y = (Scroller.inner s r).y ∧
    content.height = max (Scroller.inner s r).height 0 ∧ narrow s r ≤ content.width ∧
    ∃ a : Region, a.x = (Scroller.inner s r).x ∧ a.y = (Scroller.inner s r).y ∧ narrow s r ≤ a.width ∧
      (st.draw s b r vp).1.children = (b.arrange a vp).filter fun c => Scroller.inView content c.region := by
  have hd := (draw_rest s h r vp).1
  have hdx := Pane.event_x s _ hx0 (.draw b r vp)
  simp only [Pane.State.event] at hdx
  have hcont : ∀ f : Scroller.Flags, f.h = false → (Pane.contentRegion s (Scroller.inner s r) f).height =
      max (Scroller.inner s r).height 0 := by
    intro f hf
    unfold Pane.contentRegion
    simp [hf, hg]
  have hwide : ∀ f, narrow s r ≤ (Pane.contentRegion s (Scroller.inner s r) f).width := by
    intro f
    unfold narrow Pane.contentRegion
    dsimp only
    split <;> omega
  have hmap : ∀ (c : ScrollState) (ps : List Placement), c.offsetX = 0 → c.offsetY = 0 →
      (ps.map fun p => (⟨p.childIndex, Scroller.scrolled c p.region⟩ : Placement)) = ps := by
    intro c ps h1 h2
    conv_rhs => rw [← List.map_id ps]
    refine List.map_congr_left fun p _ => ?_
    simp [Scroller.scrolled, h1, h2]
  obtain ⟨p1, p2⟩ := place_rest h (Scroller.inner s r) vp
  unfold Pane.State.draw at hd hdx ⊢
  rw [if_neg (by omega)] at hd hdx ⊢
  unfold Pane.State.drawInner at hd hdx ⊢
  dsimp only at hd hdx ⊢
  have m1 := measure_rest p2 (Pane.extent b (st.place b (Scroller.inner s r) vp).1 (Scroller.inner s r)) (Scroller.inner s r)
  generalize hst1 : (st.place b (Scroller.inner s r) vp).2.measure
    (Pane.extent b (st.place b (Scroller.inner s r) vp).1 (Scroller.inner s r)) (Scroller.inner s r) = st1 at m1 hd hdx ⊢
  have hh : (st1.shows s).h = false := by simp [Pane.State.shows, hx]
  refine ⟨rfl, rfl, hcont _ hh, hwide _, ?_⟩
  by_cases hv : (st1.shows s).v = true ∧
      (Pane.contentRegion s (Scroller.inner s r) (st1.shows s)).width < (Scroller.inner s r).width
  · rw [if_pos hv] at hd hdx ⊢
    obtain ⟨q1, -⟩ := place_rest (refresh_rest m1) (Pane.contentRegion s (Scroller.inner s r) (st1.shows s)) vp
    refine ⟨Pane.contentRegion s (Scroller.inner s r) (st1.shows s), rfl, rfl, hwide _, ?_⟩
    dsimp only
    rw [hmap _ _ hdx hd.1, q1]
  · rw [if_neg hv] at hd hdx ⊢
    refine ⟨Scroller.inner s r, rfl, rfl, by unfold narrow; omega, ?_⟩
    dsimp only
    rw [hmap _ _ hdx hd.1, p1]

theorem place_wide {vp : Viewport} {n : Int} (a : Region) (ha : n ≤ a.width) (u : Rat) (cs : List LChild)
    (h : ∀ c ∈ cs, Wide vp n c) (y : Rat) (tms : List Rat) (d : Placement)
    (hd : d ∈ Layout.Vertical.place a vp u y cs tms) : d.region.x = a.x ∧ 0 < d.region.width := by
  induction cs generalizing y tms with
  | nil => cases tms <;> simp [Layout.Vertical.place] at hd
  | cons c cs ih =>
    cases tms with
    | nil => simp [Layout.Vertical.place] at hd
    | cons t tms =>
      unfold Layout.Vertical.place at hd
      rcases List.mem_cons.1 hd with rfl | hd
      · have hw := h c List.mem_cons_self
        refine ⟨?_, hw.2 a ha⟩
        dsimp only
        rw [hw.1]
        have : Layout.toI32 0 = 0 := by decide +kernel
        omega
      · exact ih (fun c hc => h c (List.mem_cons_of_mem _ hc)) _ _ hd

/-- **C191** (the selected option can be seen): whatever happened before, an option that ends within the height of the list is
drawn whole, on the rows that follow those of the options before it. Missing: lists scrolled by the wheel, with a horizontal
bar or a gutter, and options further down, such as a selected one (`hidden_selection_counterexample`). -/
theorem option_seen_partial (items : List (List Char)) (events : List Event) (s : Sheet) (keys : List String) (p : PStyle)
    (children : List OptionList.Row → List LChild) (r : Region) (vp : Viewport) (i : Nat)
    (hw : ∀ m r, .wheel m r ∉ events) (hr : 0 < r.width ∧ 0 < r.height) (hn : 0 < narrow s r)
    (hx : s.overflowX = .hidden) (hg : s.stableGutter = false)
    (hp : p.layout = .vertical ∧ p.layers = none ∧ p.alignH = .left ∧ p.alignV = .top) :
    let v := events.foldl (View.step s fun rows => body keys p (children rows)) { list := .new items }
    let shown := (v.pane.draw s (body keys p (children v.list.rows)) r vp).1
    List.Forall₂ (Plain vp (narrow s r)) (children v.list.rows) v.list.items →
    (∀ c ∈ children v.list.rows, Wide vp (narrow s r) c) →
    (∀ (i : Nat) (c : LChild), (children v.list.rows)[i]? = some c → c.index = i) →
    i < v.list.items.length → (rowStart v.list.items (i + 1) : Int) ≤ (Scroller.inner s r).height →
    ∃ d ∈ shown.children, d.childIndex = i ∧ d.region.y = (Scroller.inner s r).y + rowStart v.list.items i ∧
      d.region.y + d.region.height = (Scroller.inner s r).y + rowStart v.list.items (i + 1) ∧
      shown.content.y ≤ d.region.y ∧ d.region.y + d.region.height ≤ shown.content.y + shown.content.height := by
  intro v shown hc hwide hidx hi hfit
  have hrest : Rest (body keys p (children v.list.rows)) v.pane :=
    history_rest s (fun rows => body keys p (children rows)) events hw { list := .new items } ⟨rfl, by rintro a vp ps ⟨⟩⟩
  have hx0 : v.pane.scroll.offsetX = 0 := history_x s _ events { list := .new items } rfl
  obtain ⟨c1, c2, c3, c4, a, a1, a2, a3, a4⟩ := draw_all s hrest hx0 r vp hr hx hg
  change shown.content.x = _ at c1
  change shown.content.y = _ at c2
  change shown.content.height = _ at c3
  change _ ≤ shown.content.width at c4
  change shown.children = _ at a4
  rw [arrange_plain keys p _ a vp hp] at a4
  swap
  · intro c hm
    obtain ⟨i, hi⟩ := List.mem_iff_getElem?.1 hm
    have hil := (List.getElem?_eq_some_iff.1 hi).1
    have := hc.get hil (by rw [← hc.length_eq]; exact hil)
    rw [List.get_eq_getElem, (List.getElem?_eq_some_iff.1 hi).2] at this
    exact this.flow
  have hlen : (Layout.Vertical.arrange (children v.list.rows) a vp).length = v.list.items.length := by
    rw [← hc.length_eq]
    have := congrArg List.length (Layout.Vertical.arrange_index (children v.list.rows) a vp)
    simpa using this
  obtain ⟨d, hd⟩ : ∃ d, (Layout.Vertical.arrange (children v.list.rows) a vp)[i]? = some d :=
    ⟨_, List.getElem?_eq_getElem (by omega)⟩
  obtain ⟨k, item, hk, hitem, f1, f2, f3⟩ := place_plain a a3 _ _ _ hc a.y none (fun _ h => nomatch h) i d hd
  obtain ⟨w1, w2⟩ := place_wide a a3 _ _ hwide _ _ d (List.mem_of_getElem? hd)
  have hstart : rowStart v.list.items (i + 1) = rowStart v.list.items i + (item.count '\n' + 1) := by
    unfold rowStart
    rw [List.take_add_one, hitem, List.map_append, List.sum_append]
    simp
  rw [hstart] at hfit
  push_cast at hfit
  refine ⟨d, ?_, by rw [f1]; exact hidx i k hk, by rw [f2, a2], by rw [f2, f3, a2, hstart]; push_cast; omega,
    by rw [f2, a2, c2]; omega, by rw [f2, f3, a2, c2, c3]; omega⟩
  rw [a4]
  refine List.mem_filter.2 ⟨List.mem_of_getElem? hd, ?_⟩
  simp only [Scroller.inView, decide_eq_true_eq]
  change _ > shown.content.x ∧ _ < shown.content.x + shown.content.width ∧ _ > shown.content.y ∧
    _ < shown.content.y + shown.content.height
  rw [w1, a1, f2, f3, a2, c1, c2, c3]
  omega

/-- **C191**: the selected option of a list that ends within the height of the list is drawn whole. -/
theorem selected_seen_partial (items : List (List Char)) (events : List Event) (s : Sheet) (keys : List String) (p : PStyle)
    (children : List OptionList.Row → List LChild) (r : Region) (vp : Viewport)
    (hw : ∀ m r, .wheel m r ∉ events) (hr : 0 < r.width ∧ 0 < r.height) (hn : 0 < narrow s r)
    (hx : s.overflowX = .hidden) (hg : s.stableGutter = false)
    (hp : p.layout = .vertical ∧ p.layers = none ∧ p.alignH = .left ∧ p.alignV = .top) :
    let v := events.foldl (View.step s fun rows => body keys p (children rows)) { list := .new items }
    let shown := (v.pane.draw s (body keys p (children v.list.rows)) r vp).1
    List.Forall₂ (Plain vp (narrow s r)) (children v.list.rows) v.list.items →
    (∀ c ∈ children v.list.rows, Wide vp (narrow s r) c) →
    (∀ (i : Nat) (c : LChild), (children v.list.rows)[i]? = some c → c.index = i) →
    v.list.items ≠ [] → (rowStart v.list.items v.list.items.length : Int) ≤ (Scroller.inner s r).height →
    ∃ d ∈ shown.children, d.childIndex = v.list.selected ∧
      shown.content.y ≤ d.region.y ∧ d.region.y + d.region.height ≤ shown.content.y + shown.content.height := by
  intro v shown hc hwide hidx hne hfit
  have hl : v.list = (events.filterMap fun | .op o => some o | _ => none).foldl OptionList.step (.new items) :=
    list_history s _ events { list := .new items }
  have hok : v.list.Ok := by rw [hl]; exact (OptionList.ok_history items _).1
  have hsel : v.list.selected < v.list.items.length := hok.inRange hne
  have hmono : rowStart v.list.items (v.list.selected + 1) ≤ rowStart v.list.items v.list.items.length := by
    unfold rowStart
    rw [← List.take_append_drop (v.list.selected + 1) (v.list.items.take v.list.items.length), List.map_append,
      List.sum_append, List.take_take, Nat.min_eq_left (by omega)]
    exact Nat.le_add_right _ _
  obtain ⟨d, h1, h2, -, -, h3⟩ := option_seen_partial items events s keys p children r vp v.list.selected hw hr hn hx hg hp
    hc hwide hidx hsel (le_trans (Int.ofNat_le.2 hmono) hfit)
  exact ⟨d, h1, h2, h3⟩

/-- Three options in a list of six rows: the third is selected and drawn on the last of their rows. -/
example : let s : Sheet := { overflowX := .hidden, overflowY := .hidden }
    let r : Region := ⟨0, 4, 10, 6⟩
    let v := screen s .clip ["a", "b\nc", "d"] [.draw r ⟨10, 10⟩, .op .down, .op .down]
    0 < narrow s r ∧ v.list.selected = 2 ∧ rowStart v.list.items v.list.items.length = 4 ∧
    (∀ c ∈ options .clip v.list.rows, Wide ⟨10, 10⟩ (narrow s r) c) ∧
    drawn s .clip v r = [(0, 4, 1), (1, 5, 2), (2, 7, 1)] := by
  intro s r v
  refine ⟨by decide +kernel, by decide +kernel, by decide +kernel, ?_, by decide +kernel⟩
  intro c hc
  obtain ⟨i, hi, rfl⟩ := List.mem_mapIdx.1 hc
  refine ⟨rfl, fun a ha => ?_⟩
  have h8 : narrow s r = 8 := by decide +kernel
  rw [h8] at ha
  show 0 < max (a.width - _ - _) 0
  have h1 : Layout.toI32 Layout.Spacing.zero.left.value = 0 := by decide +kernel
  have h2 : Layout.toI32 Layout.Spacing.zero.right.value = 0 := by decide +kernel
  simp only [option]
  rw [h1, h2]
  omega

end Textual.Pick
