import Verif.Model.Pick
import Verif.Props.OptionList
import Verif.Props.ScrollSize
import Verif.Props.Content

/-!
C191: a click on an option list picks the option that is drawn under the mouse.
-/

namespace Textual.Pick

open OptionList (OptionList rowStart)
open OptionList.OptionList (Op)
open Layout (LChild Viewport Placement PStyle)
open Layout.Vertical (childWidth boxHeight topMargins)
open Scroller (Sheet Body)

/-- An option that takes as many rows as it has lines in every area at least `narrow` wide, and nothing besides. -/
structure Plain (vp : Viewport) (narrow : Int) (c : LChild) (item : List Char) : Prop where
  height : ∃ v, c.style.height = some ⟨v, .auto⟩
  free : c.style.minHeight = none ∧ c.style.maxHeight = none
  margins : c.style.margin.top.value = 0 ∧ c.style.margin.bottom.value = 0
  flow : c.style.dock = none ∧ c.style.absolute = false ∧ c.style.layer = none ∧
    c.style.offsetX = none ∧ c.style.offsetY = none
  rows : ∀ a : Region, narrow ≤ a.width → c.intrinsicHeight (Layout.clampU16 (childWidth c a vp)) = item.count '\n' + 1

/-- The width that is left beside a scrollbar. -/
def narrow (s : Sheet) (r : Region) : Int := (Scroller.inner s r).width - s.barV

theorem offset_flow (ps : List Placement) (cs : List LChild) (vp : Viewport)
    (h : ∀ c ∈ cs, c.style.offsetX = none ∧ c.style.offsetY = none) : Layout.applyOffset ps cs vp = ps := by
  unfold Layout.applyOffset
  conv => rhs; rw [← List.map_id ps]
  apply List.map_congr_left
  intro p _
  split
  · rename_i c hc
    obtain ⟨h1, h2⟩ := h c (List.mem_of_find?_eq_some hc)
    simp [h1, h2, Layout.offsetOf]
  · rfl

theorem arrange_plain (keys : List String) (p : PStyle) (cs : List LChild) (a : Region) (vp : Viewport)
    (hp : p.layout = .vertical ∧ p.layers = none ∧ p.alignH = .left ∧ p.alignV = .top)
    (h : ∀ c ∈ cs, c.style.dock = none ∧ c.style.absolute = false ∧ c.style.layer = none ∧
      c.style.offsetX = none ∧ c.style.offsetY = none) :
    (body keys p cs).arrange a vp = Layout.Vertical.arrange cs a vp := by
  obtain ⟨p0, p1, p2, p3⟩ := hp
  have hsh : Layout.Intrinsic.shown (cs.map fun c => (true, c)) = cs := by
    rw [Layout.Intrinsic.shown_eq]
    induction cs with
    | nil => rfl
    | cons c cs ih => exact congrArg (c :: ·) (ih fun d hd => h d (List.mem_cons_of_mem _ hd))
  show Layout.arrangeLayers keys p (Layout.Intrinsic.shown (cs.map fun c => (true, c))) a vp = _
  rw [hsh]
  unfold Layout.arrangeLayers
  have hl : cs.any (fun c => c.style.layer.isSome) = false := by
    rw [List.any_eq_false]
    intro c hc
    rw [(h c hc).2.2.1]; simp
  rw [if_pos (by rw [hl, p1]; simp)]
  unfold Layout.arrangeChildren
  have f1 : cs.filter (fun c => c.style.dock.isSome) = [] := Layout.Intrinsic.filter_false _ _ fun c hc => by
    rw [(h c hc).1]; rfl
  have f2 : cs.filter (fun c => !c.style.dock.isSome) = cs := Layout.Intrinsic.filter_true _ _ fun c hc => by
    rw [(h c hc).1]; rfl
  have f3 : cs.filter (fun c => c.style.absolute) = [] := Layout.Intrinsic.filter_false _ _ fun c hc => by
    rw [(h c hc).2.1]
  have f4 : cs.filter (fun c => !c.style.absolute) = cs := Layout.Intrinsic.filter_true _ _ fun c hc => by
    rw [(h c hc).2.1]; rfl
  simp only [f1, f2, f3, f4, Layout.arrangeDocked, Layout.dockLoop, Layout.contentRegion, Layout.applyAlignment, p2, p3,
    and_self, if_true, List.map_nil, offset_flow _ _ _ fun c hc => (h c hc).2.2.2, Layout.runLayout, p0]
  simp [Int.add_zero, Int.sub_zero]

theorem box_plain {vp : Viewport} {n : Int} {c : LChild} {item : List Char} (h : Plain vp n c item) (a : Region)
    (ha : n ≤ a.width) (u : Rat) : boxHeight c a vp u = ((item.count '\n' + 1 : Nat) : Rat) := by
  obtain ⟨v, hv⟩ := h.height
  unfold boxHeight
  dsimp only
  rw [h.free.1, h.free.2]
  simp only [Layout.Vertical.reduceByMargins, hv, Bool.false_eq_true, if_false, Layout.Vertical.boxHeight0]
  rw [h.rows a ha]

/-- Options are stacked. -/
theorem place_plain {vp : Viewport} {n : Int} (a : Region) (ha : n ≤ a.width) (u : Rat) (cs : List LChild)
    (items : List (List Char)) (h : List.Forall₂ (Plain vp n) cs items) (y : Int) (prev : Option Rat)
    (hprev : ∀ q, prev = some q → q = 0) (i : Nat) (d : Placement)
    (hd : (Layout.Vertical.place a vp u (y : Rat) cs (topMargins prev cs))[i]? = some d) :
    ∃ c item, cs[i]? = some c ∧ items[i]? = some item ∧ d.childIndex = c.index ∧ d.region.y = y + rowStart items i ∧
      d.region.height = item.count '\n' + 1 := by
  induction h generalizing y prev i with
  | nil => simp [Layout.Vertical.place] at hd
  | @cons c item cs items hc hcs ih =>
    have ht : topMargins prev (c :: cs) = 0 :: topMargins (some 0) cs := by
      clear hd
      simp only [topMargins, hc.margins.1, hc.margins.2]
      cases prev with
      | none => rfl
      | some q =>
        have := hprev q rfl
        subst this
        simp
    rw [ht] at hd
    unfold Layout.Vertical.place at hd
    dsimp only at hd
    rw [hc.margins.2, box_plain hc a ha] at hd
    have e : ((y : Rat) + 0 + ((item.count '\n' + 1 : Nat) : Rat) + 0) = ((y + (item.count '\n' + 1 : Nat) : Int) : Rat) := by
      push_cast; ring
    have e0 : ((y : Rat) + 0 + ((item.count '\n' + 1 : Nat) : Rat)) = ((y + (item.count '\n' + 1 : Nat) : Int) : Rat) := by
      push_cast; ring
    rw [e, e0] at hd
    cases i with
    | zero =>
      simp only [List.getElem?_cons_zero, Option.some.injEq] at hd
      subst hd
      refine ⟨c, item, rfl, rfl, rfl, ?_, ?_⟩
      · show ⌊(y : Rat) + 0⌋ = _
        rw [add_zero, Int.floor_intCast]
        simp [rowStart]
      · show max (⌊((y + (item.count '\n' + 1 : Nat) : Int) : Rat)⌋ - ⌊(y : Rat) + 0⌋) 0 = _
        rw [add_zero, Int.floor_intCast, Int.floor_intCast]
        push_cast
        omega
    | succ i =>
      rw [List.getElem?_cons_succ] at hd
      obtain ⟨c', item', h1, h2, h3, h4, h5⟩ := ih _ (some 0) (by intro q hq; exact (Option.some.inj hq).symm) i hd
      refine ⟨c', item', h1, h2, h3, ?_, h5⟩
      rw [h4]
      have : rowStart (item :: items) (i + 1) = (item.count '\n' + 1) + rowStart items i := by
        unfold rowStart; rw [List.take_succ_cons, List.map_cons, List.sum_cons]
      rw [this]
      push_cast
      omega

/-! ### Histories -/

/-- The container remembers no other layout than that of its children, and it is not scrolled. -/
def Rest (b : Body) (st : Pane.State) : Prop :=
  st.scroll.offsetY = 0 ∧ ∀ a vp ps, st.cache = some (a, vp, ps) → ps = b.arrange a vp

theorem place_rest {b : Body} {st : Pane.State} (h : Rest b st) (a : Region) (vp : Viewport) :
    (st.place b a vp).1 = b.arrange a vp ∧ Rest b (st.place b a vp).2 := by
  unfold Pane.State.place
  split
  · rename_i a' vp' ps hc
    split
    · rename_i e
      obtain ⟨rfl, rfl⟩ := e
      exact ⟨h.2 _ _ _ hc, h⟩
    · exact ⟨rfl, h.1, by rintro a vp ps ⟨⟩; rfl⟩
  · exact ⟨rfl, h.1, by rintro a vp ps ⟨⟩; rfl⟩

theorem measure_rest {b : Body} {st : Pane.State} (h : Rest b st) (size : Int × Int) (a : Region) :
    Rest b (st.measure size a) := by
  refine ⟨?_, h.2⟩
  have := h.1
  simp only [Pane.State.measure, ScrollState.setViewport, ScrollState.setVirtualSize, ScrollState.reclamp,
    ScrollState.maxScrollY, this]
  omega

theorem refresh_rest {b : Body} {st : Pane.State} (h : Rest b st) : Rest b st.refresh :=
  ⟨h.1, by rintro a vp ps ⟨⟩⟩

/-- What is drawn in a container that is not scrolled: children where the layout puts them, for an area with the same
top, at least as wide as the narrow one. -/
theorem draw_rest (s : Sheet) {b : Body} {st : Pane.State} (h : Rest b st) (r : Region) (vp : Viewport) :
    Rest b (st.draw s b r vp).2 ∧ ∀ d ∈ (st.draw s b r vp).1.children, ∃ a : Region, a.y = (Scroller.inner s r).y ∧
      narrow s r ≤ a.width ∧ ∃ c ∈ b.arrange a vp, c.childIndex = d.childIndex ∧ c.region.y = d.region.y ∧
        c.region.height = d.region.height := by
  unfold Pane.State.draw
  by_cases h0 : r.width ≤ 0 ∨ r.height ≤ 0
  · rw [if_pos h0]
    exact ⟨h, fun d hd => nomatch hd⟩
  · rw [if_neg h0]
    obtain ⟨p1, p2⟩ := place_rest h (Scroller.inner s r) vp
    unfold Pane.State.drawInner
    dsimp only
    have m1 := measure_rest p2 (Pane.extent b (st.place b (Scroller.inner s r) vp).1 (Scroller.inner s r)) (Scroller.inner s r)
    generalize hst1 : (st.place b (Scroller.inner s r) vp).2.measure
      (Pane.extent b (st.place b (Scroller.inner s r) vp).1 (Scroller.inner s r)) (Scroller.inner s r) = st1 at m1 ⊢
    have hwide : ∀ f, narrow s r ≤ (Pane.contentRegion s (Scroller.inner s r) f).width := by
      intro f
      unfold narrow Pane.contentRegion
      dsimp only
      split <;> omega
    by_cases hv : (st1.shows s).v = true ∧
        (Pane.contentRegion s (Scroller.inner s r) (st1.shows s)).width < (Scroller.inner s r).width
    · rw [if_pos hv]
      obtain ⟨q1, q2⟩ := place_rest (refresh_rest m1) (Pane.contentRegion s (Scroller.inner s r) (st1.shows s)) vp
      have m2 := measure_rest q2 (Pane.extent b (st1.refresh.place b (Pane.contentRegion s (Scroller.inner s r) (st1.shows s)) vp).1
        (Pane.contentRegion s (Scroller.inner s r) (st1.shows s))) (Pane.contentRegion s (Scroller.inner s r) (st1.shows s))
      refine ⟨m2, fun d hd => ?_⟩
      obtain ⟨c, hc, rfl⟩ := List.mem_map.1 (List.mem_filter.1 hd).1
      rw [q1] at hc
      refine ⟨_, ?_, hwide _, c, hc, rfl, ?_, rfl⟩
      · rfl
      · show c.region.y = c.region.y - _
        rw [m2.1, sub_zero]
    · rw [if_neg hv]
      refine ⟨m1, fun d hd => ?_⟩
      obtain ⟨c, hc, rfl⟩ := List.mem_map.1 (List.mem_filter.1 hd).1
      rw [p1] at hc
      refine ⟨Scroller.inner s r, rfl, ?_, c, hc, rfl, ?_, rfl⟩
      · unfold narrow; omega
      · show c.region.y = c.region.y - _
        rw [m1.1, sub_zero]

/-- Without a refresh the rows stay. -/
theorem rows_stay (l : OptionList) (o : Op) (h : refreshes l o = false) : (l.step o).rows = l.rows := by
  cases o <;> simp only [refreshes, Bool.and_eq_false_iff, Bool.not_eq_false', bne_eq_false_iff_eq, Bool.true_eq_false] at h <;>
    simp only [OptionList.step]
  case up =>
    split
    · rfl
    · rename_i hn
      unfold OptionList.moveSelection
      split
      · rfl
      · rename_i he
        unfold OptionList.nextEnabledFrom at h
        split
        · rename_i i hi
          rw [hi] at h
          simp_all
        · rfl
  case down =>
    split
    · rfl
    · rename_i hn
      unfold OptionList.moveSelection
      split
      · rfl
      · rename_i he
        unfold OptionList.nextEnabledFrom at h
        split
        · rename_i i hi
          rw [hi] at h
          simp_all
        · rfl
  case click y =>
    unfold OptionList.click
    split
    · rfl
    · rename_i hn
      split
      · rename_i i hi
        rw [hi] at h
        split
        · rename_i hd
          have : l.selected = i := by simp_all
          simp [this]
        · rfl
      · rfl
  case setMarkup allow => simp [OptionList.setMarkup, h]
  case setFocus on => simp [h]

theorem step_rest (s : Sheet) (layout : List OptionList.Row → Body) (v : View) (e : Event)
    (he : ∀ m r, e ≠ .wheel m r) (h : Rest (layout v.list.rows) v.pane) :
    Rest (layout (v.step s layout e).list.rows) (v.step s layout e).pane := by
  cases e with
  | wheel m r => exact absurd rfl (he m r)
  | draw r vp => exact (draw_rest s h r vp).1
  | op o =>
    show Rest (layout (v.list.step o).rows) (if refreshes v.list o then {} else v.pane)
    cases hr : refreshes v.list o with
    | true => exact ⟨rfl, by rintro a vp ps ⟨⟩⟩
    | false =>
      rw [rows_stay _ _ hr]
      exact h

/-- The list in the view is the list of `Model/OptionList.lean`. -/
theorem list_history (s : Sheet) (layout : List OptionList.Row → Body) (events : List Event) (v : View) :
    (events.foldl (View.step s layout) v).list =
      (events.filterMap fun | .op o => some o | _ => none).foldl OptionList.step v.list := by
  induction events generalizing v with
  | nil => rfl
  | cons e events ih =>
    rw [List.foldl_cons, ih]
    cases e with
    | op o => rfl
    | draw r vp => rfl
    | wheel m r =>
      rw [List.filterMap_cons]
      dsimp only
      unfold View.step
      dsimp only
      split <;> rfl

theorem history_rest (s : Sheet) (layout : List OptionList.Row → Body) (events : List Event)
    (he : ∀ m r, .wheel m r ∉ events) (v : View) (h : Rest (layout v.list.rows) v.pane) :
    Rest (layout (events.foldl (View.step s layout) v).list.rows) (events.foldl (View.step s layout) v).pane := by
  induction events generalizing v with
  | nil => exact h
  | cons e events ih =>
    refine ih (fun m r hm => he m r (List.mem_cons_of_mem _ hm)) _ (step_rest s layout v e ?_ h)
    rintro m r rfl
    exact he m r List.mem_cons_self

/-- A click on a list whose container is not scrolled and remembers no other layout. -/
theorem click_at_rest (items : List (List Char)) (ops : List Op) (v : View) (s : Sheet) (keys : List String) (p : PStyle)
    (children : List OptionList.Row → List LChild) (r : Region) (vp : Viewport) (row : Int) (d : Placement)
    (hl : v.list = ops.foldl OptionList.step (.new items)) (hr : Rest (body keys p (children v.list.rows)) v.pane)
    (htop : s.chromeTop = 0) (hp : p.layout = .vertical ∧ p.layers = none ∧ p.alignH = .left ∧ p.alignV = .top)
    (ho : v.list.off = false) (hv : v.list.visible = true)
    (hc : List.Forall₂ (Plain vp (narrow s r)) (children v.list.rows) v.list.items)
    (hn : ∀ (i : Nat) (c : LChild), (children v.list.rows)[i]? = some c → c.index = i)
    (hd : d ∈ (v.pane.draw s (body keys p (children v.list.rows)) r vp).1.children)
    (h1 : d.region.y ≤ row) (h2 : row < d.region.y + d.region.height) :
    let after := v.step s (fun rows => body keys p (children rows)) (.op (.click (rowOf r row)))
    (v.list.Enabled d.childIndex → after.list.selected = d.childIndex ∧ after.list.pendingSelection = some d.childIndex) ∧
    (¬ v.list.Enabled d.childIndex → after.list = v.list) := by
  intro after
  obtain ⟨a, ha, hna, c, hca, e1, e2, e3⟩ := (draw_rest s hr r vp).2 d hd
  rw [arrange_plain keys p _ a vp hp] at hca
  swap
  · intro c hm
    obtain ⟨i, hi⟩ := List.mem_iff_getElem?.1 hm
    have hil := (List.getElem?_eq_some_iff.1 hi).1
    have := hc.get hil (by rw [← hc.length_eq]; exact hil)
    rw [List.get_eq_getElem, (List.getElem?_eq_some_iff.1 hi).2] at this
    exact this.flow
  obtain ⟨i, hi⟩ := List.mem_iff_getElem?.1 hca
  obtain ⟨k, item, hk, hitem, f1, f2, f3⟩ := place_plain a hna _ _ _ hc a.y none (fun _ h => nomatch h) i c hi
  have hidx : d.childIndex = i := by rw [← e1, f1]; exact hn i k hk
  have hy : a.y = r.y := by
    rw [ha]
    unfold Scroller.inner
    split
    · rfl
    · rw [htop]; simp
  have hil : i < v.list.items.length := (List.getElem?_eq_some_iff.1 hitem).1
  have hstart : rowStart v.list.items (i + 1) = rowStart v.list.items i + (item.count '\n' + 1) := by
    unfold rowStart
    rw [List.take_add_one, hitem, List.map_append, List.sum_append]
    simp
  rw [← e2, f2, hy] at h1
  rw [← e2, ← e3, f2, f3, hy] at h2
  have g1 : rowStart v.list.items i ≤ rowOf r row := by unfold rowOf; omega
  have g2 : rowOf r row < rowStart v.list.items (i + 1) := by rw [hstart]; unfold rowOf; omega
  have hx := OptionList.click_exact items ops (rowOf r row)
  rw [← hl] at hx
  obtain ⟨x1, x2⟩ := hx ho hv
  rw [hidx]
  refine ⟨fun hen => x1 i hen g1 g2, fun hne => x2 fun j hj ⟨j1, j2⟩ => ?_⟩
  have hcur : v.list.Current := by rw [hl]; exact (OptionList.ok_history items _).2
  have a1 := (OptionList.row_index hcur (rowOf r row) i).2 ⟨hil, g1, g2⟩
  have a2 := (OptionList.row_index hcur (rowOf r row) j).2 ⟨hj.1, j1, j2⟩
  rw [a1] at a2
  injection a2 with a2
  subst a2
  exact hne hj

/-- **C191**: whatever happened before, a click on a row where an option is drawn picks this option, if it can be chosen,
and nothing otherwise. Missing: lists with a border or padding at the top (`border_counterexample`), lists scrolled by the
wheel (`wheel_counterexample`), options that take more rows than they have lines (`fold_counterexample`). -/
theorem click_picks_partial (items : List (List Char)) (events : List Event) (s : Sheet) (keys : List String) (p : PStyle)
    (children : List OptionList.Row → List LChild) (r : Region) (vp : Viewport) (row : Int) (d : Placement)
    (hw : ∀ m r, .wheel m r ∉ events) (htop : s.chromeTop = 0)
    (hp : p.layout = .vertical ∧ p.layers = none ∧ p.alignH = .left ∧ p.alignV = .top) :
    let v := events.foldl (View.step s fun rows => body keys p (children rows)) { list := .new items }
    let after := v.step s (fun rows => body keys p (children rows)) (.op (.click (rowOf r row)))
    v.list.off = false → v.list.visible = true →
    List.Forall₂ (Plain vp (narrow s r)) (children v.list.rows) v.list.items →
    (∀ (i : Nat) (c : LChild), (children v.list.rows)[i]? = some c → c.index = i) →
    d ∈ (v.pane.draw s (body keys p (children v.list.rows)) r vp).1.children →
    d.region.y ≤ row → row < d.region.y + d.region.height →
    (v.list.Enabled d.childIndex → after.list.selected = d.childIndex ∧ after.list.pendingSelection = some d.childIndex) ∧
    (¬ v.list.Enabled d.childIndex → after.list = v.list) := by
  intro v after ho hv hc hn hd h1 h2
  exact click_at_rest items (events.filterMap fun | .op o => some o | _ => none) v s keys p children r vp row d
    (list_history s _ events { list := .new items })
    (history_rest s (fun rows => body keys p (children rows)) events hw { list := .new items } ⟨rfl, by rintro a vp ps ⟨⟩⟩)
    htop hp ho hv hc hn hd h1 h2

/-! ### Options as static texts -/

open Content in
theorem wrapOne_row (c : Content) (ws : Grapheme → Bool) (width : Nat) (hw : 0 < width) (o : Overflow) (start : Nat)
    (line : List Grapheme) (hs : Solid line) (ha : AlignedAt (c.spans.getD []) start line)
    (hfit : o = .fold → widthOf line ≤ width) :
    ∃ r, c.wrapOne ws width o .noWrap start line = some r ∧ r.length = 1 := by
  obtain ⟨s, l, l1, l2, l3, l4, l5⟩ := wrapOne_noWrap c ws width o start line hs ha
  refine ⟨_, l1, ?_⟩
  have : l.length = 1 := by
    rw [l5]
    split
    · rfl
    · cases o with
      | clip => rfl
      | ellipsis => rfl
      | fold =>
        have htext : textOf s = line := by rw [← glyphs_text, l3, annotate_map]
        have hcl : s.cellLength ≤ width := by rw [wf_width l4, htext]; exact hfit rfl
        dsimp only
        unfold splitByWidth
        rw [if_neg (by omega)]
        split
        · rfl
        · rw [Content.splitLoop, dif_pos ⟨by omega, hw⟩, Content.splitLoop, dif_neg (by omega)]
          rfl
  match l, this with
  | [x], _ => rfl

open Content in
theorem wrapLines_row (c : Content) (ws : Grapheme → Bool) (width : Nat) (hw : 0 < width) (o : Overflow) :
    ∀ (n : Nat) (t : List Grapheme) (start : Nat), t.length ≤ n → Solid t → AlignedAt (c.spans.getD []) start t →
      (o = .fold → ∀ l ∈ splitLines t, widthOf l ≤ width) →
      ∃ r, c.wrapLines ws width o .noWrap start (splitLines t) = some r ∧ r.length = (splitLines t).length
  | n, t, start, hn, hs, ha, hok => by
    rcases splitLines_decomp t with ⟨h1, h2⟩ | ⟨line, nl, t', h1, h2, h3, h4⟩
    · rw [h2] at hok ⊢
      obtain ⟨r, r1, r2⟩ := wrapOne_row c ws width hw o start t hs ha fun h => hok h t (by simp)
      refine ⟨r, ?_, r2⟩
      rw [Content.wrapLines, r1]
      simp [Content.wrapLines]
    · cases n with
      | zero => rw [h1] at hn; simp at hn
      | succ n =>
        subst h1
        have hsl : Solid line := hs.sub (by simp +contextual)
        have hsr : Solid t' := hs.sub (by simp +contextual)
        have hal : AlignedAt (c.spans.getD []) start line := by
          have := AlignedAt.piece (start := start) (a := []) (b := line) (d := nl :: t') ha
          simpa [blen_nil] using this
        have har : AlignedAt (c.spans.getD []) (start + blen line + 1) t' := by
          have := AlignedAt.piece (start := start) (a := line ++ [nl]) (b := t') (d := []) (by simpa using ha)
          rw [blen_append, blen_cons, blen_nil, gbytes_newline h2] at this
          simpa [Nat.add_assoc] using this
        rw [h4] at hok ⊢
        obtain ⟨r, r1, r2⟩ := wrapOne_row c ws width hw o start line hsl hal fun h => hok h line (by simp)
        obtain ⟨q, q1, q2⟩ := wrapLines_row c ws width hw o n t' (start + blen line + 1) (by simp at hn; omega) hsr har
          fun h l hl => hok h l (by simp [hl])
        refine ⟨r ++ q, ?_, by rw [List.length_append, r2, q2, List.length_cons]; omega⟩
        rw [Content.wrapLines, r1]
        dsimp only
        rw [q1]
        rfl

/-- The text of an item: its characters, a line feed being a character of its own. -/
def Spells (text : List Grapheme) (item : List Char) : Prop :=
  item = text.flatMap (·.text.toList) ∧ ∀ g ∈ text, g.text = "\n" ∨ '\n' ∉ g.text.toList

theorem spells_lines (text : List Grapheme) : (∀ g ∈ text, g.text = "\n" ∨ '\n' ∉ g.text.toList) →
    (Content.splitLines text).length = (text.flatMap (·.text.toList)).count '\n' + 1 := by
  induction text with
  | nil => intro _; rfl
  | cons g gs ih =>
    intro h
    have := ih fun g' hg' => h g' (List.mem_cons_of_mem _ hg')
    rw [Content.splitLines, List.flatMap_cons, List.count_append]
    rcases h g List.mem_cons_self with hg | hg
    · rw [if_pos hg, List.length_cons, this, hg]
      have : ("\n" : String).toList.count '\n' = 1 := by decide
      omega
    · rw [if_neg (by intro e; rw [e] at hg; exact hg (by decide)), List.count_eq_zero.2 hg, Nat.zero_add, ← this]
      cases hg' : Content.splitLines gs with
      | nil => rw [hg'] at this; simp at this
      | cons l ls => rfl

/-- **C191**, options: a text that is not wrapped, has no border and no padding and is clipped, or fits, takes as many rows
as it has lines. -/
theorem option_rows (sheet : Static.Sheet) (ws : Grapheme → Bool) (content : Content.Content) (item : List Char) (w : Nat)
    (hwrap : sheet.wrap = .noWrap) (hs : Content.Solid content.text)
    (ha : Content.Aligned (content.spans.getD []) content.text) (ht : Spells content.text item)
    (hedges : Static.edge sheet.frame.border.top.kind = 0 ∧ Static.edge sheet.frame.border.bottom.kind = 0 ∧
      sheet.frame.paddingTop = 0 ∧ sheet.frame.paddingBottom = 0)
    (hfit : sheet.overflow = .fold → ∀ line ∈ Content.splitLines content.text,
      widthOf line + Static.edge sheet.frame.border.left.kind + Static.edge sheet.frame.border.right.kind +
        (sheet.frame.paddingLeft + sheet.frame.paddingRight) + 2 * sheet.linePad ≤ w) :
    (Static.intrinsicHeight sheet ws content w).getD 0 = item.count '\n' + 1 := by
  obtain ⟨e1, e2, e3, e4⟩ := hedges
  unfold Static.intrinsicHeight Content.Content.wrapFull
  dsimp only
  rw [hwrap, if_neg (by omega)]
  obtain ⟨r, r1, r2⟩ := wrapLines_row content ws (max (w - (Static.edge sheet.frame.border.left.kind +
    Static.edge sheet.frame.border.right.kind + (sheet.frame.paddingLeft + sheet.frame.paddingRight)) - 2 * sheet.linePad) 1)
    (by omega) sheet.overflow content.text.length content.text 0 (Nat.le_refl _) hs ha.at
    (fun h l hl => by have := hfit h l hl; omega)
  rw [r1]
  have hl := spells_lines content.text ht.2
  rw [← ht.1] at hl
  have hne : r.isEmpty = false := by
    cases r with
    | nil => rw [hl] at r2; simp at r2
    | cons _ _ => rfl
  simp only [Option.map_some, hne, Bool.false_eq_true, if_false, Option.getD_some, e1, e2, e3, e4]
  omega

/-! ### Cases -/

/-- The characters of a text. -/
def letters (item : List Char) : List Grapheme := item.map fun c => ⟨String.singleton c, 1⟩

/-- Options as the default style has them: not wrapped; `o` is `text-overflow`, which is `fold` unless a style says
otherwise. -/
def options (o : Content.Overflow) (rows : List OptionList.Row) : List LChild :=
  rows.mapIdx fun i row => option i { height := some ⟨1, .auto⟩ } { wrap := .noWrap, overflow := o } (fun _ => false)
    { text := letters row.content } 3

/-- The option list on a screen of 10 columns. -/
def screen (s : Sheet) (o : Content.Overflow) (items : List String) (events : List Event) : View :=
  events.foldl (View.step s fun rows => body [] {} (options o rows)) { list := .new (items.map String.toList) }

/-- The options drawn, with their first row and their height. -/
def drawn (s : Sheet) (o : Content.Overflow) (v : View) (r : Region) : List (Nat × Int × Int) :=
  (v.pane.draw s (body [] {} (options o v.list.rows)) r ⟨10, 10⟩).1.children.map fun d => (d.childIndex, d.region.y, d.region.height)

/-- What a click on a row of the screen picks. -/
def picks (s : Sheet) (o : Content.Overflow) (v : View) (r : Region) (row : Int) : Option Nat :=
  (v.step s (fun rows => body [] {} (options o rows)) (.op (.click (rowOf r row)))).list.pendingSelection

/-- Three options, the second of two lines, at row 4 of the screen: drawn, and clicked on each row. -/
example : let v := screen {} .clip ["a", "b\nc", "d"] [.draw ⟨0, 4, 10, 6⟩ ⟨10, 10⟩, .op .down]
    drawn {} .clip v ⟨0, 4, 10, 6⟩ = [(0, 4, 1), (1, 5, 2), (2, 7, 1)] ∧
    [4, 5, 6, 7, 8].map (picks {} .clip v ⟨0, 4, 10, 6⟩) = [some 0, some 1, some 1, some 2, none] := by
  decide +kernel

/-- The hypotheses of `click_picks_partial` hold of them. -/
example : let v := screen {} .clip ["a", "b\nc", "d"] [.draw ⟨0, 4, 10, 6⟩ ⟨10, 10⟩, .op .down]
    v.list.off = false ∧ v.list.visible = true ∧
    List.Forall₂ (Plain ⟨10, 10⟩ (narrow {} ⟨0, 4, 10, 6⟩)) (options .clip v.list.rows) v.list.items := by
  intro v
  have plain : ∀ (i : Nat) (item : List Char),
      Plain ⟨10, 10⟩ (narrow {} ⟨0, 4, 10, 6⟩) (option i { height := some ⟨1, .auto⟩ } { wrap := .noWrap, overflow := .clip }
        (fun _ => false) { text := letters item } 3) item := by
    intro i item
    refine ⟨⟨1, rfl⟩, ⟨rfl, rfl⟩, ⟨rfl, rfl⟩, ⟨rfl, rfl, rfl, rfl, rfl⟩, fun a _ => ?_⟩
    refine option_rows _ _ _ item _ rfl ?_ ?_ ⟨?_, ?_⟩ ⟨rfl, rfl, rfl, rfl⟩ (fun h => nomatch h)
    · intro g hg
      obtain ⟨c, _, rfl⟩ := List.mem_map.1 hg
      simp only [Content.gbytes, String.toList_singleton, List.map_cons, List.map_nil, List.sum_cons, List.sum_nil]
      have := Char.utf8Size_pos c
      omega
    · intro s hs; cases hs
    · simp [letters, List.flatMap_map]
    · intro g hg
      obtain ⟨c, _, rfl⟩ := List.mem_map.1 hg
      by_cases hc : c = '\n'
      · left; rw [hc]; rfl
      · right
        simpa using fun h => hc h.symm
  have e : v.list.rows = [⟨"a".toList, false, false⟩, ⟨"b\nc".toList, false, true⟩, ⟨"d".toList, false, false⟩] := by decide +kernel
  have e' : v.list.items = ["a".toList, "b\nc".toList, "d".toList] := by decide +kernel
  refine ⟨by decide +kernel, by decide +kernel, ?_⟩
  rw [e, e']
  exact .cons (plain 0 _) (.cons (plain 1 _) (.cons (plain 2 _) .nil))

/-- C191 is false of lists with a border at the top, such as that of the command palette (command_palette.rs:497): the
click picks the option below the one under the mouse. -/
theorem border_counterexample :
    let v := screen { chromeTop := 1 } .clip ["a", "b", "c"] []
    drawn { chromeTop := 1 } .clip v ⟨0, 0, 10, 6⟩ = [(0, 1, 1), (1, 2, 1), (2, 3, 1)] ∧
    [0, 1, 2, 3].map (picks { chromeTop := 1 } .clip v ⟨0, 0, 10, 6⟩) = [some 0, some 1, some 2, none] := by
  decide +kernel

/-- C191 is false of lists that were scrolled by the wheel: the click picks the option that was there before. -/
theorem wheel_counterexample :
    let v := screen {} .clip ["a", "b", "c", "d", "e"] [.draw ⟨0, 0, 10, 2⟩ ⟨10, 10⟩,
      .wheel { kind := .scrollDown, column := 1, row := 1 } ⟨0, 0, 10, 2⟩]
    drawn {} .clip v ⟨0, 0, 10, 2⟩ = [(3, 0, 1), (4, 1, 1)] ∧
    [0, 1].map (picks {} .clip v ⟨0, 0, 10, 2⟩) = [some 0, some 1] := by
  decide +kernel

/-- C191 is false, with the default styles, of options longer than the list is wide: they are folded. -/
theorem fold_counterexample :
    let v := screen {} .fold ["abcdefghijkl", "b", "c"] []
    drawn {} .fold v ⟨0, 0, 10, 6⟩ = [(0, 0, 2), (1, 2, 1), (2, 3, 1)] ∧
    [0, 1, 2, 3].map (picks {} .fold v ⟨0, 0, 10, 6⟩) = [some 0, some 1, some 2, none] := by
  decide +kernel

/-- C191 is false of the selection by keys: the selected option can be out of sight, and selecting by keys scrolls back to
the top. -/
theorem hidden_selection_counterexample :
    let v := screen {} .clip ["a", "b", "c", "d", "e"] [.draw ⟨0, 0, 10, 2⟩ ⟨10, 10⟩,
      .wheel { kind := .scrollDown, column := 1, row := 1 } ⟨0, 0, 10, 2⟩, .op .down, .op .down, .op .down, .op .down]
    v.list.selected = 4 ∧ drawn {} .clip v ⟨0, 0, 10, 2⟩ = [(0, 0, 1), (1, 1, 1)] := by
  decide +kernel

end Textual.Pick
