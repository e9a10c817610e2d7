import Verif.Props.Tabs
import Verif.Props.Wheel

/-!
# The widget with the focus can be seen (C203)
-/

namespace Textual.Nest

open Layout (Placement Viewport)
open Scroller (Sheet Body At inner virtualSize)
open Tree (W WidgetTree)

/-- The children of the container, laid out in its whole inner area, lie within it with their margins and are not empty;
the style does not ask for bars that are not needed, and a remembered layout is the one the container would make now. -/
structure Box.Roomy (vp : Viewport) (r : Region) (b : Box) : Prop where
  overflowX : b.sheet.overflowX ≠ .scroll
  overflowY : b.sheet.overflowY ≠ .scroll
  gutter : b.sheet.stableGutter = false
  cached : ∀ s d st, b = .pane s d st → ∀ a v ps, st.cache = some (a, v, ps) → ps = d.arrange a v
  fits : ∀ c ∈ b.body.arrange (inner b.sheet r) vp,
    0 < c.region.width ∧ 0 < c.region.height ∧ 0 ≤ b.body.marginRight c.childIndex ∧ 0 ≤ b.body.marginBottom c.childIndex ∧
    (inner b.sheet r).x ≤ c.region.x ∧ (inner b.sheet r).y ≤ c.region.y ∧
    c.region.x + c.region.width + b.body.marginRight c.childIndex ≤ (inner b.sheet r).x + (inner b.sheet r).width ∧
    c.region.y + c.region.height + b.body.marginBottom c.childIndex ≤ (inner b.sheet r).y + (inner b.sheet r).height

/-- The leaf a path of child numbers leads to. -/
def Node.at? : Node → List Nat → Option Nat
  | .leaf id _, [] => some id
  | .leaf _ _, _ :: _ => none
  | .box _ _, [] => none
  | .box _ child, i :: p => (child i).at? p

/-- The containers of the tree `n` are those of the tree of widgets, all children the focus can enter are placed, and
all containers are large enough for their children. -/
def Roomy (vp : Viewport) : W → Node → Region → Prop
  | w, .leaf _ _, _ => w.exposed = []
  | w, .box b child, r => Tree.W.takesFocus w.kind = false ∧ b.Roomy vp r ∧
    ∀ i c, w.exposed[i]? = some c → w.lets c = true →
      ∃ p ∈ b.body.arrange (inner b.sheet r) vp, p.childIndex = i ∧ Roomy vp c (child i) p.region

theorem virtual_le (b : Body) (a : Region) (ps : List Placement) (X Y : Int)
    (h : ∀ c ∈ ps, c.region.x - a.x + c.region.width + b.marginRight c.childIndex ≤ X ∧
      c.region.y - a.y + c.region.height + b.marginBottom c.childIndex ≤ Y) (hX : 0 ≤ X) (hY : 0 ≤ Y) :
    (virtualSize b ps a).1 ≤ X ∧ (virtualSize b ps a).2 ≤ Y := by
  unfold virtualSize
  have key : ∀ (ps : List Placement) (acc : Int × Int), acc.1 ≤ X → acc.2 ≤ Y →
      (∀ c ∈ ps, c.region.x - a.x + c.region.width + b.marginRight c.childIndex ≤ X ∧
        c.region.y - a.y + c.region.height + b.marginBottom c.childIndex ≤ Y) →
      (ps.foldl (fun (acc : Int × Int) p =>
        let w := (p.region.x - a.x) + p.region.width + b.marginRight p.childIndex
        let h := (p.region.y - a.y) + p.region.height + b.marginBottom p.childIndex
        (if w > acc.1 then w else acc.1, if h > acc.2 then h else acc.2)) acc).1 ≤ X ∧
      (ps.foldl (fun (acc : Int × Int) p =>
        let w := (p.region.x - a.x) + p.region.width + b.marginRight p.childIndex
        let h := (p.region.y - a.y) + p.region.height + b.marginBottom p.childIndex
        (if w > acc.1 then w else acc.1, if h > acc.2 then h else acc.2)) acc).2 ≤ Y := by
    intro ps
    induction ps with
    | nil => intro acc h1 h2 _; exact ⟨h1, h2⟩
    | cons c ps ih =>
      intro acc h1 h2 hc
      have h0 := hc c (by simp)
      rw [List.foldl_cons]
      refine ih _ ?_ ?_ (fun d hd => hc d (by simp [hd]))
      · dsimp only; split <;> omega
      · dsimp only; split <;> omega
  exact key ps (0, 0) hX hY h

theorem extent_le (b : Body) (a : Region) (ps : List Placement) (X Y : Int)
    (h : ∀ c ∈ ps, c.region.x - a.x + c.region.width + b.marginRight c.childIndex ≤ X ∧
      c.region.y - a.y + c.region.height + b.marginBottom c.childIndex ≤ Y) (hX : 0 ≤ X) (hY : 0 ≤ Y) :
    (Pane.extent b ps a).1 ≤ X ∧ (Pane.extent b ps a).2 ≤ Y := by
  have key : ∀ (f : Placement → Int) (Z : Int) (ps : List Placement) (m : Int), m ≤ Z → (∀ c ∈ ps, f c ≤ Z) →
      ps.foldl (fun m q => max m (f q)) m ≤ Z := by
    intro f Z ps
    induction ps with
    | nil => intro m h _; exact h
    | cons c ps ih =>
      intro m hm hc
      exact ih _ (Int.max_le.2 ⟨hm, hc c (by simp)⟩) fun d hd => hc d (by simp [hd])
  cases ps with
  | nil => exact ⟨hX, hY⟩
  | cons p rest =>
    exact ⟨key _ X rest _ (h p (by simp)).1 fun c hc => (h c (by simp [hc])).1,
      key _ Y rest _ (h p (by simp)).2 fun c hc => (h c (by simp [hc])).2⟩

/-- Nothing to scroll: the position is the start. -/
theorem offset_zero (c : ScrollState) (vw vh w h : Int) (hw : vw ≤ w) (hh : vh ≤ h) :
    ((c.setVirtualSize vw vh).setViewport w h).offsetX = 0 ∧ ((c.setVirtualSize vw vh).setViewport w h).offsetY = 0 := by
  simp only [ScrollState.setVirtualSize, ScrollState.setViewport, ScrollState.reclamp, ScrollState.maxScrollX,
    ScrollState.maxScrollY]
  omega

theorem no_bars (c : ScrollState) (vw vh w h : Int) (hw : vw ≤ w) (hh : vh ≤ h) :
    ((c.setVirtualSize vw vh).setViewport w h).canScrollX = false ∧ ((c.setVirtualSize vw vh).setViewport w h).canScrollY = false := by
  exact ⟨decide_eq_false (Int.not_lt.2 hw), decide_eq_false (Int.not_lt.2 hh)⟩

theorem all_shown (a : Region) (c : ScrollState) (h0 : c.offsetX = 0 ∧ c.offsetY = 0) (ps : List Placement)
    (h : ∀ p ∈ ps, 0 < p.region.width ∧ 0 < p.region.height ∧ a.x ≤ p.region.x ∧ a.y ≤ p.region.y ∧
      p.region.x + p.region.width ≤ a.x + a.width ∧ p.region.y + p.region.height ≤ a.y + a.height) :
    (ps.map fun p => (⟨p.childIndex, Scroller.scrolled c p.region⟩ : Placement)).filter
      (fun p => Scroller.inView a p.region) = ps := by
  have hm : ps.map (fun p => (⟨p.childIndex, Scroller.scrolled c p.region⟩ : Placement)) = ps := by
    conv_rhs => rw [← List.map_id ps]
    refine List.map_congr_left fun p _ => ?_
    simp only [Scroller.scrolled, h0.1, h0.2, Int.sub_zero, id]
  rw [hm, List.filter_eq_self]
  intro p hp
  have := h p hp
  simp only [Scroller.inView, decide_eq_true_eq]
  omega

/-- A container with room shows all its children where the layout puts them, whatever its position was. -/
theorem roomy_shown (vp : Viewport) (r : Region) (b : Box) (h : b.Roomy vp r) (hr : 0 < r.width ∧ 0 < r.height) :
    b.shown vp r = (inner b.sheet r, b.body.arrange (inner b.sheet r) vp) := by
  have ha : 0 ≤ (inner b.sheet r).width ∧ 0 ≤ (inner b.sheet r).height := by
    unfold inner
    rw [if_neg (by omega)]
    dsimp only
    omega
  have hr' : ¬ (r.width ≤ 0 ∨ r.height ≤ 0) := by omega
  have hb : ∀ c ∈ b.body.arrange (inner b.sheet r) vp,
      c.region.x - (inner b.sheet r).x + c.region.width + b.body.marginRight c.childIndex ≤ (inner b.sheet r).width ∧
      c.region.y - (inner b.sheet r).y + c.region.height + b.body.marginBottom c.childIndex ≤ (inner b.sheet r).height := by
    intro c hc
    have := h.fits c hc
    omega
  have hall : ∀ c ∈ b.body.arrange (inner b.sheet r) vp, 0 < c.region.width ∧ 0 < c.region.height ∧
      (inner b.sheet r).x ≤ c.region.x ∧ (inner b.sheet r).y ≤ c.region.y ∧
      c.region.x + c.region.width ≤ (inner b.sheet r).x + (inner b.sheet r).width ∧
      c.region.y + c.region.height ≤ (inner b.sheet r).y + (inner b.sheet r).height := by
    intro c hc
    have := h.fits c hc
    omega
  have hx := h.overflowX
  have hy := h.overflowY
  have hg := h.gutter
  cases b with
  | scroller s d st =>
    simp only [Box.sheet, Box.body] at *
    have hv := virtual_le d (inner s r) _ _ _ hb ha.1 ha.2
    have hc : Scroller.contentRegion s (inner s r) {} = inner s r := by
      simp only [Scroller.contentRegion, hg, Bool.false_eq_true, false_and, or_self, if_false, Int.sub_zero]
      rw [Int.max_eq_left ha.1, Int.max_eq_left ha.2]
    have hn : Scroller.next s d (inner s r) vp {} = {} := by
      simp only [Scroller.next, hc]
      have n1 : Scroller.needs s.overflowY (virtualSize d (d.arrange (inner s r) vp) (inner s r)).2 (inner s r).height = false := by
        unfold Scroller.needs
        cases e : s.overflowY with
        | scroll => exact absurd e hy
        | auto => simp only [decide_eq_false_iff_not]; omega
        | hidden => rfl
      have n2 : Scroller.needs s.overflowX (virtualSize d (d.arrange (inner s r) vp) (inner s r)).1 (inner s r).width = false := by
        unfold Scroller.needs
        cases e : s.overflowX with
        | scroll => exact absurd e hx
        | auto => simp only [decide_eq_false_iff_not]; omega
        | hidden => rfl
      rw [n1, n2]
    have hp : Scroller.plan s d (inner s r) vp = ⟨inner s r, d.arrange (inner s r) vp,
        (virtualSize d (d.arrange (inner s r) vp) (inner s r)).1, (virtualSize d (d.arrange (inner s r) vp) (inner s r)).2, {}⟩ := by
      simp only [Scroller.plan, Scroller.rounds, hn, if_true, hc]
    simp only [Box.shown, if_neg hr', hp, Scroller.State.drawn, Scroller.State.laidOut]
    rw [all_shown _ _ (offset_zero _ _ _ _ _ hv.1 hv.2) _ hall]
  | pane s d st =>
    simp only [Box.sheet, Box.body] at *
    have hv := extent_le d (inner s r) _ _ _ hb ha.1 ha.2
    have hf : ∃ st', st.place d (inner s r) vp = (d.arrange (inner s r) vp, st') := by
      unfold Pane.State.place
      cases e : st.cache with
      | none => exact ⟨_, rfl⟩
      | some q =>
        obtain ⟨a', v', ps⟩ := q
        dsimp only
        split
        · next hq =>
          have := h.cached s d st rfl a' v' ps e
          rw [this, hq.1, hq.2]
          exact ⟨_, rfl⟩
        · exact ⟨_, rfl⟩
    obtain ⟨st', hf⟩ := hf
    have hcan := fun c : ScrollState => no_bars c _ _ _ _ hv.1 hv.2
    have hsh : (st'.measure (Pane.extent d (d.arrange (inner s r) vp) (inner s r)) (inner s r)).shows s = {} := by
      simp only [Pane.State.shows, Pane.State.measure, (hcan st'.scroll).1, (hcan st'.scroll).2]
      cases e : s.overflowX <;> cases e' : s.overflowY <;> first | rfl | exact absurd e hx | exact absurd e' hy
    have hc : Pane.contentRegion s (inner s r) {} = inner s r := by
      simp only [Pane.contentRegion, hg, Bool.false_eq_true, or_self, if_false, Int.sub_zero]
      rw [Int.max_eq_left ha.1, Int.max_eq_left ha.2]
    simp only [Box.shown, Pane.State.draw, if_neg hr', Pane.State.drawInner, hf, hsh, hc, Bool.false_eq_true, false_and,
      if_false]
    rw [all_shown _ _ (by exact offset_zero st'.scroll _ _ _ _ hv.1 hv.2) _ hall]
  | screen s d pinned st =>
    simp only [Box.sheet, Box.body] at *
    have hv := virtual_le d (inner s r) _ _ _ hb ha.1 ha.2
    have hw : Screen.wants s (inner s r) (virtualSize d (d.arrange (inner s r) vp) (inner s r)) = {} := by
      have d1 : decide ((virtualSize d (d.arrange (inner s r) vp) (inner s r)).1 > (inner s r).width) = false := by
        simp only [decide_eq_false_iff_not]; omega
      have d2 : decide ((virtualSize d (d.arrange (inner s r) vp) (inner s r)).2 > (inner s r).height) = false := by
        simp only [decide_eq_false_iff_not]; omega
      simp only [Screen.wants, d1, d2]
      cases e : s.overflowX <;> cases e' : s.overflowY <;> first | rfl | exact absurd e hx | exact absurd e' hy
    have hc : Scroller.contentRegion s (inner s r) {} = inner s r := by
      simp only [Scroller.contentRegion, hg, Bool.false_eq_true, false_and, or_self, if_false, Int.sub_zero]
      rw [Int.max_eq_left ha.1, Int.max_eq_left ha.2]
    have hl : Screen.layout s d (inner s r) vp =
        (inner s r, d.arrange (inner s r) vp, virtualSize d (d.arrange (inner s r) vp) (inner s r)) := by
      simp only [Screen.layout, hw, hc, Bool.false_eq_true, false_and, if_false]
    simp only [Box.shown, Screen.draw, if_neg hr', hl]
    rw [all_shown _ _ (offset_zero _ _ _ _ _ hv.1 hv.2) _ hall]

theorem ring_painted (vp : Viewport) (n : Node) (w : W) (r : Region) (clips : List Region) (h : Roomy vp w n r)
    (hr : 0 < r.width ∧ 0 < r.height) (hk : ∀ k ∈ clips, ∀ x y, At r x y → At k x y) (hok : w.Ok) (p : List Nat)
    (hp : p ∈ w.ring) :
    ∃ id q ks, n.at? p = some id ∧ (id, q, ks) ∈ painted vp n r clips ∧ 0 < q.width ∧ 0 < q.height ∧
      ∀ x y, At q x y → SeenAt (id, q, ks) x y := by
  induction n generalizing w r clips p with
  | leaf id ans =>
    have hm := Tree.mem_ring.1 hp
    cases p with
    | nil => exact ⟨id, r, clips, rfl, by simp [painted], hr.1, hr.2, fun x y hx => ⟨hx, fun k hk' => hk k hk' x y hx⟩⟩
    | cons i p =>
      have he : w.exposed = [] := h
      rw [Tree.W.at?_cons, he] at hm
      simp at hm
  | box b child ih =>
    obtain ⟨hkind, hroom, hch⟩ := h
    have hm := Tree.mem_ring.1 hp
    cases p with
    | nil =>
      have hf : w.attrs.focusable = true := by simpa [Tree.W.has, Tree.W.at?] using hm.2.2
      rw [(hok [] w rfl).1 hf] at hkind
      cases hkind
    | cons i p =>
      rw [Tree.W.at?_cons, Tree.W.reach_cons, Tree.W.has_cons] at hm
      cases hc : w.exposed[i]? with
      | none => rw [hc] at hm; simp at hm
      | some c =>
        rw [hc] at hm
        simp only [Option.bind_some, Option.any_some, Bool.and_eq_true] at hm
        obtain ⟨q, hq, rfl, hroom'⟩ := hch i c hc hm.2.1.1
        have hfit := hroom.fits q hq
        have hin : ∀ x y, At q.region x y → At (inner b.sheet r) x y := by
          intro x y hx
          simp only [At] at hx ⊢
          omega
        have hout : ∀ x y, At (inner b.sheet r) x y → At r x y := by
          intro x y hx
          simp only [inner, if_neg (show ¬ (r.width ≤ 0 ∨ r.height ≤ 0) by omega), At] at hx ⊢
          omega
        obtain ⟨id, q', ks, h1, h2, h3⟩ := ih q.childIndex c q.region (inner b.sheet r :: clips) hroom'
          ⟨hfit.1, hfit.2.1⟩ (by
            intro k hk' x y hx
            rcases List.mem_cons.1 hk' with rfl | hk'
            · exact hin x y hx
            · exact hk k hk' x y (hout x y (hin x y hx)))
          (fun p' c' h' => hok (q.childIndex :: p') c' (by rw [Tree.W.at?_cons, hc]; exact h')) p
          (Tree.mem_ring.2 ⟨hm.1, hm.2.1.2, hm.2.2⟩)
        refine ⟨id, q', ks, h1, ?_, h3⟩
        simp only [painted, roomy_shown vp r b hroom hr, List.mem_flatMap]
        exact ⟨q, hq, h2⟩

/-- **C203** (partial: all containers are large enough for their children; C197's conditions). Whatever keys are pressed, the
widget that has the focus afterwards is drawn, and nothing of it is cut off, whatever the positions of the containers were. -/
theorem focus_seen_partial {τ μ : Type} (a : Tabs.App τ μ) (sc : Binding.Event → Bool) (t : WidgetTree) (s : τ)
    (hok : t.root.Ok) (hh : t.root.NoHiddenBefore) (ht : t.root.ring[t.index]? = some t.path)
    (es : List Keys.Event) (e : Keys.Event) (hs : ∀ e' ∈ es ++ [e], sc ⟨e'.code, e'.mods⟩ = false)
    (vp : Viewport) (n : Node) (r : Region) (hr : 0 < r.width ∧ 0 < r.height) (hn : Roomy vp t.root n r) :
    ∃ id q ks, n.at? (Tabs.run a sc (es ++ [e]) (t, s)).1.path = some id ∧ (id, q, ks) ∈ painted vp n r [] ∧
      0 < q.width ∧ 0 < q.height ∧ ∀ x y, At q x y → SeenAt (id, q, ks) x y := by
  obtain ⟨p, hp, h, -⟩ := Tabs.keys_partial a sc t s hok hh ht es e hs
  rw [h]
  exact ring_painted vp n t.root r [] hn hr (fun k hk => by cases hk) hok p (List.mem_of_getElem? hp)

/-- **C203** (partial, as above). Tab, Shift+Tab and then Enter or Space never use a button that is not on the screen in
full: the program handles at most one message, that of a button drawn whole. -/
theorem used_seen_partial (sc : Binding.Event → Bool) (t : WidgetTree) (bs : List Nat → Press.Button)
    (hok : t.root.Ok) (hh : t.root.NoHiddenBefore) (ht : t.root.ring[t.index]? = some t.path)
    (es : List Keys.Event) (e : Keys.Event) (hs : ∀ e' ∈ es ++ [e], sc ⟨e'.code, e'.mods⟩ = false)
    (hes : ∀ e' ∈ es, e'.code = .tab ∨ e'.code = .backTab) (he : e.code = .enter ∨ e.code = .char ' ')
    (vp : Viewport) (n : Node) (r : Region) (hr : 0 < r.width ∧ 0 < r.height) (hn : Roomy vp t.root n r) :
    (Tabs.run Tabs.buttons sc (es ++ [e]) (t, bs, [])).2.2.length ≤ 1 ∧
    ∀ p ∈ (Tabs.run Tabs.buttons sc (es ++ [e]) (t, bs, [])).2.2,
      ∃ id q ks, n.at? p = some id ∧ (id, q, ks) ∈ painted vp n r [] ∧
        0 < q.width ∧ 0 < q.height ∧ ∀ x y, At q x y → SeenAt (id, q, ks) x y := by
  obtain ⟨p, hp, -, h⟩ := Tabs.enter_partial sc t bs hok hh ht es e hs hes he
  rw [h]
  split
  · refine ⟨by simp, fun p' hp' => ?_⟩
    rw [List.mem_singleton.1 hp']
    exact ring_painted vp n t.root r [] hn hr (fun k hk => by cases hk) hok p (List.mem_of_getElem? hp)
  · exact ⟨by simp, fun p' hp' => by cases hp'⟩

/-! ### A screen with room, and one without -/

/-- The demonstration tree of C68 as it is drawn: a button above a column with an input and a label, and a button below. -/
def stack : Body :=
  { arrange := fun a _ => [⟨0, ⟨a.x, a.y, 8, 3⟩⟩, ⟨1, ⟨a.x, a.y + 3, 20, 4⟩⟩, ⟨2, ⟨a.x, a.y + 7, 8, 3⟩⟩] }

/-- The column has a position left over from when it was smaller. -/
def roomyDemo : Node :=
  .box (.screen {} stack (fun _ => false) {}) fun i =>
    if i = 1 then
      .box (.scroller { chromeLeft := 1 } { arrange := fun a _ => [⟨0, ⟨a.x, a.y, 8, 1⟩⟩, ⟨1, ⟨a.x, a.y + 1, 8, 3⟩⟩] }
        { scroll := ⟨0, 2, 8, 4, 8, 2⟩ }) fun j => .leaf (10 + j) true
    else .leaf i true

theorem roomyDemo_roomy : Roomy ⟨20, 10⟩ Tabs.demo.root roomyDemo ⟨0, 0, 20, 10⟩ := by
  refine ⟨by decide +kernel, ⟨by decide, by decide, by decide, fun s d st h => (by cases h), by decide +kernel⟩, ?_⟩
  intro i c hc hl
  have hi : i < 3 := by
    by_contra hn
    rw [List.getElem?_eq_none (by simp only [show Tabs.demo.root.exposed.length = 3 from by decide +kernel]; omega)] at hc
    cases hc
  have h3 : i = 0 ∨ i = 1 ∨ i = 2 := by omega
  rcases h3 with rfl | rfl | rfl
  · refine ⟨⟨0, ⟨0, 0, 8, 3⟩⟩, by decide +kernel, rfl, ?_⟩
    cases hc; rfl
  · refine ⟨⟨1, ⟨0, 3, 20, 4⟩⟩, by decide +kernel, rfl, ?_⟩
    cases hc
    refine ⟨rfl, ⟨by decide, by decide, by decide, fun s d st h => (by cases h), by decide +kernel⟩, ?_⟩
    intro j d hd _
    have hj : j < 2 := by
      by_contra hn
      rw [List.getElem?_eq_none (by
        show 2 ≤ j
        omega)] at hd
      cases hd
    have h2 : j = 0 ∨ j = 1 := by omega
    rcases h2 with rfl | rfl
    · refine ⟨⟨0, ⟨1, 3, 8, 1⟩⟩, by decide +kernel, rfl, ?_⟩
      cases hd; rfl
    · refine ⟨⟨1, ⟨1, 4, 8, 3⟩⟩, by decide +kernel, rfl, ?_⟩
      cases hd; rfl
  · refine ⟨⟨2, ⟨0, 7, 8, 3⟩⟩, by decide +kernel, rfl, ?_⟩
    cases hc; rfl

/-- Tab on that screen leads to the input, which is leaf 10; all of it is on the screen. -/
example : Tabs.demo.root.Ok ∧ Tabs.demo.root.NoHiddenBefore ∧ Tabs.demo.root.ring[Tabs.demo.index]? = some Tabs.demo.path ∧
    Roomy ⟨20, 10⟩ Tabs.demo.root roomyDemo ⟨0, 0, 20, 10⟩ ∧
    (Tabs.run Tabs.buttons (fun _ => false) [{ code := .tab }] (Tabs.demo, fun _ => {}, [])).1.path = [1, 0] ∧
    roomyDemo.at? [1, 0] = some 10 ∧
    painted ⟨20, 10⟩ roomyDemo ⟨0, 0, 20, 10⟩ [] =
      [(0, ⟨0, 0, 8, 3⟩, [⟨0, 0, 20, 10⟩]), (10, ⟨1, 3, 8, 1⟩, [⟨1, 3, 19, 4⟩, ⟨0, 0, 20, 10⟩]),
       (11, ⟨1, 4, 8, 3⟩, [⟨1, 3, 19, 4⟩, ⟨0, 0, 20, 10⟩]), (2, ⟨0, 7, 8, 3⟩, [⟨0, 0, 20, 10⟩])] :=
  ⟨Tabs.demo_ready.1, Tabs.demo_ready.2.1, Tabs.demo_ready.2.2, roomyDemo_roomy, by decide +kernel, by decide +kernel,
    by decide +kernel⟩

/-- **C203** fails in a container with more children than it shows at once: Tab moves the focus to the second button, which is
below the part shown; the container is not scrolled to it, so it is not drawn, and Enter uses it. -/
theorem below_counterexample :
    let root : W := .node .container { typeName := "VerticalScroll" } [Tree.button "a", Tree.button "b"]
    let t := (WidgetTree.setFocusIndex ⟨root, [], 0⟩ 0).1
    let n : Node := .box (.scroller {} Scroller.pair {}) fun i => .leaf i true
    (Tabs.run Tabs.buttons (fun _ => false) [{ code := .tab }] (t, fun _ => {}, [])).1.path = [1] ∧
    n.at? [1] = some 1 ∧ (painted ⟨20, 6⟩ n ⟨0, 0, 20, 6⟩ []).map (·.1) = [0] ∧
    (Tabs.run Tabs.buttons (fun _ => false) [{ code := .tab }, { code := .enter }] (t, fun _ => {}, [])).2.2 = [[1]] := by
  decide +kernel

end Textual.Nest
