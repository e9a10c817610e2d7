import Verif.Model.Hidden
import Verif.Props.Clicks
import Verif.Props.Frame
import Verif.Props.InTree
import Verif.Props.StaticCases

/-!
# What is hidden is not seen (C200)
-/

namespace Textual.Nest

open Layout (Placement Viewport)
open Scroller (At)
open Canvas (Agree Inv Op Draw OnlyCells Within)

/-- The hidden widgets that are drawn: their regions, and the areas they are clipped to. -/
def veiled (H : Hidden) (vp : Viewport) : Node → Region → List Region → List (Region × List Region)
  | .leaf id _, r, clips => if H.leaf id then [(r, clips)] else []
  | .box b child, r, clips =>
    (if H.box b then [(r, clips)] else []) ++
      (b.shown vp r).2.flatMap fun c => veiled H vp (child c.childIndex) c.region ((b.shown vp r).1 :: clips)

/-- Every widget of the tree is hidden, and none is a screen. -/
def AllHidden (H : Hidden) : Node → Prop
  | .leaf id _ => H.leaf id = true
  | .box b child => H.box b = true ∧ b.isScreen = false ∧ ∀ i, AllHidden H (child i)

/-- Everything in the tree is drawn inside the region of its widget. -/
def Kept (vp : Viewport) (P : Paint) : Node → Region → Prop
  | .leaf id _, r => Inside r (P.leaf id r)
  | .box b child, r => Inside r (P.before b r) ∧ Inside r (P.over b r) ∧ Inside r (P.after b r) ∧
    ∀ c ∈ (b.shown vp r).2, Kept vp P (child c.childIndex) c.region

/-- **C200**: widgets that are hidden, with all that is in them, change nothing on the canvas. -/
theorem hidden_unseen (H : Hidden) (P : Paint) (vp : Viewport) (n : Node) (h : AllHidden H n) (r : Region) (c : Canvas) :
    c.run (calls (P.hide H) vp n r) = some c := by
  induction n generalizing r c with
  | leaf id a =>
    have h : H.leaf id = true := h
    simp only [calls, Paint.hide, h, if_true, List.map_nil]
    rfl
  | box b child ih =>
    obtain ⟨h1, h2, h3⟩ := h
    have hm : H.mutes b = true := by simp [Hidden.mutes, h1, h2]
    simp only [calls]
    rw [show (P.hide H).before b r = [] from if_pos hm, show (P.hide H).over b r = [] from if_pos hm,
      show (P.hide H).after b r = [] from if_pos hm]
    have kids : ∀ (cs : List Placement) (c : Canvas),
        c.run (cs.flatMap fun k => calls (P.hide H) vp (child k.childIndex) k.region) = some c := by
      intro cs
      induction cs with
      | nil => exact fun c => rfl
      | cons k ks ihk =>
        intro c
        rw [List.flatMap_cons, Canvas.run_ops, ih k.childIndex (h3 _)]
        exact ihk c
    simp only [List.map_nil, List.nil_append, List.append_nil, List.cons_append, Canvas.run, Canvas.step, Option.bind_some]
    rw [Canvas.run_ops, kids]
    rfl

/-- What differs between the two ways of drawing is not at the cell. -/
theorem calls_veiled (H : Hidden) (P : Paint) (vp : Viewport) {w h x y : Nat} (hx : x < w) (n : Node) (r : Region)
    (raw : List Region) (hin : Kept vp P n r) (hs : ∀ p ∈ veiled H vp n r raw, ¬ (At p.1 x y ∧ ∀ k ∈ p.2, At k x y))
    (c d : Canvas) (ic : Inv w h raw c) (id : Inv w h raw d) (e : Agree (y * w + x) c d) :
    ∃ c' d', c.run (calls P vp n r) = some c' ∧ d.run (calls (P.hide H) vp n r) = some d' ∧ Inv w h raw c' ∧
      Inv w h raw d' ∧ Agree (y * w + x) c' d' := by
  have same : ∀ (raw : List Region) (c d : Canvas) (ds : List Draw), Inv w h raw c → Inv w h raw d →
      Agree (y * w + x) c d → ∃ c' d', c.run (ds.map .draw) = some c' ∧ d.run (ds.map .draw) = some d' ∧
        Inv w h raw c' ∧ Inv w h raw d' ∧ Agree (y * w + x) c' d' := by
    intro raw c d ds ic id e
    obtain ⟨c', h1, i1⟩ := ic.run (ds.map .draw)
    obtain ⟨d', h2, i2⟩ := id.run (ds.map .draw)
    rw [Canvas.pushed_draws] at i1 i2
    exact ⟨c', d', h1, h2, i1, i2, Canvas.draws_agree ds e h1 h2⟩
  have gone : ∀ (raw : List Region) (c d : Canvas) (ds : List Draw) (r : Region), Inv w h raw c → Inv w h raw d →
      Agree (y * w + x) c d → Inside r ds → ¬ (At r x y ∧ ∀ k ∈ raw, At k x y) →
      ∃ c' d', c.run (ds.map .draw) = some c' ∧ d.run (([] : List Draw).map .draw) = some d' ∧
        Inv w h raw c' ∧ Inv w h raw d' ∧ Agree (y * w + x) c' d' := by
    intro raw c d ds r ic id e hin hn
    obtain ⟨c', h1, i1⟩ := ic.run (ds.map .draw)
    rw [Canvas.pushed_draws] at i1
    have hc : c'.cells[y * w + x]? = c.cells[y * w + x]? := by
      by_cases hk : ∀ k ∈ raw, At k x y
      · obtain ⟨c2, h2, o⟩ := hin c (by rw [ic.len, ic.weq, ic.heq])
        rw [h1] at h2
        cases h2
        have := o.same x y (by rw [ic.weq]; exact hx) (fun hw => hn ⟨by
          simp only [Within] at hw
          simp only [At]
          omega, hk⟩)
        rw [ic.weq] at this
        exact this
      · exact Canvas.draws_clipped ic ds h1 hx hk
    exact ⟨c', d, h1, rfl, i1, id, by rw [i1.weq, id.weq], by rw [i1.heq, id.heq], by rw [i1.clips, id.clips],
      by rw [hc, e.cell]⟩
  induction n generalizing r raw c d with
  | leaf i a =>
    simp only [calls]
    by_cases hh : H.leaf i = true
    · rw [show (P.hide H).leaf i r = [] from if_pos hh]
      refine gone raw c d _ r ic id e hin (hs (r, raw) ?_)
      simp [veiled, hh]
    · rw [show (P.hide H).leaf i r = P.leaf i r from if_neg hh]
      exact same raw c d _ ic id e
  | box b child ih =>
    obtain ⟨k1, k2, k3, k4⟩ := hin
    have hoff : H.mutes b = true → ¬ (At r x y ∧ ∀ k ∈ raw, At k x y) := by
      intro hm
      have hb : H.box b = true := by
        unfold Hidden.mutes at hm
        exact (Bool.and_eq_true _ _ ▸ hm).1
      exact hs (r, raw) (by simp [veiled, hb])
    have own : ∀ (f : Paint → Box → Region → List Draw), (f (P.hide H) b r = if H.mutes b then [] else f P b r) →
        Inside r (f P b r) → ∀ (raw' : List Region) (c d : Canvas), (∀ k ∈ raw, k ∈ raw') → Inv w h raw' c → Inv w h raw' d →
        Agree (y * w + x) c d → ∃ c' d', c.run ((f P b r).map .draw) = some c' ∧
          d.run ((f (P.hide H) b r).map .draw) = some d' ∧ Inv w h raw' c' ∧ Inv w h raw' d' ∧ Agree (y * w + x) c' d' := by
      intro f hf hin raw' c d hsub ic id e
      rw [hf]
      by_cases hm : H.mutes b = true
      · rw [if_pos hm]
        exact gone raw' c d _ r ic id e hin fun ⟨g1, g2⟩ => hoff hm ⟨g1, fun k hk => g2 k (hsub k hk)⟩
      · rw [if_neg hm]
        exact same raw' c d _ ic id e
    simp only [calls]
    obtain ⟨c1, d1, hc1, hd1, ic1, id1, e1⟩ := own (fun P => P.before) rfl k1 raw c d (fun _ h => h) ic id e
    have ic2 : Inv w h ((b.shown vp r).1 :: raw) (c1.pushClip (b.shown vp r).1) := by
      obtain ⟨c2, h2, i2⟩ := ic1.step (.push (b.shown vp r).1)
      cases h2
      exact i2
    have id2 : Inv w h ((b.shown vp r).1 :: raw) (d1.pushClip (b.shown vp r).1) := by
      obtain ⟨c2, h2, i2⟩ := id1.step (.push (b.shown vp r).1)
      cases h2
      exact i2
    have e2 : Agree (y * w + x) (c1.pushClip (b.shown vp r).1) (d1.pushClip (b.shown vp r).1) :=
      ⟨e1.w, e1.h, by rw [ic2.clips, id2.clips], e1.cell⟩
    have kids : ∀ (cs : List Placement), (∀ k ∈ cs, k ∈ (b.shown vp r).2) → ∀ (c d : Canvas),
        Inv w h ((b.shown vp r).1 :: raw) c → Inv w h ((b.shown vp r).1 :: raw) d → Agree (y * w + x) c d →
        ∃ c' d', c.run (cs.flatMap fun k => calls P vp (child k.childIndex) k.region) = some c' ∧
          d.run (cs.flatMap fun k => calls (P.hide H) vp (child k.childIndex) k.region) = some d' ∧
          Inv w h ((b.shown vp r).1 :: raw) c' ∧ Inv w h ((b.shown vp r).1 :: raw) d' ∧ Agree (y * w + x) c' d' := by
      intro cs
      induction cs with
      | nil => exact fun _ c d ic id e => ⟨c, d, rfl, rfl, ic, id, e⟩
      | cons k ks ihk =>
        intro hmem c d ic id e
        have hk := hmem k (List.mem_cons_self ..)
        obtain ⟨c1, d1, h1, h2, i1, i2, e1⟩ := ih k.childIndex k.region ((b.shown vp r).1 :: raw) (k4 k hk)
          (fun p hp => hs p (List.mem_append_right _ (List.mem_flatMap.2 ⟨k, hk, hp⟩))) c d ic id e
        obtain ⟨c2, d2, h3, h4, i3, i4, e2⟩ := ihk (fun k' h => hmem k' (List.mem_cons_of_mem _ h)) c1 d1 i1 i2 e1
        refine ⟨c2, d2, ?_, ?_, i3, i4, e2⟩
        · rw [List.flatMap_cons, Canvas.run_ops, h1]; exact h3
        · rw [List.flatMap_cons, Canvas.run_ops, h2]; exact h4
    obtain ⟨c3, d3, hc3, hd3, ic3, id3, e3⟩ := kids _ (fun _ h => h) _ _ ic2 id2 e2
    obtain ⟨c4, d4, hc4, hd4, ic4, id4, e4⟩ := own (fun P => P.over) rfl k2 _ c3 d3 (fun _ h => List.mem_cons_of_mem _ h) ic3 id3 e3
    have ic5 : Inv w h raw c4.popClip := by
      obtain ⟨c2, h2, i2⟩ := ic4.step .pop
      cases h2
      exact i2
    have id5 : Inv w h raw d4.popClip := by
      obtain ⟨c2, h2, i2⟩ := id4.step .pop
      cases h2
      exact i2
    have e5 : Agree (y * w + x) c4.popClip d4.popClip := ⟨e4.w, e4.h, by rw [ic5.clips, id5.clips], e4.cell⟩
    obtain ⟨c6, d6, hc6, hd6, ic6, id6, e6⟩ := own (fun P => P.after) rfl k3 raw _ _ (fun _ h => h) ic5 id5 e5
    refine ⟨c6, d6, ?_, ?_, ic6, id6, e6⟩
    · rw [Canvas.run_ops, Canvas.run_ops, hc1]
      simp only [Option.bind_some, List.cons_append, Canvas.run, Canvas.step]
      rw [Canvas.run_ops, Canvas.run_ops, hc3]
      simp only [Option.bind_some, hc4, Canvas.run, Canvas.step, hc6]
    · rw [Canvas.run_ops, Canvas.run_ops, hd1]
      simp only [Option.bind_some, List.cons_append, Canvas.run, Canvas.step]
      rw [Canvas.run_ops, Canvas.run_ops, hd3]
      simp only [Option.bind_some, hd4, Canvas.run, Canvas.step, hd6]

/-- **C200**: hiding widgets changes nothing anywhere else. In a frame in which some widgets are hidden each cell at which none
of these would be seen is as in the frame without hiding, whatever was drawn before. -/
theorem hiding_elsewhere {w h : Nat} {c0 : Canvas} (h0 : Canvas.new w h = some c0) (H : Hidden) (P : Paint) (n : Node)
    (before before' : List Op) (hin : Kept ⟨w, h⟩ P n ⟨0, 0, w, h⟩) (x y : Nat) (hx : x < w)
    (hs : ∀ p ∈ veiled H ⟨w, h⟩ n ⟨0, 0, w, h⟩ [], ¬ (At p.1 x y ∧ ∀ k ∈ p.2, At k x y)) :
    ∃ c d, c0.run (before ++ frame P ⟨w, h⟩ n) = some c ∧ c0.run (before' ++ frame (P.hide H) ⟨w, h⟩ n) = some d ∧
      c.cells[y * w + x]? = d.cells[y * w + x]? := by
  obtain ⟨c1, h1, i1⟩ := (Inv.new h0).run before
  obtain ⟨d1, h2, i2⟩ := (Inv.new h0).run before'
  obtain ⟨c2, h3, i3⟩ := i1.step .clear
  obtain ⟨d2, h4, i4⟩ := i2.step .clear
  cases h3; cases h4
  obtain ⟨c, d, h5, h6, -, -, e⟩ := calls_veiled H P ⟨w, h⟩ hx n ⟨0, 0, w, h⟩ [] hin hs _ _ i3 i4
    ⟨i3.weq.trans i4.weq.symm, i3.heq.trans i4.heq.symm, rfl, by
      have hl : c1.cells.length = d1.cells.length := by rw [i1.len, i2.len]
      simp only [Canvas.clear, List.getElem?_map]
      by_cases hi : y * w + x < c1.cells.length
      · rw [List.getElem?_eq_getElem hi, List.getElem?_eq_getElem (hl ▸ hi)]
        rfl
      · rw [List.getElem?_eq_none (by omega), List.getElem?_eq_none (by omega)]⟩
  refine ⟨c, d, ?_, ?_, e.cell⟩
  · rw [Canvas.run_ops, h1]; exact h5
  · rw [Canvas.run_ops, h2]; exact h6

theorem tidy_hide (H : Hidden) (P : Paint) (vp : Viewport) (n : Node) (r : Region) (h : Tidy vp P n r) :
    Tidy vp (P.hide H) n r := by
  induction n generalizing r with
  | leaf id a =>
    show Inside r (if H.leaf id then [] else P.leaf id r)
    split
    · exact nothing_in _
    · exact h
  | box b child ih =>
    obtain ⟨h1, h2, h3, h4⟩ := h
    refine ⟨?_, ?_, ?_, fun c hc => ih _ _ (h4 c hc)⟩
    · show Inside r (if H.mutes b then [] else P.before b r)
      split
      exacts [nothing_in _, h1]
    · show DrawsIn _ (if H.mutes b then [] else P.over b r)
      split
      exacts [nothing_in _, h2]
    · show DrawsIn _ (if H.mutes b then [] else P.after b r)
      split
      exacts [nothing_in _, h3]

/-- **C200** (partial: containers as in C174 that draw nothing on their children): a widget that is not hidden is seen, also
in containers that are. Where it shows, the cell is at the end of the frame as if it had been drawn last, clipped to the
areas of its containers. -/
theorem visible_shown_partial {w h : Nat} {c0 : Canvas} (h0 : Canvas.new w h = some c0) (H : Hidden) (n : Node) (P : Paint)
    (before : List Op) (hg : Good ⟨w, h⟩ n ⟨0, 0, w, h⟩) (ha : NoOverlap ⟨w, h⟩ n) (ht : Tidy ⟨w, h⟩ P n ⟨0, 0, w, h⟩)
    (id : Nat) (hid : H.leaf id = false) (r : Region) (clips : List Region)
    (hp : (id, r, clips) ∈ painted ⟨w, h⟩ n ⟨0, 0, w, h⟩ []) (x y : Nat) (hx : x < w) (hx' : x < 65536) (hy' : y < 65536)
    (hs : SeenAt (id, r, clips) x y) :
    ∃ c c1 c2, c0.run (before ++ frame (P.hide H) ⟨w, h⟩ n) = some c ∧ Inv w h clips c1 ∧
      c1.run ((P.leaf id r).map .draw) = some c2 ∧ c.cells[y * w + x]? = c2.cells[y * w + x]? := by
  have := widget_on_top_partial h0 n (P.hide H) before hg ha (tidy_hide H P _ _ _ ht) id r clips hp x y hx hx' hy' hs
  rwa [show (P.hide H).leaf id r = P.leaf id r from if_neg (by simp [hid])] at this

/-! ### Cases -/

/-- The containers that scroll and one of the cards in them are hidden. -/
def veil : Hidden where
  leaf id := id == 10
  box
    | .scroller .. => true
    | _ => false

/-- Widgets show their number, containers fill their region with dots. -/
def dotted : Paint where
  leaf := (letters toString).leaf
  before _ r := (letters fun _ => ".").leaf 0 r
  over _ _ := []
  after _ _ := []

theorem filled (l : Nat → String) (id : Nat) (r : Region) (h : 0 ≤ r.width) (h' : 0 ≤ r.height) :
    Inside r ((letters l).leaf id r) := by
  refine lines_inside _ _ (by simp; omega) fun k hk => ?_
  rw [List.eq_of_mem_replicate hk]
  refine ⟨fun s hs => ?_, by simp [Canvas.lineColumns]; omega⟩
  rw [List.eq_of_mem_replicate hs]
  simp [Canvas.columns]

/-- What is on the canvas at the given places. -/
def look (P : Paint) (n : Node) (at_ : List (Nat × Nat)) : Option (List (Option String)) :=
  (Canvas.new 20 10).bind fun c0 => (c0.run (frame P ⟨20, 10⟩ n)).map fun c =>
    at_.map fun p => c.cells[p.2 * 20 + p.1]?.map (·.symbol)

/-- The first card is not seen, nor the container; the card below it and the widget outside are. -/
example : let p : List (Nat × Nat) := [(3, 2), (3, 4), (3, 6), (0, 0), (19, 9)]
    look dotted tree p = some [some "10", some "11", some "2", some ".", some "."] ∧
    look (dotted.hide veil) tree p = some [some ".", some "11", some "2", some ".", some "."] ∧
    veiled veil ⟨20, 10⟩ tree ⟨0, 0, 20, 10⟩ [] =
      [(⟨0, 0, 20, 6⟩, [⟨0, 0, 20, 10⟩]), (⟨1, -3, 8, 6⟩, [⟨1, 1, 16, 4⟩, ⟨0, 0, 20, 10⟩])] := by
  decide +kernel

example : Kept ⟨20, 10⟩ dotted tree ⟨0, 0, 20, 10⟩ ∧ Good ⟨20, 10⟩ tree ⟨0, 0, 20, 10⟩ ∧ NoOverlap ⟨20, 10⟩ tree ∧
    Tidy ⟨20, 10⟩ pages tree ⟨0, 0, 20, 10⟩ ∧ veil.leaf 11 = false := by
  refine ⟨?_, tree_ok.1, tree_ok.2, pages_tidy, rfl⟩
  have dots : ∀ (b : Box) (r : Region), 0 ≤ r.width → 0 ≤ r.height → Inside r (dotted.before b r) :=
    fun _ r h h' => filled (fun _ => ".") 0 r h h'
  have shows : ∀ (id : Nat) (r : Region), 0 ≤ r.width → 0 ≤ r.height → Inside r (dotted.leaf id r) :=
    fun id r h h' => filled toString id r h h'
  refine ⟨dots _ _ (by decide) (by decide), nothing_in _, nothing_in _, ?_⟩
  rw [show (Box.shown ⟨20, 10⟩ ⟨0, 0, 20, 10⟩ (.screen { overflowX := .hidden } above (fun _ => false) {})).2 =
    [⟨0, ⟨0, 0, 20, 6⟩⟩, ⟨1, ⟨0, 6, 20, 2⟩⟩] by decide +kernel]
  intro c hc
  simp only [List.mem_cons, List.not_mem_nil, or_false] at hc
  rcases hc with rfl | rfl
  · refine ⟨dots _ _ (by decide) (by decide), nothing_in _, nothing_in _, ?_⟩
    rw [show (Box.shown ⟨20, 10⟩ ⟨0, 0, 20, 6⟩
      (.scroller Scroller.padded Scroller.pair { scroll := ⟨0, 4, 8, 12, 16, 4⟩ })).2 =
      [⟨0, ⟨1, -3, 8, 6⟩⟩, ⟨1, ⟨1, 3, 8, 6⟩⟩] by decide +kernel]
    intro c hc
    simp only [List.mem_cons, List.not_mem_nil, or_false] at hc
    rcases hc with rfl | rfl <;> exact shows _ _ (by decide) (by decide)
  · exact shows _ _ (by decide) (by decide)

/-- Everything in a plain container is hidden. -/
example : AllHidden ⟨fun _ => true, fun _ => true⟩ (.box (.pane {} side {}) fun i => .leaf i true) :=
  ⟨rfl, rfl, fun _ => rfl⟩

/-- **C200** fails for screens, which are drawn although their style hides them. -/
theorem screen_counterexample :
    look (dotted.hide ⟨fun _ => true, fun _ => true⟩) tree [(0, 0), (19, 9)] = some [some ".", some "."] := by
  decide +kernel

open Clicks in
/-- **C200**: a hidden button can be used. The card 11 is hidden and not on the canvas; a press and a release where it would
be send its message to the program. -/
theorem hidden_button_counterexample :
    let H : Hidden := ⟨fun id => id == 11, fun _ => false⟩
    look dotted tree [(3, 4)] = some [some "11"] ∧ look (dotted.hide H) tree [(3, 4)] = some [some "."] ∧
    (step (after (fun _ => {}) [touch (.down .left) 3 4]) (touch (.up .left) 3 4)).1.message = some 11 := by
  decide +kernel

open Static in
/-- **C200**: a link of a text that is hidden after it was drawn answers clicks. -/
theorem hidden_link_counterexample :
    let region : Region := ⟨0, 0, 12, 5⟩
    let d := drawLines card (RenderCache.cacheAfter [] card.frame) [linkLine] none none 12 5
    let l := (({} : Links).rendered false region d).rendered true region d
    (l.onMouse .leftDown 7 2 region).take.1 = some "app.go" := by
  decide +kernel

end Textual.Nest
