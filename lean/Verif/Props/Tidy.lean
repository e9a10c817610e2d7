import Verif.Props.Bars
import Verif.Props.Small
import Verif.Props.ScreenBars
import Verif.Props.InTree

/-!
# What containers draw themselves never covers their children (C184)
-/

namespace Textual.Bars

open Canvas Placeholder
open Layout (Viewport Placement)
open Scroller (Sheet Body Flags inner vRegion hRegion cornerRegion contentRegion drawsV drawsH At Monotone)
open Nest (DrawsIn Inside Tidy Box Node Good NoOverlap Paint)

theorem run_drawAll (ds : List Draw) (c : Canvas) : c.run (ds.map .draw) = drawAll c ds := by
  induction ds generalizing c with
  | nil => rfl
  | cons d ds ih =>
    simp only [List.map_cons, run, step, drawAll]
    cases c.draw d with
    | none => rfl
    | some c1 => exact ih c1

theorem drawsIn_of {Q : Nat → Nat → Prop} {ds : List Draw}
    (h : ∀ c : Canvas, c.cells.length = c.w * c.h → ∃ c', drawAll c ds = some c' ∧ OnlyCells Q c c') : DrawsIn Q ds := by
  intro c hl
  rw [run_drawAll]
  exact h c hl

theorem drawsIn_append {Q : Nat → Nat → Prop} {a b : List Draw} (ha : DrawsIn Q a) (hb : DrawsIn Q b) : DrawsIn Q (a ++ b) := by
  intro c hl
  obtain ⟨c1, h1, o1⟩ := ha c hl
  obtain ⟨c2, h2, o2⟩ := hb c1 (by rw [o1.len, o1.w, o1.h, hl])
  refine ⟨c2, ?_, o1.trans o2⟩
  rw [run_drawAll] at h1 h2 ⊢
  rw [drawAll_append, h1]
  exact h2

theorem drawsIn_weaken {P Q : Nat → Nat → Prop} {a : List Draw} (ha : DrawsIn P a) (h : ∀ x y, P x y → Q x y) : DrawsIn Q a := by
  intro c hl
  obtain ⟨c1, h1, o1⟩ := ha c hl
  exact ⟨c1, h1, o1.weaken h⟩

theorem drawsIn_nil (Q : Nat → Nat → Prop) : DrawsIn Q [] := fun c _ => ⟨c, rfl, .refl c⟩

/-- Characters of one column put at places of `Q`. -/
theorem drawsIn_chars {Q : Nat → Nat → Prop} (ds : List Draw)
    (h : ∀ d ∈ ds, ∃ x y g fg bg, d = .char x y g fg bg {} ∧ g.width = 1 ∧ ∀ X Y : Nat, (X : Int) = x → (Y : Int) = y → Q X Y) :
    DrawsIn Q ds := by
  refine drawsIn_of fun c hl => drawAll_only ds c hl fun d hd c hl => ?_
  obtain ⟨x, y, g, fg, bg, rfl, hg, hq⟩ := h d hd
  obtain ⟨c1, h1, h2⟩ := putGrapheme_spec c hl x y g (fg.map toCrosstermColor) bg {} c.currentClip
  refine ⟨c1, h1, h2.weaken fun X Y hh => ?_⟩
  rw [hg] at hh
  exact hq X Y (by omega) hh.2.1

/-- A bar draws only in its region, whatever its colours. -/
theorem bar_inside (vertical : Bool) (r : Region) (virt window position : Rat) (thumb track : RgbaColor) (dt : Bool) :
    Inside r (bar vertical r virt window position thumb track dt) := by
  have line : ∀ (off : Int) (g : Grapheme) (fg bg : RgbaColor), g.width = 1 → 0 ≤ off → off < length vertical r →
      DrawsIn (Within r) (across vertical r off g fg bg) := by
    intro off g fg bg hg h0 h1
    refine drawsIn_chars _ fun d hd => ?_
    obtain ⟨x, y, rfl, h⟩ := (across_mem ..).1 hd
    refine ⟨x, y, g, _, _, rfl, hg, fun X Y hX hY => ?_⟩
    unfold length at h1
    unfold Within
    cases vertical <;> simp only [Bool.false_eq_true, if_false, if_true] at h h1 <;> omega
  show DrawsIn (Within r) _
  unfold bar
  split
  · exact drawsIn_nil _
  rename_i hr
  rw [show (if vertical then r.height else r.width) = length vertical r from rfl]
  dsimp only
  refine drawsIn_append (drawsIn_of fun c hl => fill_only r track c hl) ?_
  split
  · exact drawsIn_nil _
  refine drawsIn_append (drawsIn_append ?_ ?_) ?_
  · refine drawsIn_chars _ fun d hd => ?_
    obtain ⟨k, hk, hd⟩ := List.mem_flatMap.1 hd
    rw [List.mem_range] at hk
    obtain ⟨x, y, rfl, h⟩ := (across_mem ..).1 hd
    refine ⟨x, y, _, _, _, rfl, rfl, fun X Y hX hY => ?_⟩
    unfold length at hk h
    unfold Within
    cases vertical <;> simp only [Bool.false_eq_true, if_false, if_true] at h hk <;> omega
  · split
    · rename_i h
      split <;> exact line _ _ _ _ rfl h.1 h.2.1
    · exact drawsIn_nil _
  · split
    · rename_i h
      split <;> exact line _ _ _ _ rfl h.1 h.2.1
    · exact drawsIn_nil _

theorem corner_inside (w h : Nat) (color : RgbaColor) (r : Region) : Inside r (Small.corner w h false color r) :=
  drawsIn_of fun c hl => by
    obtain ⟨c', h1, h2, -⟩ := Small.corner_fills w h false color r c hl
    exact ⟨c', h1, h2.weaken fun _ _ q => q.1⟩

/-- Bars beside a content area that leaves room for them are in the inner region and outside that area. -/
theorem bars_off (s : Sheet) (a content : Region) (f : Flags) (cornered : Bool) (i : Inks) (virt off : Int × Int)
    (hv : drawsV s f = true → (s.barV : Int) ≤ a.width ∧ content.x + content.width ≤ a.x + a.width - s.barV)
    (hh : drawsH s f = true → (s.barH : Int) ≤ a.height ∧ content.y + content.height ≤ a.y + a.height - s.barH) :
    DrawsIn (fun x y => Within a x y ∧ ¬At content x y) (bars s a content f cornered i virt off) := by
  unfold bars
  refine drawsIn_append (drawsIn_append ?_ ?_) ?_
  · split
    · rename_i h
      refine drawsIn_weaken (P := Within (vRegion s a f.h)) (bar_inside _ _ _ _ _ _ _ _) fun x y q => ?_
      have := hv h
      unfold Within at q ⊢
      unfold At
      simp only [vRegion] at q
      split at q <;> omega
    · exact drawsIn_nil _
  · split
    · rename_i h
      refine drawsIn_weaken (P := Within (hRegion s a f.v)) (bar_inside _ _ _ _ _ _ _ _) fun x y q => ?_
      have := hh h
      unfold Within at q ⊢
      unfold At
      simp only [hRegion] at q
      split at q <;> omega
    · exact drawsIn_nil _
  · split
    · rename_i h
      simp only [Bool.and_eq_true] at h
      refine drawsIn_weaken (P := Within (cornerRegion s a)) (corner_inside _ _ _ _) fun x y q => ?_
      have h1 := hv h.1.2
      have h2 := hh h.2
      unfold Within at q ⊢
      unfold At
      simp only [cornerRegion] at q
      omega
    · exact drawsIn_nil _

theorem bars_beside (s : Sheet) (a : Region) (f : Flags) (cornered : Bool) (i : Inks) (virt off : Int × Int)
    (hv : drawsV s f = true → (s.barV : Int) ≤ a.width) (hh : drawsH s f = true → (s.barH : Int) ≤ a.height) :
    DrawsIn (fun x y => Within a x y ∧ ¬At (contentRegion s a f) x y)
      (bars s a (contentRegion s a f) f cornered i virt off) := by
  refine bars_off s a _ f cornered i virt off (fun h => ⟨hv h, ?_⟩) (fun h => ⟨hh h, ?_⟩)
  · have := hv h
    simp only [drawsV, Bool.and_eq_true] at h
    simp only [contentRegion, h.1.1, true_or, if_true]
    omega
  · have := hh h
    simp only [drawsH, Bool.and_eq_true] at h
    simp only [contentRegion, h.1.1, true_or, if_true]
    omega

theorem inner_within (s : Sheet) (r : Region) (hw : 0 < r.width) (hh : 0 < r.height) (X Y : Nat) (h : Within (inner s r) X Y) :
    Within r X Y := by
  unfold inner at h
  rw [if_neg (by omega)] at h
  unfold Within at *
  dsimp only at h
  omega

/-- The style of a container. -/
def sheet : Box → Sheet
  | .scroller s _ _ | .pane s _ _ | .screen s _ _ _ => s

/-- There is room for the bars inside the chrome. -/
def RoomForBars (s : Sheet) (r : Region) : Prop :=
  0 < r.width → 0 < r.height → (s.barV : Int) ≤ (inner s r).width ∧ (s.barH : Int) ≤ (inner s r).height

/-- What a container draws after its children is inside it and not on the area its children are shown in. -/
theorem after_clear (vp : Viewport) (i : Inks) (b : Box) (r : Region) (hg : b.Good vp r) (hroom : RoomForBars (sheet b) r) :
    DrawsIn (fun x y => Within r x y ∧ ¬At (b.shown vp r).1 x y) (after vp i b r) := by
  cases b with
  | scroller s b st =>
    simp only [after, Box.shown]
    split
    · exact drawsIn_nil _
    rename_i hr
    obtain ⟨-, hm, -⟩ := hg
    obtain ⟨-, -, e, -, -⟩ := Scroller.bars_partial s b (inner s r) vp hm
    obtain ⟨r1, r2⟩ := hroom (by omega) (by omega)
    dsimp only
    rw [e]
    exact drawsIn_weaken (bars_beside s (inner s r) _ true i _ _ (fun _ => r1) (fun _ => r2))
      fun x y q => ⟨inner_within s r (by omega) (by omega) x y q.1, q.2⟩
  | pane s b st =>
    simp only [after, Box.shown]
    split
    · exact drawsIn_nil _
    rename_i hr
    obtain ⟨-, hi, hc, -⟩ := hg
    have hno : drawsV s ((st.draw s b r vp).2.shows s) = false ∧ drawsH s ((st.draw s b r vp).2.shows s) = false := by
      unfold Pane.State.draw at hc ⊢
      rw [if_neg hr, hi] at hc ⊢
      unfold Pane.State.drawInner at hc ⊢
      dsimp only at hc ⊢
      rw [if_neg (by rw [hc]; omega)]
      dsimp only
      generalize (Pane.State.measure _ _ _).shows s = f at *
      have e1 := congrArg Region.width hc
      have e2 := congrArg Region.height hc
      simp only [Pane.contentRegion] at e1 e2
      simp only [drawsV, drawsH, Bool.and_eq_false_iff, decide_eq_false_iff_not]
      constructor
      · by_cases hv : f.v = true
        · rw [if_pos (.inl hv)] at e1
          right
          omega
        · left; left; simpa using hv
      · by_cases hv : f.h = true
        · rw [if_pos (.inl hv)] at e2
          right
          omega
        · left; left; simpa using hv
    unfold bars
    rw [hno.1, hno.2]
    simp only [Bool.false_eq_true, if_false, Bool.and_false, List.append_nil]
    exact drawsIn_nil _
  | screen s b pinned st =>
    simp only [after, Box.shown]
    obtain ⟨hx, hgut, -, -, hm, -⟩ := hg
    by_cases hr : r.width ≤ 0 ∨ r.height ≤ 0
    · have : (Screen.draw s b st r vp).1 = none := by unfold Screen.draw; rw [if_pos hr]
      rw [this]
      exact drawsIn_nil _
    obtain ⟨n1, n2⟩ := Screen.inner_nonneg s r (by omega)
    rw [Screen.draw_eq s b st r vp (by omega)]
    dsimp only
    rw [Screen.flags_agree s b st.scroll (inner s r) vp hx hm n2 n1, Screen.layout_area]
    obtain ⟨r1, r2⟩ := hroom (by omega) (by omega)
    exact drawsIn_weaken (bars_beside s (inner s r) _ true i _ _ (fun _ => r1) (fun _ => r2))
      fun x y q => ⟨inner_within s r (by omega) (by omega) x y q.1, q.2⟩

/-- **C185** (partial: `overflow-x` is not `auto`, room for the bars). The bars of a plain container are inside it and not on
the area its children are shown in. -/
theorem pane_clear_partial (vp : Viewport) (i : Inks) (s : Sheet) (b : Body) (st : Pane.State) (r : Region)
    (hx : s.overflowX ≠ .auto) (hroom : RoomForBars s r) :
    DrawsIn (fun x y => Within r x y ∧ ¬At (Box.shown vp r (.pane s b st)).1 x y) (after vp i (.pane s b st) r) := by
  simp only [after, Box.shown]
  split
  · exact drawsIn_nil _
  rename_i hr
  obtain ⟨r1, r2⟩ := hroom (by omega) (by omega)
  refine drawsIn_weaken (bars_off s (inner s r) _ _ false i _ _ (fun h => ⟨r1, ?_⟩) (fun h => ⟨r2, ?_⟩))
    fun x y q => ⟨inner_within s r (by omega) (by omega) x y q.1, q.2⟩
  · simp only [drawsV, Bool.and_eq_true] at h
    have hf := h.1.1
    unfold Pane.State.draw at hf ⊢
    rw [if_neg hr] at hf ⊢
    unfold Pane.State.drawInner at hf ⊢
    dsimp only at hf ⊢
    generalize (st.place b (inner s r) vp).2.measure _ _ = st1 at *
    have h1 : (st1.shows s).v = true := by
      by_contra hne
      rw [if_neg (fun h => hne h.1)] at hf
      exact hne hf
    simp only [Pane.contentRegion, h1, true_or, if_true]
    omega
  · simp only [drawsH, Bool.and_eq_true] at h
    have hf := h.1.1
    have hs : s.overflowX = .scroll := by
      cases hs : s.overflowX with
      | scroll => rfl
      | auto => exact absurd hs hx
      | hidden => simp [Pane.State.shows, hs] at hf
    unfold Pane.State.draw
    rw [if_neg hr]
    unfold Pane.State.drawInner
    dsimp only
    simp only [Pane.contentRegion, Pane.State.shows, hs, true_or, if_true]
    omega

/-- The chrome of a container is inside it. -/
theorem chrome_inside (hist : List RenderCache.Sheet) (s : RenderCache.Sheet) (any : Bool) (title subtitle : Option Strip)
    (r : Region) (hr : 0 < r.width → 0 < r.height → RenderCache.Room s r.width.toNat title subtitle)
    (h1 : ∀ t ∈ title, t.OneColumn) (h2 : ∀ t ∈ subtitle, t.OneColumn) :
    Inside r (chrome (RenderCache.cacheAfter hist s) any title subtitle r) := by
  unfold chrome
  split
  · exact drawsIn_nil _
  rename_i hpos
  refine Nest.lines_inside r _ (by rw [List.length_map, List.length_range]; omega) ?_
  intro l hm
  obtain ⟨y, hy, rfl⟩ := List.mem_map.1 hm
  rw [List.mem_range] at hy
  have hroom := hr (by omega) (by omega)
  have g := RenderCache.line_good hist s y r.height.toNat r.width.toNat none title subtitle hy hroom (by rintro t e; cases e)
    (Static.narrow_of_made h1) (Static.narrow_of_made h2)
  have o : ((RenderCache.cacheAfter hist s).renderLine y r.height.toNat r.width.toNat none title subtitle).OneColumn :=
    ⟨g.1, RenderCache.renderLine_made (fun _ => rfl) _ (RenderCache.cacheAfter_sound hist s) y r.height.toNat r.width.toNat
      (by rintro t e; cases e) (fun s e => (h1 s e).made) (fun s e => (h2 s e).made)⟩
  refine ⟨o.segs.measured, ?_⟩
  have e : Canvas.lineColumns (Strip.toDraw _) = _ := o.segs.columns
  rw [e]
  show ((Strip.cells _).length : Int) ≤ _
  rw [g.2.1]
  omega

/-- There is room for the chrome and the bars of every container, and widgets draw inside their region. -/
def Roomy (vp : Viewport) (leaf : Nat → Region → List Draw) (look : Box → Look) : Node → Region → Prop
  | .leaf id _, r => Inside r (leaf id r)
  | .box b child, r =>
    (∃ past frame, (look b).cache = RenderCache.cacheAfter past frame ∧
      (0 < r.width → 0 < r.height → RenderCache.Room frame r.width.toNat (look b).title (look b).subtitle)) ∧
    (∀ t ∈ (look b).title, t.OneColumn) ∧ (∀ t ∈ (look b).subtitle, t.OneColumn) ∧ RoomForBars (sheet b) r ∧
    ∀ c ∈ (b.shown vp r).2, Roomy vp leaf look (child c.childIndex) c.region

/-- **C184** (partial: containers as in C174, without keylines, with room for chrome and bars). What containers draw
themselves, their chrome before the children and their scrollbars after them, is inside them, and the scrollbars are never
on the area the children are shown in. -/
theorem tidy_partial (vp : Viewport) (leaf : Nat → Region → List Draw) (look : Box → Look) (n : Node) (r : Region)
    (hg : Good vp n r) (hr : Roomy vp leaf look n r) : Tidy vp (paintOf vp leaf look) n r := by
  induction n generalizing r with
  | leaf id a => exact hr
  | box b child ih =>
    obtain ⟨⟨past, frame, e, h1⟩, h2, h3, h4, h5⟩ := hr
    exact ⟨by simp only [paintOf]; rw [e]; exact chrome_inside _ _ _ _ _ _ h1 h2 h3, drawsIn_nil _, after_clear vp _ b r hg.1 h4,
      fun c hc => ih _ _ (hg.2 c hc) (h5 c hc)⟩

/-- **C184** (partial as `tidy_partial`, children that do not overlap). With chrome and scrollbars drawn as they are, what a
widget at any depth draws at a place where it shows is there at the end of the frame. -/
theorem widget_stays_partial {w h : Nat} {c0 : Canvas} (h0 : Canvas.new w h = some c0) (n : Node)
    (leaf : Nat → Region → List Draw) (look : Box → Look) (before : List Op) (hg : Good ⟨w, h⟩ n ⟨0, 0, w, h⟩)
    (ha : NoOverlap ⟨w, h⟩ n) (hr : Roomy ⟨w, h⟩ leaf look n ⟨0, 0, w, h⟩)
    (id : Nat) (r : Region) (clips : List Region) (hp : (id, r, clips) ∈ Nest.painted ⟨w, h⟩ n ⟨0, 0, w, h⟩ []) (x y : Nat)
    (hx : x < w) (hx' : x < 65536) (hy' : y < 65536) (hs : Nest.SeenAt (id, r, clips) x y) :
    ∃ c c1 c2, c0.run (before ++ Nest.frame (paintOf ⟨w, h⟩ leaf look) ⟨w, h⟩ n) = some c ∧ Inv w h clips c1 ∧
      c1.run ((leaf id r).map .draw) = some c2 ∧ c.cells[y * w + x]? = c2.cells[y * w + x]? :=
  Nest.widget_on_top_partial h0 n (paintOf ⟨w, h⟩ leaf look) before hg ha (tidy_partial _ _ _ _ _ hg hr) id r clips hp x y hx
    hx' hy' hs

/-! ### A case -/

def white : Look where
  cache := RenderCache.cacheAfter [] {}
  inks := ⟨⟨255, 255, 255, 1, none, false, none⟩, ⟨0, 0, 0, 1, none, false, none⟩, true, ⟨255, 255, 255, 1, none, false, none⟩,
    ⟨0, 0, 0, 1, none, false, none⟩, true, ⟨0, 0, 0, 1, none, false, none⟩⟩

theorem pages_roomy : Roomy ⟨20, 10⟩ Nest.pages.leaf (fun _ => white) Nest.tree ⟨0, 0, 20, 10⟩ := by
  have room : ∀ w : Int, 0 < w → RenderCache.Room {} w.toNat none none := by
    intro w hw
    refine ⟨by omega, ?_, ?_, by simp⟩ <;>
    · simp only [RenderCache.one]
      have : (0 : Nat) ≤ w.toNat := Nat.zero_le _
      exact this
  have leaf : ∀ (id : Nat) (r : Region), Inside r (Nest.pages.leaf id r) := by
    intro id r
    exact Static.paint_inside [] {} false Static.two none none none none r (fun hw _ => room _ hw) Static.two_one
      (by rintro t h; cases h) (by rintro t h; cases h) (by rintro t h; cases h)
  have key : ∀ c ∈ (Box.shown ⟨20, 10⟩ ⟨0, 0, 20, 10⟩
      (.screen { overflowX := .hidden } Nest.above (fun _ => false) {})).2, c.childIndex = 0 → c.region = ⟨0, 0, 20, 6⟩ := by
    decide +kernel
  refine ⟨⟨[], {}, rfl, fun hw _ => room _ hw⟩, by simp [white], by simp [white], fun _ _ => by decide, fun c hc => ?_⟩
  dsimp only
  split
  · rename_i h0
    rw [key c hc h0]
    exact ⟨⟨[], {}, rfl, fun hw _ => room _ hw⟩, by simp [white], by simp [white], fun _ _ => by decide, fun c _ => leaf _ _⟩
  · exact leaf _ _

/-- The padded container draws a bar of two columns beside its cards, and the cards stay. -/
example : ∃ c0 c c1 c2, Canvas.new 20 10 = some c0 ∧
    c0.run (Nest.frame (paintOf ⟨20, 10⟩ Nest.pages.leaf fun _ => white) ⟨20, 10⟩ Nest.tree) = some c ∧
    Inv 20 10 [⟨1, 1, 16, 4⟩, ⟨0, 0, 20, 10⟩] c1 ∧ c1.run ((Nest.pages.leaf 11 ⟨1, 3, 8, 6⟩).map .draw) = some c2 ∧
    c.cells[3 * 20 + 2]? = c2.cells[3 * 20 + 2]? := by
  obtain ⟨c0, h0⟩ : ∃ c0, Canvas.new 20 10 = some c0 := ⟨_, rfl⟩
  obtain ⟨c, c1, c2, h1, h2, h3, h4⟩ := widget_stays_partial h0 Nest.tree Nest.pages.leaf (fun _ => white) []
    Nest.tree_ok.1 Nest.tree_ok.2 pages_roomy 11 ⟨1, 3, 8, 6⟩ [⟨1, 1, 16, 4⟩, ⟨0, 0, 20, 10⟩] (by decide +kernel) 2 3
    (by decide) (by decide) (by decide) (by unfold Nest.SeenAt; decide)
  exact ⟨c0, c, c1, c2, h0, h1, h2, h3, h4⟩

example : (after ⟨20, 10⟩ white.inks
    (.scroller Scroller.padded Scroller.pair { scroll := ⟨0, 4, 8, 12, 16, 4⟩ }) ⟨0, 0, 20, 6⟩).length ≠ 0 := by decide +kernel

/-- **C184** needs room for the bars: a container of three columns with padding draws its bar of two columns over the padding
on its left, outside the area inside the chrome. -/
theorem narrow_counterexample :
    let s : Sheet := { overflowY := .scroll, chromeLeft := 1, chromeRight := 1 }
    let b : Box := .scroller s { arrange := fun _ _ => [] } {}
    let r : Region := ⟨0, 0, 3, 4⟩
    ¬RoomForBars s r ∧ inner s r = ⟨1, 0, 1, 4⟩ ∧
      (after ⟨20, 10⟩ white.inks b r).any (fun | .char x _ _ _ _ _ => x == 0 | _ => false) = true := by
  refine ⟨?_, by decide, by decide +kernel⟩
  unfold RoomForBars
  decide

/-- A card nineteen columns wide and twelve rows tall. -/
def card : Body := { arrange := fun a _ => [⟨0, ⟨a.x, a.y, 19, 12⟩⟩] }

/-- **C185** is false with `overflow-x: auto`: a card that fits the container beside no bar is too wide beside the vertical
bar. The area for the card reaches down to the last row, and the horizontal bar is drawn on that row, over the card. -/
theorem pane_cover_counterexample :
    let s : Sheet := { overflowX := .auto, overflowY := .auto, barV := 2, barH := 1 }
    let r : Region := ⟨0, 0, 20, 10⟩
    Box.shown ⟨80, 24⟩ r (.pane s card {}) = (⟨0, 0, 18, 10⟩, [⟨0, ⟨0, 0, 19, 12⟩⟩]) ∧
      (after ⟨80, 24⟩ white.inks (.pane s card {}) r).any
        (fun | .char x y _ _ _ _ => x == 5 && y == 9 | _ => false) = true := by decide +kernel

example : (after ⟨80, 24⟩ white.inks
    (.pane { overflowX := .hidden, overflowY := .auto, barV := 2, barH := 1 } card {}) ⟨0, 0, 20, 10⟩).any
      (fun | .char x y _ _ _ _ => x == 18 && y == 9 | _ => false) = true ∧
    RoomForBars { overflowX := .hidden, overflowY := .auto, barV := 2, barH := 1 } ⟨0, 0, 20, 10⟩ := by
  refine ⟨by decide +kernel, ?_⟩
  unfold RoomForBars
  decide

end Textual.Bars
