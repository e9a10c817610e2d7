import Verif.Props.Frame
import Verif.Props.OnScreen

/-!
# What a widget anywhere in the tree draws stays on the screen (C181)

C177 says which widget a cell belongs to, C178 where a text widget draws its characters. Here both together: nothing drawn
after a widget covers it, so its characters are on the screen at the end of the frame.
-/

namespace Textual.Canvas

/-- A place on the canvas that is in all regions pushed is in the clip. -/
theorem clips_within {w h x y : Nat} (hx : x < w) (hy : y < h) (hx' : x < 65536) (hy' : y < 65536) (raw : List Region)
    (hk : ∀ k ∈ raw, Scroller.At k x y) : Within (clipOf w h raw) x y := by
  have key : ∀ raw : List Region, (∀ k ∈ raw, Scroller.At k x y) → (clipOf w h raw).containsPoint x y = true := by
    intro raw
    induction raw with
    | nil =>
      intro _
      simp only [clipOf, Region.containsPoint, Bool.and_eq_true, decide_eq_true_eq, satAdd]
      refine ⟨⟨⟨?_, ?_⟩, ?_⟩, ?_⟩ <;> first | (apply decide_eq_true; omega) | omega
    | cons r rest ih =>
      intro hk
      rw [clipOf, Region.mem_intersection, Bool.and_eq_true]
      refine ⟨?_, ih fun k h => hk k (List.mem_cons_of_mem _ h)⟩
      obtain ⟨h1, h2, h3, h4⟩ := hk r (List.mem_cons_self ..)
      simp only [Region.containsPoint, Bool.and_eq_true, decide_eq_true_eq, satAdd]
      refine ⟨⟨⟨?_, ?_⟩, ?_⟩, ?_⟩ <;> first | (apply decide_eq_true; omega) | omega
  have := key raw hk
  simp only [Region.containsPoint, Bool.and_eq_true, decide_eq_true_eq, satAdd] at this
  obtain ⟨⟨⟨h1, h2⟩, h3⟩, h4⟩ := this
  have := of_decide_eq_true h2
  have := of_decide_eq_true h4
  exact ⟨h1, by omega, h3, by omega⟩

theorem narrow_run {env : TermEnv} (hsp : env.width " " = 1) {w h : Nat} (ops : List Op) (hops : ∀ op ∈ ops, op.Narrow env)
    {raw : List Region} {c c' : Canvas} (i : Inv w h raw c) (hn : NarrowCells env c.cells) (hp : NarrowCells env c.prev)
    (hr : c.run ops = some c') : NarrowCells env c'.cells := by
  induction ops generalizing raw c with
  | nil => cases hr; exact hn
  | cons op ops ih =>
    obtain ⟨c2, hstep, i2⟩ := i.step op
    obtain ⟨n1, n2⟩ := step_narrow hsp hn hp (by rw [i.len, i.weq, i.heq]) (hops op List.mem_cons_self) hstep
    simp only [run, hstep, Option.bind_some] at hr
    exact ih (fun q hq => hops q (List.mem_cons_of_mem _ hq)) i2 n1 n2 hr

/-- Programs that draw one-column text only leave no cell that continues another. -/
theorem narrow_new {env : TermEnv} (hsp : env.width " " = 1) {w h : Nat} {c0 c : Canvas} (h0 : Canvas.new w h = some c0)
    (ops : List Op) (hops : ∀ op ∈ ops, op.Narrow env) (hr : c0.run ops = some c) : NarrowCells env c.cells := by
  have hblank : NarrowCells env (List.replicate (w * h) Cell.blank) := by
    intro d hd
    rw [List.eq_of_mem_replicate hd]
    exact ⟨rfl, rfl, hsp⟩
  have hn0 : NarrowCells env c0.cells ∧ NarrowCells env c0.prev := by
    unfold Canvas.new at h0
    split at h0
    · cases h0; exact ⟨hblank, hblank⟩
    · cases h0
  exact narrow_run hsp ops hops (Inv.new h0) hn0.1 hn0.2 hr

end Textual.Canvas

namespace Textual.Nest

open Layout (Placement Viewport)
open Scroller (Mouse At OnScreen Body Apart)
open Canvas (Inv Op Draw OnlyCells Within)

/-- Drawing these changes cells at these places only. -/
def DrawsIn (Q : Nat → Nat → Prop) (ds : List Draw) : Prop :=
  ∀ c : Canvas, c.cells.length = c.w * c.h → ∃ c', c.run (ds.map .draw) = some c' ∧ OnlyCells Q c c'

/-- Widgets draw inside their region, and so do containers: scrollbars outside the area for the children, and lines
between the children not on a child. -/
def Tidy (vp : Viewport) (P : Paint) : Node → Region → Prop
  | .leaf id _, r => Inside r (P.leaf id r)
  | .box b child, r =>
    Inside r (P.before b r) ∧
    DrawsIn (fun x y => Within r x y ∧ ∀ c ∈ (b.shown vp r).2, ¬At c.region x y) (P.over b r) ∧
    DrawsIn (fun x y => Within r x y ∧ ¬At (b.shown vp r).1 x y) (P.after b r) ∧
    ∀ c ∈ (b.shown vp r).2, Tidy vp P (child c.childIndex) c.region

theorem draws_balanced (ds : List Draw) : Canvas.Balanced (ds.map .draw) := by
  induction ds with
  | nil => exact .nil
  | cons d ds ih => exact .append (.draw d) ih

/-- Drawing a tree leaves the clips as they were. -/
theorem calls_balanced (P : Paint) (vp : Viewport) (n : Node) (r : Region) : Canvas.Balanced (calls P vp n r) := by
  induction n generalizing r with
  | leaf i a => exact draws_balanced _
  | box b child ih =>
    have kids : ∀ cs : List Placement, Canvas.Balanced (cs.flatMap fun c => calls P vp (child c.childIndex) c.region) := by
      intro cs
      induction cs with
      | nil => exact .nil
      | cons k ks ihk => rw [List.flatMap_cons]; exact .append (ih _ _) ihk
    unfold calls
    refine .append (.append (draws_balanced _) ?_) (draws_balanced _)
    have := Canvas.Balanced.bracket (b.shown vp r).1 (.append (kids (b.shown vp r).2) (draws_balanced (P.over b r)))
    simpa using this

theorem calls_run (P : Paint) (vp : Viewport) (n : Node) (r : Region) {w h : Nat} {raw : List Region} {c : Canvas}
    (i : Inv w h raw c) : ∃ c', c.run (calls P vp n r) = some c' ∧ Inv w h raw c' := by
  obtain ⟨c', h1, i1⟩ := i.run (calls P vp n r)
  rw [(calls_balanced P vp n r).pushed_eq] at i1
  exact ⟨c', h1, i1⟩

theorem draws_run (ds : List Draw) {w h : Nat} {raw : List Region} {c : Canvas}
    (i : Inv w h raw c) : ∃ c', c.run (ds.map .draw) = some c' ∧ Inv w h raw c' := by
  obtain ⟨c', h1, i1⟩ := i.run (ds.map .draw)
  rw [Canvas.pushed_draws] at i1
  exact ⟨c', h1, i1⟩

/-- Drawing elsewhere leaves a cell alone. -/
theorem draws_miss {Q : Nat → Nat → Prop} {ds : List Draw} (hd : DrawsIn Q ds) {w h : Nat} {raw : List Region} {c c' : Canvas}
    (i : Inv w h raw c) (hr : c.run (ds.map .draw) = some c') {x y : Nat} (hx : x < w)
    (hn : ¬Q x y ∨ ¬∀ k ∈ raw, At k x y) : c'.cells[y * w + x]? = c.cells[y * w + x]? := by
  rcases hn with hn | hn
  · obtain ⟨c2, h2, o⟩ := hd c (by rw [i.len, i.weq, i.heq])
    rw [hr] at h2
    cases h2
    have := o.same x y (by rw [i.weq]; exact hx) hn
    rwa [i.weq] at this
  · exact Canvas.draws_clipped i ds hr hx hn

theorem within_at (r : Region) (x y : Nat) : Within r x y ↔ At r x y := Iff.rfl

theorem run_box (P : Paint) (vp : Viewport) (b : Box) (child : Nat → Node) (r : Region) {c c1 c3 c4 c6 : Canvas}
    (h1 : c.run ((P.before b r).map .draw) = some c1)
    (h3 : (c1.pushClip (b.shown vp r).1).run
      ((b.shown vp r).2.flatMap fun k => calls P vp (child k.childIndex) k.region) = some c3)
    (h4 : c3.run ((P.over b r).map .draw) = some c4) (h6 : c4.popClip.run ((P.after b r).map .draw) = some c6) :
    c.run (calls P vp (.box b child) r) = some c6 := by
  simp only [calls]
  rw [Canvas.run_ops, Canvas.run_ops, h1]
  simp only [Option.bind_some, List.cons_append, Canvas.run, Canvas.step]
  rw [Canvas.run_ops, Canvas.run_ops, h3]
  simp only [Option.bind_some, h4, Canvas.run, Canvas.step, h6]

/-- A tree drawn elsewhere leaves a cell alone. -/
theorem untouched (vp : Viewport) (P : Paint) {w h x y : Nat} (hx : x < w) (n : Node) (r : Region) (hg : Good vp n r)
    (ht : Tidy vp P n r) (raw : List Region) (hn : ¬At r x y ∨ ¬∀ k ∈ raw, At k x y) (c c' : Canvas) (ic : Inv w h raw c)
    (hr : c.run (calls P vp n r) = some c') : c'.cells[y * w + x]? = c.cells[y * w + x]? := by
  induction n generalizing r raw c c' with
  | leaf i a => exact draws_miss ht ic hr hx hn
  | box b child ih =>
    obtain ⟨t1, t2, t3, t4⟩ := ht
    obtain ⟨c1, h1, i1⟩ := draws_run (P.before b r) ic
    obtain ⟨c2, h2, i2⟩ := i1.step (.push (b.shown vp r).1)
    cases h2
    have kids : ∀ (cs : List Placement), (∀ k ∈ cs, k ∈ (b.shown vp r).2) → ∀ (c : Canvas),
        Inv w h ((b.shown vp r).1 :: raw) c →
        ∃ c', c.run (cs.flatMap fun k => calls P vp (child k.childIndex) k.region) = some c' ∧
          Inv w h ((b.shown vp r).1 :: raw) c' ∧ c'.cells[y * w + x]? = c.cells[y * w + x]? := by
      intro cs
      induction cs with
      | nil => exact fun _ c ic => ⟨c, rfl, ic, rfl⟩
      | cons k ks ihk =>
        intro hmem c ic
        have hk := hmem k (List.mem_cons_self ..)
        obtain ⟨c1, e1, j1⟩ := calls_run P vp (child k.childIndex) k.region ic
        obtain ⟨c2, e2, j2, e⟩ := ihk (fun k' h => hmem k' (List.mem_cons_of_mem _ h)) c1 j1
        refine ⟨c2, by rw [List.flatMap_cons, Canvas.run_ops, e1]; exact e2, j2, ?_⟩
        rw [e]
        refine ih k.childIndex k.region (hg.2 k hk) (t4 k hk) ((b.shown vp r).1 :: raw) (.inr ?_) c c1 ic e1
        intro hall
        rcases hn with hn | hn
        · exact hn (shown_in vp r b hg.1 x y (List.ne_nil_of_mem hk) (hall _ (List.mem_cons_self ..)))
        · exact hn fun k' h => hall k' (List.mem_cons_of_mem _ h)
    obtain ⟨c3, h3, i3, e3⟩ := kids _ (fun _ h => h) _ i2
    obtain ⟨c4, h4, i4⟩ := draws_run (P.over b r) i3
    obtain ⟨c5, h5, i5⟩ := i4.step .pop
    cases h5
    obtain ⟨c6, h6, i6⟩ := draws_run (P.after b r) i5
    rw [run_box P vp b child r h1 h3 h4 h6] at hr
    cases hr
    have e1 := draws_miss t1 ic h1 hx (hn.imp_left fun h' => h')
    have e4 := draws_miss t2 i3 h4 hx (hn.imp (fun h' q => h' q.1) fun h' q => h' fun k hk => q k (List.mem_cons_of_mem _ hk))
    have e6 := draws_miss t3 i5 h6 hx (hn.imp_left fun h' q => h' q.1)
    rw [e6]
    show c4.cells[y * w + x]? = _
    rw [e4, e3]
    exact e1

/-- Only one child shows at a place. -/
theorem shown_unique (vp : Viewport) (r : Region) (b : Box) (hg : b.Good vp r) (ha : Apart b.body vp) {x y : Nat}
    (hx : x < 65536) (hy : y < 65536) (hr : At r x y) (h2 : At (b.shown vp r).1 x y) (c d : Placement)
    (hc : c ∈ (b.shown vp r).2) (hd : d ∈ (b.shown vp r).2) (h1 : At c.region x y) (h3 : At d.region x y) : d = c := by
  have h := fun e he h => asked_complete vp r ⟨.down, x, y, false⟩ (fun _ _ => false) b hg ha
    (by simp only [OnScreen]; omega) rfl hr e he h h2
  exact ((h c hc h1) d).1 (((h d hd h3) d).2 rfl)

/-- What a widget draws at a place where it shows is there when the tree is drawn. -/
theorem kept (vp : Viewport) (P : Paint) {w h x y : Nat} (hx : x < w) (hx' : x < 65536) (hy' : y < 65536) (n : Node)
    (r : Region) (hg : Good vp n r) (ha : NoOverlap vp n) (ht : Tidy vp P n r) (raw : List Region) (p : Painted)
    (hp : p ∈ painted vp n r raw) (hs : SeenAt p x y) (c c' : Canvas) (ic : Inv w h raw c)
    (hr : c.run (calls P vp n r) = some c') :
    ∃ c1 c2, Inv w h p.2.2 c1 ∧ c1.run ((P.leaf p.1 p.2.1).map .draw) = some c2 ∧
      c'.cells[y * w + x]? = c2.cells[y * w + x]? := by
  induction n generalizing r raw c c' with
  | leaf i a =>
    simp only [painted, List.mem_singleton] at hp
    subst hp
    exact ⟨c, c', ic, hr, rfl⟩
  | box b child ih =>
    obtain ⟨t1, t2, t3, t4⟩ := ht
    have hat := painted_in vp _ r hg raw _ hp _ _ hs
    obtain ⟨q, hq, hin⟩ := List.mem_flatMap.1 hp
    have hq1 := painted_in vp _ _ (hg.2 q hq) _ _ hin _ _ hs
    have hq2 := hs.2 _ (clips_kept vp _ _ _ _ hin _ (List.mem_cons_self ..))
    obtain ⟨c1, h1, i1⟩ := draws_run (P.before b r) ic
    obtain ⟨c2, h2, i2⟩ := i1.step (.push (b.shown vp r).1)
    cases h2
    have later : ∀ (cs : List Placement), (∀ k ∈ cs, k ∈ (b.shown vp r).2) → ∀ (c : Canvas),
        Inv w h ((b.shown vp r).1 :: raw) c →
        ∃ c', c.run (cs.flatMap fun k => calls P vp (child k.childIndex) k.region) = some c' ∧
          Inv w h ((b.shown vp r).1 :: raw) c' ∧ (q ∉ cs → c'.cells[y * w + x]? = c.cells[y * w + x]?) := by
      intro cs
      induction cs with
      | nil => exact fun _ c ic => ⟨c, rfl, ic, fun _ => rfl⟩
      | cons k ks ihk =>
        intro hmem c ic
        have hk := hmem k (List.mem_cons_self ..)
        obtain ⟨c1, e1, j1⟩ := calls_run P vp (child k.childIndex) k.region ic
        obtain ⟨c2, e2, j2, e⟩ := ihk (fun k' h => hmem k' (List.mem_cons_of_mem _ h)) c1 j1
        refine ⟨c2, by rw [List.flatMap_cons, Canvas.run_ops, e1]; exact e2, j2, fun hnot => ?_⟩
        rw [e fun h => hnot (List.mem_cons_of_mem _ h)]
        refine untouched vp P hx _ _ (hg.2 k hk) (t4 k hk) _ (.inl fun hk1 => hnot ?_) c c1 ic e1
        rw [shown_unique vp r b hg.1 ha.1 hx' hy' hat hq2 q k hq hk hq1 hk1]
        exact List.mem_cons_self ..
    have kids : ∀ (cs : List Placement), (∀ k ∈ cs, k ∈ (b.shown vp r).2) → q ∈ cs → ∀ (c : Canvas),
        Inv w h ((b.shown vp r).1 :: raw) c →
        ∃ c' c1 c2, c.run (cs.flatMap fun k => calls P vp (child k.childIndex) k.region) = some c' ∧
          Inv w h ((b.shown vp r).1 :: raw) c' ∧ Inv w h p.2.2 c1 ∧ c1.run ((P.leaf p.1 p.2.1).map .draw) = some c2 ∧
          c'.cells[y * w + x]? = c2.cells[y * w + x]? := by
      intro cs
      induction cs with
      | nil => intro _ h; cases h
      | cons k ks ihk =>
        intro hmem hmq c ic
        have hk := hmem k (List.mem_cons_self ..)
        have hks := fun k' h => hmem k' (List.mem_cons_of_mem _ h)
        obtain ⟨c1, e1, j1⟩ := calls_run P vp (child k.childIndex) k.region ic
        by_cases hqs : q ∈ ks
        · obtain ⟨c', d1, d2, f1, f2, f3, f4, f5⟩ := ihk hks hqs c1 j1
          exact ⟨c', d1, d2, by rw [List.flatMap_cons, Canvas.run_ops, e1]; exact f1, f2, f3, f4, f5⟩
        · have hqk : q = k := by
            rcases List.mem_cons.1 hmq with h | h
            · exact h
            · exact absurd h hqs
          subst hqk
          obtain ⟨c', f1, f2, f3⟩ := later ks hks c1 j1
          obtain ⟨d1, d2, g1, g2, g3⟩ := ih _ _ (hg.2 q hk) (ha.2 _) (t4 q hk) _ hin c c1 ic e1
          exact ⟨c', d1, d2, by rw [List.flatMap_cons, Canvas.run_ops, e1]; exact f1, f2, g1, g2, by rw [f3 hqs, g3]⟩
    obtain ⟨c3, d1, d2, h3, i3, g1, g2, g3⟩ := kids _ (fun _ h => h) hq _ i2
    obtain ⟨c4, h4, i4⟩ := draws_run (P.over b r) i3
    obtain ⟨c5, h5, i5⟩ := i4.step .pop
    cases h5
    obtain ⟨c6, h6, i6⟩ := draws_run (P.after b r) i5
    rw [run_box P vp b child r h1 h3 h4 h6] at hr
    cases hr
    refine ⟨d1, d2, g1, g2, ?_⟩
    rw [← g3, draws_miss t3 i5 h6 hx (.inl fun h => h.2 hq2)]
    show c4.cells[y * w + x]? = _
    exact draws_miss t2 i3 h4 hx (.inl fun h => h.2 q hq hq1)

/-- **C181** (partial: containers as in C174 that draw nothing on their children). What a widget, at any depth of
containers, draws at a place where it shows is there at the end of the frame: the cell is as if this widget had been drawn
last, clipped to the areas of its containers. -/
theorem widget_on_top_partial {w h : Nat} {c0 : Canvas} (h0 : Canvas.new w h = some c0) (n : Node) (P : Paint)
    (before : List Op) (hg : Good ⟨w, h⟩ n ⟨0, 0, w, h⟩) (ha : NoOverlap ⟨w, h⟩ n) (ht : Tidy ⟨w, h⟩ P n ⟨0, 0, w, h⟩)
    (id : Nat) (r : Region) (clips : List Region) (hp : (id, r, clips) ∈ painted ⟨w, h⟩ n ⟨0, 0, w, h⟩ []) (x y : Nat)
    (hx : x < w) (hx' : x < 65536) (hy' : y < 65536) (hs : SeenAt (id, r, clips) x y) :
    ∃ c c1 c2, c0.run (before ++ frame P ⟨w, h⟩ n) = some c ∧ Inv w h clips c1 ∧
      c1.run ((P.leaf id r).map .draw) = some c2 ∧ c.cells[y * w + x]? = c2.cells[y * w + x]? := by
  obtain ⟨c1, h1, i1⟩ := (Inv.new h0).run before
  obtain ⟨c2, h3, i3⟩ := i1.step .clear
  cases h3
  have i3' : Inv w h [] c1.clear := i3
  obtain ⟨c, h4, i4⟩ := calls_run P ⟨w, h⟩ n ⟨0, 0, w, h⟩ i3'
  obtain ⟨d1, d2, g1, g2, g3⟩ := kept ⟨w, h⟩ P hx hx' hy' n _ hg ha ht [] _ hp hs _ c i3' h4
  exact ⟨c, d1, d2, by rw [Canvas.run_ops, h1]; exact h4, g1, g2, g3⟩

open Static Content in
/-- **C181** (partial: containers as in C174 that draw nothing on their children, one-column characters, no outline). The text
of a widget at any depth of containers is on the screen at the end of the frame: its lines lie in the widget as the style
asks for, and each of their characters that is not clipped away by a container is in its cell, and on the terminal after
the flush. -/
theorem text_in_tree_partial {w h : Nat} {c0 : Canvas} (h0 : Canvas.new w h = some c0) (n : Node) (P : Paint)
    (before : List Op) (hg : Good ⟨w, h⟩ n ⟨0, 0, w, h⟩) (ha : NoOverlap ⟨w, h⟩ n) (ht : Tidy ⟨w, h⟩ P n ⟨0, 0, w, h⟩)
    (id : Nat) (r : Region) (clips : List Region) (hp : (id, r, clips) ∈ painted ⟨w, h⟩ n ⟨0, 0, w, h⟩ [])
    (hist : List RenderCache.Sheet) (s : Static.Sheet) (lines : List WrappedLine) (title subtitle : Option Strip)
    (hatch : Option Fade.Hatch) (tint : Option RgbaColor)
    (hpaint : P.leaf id r = paint s false (RenderCache.cacheAfter hist s.frame) lines title subtitle hatch tint r)
    (hr : RenderCache.Room s.frame r.width.toNat title subtitle) (ho : RenderCache.NoOutline s.frame)
    (hl : ∀ line ∈ lines, line.strip.OneColumn)
    (h1 : ∀ t ∈ title, t.OneColumn) (h2 : ∀ t ∈ subtitle, t.OneColumn) (hh : ∀ h ∈ hatch, h.width = 1)
    (hbw : 0 < (textBox s.frame title subtitle r).width) (hbh : 0 < (textBox s.frame title subtitle r).height)
    (fw : ∀ line ∈ lines, (line.strip.cellLength : Int) ≤ (textBox s.frame title subtitle r).width)
    (fh : (lines.length : Int) ≤ (textBox s.frame title subtitle r).height) :
    ∃ above below left right block : Nat,
      (above + lines.length + below : Int) = (textBox s.frame title subtitle r).height ∧ SplitV s.alignV above below ∧
      (left + block + right : Int) = (textBox s.frame title subtitle r).width ∧ SplitH s.alignH left right ∧
      (if s.alignH = .left ∧ s.alignV = .top then (block : Int) = (textBox s.frame title subtitle r).width
        else (∀ line ∈ lines, line.strip.cellLength ≤ block) ∧
          (lines ≠ [] → ∃ line ∈ lines, line.strip.cellLength = block)) ∧
      ∀ (i : Nat) (line : WrappedLine), lines[i]? = some line → ¬(s.textAlign = .justify ∧ line.lineEnd = false) →
        ∃ pre post, pre + line.strip.cellLength + post = block ∧ SplitLine s.textAlign pre post ∧
          ∀ (k : Nat) (x : StripCell) (X Y : Nat), line.strip.cells[k]? = some x → x.g.text ≠ " " →
            (X : Int) = (textBox s.frame title subtitle r).x + left + pre + k →
            (Y : Int) = (textBox s.frame title subtitle r).y + above + i →
            X < w → Y < h → X < 65536 → Y < 65536 → (∀ a ∈ clips, At a X Y) →
            ∃ c, c0.run (before ++ frame P ⟨w, h⟩ n) = some c ∧
              (c.cells[Y * w + X]?).map (·.symbol) = some x.g.text ∧
              ∀ (env : TermEnv) (t t' : Term), env.Ok → env.width " " = 1 → t.w = w → t.h = h →
                (∀ op ∈ before ++ frame P ⟨w, h⟩ n, op.Narrow env) →
                Canvas.session env c0 t (before ++ frame P ⟨w, h⟩ n) = some (c, t') →
                ∃ cols st, (t'.run env c.flush.1).screen (Y * w + X) = .glyph x.g.text cols st := by
  obtain ⟨above, below, left, right, block, e1, e2, e3, e4, e5, e6⟩ :=
    text_placed hist s lines title subtitle hatch tint r hr ho hl h1 h2 hh hbw hbh fw fh
  refine ⟨above, below, left, right, block, e1, e2, e3, e4, e5, fun i line hi hj => ?_⟩
  obtain ⟨pre, post, g1, g2, g3⟩ := e6 i line hi hj
  refine ⟨pre, post, g1, g2, fun k x X Y hk hne hX hY hXw hYh hXs hYs hcl => ?_⟩
  have hli : i < lines.length := (List.getElem?_eq_some_iff.1 hi).1
  have hki : k < line.strip.cellLength := by
    rw [← (hl line (List.mem_of_getElem? hi)).wf.length]
    exact (List.getElem?_eq_some_iff.1 hk).1
  have hseen : SeenAt (id, r, clips) X Y := by
    refine ⟨?_, hcl⟩
    simp only [textBox] at *
    simp only [At]
    omega
  obtain ⟨c, c1, c2, r1, r2, r3, r4⟩ := widget_on_top_partial h0 n P before hg ha ht id r clips hp X Y hXw hXs hYs hseen
  have hcell : (c.cells[Y * w + X]?).map (·.symbol) = some x.g.text := by
    rw [hpaint] at r3
    have := (g3 c1 c2 (by rw [r2.len, r2.weq, r2.heq]) r3 k x X Y hk hX hY (by rw [r2.weq]; exact hXw)
      (by rw [r2.heq]; exact hYh) (by rw [r2.currentClip]; exact Canvas.clips_within hXw hYh hXs hYs clips hcl)).2 hne
    rw [r2.weq] at this
    rw [r4]
    exact this
  refine ⟨c, r1, hcell, fun env t t' hj hsp htw hth hnar hses => ?_⟩
  cases hc : c.cells[Y * w + X]? with
  | none => rw [hc] at hcell; cases hcell
  | some cell =>
    rw [hc] at hcell
    have := Canvas.narrow_session_flush_shows hj hsp h0 htw hth _ hnar hses X Y cell hc
    rw [this]
    simp only [Option.map_some, Option.some.injEq] at hcell
    rw [← hcell]
    obtain ⟨k1, -⟩ := Canvas.narrow_new hsp h0 _ hnar r1 cell (List.mem_of_getElem? hc)
    unfold Canvas.shown
    rw [k1]
    exact ⟨_, _, rfl⟩

/-! ### A case -/

/-- All widgets of the tree of C174 show two lines of text. -/
def pages : Paint where
  leaf _ r := Static.paint {} false (RenderCache.cacheAfter [] ({} : Static.Sheet).frame) Static.two none none none none r
  before _ _ := []
  over _ _ := []
  after _ _ := []

theorem nothing_in (Q : Nat → Nat → Prop) : DrawsIn Q [] := fun c _ => ⟨c, rfl, .refl c⟩

theorem pages_tidy : Tidy ⟨20, 10⟩ pages tree ⟨0, 0, 20, 10⟩ := by
  have leaf : ∀ (id : Nat) (r : Region), Inside r (pages.leaf id r) := by
    intro id r
    refine Static.paint_inside [] {} false Static.two none none none none r (fun hw _ => ?_) Static.two_one
      (by rintro t h; cases h) (by rintro t h; cases h) (by rintro t h; cases h)
    refine ⟨by omega, ?_, ?_, by simp⟩ <;>
    · simp only [RenderCache.one]
      have : (0 : Nat) ≤ r.width.toNat := Nat.zero_le _
      exact this
  refine ⟨nothing_in _, nothing_in _, nothing_in _, fun c _ => ?_⟩
  dsimp only
  split
  · exact ⟨nothing_in _, nothing_in _, nothing_in _, fun c _ => leaf _ _⟩
  · exact leaf _ _

/-- The second card is half hidden below the edge of its container: both its lines are above the edge, and the second
character of the first is at column 2, row 3. -/
example : ∃ c0 c, Canvas.new 20 10 = some c0 ∧ c0.run (frame pages ⟨20, 10⟩ tree) = some c ∧
    (c.cells[3 * 20 + 2]?).map (·.symbol) = some "e" := by
  obtain ⟨c0, h0⟩ : ∃ c0, Canvas.new 20 10 = some c0 := ⟨_, rfl⟩
  obtain ⟨above, below, left, right, block, e1, e2, e3, e4, e5, e6⟩ := text_in_tree_partial h0 tree pages [] tree_ok.1 tree_ok.2
    pages_tidy 11 ⟨1, 3, 8, 6⟩ [⟨1, 1, 16, 4⟩, ⟨0, 0, 20, 10⟩] (by decide +kernel) [] {} Static.two none none none none rfl
    (by unfold RenderCache.Room; decide) (by unfold RenderCache.NoOutline; decide) Static.two_one
    (by rintro t h; cases h) (by rintro t h; cases h) (by rintro t h; cases h) (by decide) (by decide) (by decide) (by decide)
  obtain ⟨pre, post, k1, k2, k3⟩ := e6 0 _ rfl (by decide)
  have s2 : above = 0 := e2
  have s4 : left = 0 := e4
  have s6 : pre = 0 := k2
  subst s2 s4 s6
  obtain ⟨c, r1, r2, -⟩ := k3 1 _ 2 3 rfl (by decide) (by decide) (by decide) (by decide) (by decide) (by decide) (by decide)
    (by decide)
  exact ⟨c0, c, h0, r1, r2⟩

end Textual.Nest
