import Verif.Model.Frame
import Verif.Props.Nest
import Verif.Props.Flush
import Verif.Model.SwitchFace

/-!
# Each cell of the screen is drawn by the widget a click there reaches (C177)
-/

namespace Textual.Canvas

/-- The canvases have the same size and clips and agree on cell `i`. -/
structure Agree (i : Nat) (c d : Canvas) : Prop where
  w : c.w = d.w
  h : c.h = d.h
  clips : c.clips = d.clips
  cell : c.cells[i]? = d.cells[i]?

theorem updateCell_agree {i j : Nat} {a b a' b' : List Cell} {f : Cell → Cell} (h : a[i]? = b[i]?)
    (h1 : updateCell a j f = some a') (h2 : updateCell b j f = some b') : a'[i]? = b'[i]? := by
  unfold updateCell at h1 h2
  split at h1
  · cases h1
  split at h2
  · cases h2
  rename_i _ old1 e1 _ old2 e2
  cases h1; cases h2
  by_cases e : j = i
  · subst e
    rw [h] at e1
    rw [e2] at e1
    cases e1
    have := (List.getElem?_eq_some_iff.1 e2).1
    have h' : j < a.length := by
      apply Classical.byContradiction
      intro hn
      rw [List.getElem?_eq_none (by omega), e2] at h
      cases h
    simp [this, h']
  · simp [List.getElem?_set, e, h]

theorem putConts_agree {i w h : Nat} {x y : Int} {g fg bg attrs} {clip : Region} (offs : List Nat)
    {a b a' b' : List Cell} (e : a[i]? = b[i]?) (h1 : putConts w h x y g fg bg attrs clip offs a = some a')
    (h2 : putConts w h x y g fg bg attrs clip offs b = some b') : a'[i]? = b'[i]? := by
  induction offs generalizing a b with
  | nil => cases h1; cases h2; exact e
  | cons o os ih =>
    unfold putConts at h1 h2
    dsimp only at h1 h2
    split at h1
    · rw [if_pos (by assumption)] at h2
      exact ih e h1 h2
    rename_i n1
    rw [if_neg n1] at h2
    split at h1
    · rw [if_pos (by assumption)] at h2
      exact ih e h1 h2
    rename_i n2
    rw [if_neg n2] at h2
    split at h1
    · cases h1
    split at h2
    · cases h2
    rename_i _ _ u1 _ _ u2
    exact ih (updateCell_agree e u1 u2) h1 h2

theorem putGrapheme_agree {i : Nat} {c d c' d' : Canvas} {x y : Int} {g fg bg attrs} {clip : Region} (e : Agree i c d)
    (h1 : putGrapheme c x y g fg bg attrs clip = some c') (h2 : putGrapheme d x y g fg bg attrs clip = some d') :
    Agree i c' d' := by
  unfold putGrapheme at h1 h2
  rw [← e.w, ← e.h] at h2
  iterate 6
    split at h1
    · rw [if_pos (by assumption)] at h2
      cases h1; cases h2
      exact e
    rename_i n
    rw [if_neg n] at h2
    clear n
  split at h1
  · cases h1
  split at h2
  · cases h2
  rename_i _ _ u1 _ _ u2
  split at h1
  · cases h1
  split at h2
  · cases h2
  rename_i _ _ v1 _ _ v2
  cases h1; cases h2
  exact ⟨rfl, rfl, e.clips, putConts_agree _ (updateCell_agree e.cell u1 u2) v1 v2⟩

theorem putGraphemes_agree {i : Nat} {c d c' d' : Canvas} {x y : Int} {fg bg attrs} {clip : Region} {s : List Grapheme}
    (e : Agree i c d) (h1 : putGraphemes c x y fg bg attrs clip s = some c')
    (h2 : putGraphemes d x y fg bg attrs clip s = some d') : Agree i c' d' := by
  induction s generalizing c d x with
  | nil => cases h1; cases h2; exact e
  | cons g gs ih =>
    unfold putGraphemes at h1 h2
    split at h1
    · rw [if_pos (by assumption)] at h2
      cases h1; cases h2
      exact e
    rename_i n
    rw [if_neg n] at h2
    split at h1
    · cases h1
    split at h2
    · cases h2
    rename_i _ _ u1 _ _ u2
    exact ih (putGrapheme_agree e u1 u2) h1 h2

theorem Agree.currentClip {i : Nat} {c d : Canvas} (e : Agree i c d) : c.currentClip = d.currentClip := by
  unfold Canvas.currentClip
  rw [e.clips, e.w, e.h]

theorem putStr_agree {i : Nat} {c d c' d' : Canvas} {x y : Int} {s : List Grapheme} {fg bg attrs} (e : Agree i c d)
    (h1 : putStr c x y s fg bg attrs = some c') (h2 : putStr d x y s fg bg attrs = some d') : Agree i c' d' := by
  unfold putStr at h1 h2
  rw [← e.currentClip, ← e.h] at h2
  dsimp only at h1 h2
  iterate 2
    split at h1
    · rw [if_pos (by assumption)] at h2
      cases h1; cases h2
      exact e
    rename_i n
    rw [if_neg n] at h2
    clear n
  exact putGraphemes_agree e h1 h2

theorem renderStrip_agree {i : Nat} {c d c' d' : Canvas} {x y : Int} {s : List DrawSeg} (e : Agree i c d)
    (h1 : renderStrip c x y s = some c') (h2 : renderStrip d x y s = some d') : Agree i c' d' := by
  induction s generalizing c d x with
  | nil => cases h1; cases h2; exact e
  | cons g gs ih =>
    unfold renderStrip at h1 h2
    split at h1
    · cases h1
    split at h2
    · cases h2
    rename_i _ _ u1 _ _ u2
    exact ih (putStr_agree e u1 u2) h1 h2

/-- What a drawing call does to a cell depends on this cell, the clip and the size of the canvas only. -/
theorem draw_agree {i : Nat} {c d c' d' : Canvas} (k : Draw) (e : Agree i c d) (h1 : c.draw k = some c')
    (h2 : d.draw k = some d') : Agree i c' d' := by
  cases k with
  | char x y g fg bg a =>
    simp only [draw, putChar] at h1 h2
    rw [← e.currentClip] at h2
    exact putGrapheme_agree e h1 h2
  | str x y s fg bg a => exact putStr_agree e h1 h2
  | strip x y s => exact renderStrip_agree e h1 h2
  | strips x y s =>
    simp only [draw] at h1 h2
    induction s generalizing c d y with
    | nil => cases h1; cases h2; exact e
    | cons g gs ih =>
      unfold renderStrips at h1 h2
      split at h1
      · cases h1
      split at h2
      · cases h2
      rename_i _ _ u1 _ _ u2
      exact ih (renderStrip_agree e u1 u2) _ h1 h2

theorem run_ops (c : Canvas) (a b : List Op) : c.run (a ++ b) = (c.run a).bind (·.run b) := by
  induction a generalizing c with
  | nil => rfl
  | cons op ops ih =>
    simp only [List.cons_append, run]
    cases c.step op with
    | none => rfl
    | some c1 => exact ih c1

theorem draws_agree {i : Nat} {c d c' d' : Canvas} (ds : List Draw) (e : Agree i c d)
    (h1 : c.run (ds.map .draw) = some c') (h2 : d.run (ds.map .draw) = some d') : Agree i c' d' := by
  induction ds generalizing c d with
  | nil => cases h1; cases h2; exact e
  | cons k ks ih =>
    simp only [List.map_cons, run, step] at h1 h2
    cases e1 : c.draw k with
    | none => rw [e1] at h1; cases h1
    | some c1 =>
      cases e2 : d.draw k with
      | none => rw [e2] at h2; cases h2
      | some d1 =>
        rw [e1] at h1
        rw [e2] at h2
        exact ih (draw_agree k e e1 e2) h1 h2

theorem pushed_draws (raw : List Region) (ds : List Draw) : pushed raw (ds.map .draw) = raw := by
  induction ds with
  | nil => rfl
  | cons k ks ih => exact ih

/-- A place in the clip is in all regions pushed. -/
theorem within_clips {w h : Nat} (raw : List Region) {x y : Nat} (hw : Within (clipOf w h raw) x y) :
    ∀ k ∈ raw, Scroller.At k x y := by
  have at_of : ∀ k : Region, k.containsPoint x y = true → Scroller.At k x y := by
    intro k hk
    simp only [Region.containsPoint, Bool.and_eq_true, decide_eq_true_eq, satAdd] at hk
    obtain ⟨⟨⟨h1, h2⟩, h3⟩, h4⟩ := hk
    have := of_decide_eq_true h2
    have := of_decide_eq_true h4
    exact ⟨h1, by omega, h3, by omega⟩
  have key : ∀ raw : List Region, (clipOf w h raw).containsPoint x y = true → ∀ k ∈ raw, Scroller.At k x y := by
    intro raw
    induction raw with
    | nil => simp
    | cons r rest ih =>
      intro hcp
      rw [clipOf, Region.mem_intersection, Bool.and_eq_true] at hcp
      intro r' hr'
      rcases List.mem_cons.1 hr' with rfl | hr'
      · exact at_of _ hcp.1
      · exact ih hcp.2 r' hr'
  cases raw with
  | nil => simp
  | cons r rest =>
    obtain ⟨h3, h4⟩ := within_intersection (a := r) (b := clipOf w h rest) hw
    intro r' hr'
    rcases List.mem_cons.1 hr' with rfl | hr'
    · exact at_of _ h3
    · exact key rest h4 r' hr'

/-- Drawing leaves a cell alone that is not in all regions pushed. -/
theorem draws_clipped {w h : Nat} {raw : List Region} {c c' : Canvas} (i : Inv w h raw c) (ds : List Draw)
    (hr : c.run (ds.map .draw) = some c') {x y : Nat} (hx : x < w) (hn : ¬ ∀ k ∈ raw, Scroller.At k x y) :
    c'.cells[y * w + x]? = c.cells[y * w + x]? := by
  induction ds generalizing c with
  | nil => cases hr; rfl
  | cons k ks ih =>
    obtain ⟨c1, h1, o⟩ := draw_spec c (by rw [i.len, i.weq, i.heq]) k
    obtain ⟨c2, h2, i2⟩ := i.step (.draw k)
    simp only [List.map_cons, run, step, h1, Option.bind_some] at hr
    rw [show c.step (.draw k) = c.draw k from rfl, h1] at h2
    cases h2
    rw [ih i2 hr]
    have := o.same x y (by rw [i.weq]; exact hx) (by
      rw [i.currentClip]
      exact fun hw => hn (within_clips raw hw))
    rw [i.weq] at this
    exact this

/-- The columns of a text. -/
def columns (s : List Grapheme) : Nat := (s.map (·.width)).sum

theorem putGraphemes_inside (c : Canvas) (hl : c.cells.length = c.w * c.h) (x y : Int) (fg : Option Rgb)
    (bg : Option RgbaColor) (attrs : Attrs) (clip : Region) (s : List Grapheme) (hs : ∀ g ∈ s, 1 ≤ g.width) :
    ∃ c', putGraphemes c x y fg bg attrs clip s = some c' ∧
      OnlyCells (fun x' y' => (y' : Int) = y ∧ x ≤ x' ∧ (x' : Int) < x + columns s) c c' := by
  induction s generalizing c x with
  | nil => exact ⟨c, rfl, .refl c⟩
  | cons g gs ih =>
    unfold putGraphemes
    split
    · exact ⟨c, rfl, .refl c⟩
    · obtain ⟨c1, h1, h2⟩ := putGrapheme_spec c hl x y g fg bg attrs clip
      rw [h1]
      obtain ⟨c2, h3, h4⟩ := ih c1 (by rw [h2.len, h2.w, h2.h, hl]) (x + g.width) (fun g' h => hs g' (List.mem_cons_of_mem _ h))
      have := hs g (List.mem_cons_self ..)
      have e : columns (g :: gs) = g.width + columns gs := by simp [columns]
      exact ⟨c2, h3, (h2.weaken fun _ _ h => by omega).trans (h4.weaken fun _ _ h => by omega)⟩

theorem putStr_inside (c : Canvas) (hl : c.cells.length = c.w * c.h) (x y : Int) (s : List Grapheme)
    (fg bg : Option RgbaColor) (attrs : Attrs) (hs : ∀ g ∈ s, 1 ≤ g.width) :
    ∃ c', putStr c x y s fg bg attrs = some c' ∧
      OnlyCells (fun x' y' => (y' : Int) = y ∧ x ≤ x' ∧ (x' : Int) < x + columns s) c c' := by
  unfold putStr
  dsimp only
  split
  · exact ⟨c, rfl, .refl c⟩
  split
  · exact ⟨c, rfl, .refl c⟩
  exact putGraphemes_inside c hl x y _ bg attrs _ s hs

/-- The columns of a line. -/
def lineColumns (l : List DrawSeg) : Nat := (l.map (·.cellLength)).sum

/-- The segments say how long they are, and their graphemes have at least one column. -/
def Measured (l : List DrawSeg) : Prop := ∀ s ∈ l, s.cellLength = columns s.text ∧ ∀ g ∈ s.text, 1 ≤ g.width

theorem renderStrip_inside (c : Canvas) (hl : c.cells.length = c.w * c.h) (x y : Int) (l : List DrawSeg)
    (hm : Measured l) :
    ∃ c', renderStrip c x y l = some c' ∧
      OnlyCells (fun x' y' => (y' : Int) = y ∧ x ≤ x' ∧ (x' : Int) < x + lineColumns l) c c' := by
  induction l generalizing c x with
  | nil => exact ⟨c, rfl, .refl c⟩
  | cons s ss ih =>
    unfold renderStrip
    obtain ⟨m1, m2⟩ := hm s (List.mem_cons_self ..)
    obtain ⟨c1, h1, h2⟩ := putStr_inside c hl x y s.text s.fg s.bg s.attrs m2
    rw [h1]
    obtain ⟨c2, h3, h4⟩ := ih c1 (by rw [h2.len, h2.w, h2.h, hl]) (x + s.cellLength)
      (fun s' h => hm s' (List.mem_cons_of_mem _ h))
    have e : lineColumns (s :: ss) = s.cellLength + lineColumns ss := by simp [lineColumns]
    exact ⟨c2, h3, (h2.weaken fun _ _ h => by omega).trans (h4.weaken fun _ _ h => by omega)⟩

theorem renderStrips_inside (c : Canvas) (hl : c.cells.length = c.w * c.h) (x y : Int) (ls : List (List DrawSeg)) (w : Nat)
    (hm : ∀ l ∈ ls, Measured l ∧ lineColumns l ≤ w) :
    ∃ c', renderStrips c x y ls = some c' ∧
      OnlyCells (fun x' y' => (y ≤ y' ∧ (y' : Int) < y + ls.length) ∧ x ≤ x' ∧ (x' : Int) < x + w) c c' := by
  induction ls generalizing c y with
  | nil => exact ⟨c, rfl, .refl c⟩
  | cons l ls ih =>
    unfold renderStrips
    obtain ⟨m1, m2⟩ := hm l (List.mem_cons_self ..)
    obtain ⟨c1, h1, h2⟩ := renderStrip_inside c hl x y l m1
    rw [h1]
    obtain ⟨c2, h3, h4⟩ := ih c1 (by rw [h2.len, h2.w, h2.h, hl]) (y + 1) (fun s' h => hm s' (List.mem_cons_of_mem _ h))
    refine ⟨c2, h3, (h2.weaken fun _ _ h => ?_).trans (h4.weaken fun _ _ h => ?_)⟩ <;> simp only [List.length_cons] <;> omega

theorem session_run {env : TermEnv} {c c' : Canvas} {t t' : Term} (ops : List Op)
    (h : session env c t ops = some (c', t')) : c.run ops = some c' := by
  induction ops generalizing c t with
  | nil => cases h; rfl
  | cons op ops ih =>
    by_cases hf : op = .flush
    · subst hf
      exact ih h
    · have h' : ((c.step op).bind fun c => session env c t ops) = some (c', t') := by
        cases op <;> first
          | exact absurd rfl hf
          | exact h
      simp only [run]
      cases e : c.step op with
      | none => rw [e] at h'; cases h'
      | some c1 => rw [e] at h'; exact ih h'

end Textual.Canvas

namespace Textual.Nest

open Layout (Placement Viewport)
open Scroller (Mouse At OnScreen Body)
open Canvas (Agree Inv Op Draw OnlyCells Within)

/-- Drawing these changes cells of the region only. -/
def Inside (r : Region) (ds : List Draw) : Prop :=
  ∀ c : Canvas, c.cells.length = c.w * c.h → ∃ c', c.run (ds.map .draw) = some c' ∧ OnlyCells (Within r) c c'

/-- The containers draw the same. -/
structure SameBoxes (P Q : Paint) : Prop where
  before : P.before = Q.before
  over : P.over = Q.over
  after : P.after = Q.after

theorem calls_agree (vp : Viewport) (P Q : Paint) (hb : SameBoxes P Q) {w h x y : Nat} (hx : x < w) (n : Node) (r : Region)
    (raw : List Region) (hP : ∀ p ∈ painted vp n r raw, Inside p.2.1 (P.leaf p.1 p.2.1))
    (hQ : ∀ p ∈ painted vp n r raw, Inside p.2.1 (Q.leaf p.1 p.2.1))
    (hs : ∀ p ∈ painted vp n r raw, SeenAt p x y → P.leaf p.1 p.2.1 = Q.leaf p.1 p.2.1)
    (c d : Canvas) (ic : Inv w h raw c) (id : Inv w h raw d) (e : Agree (y * w + x) c d) :
    ∃ c' d', c.run (calls P vp n r) = some c' ∧ d.run (calls Q vp n r) = some d' ∧ Inv w h raw c' ∧ Inv w h raw d' ∧
      Agree (y * w + x) c' d' := by
  have draws : ∀ (raw : List Region) (c d : Canvas) (ds : List Draw), Inv w h raw c → Inv w h raw d →
      Agree (y * w + x) c d → ∃ c' d', c.run (ds.map .draw) = some c' ∧ d.run (ds.map .draw) = some d' ∧
        Inv w h raw c' ∧ Inv w h raw d' ∧ Agree (y * w + x) c' d' := by
    intro raw c d ds ic id e
    obtain ⟨c', h1, i1⟩ := ic.run (ds.map .draw)
    obtain ⟨d', h2, i2⟩ := id.run (ds.map .draw)
    rw [Canvas.pushed_draws] at i1 i2
    exact ⟨c', d', h1, h2, i1, i2, Canvas.draws_agree ds e h1 h2⟩
  induction n generalizing r raw c d with
  | leaf i a =>
    simp only [painted, List.forall_mem_singleton] at hP hQ hs
    simp only [calls]
    by_cases hseen : SeenAt (i, r, raw) x y
    · rw [← hs hseen]
      exact draws raw c d _ ic id e
    · obtain ⟨c', h1, i1⟩ := ic.run ((P.leaf i r).map .draw)
      obtain ⟨d', h2, i2⟩ := id.run ((Q.leaf i r).map .draw)
      rw [Canvas.pushed_draws] at i1 i2
      have key : ∀ (c c' : Canvas) (ds : List Draw), Inv w h raw c → Inside r ds → c.run (ds.map .draw) = some c' →
          c'.cells[y * w + x]? = c.cells[y * w + x]? := by
        intro c c' ds ic hin h1
        by_cases hk : ∀ k ∈ raw, At k x y
        · obtain ⟨c2, h2, o⟩ := hin c (by rw [ic.len, ic.weq, ic.heq])
          rw [h1] at h2
          cases h2
          have := o.same x y (by rw [ic.weq]; exact hx) (fun hw => hseen ⟨by
            simp only [Within] at hw
            simp only [At]
            omega, hk⟩)
          rw [ic.weq] at this
          exact this
        · exact Canvas.draws_clipped ic ds h1 hx hk
      refine ⟨c', d', h1, h2, i1, i2, by rw [i1.weq, i2.weq], by rw [i1.heq, i2.heq], by rw [i1.clips, i2.clips], ?_⟩
      rw [key c c' _ ic hP h1, key d d' _ id hQ h2, e.cell]
  | box b child ih =>
    simp only [calls, ← hb.before, ← hb.over, ← hb.after]
    obtain ⟨c1, d1, hc1, hd1, ic1, id1, e1⟩ := draws raw c d (P.before b r) ic id e
    have ic2 : Inv w h ((b.shown vp r).1 :: raw) (c1.pushClip (b.shown vp r).1) := by
      obtain ⟨c2, h2, i2⟩ := ic1.step (.push (b.shown vp r).1)
      cases h2
      exact i2
    have id2 : Inv w h ((b.shown vp r).1 :: raw) (d1.pushClip (b.shown vp r).1) := by
      obtain ⟨c2, h2, i2⟩ := id1.step (.push (b.shown vp r).1)
      cases h2
      exact i2
    have e2 : Agree (y * w + x) (c1.pushClip (b.shown vp r).1) (d1.pushClip (b.shown vp r).1) :=
      ⟨e1.w, e1.h, by rw [ic2.clips, id2.clips], e1.cell⟩
    have kids : ∀ (cs : List Placement), (∀ k ∈ cs, k ∈ (b.shown vp r).2) → ∀ (c d : Canvas),
        Inv w h ((b.shown vp r).1 :: raw) c → Inv w h ((b.shown vp r).1 :: raw) d → Agree (y * w + x) c d →
        ∃ c' d', c.run (cs.flatMap fun k => calls P vp (child k.childIndex) k.region) = some c' ∧
          d.run (cs.flatMap fun k => calls Q vp (child k.childIndex) k.region) = some d' ∧
          Inv w h ((b.shown vp r).1 :: raw) c' ∧ Inv w h ((b.shown vp r).1 :: raw) d' ∧ Agree (y * w + x) c' d' := by
      intro cs
      induction cs with
      | nil => exact fun _ c d ic id e => ⟨c, d, rfl, rfl, ic, id, e⟩
      | cons k ks ihk =>
        intro hmem c d ic id e
        have hk := hmem k (List.mem_cons_self ..)
        have sub : ∀ p ∈ painted vp (child k.childIndex) k.region ((b.shown vp r).1 :: raw),
            p ∈ painted vp (.box b child) r raw := fun p hp => List.mem_flatMap.2 ⟨k, hk, hp⟩
        obtain ⟨c1, d1, h1, h2, i1, i2, e1⟩ := ih k.childIndex k.region ((b.shown vp r).1 :: raw)
          (fun p hp => hP p (sub p hp)) (fun p hp => hQ p (sub p hp)) (fun p hp => hs p (sub p hp)) c d ic id e
        obtain ⟨c2, d2, h3, h4, i3, i4, e2⟩ := ihk (fun k' h => hmem k' (List.mem_cons_of_mem _ h)) c1 d1 i1 i2 e1
        refine ⟨c2, d2, ?_, ?_, i3, i4, e2⟩
        · rw [List.flatMap_cons, Canvas.run_ops, h1]; exact h3
        · rw [List.flatMap_cons, Canvas.run_ops, h2]; exact h4
    obtain ⟨c3, d3, hc3, hd3, ic3, id3, e3⟩ := kids _ (fun _ h => h) _ _ ic2 id2 e2
    obtain ⟨c4, d4, hc4, hd4, ic4, id4, e4⟩ := draws _ c3 d3 (P.over b r) ic3 id3 e3
    have ic5 : Inv w h raw c4.popClip := by
      obtain ⟨c2, h2, i2⟩ := ic4.step .pop
      cases h2
      exact i2
    have id5 : Inv w h raw d4.popClip := by
      obtain ⟨c2, h2, i2⟩ := id4.step .pop
      cases h2
      exact i2
    have e5 : Agree (y * w + x) c4.popClip d4.popClip := ⟨e4.w, e4.h, by rw [ic5.clips, id5.clips], e4.cell⟩
    obtain ⟨c6, d6, hc6, hd6, ic6, id6, e6⟩ := draws raw _ _ (P.after b r) ic5 id5 e5
    refine ⟨c6, d6, ?_, ?_, ic6, id6, e6⟩
    · rw [Canvas.run_ops, Canvas.run_ops, hc1]
      simp only [Option.bind_some, List.cons_append, Canvas.run, Canvas.step]
      rw [Canvas.run_ops, Canvas.run_ops, hc3]
      simp only [Option.bind_some, hc4, Canvas.run, Canvas.step, hc6]
    · rw [Canvas.run_ops, Canvas.run_ops, hd1]
      simp only [Option.bind_some, List.cons_append, Canvas.run, Canvas.step]
      rw [Canvas.run_ops, Canvas.run_ops, hd3]
      simp only [Option.bind_some, hd4, Canvas.run, Canvas.step, hd6]

/-- **C177**: what a cell of the frame shows depends only on the containers and on the widgets seen at this place: two
frames, whatever was drawn before each of them, agree on every cell at which the widgets seen draw the same. Widgets draw
inside their own region. -/
theorem cell_of_seen {w h : Nat} {c0 : Canvas} (h0 : Canvas.new w h = some c0) (n : Node) (P Q : Paint)
    (hb : SameBoxes P Q) (before before' : List Op) (x y : Nat) (hx : x < w)
    (hP : ∀ p ∈ painted ⟨w, h⟩ n ⟨0, 0, w, h⟩ [], Inside p.2.1 (P.leaf p.1 p.2.1))
    (hQ : ∀ p ∈ painted ⟨w, h⟩ n ⟨0, 0, w, h⟩ [], Inside p.2.1 (Q.leaf p.1 p.2.1))
    (hs : ∀ p ∈ painted ⟨w, h⟩ n ⟨0, 0, w, h⟩ [], SeenAt p x y → P.leaf p.1 p.2.1 = Q.leaf p.1 p.2.1) :
    ∃ c d, c0.run (before ++ frame P ⟨w, h⟩ n) = some c ∧ c0.run (before' ++ frame Q ⟨w, h⟩ n) = some d ∧
      c.cells[y * w + x]? = d.cells[y * w + x]? := by
  obtain ⟨c1, h1, i1⟩ := (Inv.new h0).run before
  obtain ⟨d1, h2, i2⟩ := (Inv.new h0).run before'
  obtain ⟨c2, h3, i3⟩ := i1.step .clear
  obtain ⟨d2, h4, i4⟩ := i2.step .clear
  cases h3; cases h4
  obtain ⟨c, d, h5, h6, -, -, e⟩ := calls_agree ⟨w, h⟩ P Q hb hx n ⟨0, 0, w, h⟩ [] hP hQ hs _ _ i3 i4
    ⟨i3.weq.trans i4.weq.symm, i3.heq.trans i4.heq.symm, rfl, by
      have hl : c1.cells.length = d1.cells.length := by rw [i1.len, i2.len]
      simp only [Canvas.clear, List.getElem?_map]
      by_cases hi : y * w + x < c1.cells.length
      · rw [List.getElem?_eq_getElem hi, List.getElem?_eq_getElem (hl ▸ hi)]
        rfl
      · rw [List.getElem?_eq_none (by omega), List.getElem?_eq_none (by omega)]⟩
  refine ⟨c, d, ?_, ?_, e.cell⟩
  · rw [Canvas.run_ops, h1]; exact h5
  · rw [Canvas.run_ops, h2]; exact h6

/-- **C177** (partial: containers as in C174, widgets that draw inside their region). What a cell of the frame shows
depends, among all widgets of the tree, only on the one that a click there reaches. -/
theorem cell_of_reached_partial {w h : Nat} {c0 : Canvas} (h0 : Canvas.new w h = some c0) (n : Node) (P Q : Paint)
    (hb : SameBoxes P Q) (before before' : List Op)
    (hP : ∀ p ∈ painted ⟨w, h⟩ n ⟨0, 0, w, h⟩ [], Inside p.2.1 (P.leaf p.1 p.2.1))
    (hQ : ∀ p ∈ painted ⟨w, h⟩ n ⟨0, 0, w, h⟩ [], Inside p.2.1 (Q.leaf p.1 p.2.1))
    (hg : Good ⟨w, h⟩ n ⟨0, 0, w, h⟩) (ha : NoOverlap ⟨w, h⟩ n) (k : Scroller.Kind) (hk : k.points = true) (x y : Nat)
    (hx : x < w) (hx' : x < 65536) (hy' : y < 65536)
    (hs : ∀ p ∈ (reach ⟨w, h⟩ ⟨k, x, y, false⟩ n ⟨0, 0, w, h⟩).1, P.leaf p.1 p.2 = Q.leaf p.1 p.2) :
    ∃ c d, c0.run (before ++ frame P ⟨w, h⟩ n) = some c ∧ c0.run (before' ++ frame Q ⟨w, h⟩ n) = some d ∧
      c.cells[y * w + x]? = d.cells[y * w + x]? := by
  refine cell_of_seen h0 n P Q hb before before' x y hx hP hQ ?_
  rintro ⟨id, r', ks⟩ hp hseen
  exact hs (id, r') ((seen_reached_partial ⟨w, h⟩ ⟨k, x, y, false⟩ (by simp only [OnScreen]; omega) hk n _ hg ha [] id r' ks
    hp hseen _).2 rfl)

/-- **C177** (partial, as `cell_of_reached_partial`, for characters of one column). The same on the terminal: two programs
with any histories of drawing behind them whose widget under the pointer draws the same show the same there. -/
theorem terminal_of_reached_partial {env : TermEnv} (hj : env.Ok) (hsp : env.width " " = 1) {w h : Nat} {c0 : Canvas}
    (h0 : Canvas.new w h = some c0) (n : Node) (P Q : Paint) (hb : SameBoxes P Q) (before before' : List Op)
    (hP : ∀ p ∈ painted ⟨w, h⟩ n ⟨0, 0, w, h⟩ [], Inside p.2.1 (P.leaf p.1 p.2.1))
    (hQ : ∀ p ∈ painted ⟨w, h⟩ n ⟨0, 0, w, h⟩ [], Inside p.2.1 (Q.leaf p.1 p.2.1))
    (hg : Good ⟨w, h⟩ n ⟨0, 0, w, h⟩) (ha : NoOverlap ⟨w, h⟩ n) (k : Scroller.Kind) (hk : k.points = true) (x y : Nat)
    (hx : x < w) (hy : y < h) (hx' : x < 65536) (hy' : y < 65536)
    (hs : ∀ p ∈ (reach ⟨w, h⟩ ⟨k, x, y, false⟩ n ⟨0, 0, w, h⟩).1, P.leaf p.1 p.2 = Q.leaf p.1 p.2)
    (n1 : ∀ op ∈ before ++ frame P ⟨w, h⟩ n, op.Narrow env) (n2 : ∀ op ∈ before' ++ frame Q ⟨w, h⟩ n, op.Narrow env)
    (t u t' u' : Term) (c d : Canvas) (ht : t.w = w ∧ t.h = h) (hu : u.w = w ∧ u.h = h)
    (s1 : Canvas.session env c0 t (before ++ frame P ⟨w, h⟩ n) = some (c, t'))
    (s2 : Canvas.session env c0 u (before' ++ frame Q ⟨w, h⟩ n) = some (d, u')) :
    (t'.run env c.flush.1).screen (y * w + x) = (u'.run env d.flush.1).screen (y * w + x) := by
  obtain ⟨c1, d1, h1, h2, e⟩ := cell_of_reached_partial h0 n P Q hb before before' hP hQ hg ha k hk x y hx hx' hy' hs
  rw [Canvas.session_run _ s1] at h1
  rw [Canvas.session_run _ s2] at h2
  cases h1; cases h2
  obtain ⟨c2, h3, i⟩ := (Inv.new h0).run (before ++ frame P ⟨w, h⟩ n)
  rw [Canvas.session_run _ s1] at h3
  cases h3
  have hi : y * w + x < c.cells.length := by rw [i.len]; exact Canvas.index_lt hx hy
  rw [Canvas.narrow_session_flush_shows hj hsp h0 ht.1 ht.2 _ n1 s1 x y _ (List.getElem?_eq_getElem hi),
    Canvas.narrow_session_flush_shows hj hsp h0 hu.1 hu.2 _ n2 s2 x y _ (by rw [← e]; exact List.getElem?_eq_getElem hi)]

/-- **C177**: a widget that draws lines not longer and not more than its region has room for draws inside it. Characters
have at least one column. -/
theorem lines_inside (r : Region) (ls : List (List Canvas.DrawSeg)) (h1 : (ls.length : Int) ≤ r.height)
    (h2 : ∀ l ∈ ls, Canvas.Measured l ∧ (Canvas.lineColumns l : Int) ≤ r.width) : Inside r [.strips r.x r.y ls] := by
  intro c hl
  obtain ⟨c', e, o⟩ := Canvas.renderStrips_inside c hl r.x r.y ls r.width.toNat
    (fun l hl' => ⟨(h2 l hl').1, by have := (h2 l hl').2; omega⟩)
  refine ⟨c', by simp [Canvas.run, Canvas.step, Canvas.draw, e], o.weaken fun x y h => ?_⟩
  simp only [Within]
  by_cases hz : ls = []
  · subst hz
    simp only [List.length_nil] at h
    omega
  · obtain ⟨l, hl'⟩ := List.exists_mem_of_ne_nil _ hz
    have := (h2 l hl').2
    omega

/-- Each widget fills its region with one letter; containers draw nothing. -/
def letters (letter : Nat → String) : Paint where
  leaf id r := [.strips r.x r.y (List.replicate r.height.toNat
    (List.replicate r.width.toNat ⟨[⟨letter id, 1⟩], none, none, {}, 1⟩))]
  before _ _ := []
  over _ _ := []
  after _ _ := []

theorem letters_inside (letter : Nat → String) (vp : Viewport) (n : Node) (r : Region)
    (hpos : ∀ p ∈ painted vp n r [], 0 ≤ p.2.1.width ∧ 0 ≤ p.2.1.height) :
    ∀ p ∈ painted vp n r [], Inside p.2.1 ((letters letter).leaf p.1 p.2.1) := by
  intro p hp
  have := hpos p hp
  refine lines_inside _ _ (by simp; omega) fun l hl => ?_
  rw [List.eq_of_mem_replicate hl]
  refine ⟨fun s hs => ?_, by simp [Canvas.lineColumns]; omega⟩
  rw [List.eq_of_mem_replicate hs]
  simp [Canvas.columns]

/-- The tree of C174: three widgets, one of them scrolled and clipped. A press at column 3, row 4 reaches widget 11. -/
example : ∃ c0, Canvas.new 20 10 = some c0 ∧ SameBoxes (letters toString) (letters fun i => if i = 11 then "11" else "?") ∧
    Good ⟨20, 10⟩ tree ⟨0, 0, 20, 10⟩ ∧ NoOverlap ⟨20, 10⟩ tree ∧
    (∀ l, ∀ p ∈ painted ⟨20, 10⟩ tree ⟨0, 0, 20, 10⟩ [], Inside p.2.1 ((letters l).leaf p.1 p.2.1)) ∧
    (∀ p ∈ (reach ⟨20, 10⟩ ⟨.down, 3, 4, false⟩ tree ⟨0, 0, 20, 10⟩).1, p.1 = 11) ∧
    (c0.run (frame (letters toString) ⟨20, 10⟩ tree)).map (fun c => (c.cells[4 * 20 + 3]?.map (·.symbol),
      c.cells[5 * 20 + 3]?.map (·.symbol), c.cells[6 * 20 + 3]?.map (·.symbol))) = some (some "11", some " ", some "2") := by
  refine ⟨_, rfl, ⟨rfl, rfl, rfl⟩, tree_ok.1, tree_ok.2, fun l => letters_inside l _ _ _ ?_, ?_, ?_⟩
  all_goals decide +kernel

/-- Two widgets side by side, four and six columns wide. -/
def side : Body := { arrange := fun a _ => [⟨0, ⟨a.x, a.y, 4, 1⟩⟩, ⟨1, ⟨a.x + 4, a.y, 6, 1⟩⟩] }

/-- A switch and a widget that shows nothing. -/
def switchPaint (on : Bool) : Paint where
  leaf id r := if id = 0 then (Press.Switch.render { value := on } false none none r).getD [] else []
  before _ _ := []
  over _ _ := []
  after _ _ := []

/-- **C177** is false for widgets that draw beyond their region: where the second widget is, and a click reaches it, the
switch beside it shows. -/
theorem beyond_counterexample :
    let n : Node := .box (.screen { overflowX := .hidden } side (fun _ => false) {}) fun i => .leaf i true
    (reach ⟨10, 1⟩ ⟨.down, 5, 0, false⟩ n ⟨0, 0, 10, 1⟩).1 = [(1, ⟨4, 0, 6, 1⟩)] ∧
    (∀ r, (switchPaint true).leaf 1 r = (switchPaint false).leaf 1 r) ∧
    ∃ c0, Canvas.new 10 1 = some c0 ∧
      (c0.run (frame (switchPaint true) ⟨10, 1⟩ n)).map (fun c => c.cells.map (·.symbol)) =
        some [" ", "[", " ", " ", "O", "N", " ", " ", "]", " "] ∧
      (c0.run (frame (switchPaint false) ⟨10, 1⟩ n)).map (fun c => c.cells.map (·.symbol)) =
        some [" ", "[", " ", "O", "F", "F", " ", " ", "]", " "] := by
  refine ⟨by decide +kernel, fun _ => rfl, _, rfl, ?_, ?_⟩ <;> decide +kernel

end Textual.Nest
