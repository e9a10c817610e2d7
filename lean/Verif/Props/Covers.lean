import Verif.Lemmas.Dressed
import Verif.Props.RenderCacheLook
import Verif.Props.InTree
import Verif.Model.Look

/-!
C189: a text widget with an opaque background hides what is behind it, and shows its text in its colours.
-/

namespace Textual.Static

open Content (WrappedLine asciiWs)
open RenderCache (cacheAfter Cache Kind Room NoOutline NoClash)
open Dressed (Made Label)

/-- A style with an opaque background. -/
def Opaque (st : Style) : Prop := ∃ b ∈ st.bg, 1 ≤ b.a

/-- The cell of a character in a style with an opaque background. -/
def solid (k : StripCell) : Cell :=
  ⟨k.g.text, 1, false, (k.style.getD {}).fg.map toCrosstermColor, (k.style.getD {}).bg.map toCrosstermRgb,
    (k.style.getD {}).attrs⟩

/-- An opaque character replaces what is in its cell. -/
theorem drawnOn_opaque {k : StripCell} (h : Opaque (k.style.getD {})) (old : Cell) : drawnOn k old = solid k := by
  obtain ⟨b, hb, ha⟩ := h
  have hb' : (k.style.getD {}).bg = some b := hb
  have hn : ¬ b.a < 1 := Rat.not_lt.mpr ha
  have ht : b.isTransparent = false := by
    unfold RgbaColor.isTransparent
    refine decide_eq_false fun h => ?_
    have : (0 : Rat) < 1 := by decide
    exact absurd (Rat.le_trans ha h) (Rat.not_le.mpr this)
  unfold drawnOn solid
  dsimp only
  rw [if_neg]
  · unfold resolveBackground
    rw [hb']
    dsimp only
    rw [ht, if_neg hn]
    rfl
  · rintro ⟨-, -, b', hm, -, hlt⟩
    rw [hb'] at hm
    cases hm
    exact hn hlt

/-- The border of this kind is all on the widget's own background. -/
def Inner (k : Kind) : Prop := k.zones = ⟨0, 0, 0, 0, 0, 0, 0, 0, 0⟩

instance (k : Kind) : Decidable (Inner k) := inferInstanceAs (Decidable (_ = _))

/-- The backgrounds a widget draws on: its own is of a kind, and what is behind it too if a border needs that. -/
def Grounds (P : Option RgbaColor → Prop) (s : RenderCache.Sheet) : Prop :=
  P s.style.effectiveBackground ∧
  (P s.style.inheritedBackground ∨ (Inner s.border.top.kind ∧ Inner s.outline.top.kind))

theorem zone_bg {P : Option RgbaColor → Prop} {i o : Style} (z : Nat) (hi : P i.bg) (ho : z ≠ 0 → P o.bg) :
    P (RenderCache.zoneStyle z i o).bg := by
  unfold RenderCache.zoneStyle
  split
  · exact hi
  rename_i hz
  have := ho hz
  split
  · exact this
  split
  · exact this
  split
  · exact hi
  · exact hi

theorem edges_ground {P : Option RgbaColor → Prop} (k : Kind) (a b c d : Style × Style)
    (h : ∀ e ∈ [a, b, c, d], P e.1.bg ∧ (P e.2.bg ∨ Inner k)) : Dressed.Box (fun st => P st.bg) (RenderCache.perEdgeBox k a b c d) := by
  have key : ∀ (e : Style × Style) (z : Nat), e ∈ [a, b, c, d] → (Inner k → z = 0) → P (RenderCache.zoneStyle z e.1 e.2).bg := by
    intro e z he hz
    exact zone_bg z (h e he).1 fun hne => (h e he).2.resolve_right fun hi => hne (hz hi)
  have row : ∀ (e1 e2 e3 : Style × Style) (x y z : String) (u v w : Nat), e1 ∈ [a, b, c, d] → e2 ∈ [a, b, c, d] → e3 ∈ [a, b, c, d] →
      (Inner k → u = 0) → (Inner k → v = 0) → (Inner k → w = 0) →
      Dressed.Row (fun st => P st.bg) ⟨RenderCache.piece x (RenderCache.zoneStyle u e1.1 e1.2),
        RenderCache.piece y (RenderCache.zoneStyle v e2.1 e2.2), RenderCache.piece z (RenderCache.zoneStyle w e3.1 e3.2)⟩ := by
    intro e1 e2 e3 x y z u v w h1 h2 h3 z1 z2 z3
    exact .cons (key e1 u h1 z1) (.cons (key e2 v h2 z2) (.one (key e3 w h3 z3)))
  have ha : a ∈ [a, b, c, d] := by simp
  have hb : b ∈ [a, b, c, d] := by simp
  have hc : c ∈ [a, b, c, d] := by simp
  have hd : d ∈ [a, b, c, d] := by simp
  unfold Inner at row
  refine ⟨row _ _ _ _ _ _ _ _ _ ha ha ha ?_ ?_ ?_, row _ _ _ _ _ _ _ _ _ hc ha hd ?_ ?_ ?_, row _ _ _ _ _ _ _ _ _ hb hb hb ?_ ?_ ?_⟩ <;>
    (intro e; rw [e])

theorem box_ground {P : Option RgbaColor → Prop} (k : Kind) (i o : Style) (hi : P i.bg) (ho : P o.bg ∨ Inner k) :
    Dressed.Box (fun st => P st.bg) (RenderCache.generateBox k i o) := by
  have := edges_ground (P := P) k (i, o) (i, o) (i, o) (i, o) (by
    intro e he
    simp only [List.mem_cons, List.not_mem_nil, or_false, or_self] at he
    subst he
    exact ⟨hi, ho⟩)
  exact this

/-- The backgrounds in the chrome of a widget that is the first to be drawn. -/
theorem cache_ground {P : Option RgbaColor → Prop} (s : RenderCache.Sheet) (h : Grounds P s) :
    Dressed.CacheOf (fun st => P st.bg) (cacheAfter [] s) := by
  obtain ⟨h1, h2⟩ := h
  refine ⟨?_, ?_, ?_⟩
  · have : (cacheAfter [] s).padStyle = s.style.effectiveBackground.map fun bg => { bg := some bg } := by
      unfold cacheAfter Cache.new
      rfl
    rw [this]
    cases e : s.style.effectiveBackground with
    | none => rw [e] at h1; exact h1
    | some b => rw [e] at h1; exact h1
  · intro b hb
    rw [RenderCache.alone_box s b hb]
    refine edges_ground _ _ _ _ _ ?_
    intro e he
    simp only [List.mem_cons, List.not_mem_nil, or_false] at he
    rcases he with rfl | rfl | rfl | rfl <;> exact ⟨h1, h2.imp_right And.left⟩
  · intro b hb
    obtain ⟨-, bs', hbs, e, -⟩ := RenderCache.new_boxes (RenderCache.boxesAfter []) s
    rw [e b hb]
    unfold RenderCache.outlineBoxOf
    dsimp only
    unfold RenderCache.getBox
    dsimp only
    split
    · rename_i b' hl
      have hm := RenderCache.lookup_mem hl
      rcases hbs with rfl | rfl
      · cases hm
      · unfold RenderCache.borderBox at hm
        dsimp only at hm
        split at hm
        · rcases List.mem_cons.1 hm with hm | hm
          · injection hm with hk hv
            rw [hv]
            injection hk with hk _
            exact box_ground _ _ _ h1 (h2.imp_right And.left)
          · cases hm
        · cases hm
    · exact box_ground _ _ _ h1 (h2.imp_right And.right)

/-- C95 for the whole cache: without colour clashes it does not matter which widgets were drawn before. -/
theorem cache_same (hist : List RenderCache.Sheet) (s : RenderCache.Sheet) (h : NoClash (s :: hist)) :
    cacheAfter hist s = cacheAfter [] s := by
  have hP : RenderCache.Inj fun c => ∃ t ∈ s :: hist, RenderCache.Uses t c := by
    rintro c d ⟨t, ht, hc⟩ ⟨u, hu, hd⟩ e1 e2 e3
    exact h t ht u hu c d hc hd e1 e2 e3
  have hb : ∀ (l : List RenderCache.Sheet), (∀ t ∈ l, t ∈ hist) → ∀ bs : RenderCache.Boxes,
      bs.From (fun c => ∃ t ∈ s :: hist, RenderCache.Uses t c) →
      RenderCache.Boxes.From (fun c => ∃ t ∈ s :: hist, RenderCache.Uses t c) (l.foldl (fun b s => (Cache.new b s).2) bs) := by
    intro l
    induction l with
    | nil => intro _ bs hb; exact hb
    | cons t l ih =>
      intro hl bs hb
      exact ih (fun u hu => hl u (List.mem_cons_of_mem _ hu)) _
        (RenderCache.new_from hb t fun c hc => ⟨t, List.mem_cons_of_mem _ (hl t (List.mem_cons_self ..)), hc⟩).1
  exact (RenderCache.new_from (hb hist (fun _ h => h) [] (fun p hp => by cases hp)) s
    fun c hc => ⟨s, List.mem_cons_self .., hc⟩).2 hP

theorem Opaque.link {st : Style} (h : Opaque st) (link : Content.LinkStyle) (b : Bool) :
    Opaque (Content.applyLinkStyle st link b) := by
  obtain ⟨c, hc, ha⟩ := h
  have hc' : st.bg = some c := hc
  unfold Content.applyLinkStyle
  dsimp only
  generalize (if b = true then link.backgroundHover.or link.background else link.background) = l
  unfold Opaque
  dsimp only
  rw [hc']
  unfold Content.linkBackground
  cases l with
  | none => exact ⟨c, rfl, ha⟩
  | some l =>
    dsimp only
    split
    · refine ⟨_, rfl, ?_⟩
      unfold RgbaColor.blendOver
      split
      · rename_i h; exact h
      · exact ha
    · rename_i h
      exact ⟨l, rfl, Rat.not_lt.mp h⟩


/-- The styles of the lines of a text. -/
theorem lines_dressed {P : Style → Prop} (s : Sheet) (ws : Grapheme → Bool) (content : Content.Content)
    (h : ∀ g ∈ content.text, g.text ≠ "\n" → g.width = 1) (hovered : Option String)
    (hm : Made P { content with style := some s.text, linkStyle := some s.link, hovered := hovered })
    (w : Nat) (lines : List WrappedLine) (e : textLines s ws content hovered w = some lines) :
    ∀ line ∈ lines, Dressed P line.strip.segments := by
  have base : ∀ l, (if w > 0 then ({ content with style := some s.text, linkStyle := some s.link, hovered := hovered } : Content.Content).wrapFull ws
      (max (w - 2 * s.linePad) 1) s.overflow s.wrap else some []) = some l → ∀ line ∈ l, Dressed P line.strip.segments := by
    intro l e
    split at e
    · exact Dressed.wrapFull hm h ws _ _ _ l e
    · cases e; intro x hx; cases hx
  unfold textLines at e
  dsimp only at e
  split at e
  · obtain ⟨l, h1, rfl⟩ := Option.map_eq_some_iff.1 e
    intro line hl
    obtain ⟨x, hx, rfl⟩ := List.mem_map.1 hl
    refine .join ?_
    intro t ht
    simp only [List.mem_cons, List.not_mem_nil, or_false] at ht
    rcases ht with rfl | rfl | rfl
    · exact .blank _ hm.base
    · exact base l h1 x hx
    · exact .blank _ hm.base
  · exact base lines e

/-- The text is as plain as can be: all in one style. -/
theorem plain_made {P : Style → Prop} {c : Content.Content} (h : P (c.style.getD {})) (hp : c.spans = none) : Made P c where
  base := h
  span := by rw [hp]; intro _ h; cases h
  link := by
    rw [hp]
    rintro _ _ ⟨_, h, _⟩
    cases h

/-- Text whose markup has opaque backgrounds only. -/
theorem opaque_made {c : Content.Content} (h : Opaque (c.style.getD {}))
    (hs : ∀ spans ∈ c.spans, ∀ sp ∈ spans, ∀ b ∈ sp.style.bg, 1 ≤ b.a) : Made Opaque c where
  base := h
  span := by
    rintro spans hm sp hsp st ⟨b, hb, ha⟩
    have := hs spans hm sp hsp
    unfold Style.apply Opaque
    dsimp only
    cases e : sp.style.bg with
    | none => exact ⟨b, hb, ha⟩
    | some b' => rw [e] at this; exact ⟨b', rfl, this b' rfl⟩
  link := fun link _ _ st b h => h.link link b

/-- The cells a widget is drawn in have the backgrounds it is made of, whatever was there. -/
theorem ground_at (P : Option RgbaColor → Prop) (hP : ∀ bg, P bg → ∃ b ∈ bg, 1 ≤ b.a) (hist : List RenderCache.Sheet) (s : Sheet)
    (hc : NoClash (s.frame :: hist)) (hg : Grounds P s.frame) (ht : P s.text.bg)
    (lines : List WrappedLine) (hl : ∀ line ∈ lines, Dressed (fun st => P st.bg) line.strip.segments ∧ line.strip.OneColumn)
    (title subtitle : Option Strip) (h1 : ∀ t ∈ title, Label (fun st => P st.bg) t)
    (h2 : ∀ t ∈ subtitle, Label (fun st => P st.bg) t)
    (r : Region) (hr : Room s.frame r.width.toNat title subtitle) (hw : title ≠ none ∨ subtitle ≠ none → 8 ≤ r.width)
    (X Y : Nat) (hin : Scroller.At r X Y) :
    ∃ k : StripCell, P (k.style.getD {}).bg ∧ ∀ (c : Canvas), c.cells.length = c.w * c.h → X < c.w → Y < c.h →
      Canvas.Within c.currentClip X Y →
      ∃ c', c.run ((paint s false (cacheAfter hist s.frame) lines title subtitle none none r).map .draw) = some c' ∧
        c'.cells[Y * c.w + X]? = some (solid k) := by
  obtain ⟨i1, i2, i3, i4⟩ := hin
  have o1 : ∀ t ∈ title, t.OneColumn := fun t h => (h1 t h).one
  have o2 : ∀ t ∈ subtitle, t.OneColumn := fun t h => (h2 t h).one
  have hl1 : ∀ line ∈ lines, line.strip.OneColumn := fun l h => (hl l h).2
  obtain ⟨e1, e2⟩ := rows_good hist s lines title subtitle r.width.toNat r.height.toNat hr hl1 o1 o2
  have hd : ∀ row ∈ (drawLines s (cacheAfter hist s.frame) lines title subtitle r.width.toNat r.height.toNat).rows,
      Dressed (fun st => P st.bg) row.segments := by
    rw [cache_same hist s.frame hc]
    exact Dressed.rows (P := fun st => P st.bg) ht (cache_ground s.frame hg) (fun l h => (hl l h).1) h1 h2 _ _
      (fun h => by have := hw h; omega)
  obtain ⟨row, hrow⟩ : ∃ row, (drawLines s (cacheAfter hist s.frame) lines title subtitle r.width.toNat
      r.height.toNat).rows[(Y - r.y : Int).toNat]? = some row := ⟨_, List.getElem?_eq_getElem (by omega)⟩
  have hm := List.mem_of_getElem? hrow
  obtain ⟨k, hk⟩ : ∃ k, row.cells[(X - r.x : Int).toNat]? = some k := by
    have := (e2 row hm).2
    exact ⟨_, List.getElem?_eq_getElem (by omega)⟩
  have hop := (hd row hm).cells k (List.mem_of_getElem? hk)
  refine ⟨k, hop, fun c hcl hX hY hwi => ?_⟩
  obtain ⟨c', run, -, sh⟩ := rows_on_canvas_partial hist s lines title subtitle none none r (by omega) (by omega) hr hl1 o1 o2
    (fun _ h => by cases h) c hcl
  refine ⟨c', run, ?_⟩
  rw [(sh _ row _ k X Y hrow hk (by omega) (by omega) hX hY hwi).1 rfl rfl]
  have hi : Y * c.w + X < c.cells.length := by rw [hcl]; exact Canvas.index_lt hX hY
  rw [List.getElem?_eq_getElem hi, Option.map_some, drawnOn_opaque (hP _ hop)]

/-- **C189** (partial: no colour clash in the box cache, one-column characters, room for the labels). A text widget with an
opaque background hides what is behind it: drawn on two canvases of the same size and clip, whatever is on them, it
leaves the same in every cell of its region that is not clipped away. -/
theorem covers_partial (hist : List RenderCache.Sheet) (s : Sheet) (hc : NoClash (s.frame :: hist))
    (hg : Grounds (fun bg => ∃ b ∈ bg, 1 ≤ b.a) s.frame) (ht : Opaque s.text)
    (ws : Grapheme → Bool) (content : Content.Content) (hovered : Option String)
    (ho : ∀ g ∈ content.text, g.text ≠ "\n" → g.width = 1)
    (hs : ∀ spans ∈ content.spans, ∀ sp ∈ spans, ∀ b ∈ sp.style.bg, 1 ≤ b.a)
    (w : Nat) (lines : List WrappedLine) (e : textLines s ws content hovered w = some lines)
    (title subtitle : Option Strip) (h1 : ∀ t ∈ title, Label Opaque t) (h2 : ∀ t ∈ subtitle, Label Opaque t)
    (r : Region) (hr : Room s.frame r.width.toNat title subtitle) (hw : title ≠ none ∨ subtitle ≠ none → 8 ≤ r.width)
    (c1 c2 : Canvas) (hl1 : c1.cells.length = c1.w * c1.h) (hl2 : c2.cells.length = c2.w * c2.h)
    (hw' : c1.w = c2.w) (hh' : c1.h = c2.h) (hcl : c1.currentClip = c2.currentClip)
    (X Y : Nat) (hin : Scroller.At r X Y) (hX : X < c1.w) (hY : Y < c1.h) (hcX : Canvas.Within c1.currentClip X Y) :
    ∃ d1 d2, c1.run ((paint s false (cacheAfter hist s.frame) lines title subtitle none none r).map .draw) = some d1 ∧
      c2.run ((paint s false (cacheAfter hist s.frame) lines title subtitle none none r).map .draw) = some d2 ∧
      d1.cells[Y * c1.w + X]? = d2.cells[Y * c1.w + X]? ∧ (d1.cells[Y * c1.w + X]?).isSome := by
  obtain ⟨k, -, hk⟩ := ground_at (fun bg => ∃ b ∈ bg, 1 ≤ b.a) (fun _ h => h) hist s hc hg ht lines
    (fun l h => ⟨lines_dressed s ws content ho hovered (opaque_made ht hs) w lines e l h,
      textLines_one s ws content ho hovered w lines e l h⟩) title subtitle h1 h2 r hr hw X Y hin
  obtain ⟨d1, a1, b1⟩ := hk c1 hl1 hX hY hcX
  obtain ⟨d2, a2, b2⟩ := hk c2 hl2 (hw' ▸ hX) (hh' ▸ hY) (hcl ▸ hcX)
  rw [← hw'] at b2
  exact ⟨d1, d2, a1, a2, b1.trans b2.symm, by rw [b1]; rfl⟩

/-- **C189** (partial, as above). A text widget with an opaque background, a border all on it and unmarked text is on this
background everywhere: text, blanks, padding and border. -/
theorem background_partial (hist : List RenderCache.Sheet) (s : Sheet) (hc : NoClash (s.frame :: hist)) (b : RgbaColor)
    (ha : 1 ≤ b.a) (hb : s.frame.style.effectiveBackground = some b) (hi : Inner s.frame.border.top.kind)
    (hi' : Inner s.frame.outline.top.kind) (ht : s.text.bg = some b)
    (ws : Grapheme → Bool) (content : Content.Content) (hovered : Option String)
    (ho : ∀ g ∈ content.text, g.text ≠ "\n" → g.width = 1) (hs : content.spans = none)
    (w : Nat) (lines : List WrappedLine) (e : textLines s ws content hovered w = some lines)
    (title subtitle : Option Strip) (h1 : ∀ t ∈ title, Label (·.bg = some b) t) (h2 : ∀ t ∈ subtitle, Label (·.bg = some b) t)
    (r : Region) (hr : Room s.frame r.width.toNat title subtitle) (hw : title ≠ none ∨ subtitle ≠ none → 8 ≤ r.width)
    (c : Canvas) (hl : c.cells.length = c.w * c.h)
    (X Y : Nat) (hin : Scroller.At r X Y) (hX : X < c.w) (hY : Y < c.h) (hcX : Canvas.Within c.currentClip X Y) :
    ∃ c' cell, c.run ((paint s false (cacheAfter hist s.frame) lines title subtitle none none r).map .draw) = some c' ∧
      c'.cells[Y * c.w + X]? = some cell ∧ cell.bg = some (toCrosstermRgb b) := by
  obtain ⟨k, hk0, hk⟩ := ground_at (· = some b) (fun _ h => ⟨b, h, ha⟩) hist s hc ⟨hb, .inr ⟨hi, hi'⟩⟩ ht lines
    (fun l h => ⟨lines_dressed s ws content ho hovered (plain_made (P := (·.bg = some b)) ht hs) w lines e l h,
      textLines_one s ws content ho hovered w lines e l h⟩) title subtitle h1 h2 r hr hw X Y hin
  obtain ⟨c', a1, b1⟩ := hk c hl hX hY hcX
  exact ⟨c', _, a1, b1, by show Option.map _ _ = _; rw [hk0]; rfl⟩

/-- The style of the text of a widget at full opacity: its colour and its background, and the attributes it asks for. -/
theorem rendering_exact (S : Restyle.Style) (t : Css.TextStyle) (col b : RgbaColor) (hop : 1 ≤ S.opacity)
    (hcol : S.color = some col) (hauto : S.autoColor = false) (hb : S.background = some b) (hvis : 0 < b.a)
    (ht : S.backgroundTint = none) :
    renderingStyle S t =
      { fg := some col
        bg := some b
        bold := t.bold
        dim := t.dim
        italic := t.italic
        underline := t.underline
        strike := t.strike
        reverse := t.reverse } := by
  have h1 : S.foreground = some col := by
    unfold Restyle.Style.foreground
    rw [hauto, hcol]
    simp only [Bool.false_eq_true, if_false]
    cases S.inheritedBackground with
    | some bg => exact congrArg some (Restyle.blendToward_one _ _ _ hop)
    | none =>
      refine congrArg some ?_
      unfold RgbaColor.withOpacity
      rw [if_pos hop]
  have h2 : S.effectiveBackground = some b := by
    have h3 : b.isTransparent = false := by
      unfold RgbaColor.isTransparent
      exact decide_eq_false (Rat.not_le.mpr hvis)
    have h4 : ¬ S.opacity < 1 := Rat.not_lt.mpr hop
    unfold Restyle.Style.effectiveBackground
    rw [hb, ht]
    simp only [h3, Bool.false_eq_true, if_false, h4]
    cases S.inheritedBackground <;> rfl
  unfold renderingStyle
  rw [h1, h2]

/-- The style of a title at full opacity: the colour it is given, or else that of the border, or else that of the text; the
background it is given, or else that of the widget; and the attributes it asks for. -/
theorem label_exact (S : Restyle.Style) (t : Css.TextStyle) (own edge ground : Option RgbaColor) (col : RgbaColor)
    (hop : 1 ≤ S.opacity)
    (hcol : own = some col ∨ own = none ∧ edge = some col ∨ own = none ∧ edge = none ∧ S.color = some col) :
    labelStyle S own edge ground t =
      { fg := some col
        bg := if ground = none then S.background else ground
        bold := t.bold
        dim := t.dim
        italic := t.italic
        underline := t.underline
        strike := t.strike
        reverse := t.reverse } := by
  have h0 : (own.or edge).or S.color = some col := by
    rcases hcol with h | ⟨h, h'⟩ | ⟨h, h', h''⟩
    · rw [h]; rfl
    · rw [h, h']; rfl
    · rw [h, h', h'']; rfl
  have h1 : ground.or S.background = if ground = none then S.background else ground := by cases ground <;> rfl
  unfold labelStyle
  rw [h0, h1]
  cases S.inheritedBackground with
  | some bg => simp only [Restyle.blendToward_one _ _ _ hop]
  | none =>
    unfold RgbaColor.withOpacity
    simp only [if_pos hop]

/-- A title without a text is not drawn. -/
theorem label_none (ws : Grapheme → Bool) (most : Nat) (st : Style) (label : Content.Content) (h : label.text = []) :
    labelStrip ws most st label = none := by
  unfold labelStrip
  rw [h]
  rfl

/-- A reversed title in the colour of the border on the background of the widget. -/
example : labelStyle { color := some { r := 1, g := 1, b := 1, a := 1 }, background := some { r := 9, g := 9, b := 9, a := 1 } } none
      (some { r := 5, g := 5, b := 5, a := 1 }) none { reverse := true } =
    { fg := some { r := 5, g := 5, b := 5, a := 1 }, bg := some { r := 9, g := 9, b := 9, a := 1 }, reverse := true } :=
  label_exact _ _ _ _ _ _ (by decide +kernel) (.inr (.inl ⟨rfl, rfl⟩))

open Nest Canvas in
open Scroller (At) in
/-- **C189** (partial: as in C181, unmarked text that fits, full opacity). A text with a colour and an opaque background
is on the screen in them: at the end of the frame each of its characters, at any depth of containers, is in its cell in
the text colour on the background and with the attributes of `text-style`, and so it is on the terminal. -/
theorem colour_on_screen_partial {w h : Nat} {c0 : Canvas} (h0 : Canvas.new w h = some c0) (n : Node) (P : Paint)
    (before : List Op) (hg : Good ⟨w, h⟩ n ⟨0, 0, w, h⟩) (ha : NoOverlap ⟨w, h⟩ n) (ht : Tidy ⟨w, h⟩ P n ⟨0, 0, w, h⟩)
    (id : Nat) (r : Region) (clips : List Region) (hp : (id, r, clips) ∈ painted ⟨w, h⟩ n ⟨0, 0, w, h⟩ [])
    (hist : List RenderCache.Sheet) (s : Sheet) (t : Css.TextStyle) (col b : RgbaColor)
    (hcol : s.frame.style.color = some col) (hauto : s.frame.style.autoColor = false) (hca : 1 ≤ col.a)
    (hb : s.frame.style.background = some b) (hba : 1 ≤ b.a) (hbt : s.frame.style.backgroundTint = none)
    (hop : 1 ≤ s.frame.style.opacity) (htext : s.text = renderingStyle s.frame.style t)
    (ws : Grapheme → Bool) (content : Content.Content) (hovered : Option String)
    (hone : ∀ g ∈ content.text, g.text ≠ "\n" → g.width = 1) (hs : content.spans = none)
    (lines : List WrappedLine)
    (e : textLines s ws content hovered ((cacheAfter hist s.frame).innerSize r.width.toNat r.height.toNat).1 = some lines)
    (title subtitle : Option Strip) (h1 : ∀ t ∈ title, t.OneColumn) (h2 : ∀ t ∈ subtitle, t.OneColumn)
    (hpaint : P.leaf id r = paint s false (cacheAfter hist s.frame) lines title subtitle none none r)
    (hr : Room s.frame r.width.toNat title subtitle) (ho : NoOutline s.frame)
    (hbw : 0 < (textBox s.frame title subtitle r).width) (hbh : 0 < (textBox s.frame title subtitle r).height)
    (fw : ∀ line ∈ lines, (line.strip.cellLength : Int) ≤ (textBox s.frame title subtitle r).width)
    (fh : (lines.length : Int) ≤ (textBox s.frame title subtitle r).height) :
    ∃ above below left right block : Nat,
      (above + lines.length + below : Int) = (textBox s.frame title subtitle r).height ∧ SplitV s.alignV above below ∧
      (left + block + right : Int) = (textBox s.frame title subtitle r).width ∧ SplitH s.alignH left right ∧
      ∀ (i : Nat) (line : WrappedLine), lines[i]? = some line → ¬(s.textAlign = .justify ∧ line.lineEnd = false) →
        ∃ pre post, pre + line.strip.cellLength + post = block ∧ SplitLine s.textAlign pre post ∧
          ∀ (k : Nat) (x : StripCell) (X Y : Nat), line.strip.cells[k]? = some x →
            (X : Int) = (textBox s.frame title subtitle r).x + left + pre + k →
            (Y : Int) = (textBox s.frame title subtitle r).y + above + i →
            X < w → Y < h → X < 65536 → Y < 65536 → (∀ a ∈ clips, At a X Y) →
            ∃ c, c0.run (before ++ frame P ⟨w, h⟩ n) = some c ∧
              c.cells[Y * w + X]? = some ⟨x.g.text, 1, false, some ⟨col.r, col.g, col.b⟩, some ⟨b.r, b.g, b.b⟩,
                ⟨t.bold, t.dim, t.italic, t.underline, t.strike, t.reverse⟩⟩ ∧
              ∀ (env : TermEnv) (τ τ' : Term), env.Ok → env.width " " = 1 → τ.w = w → τ.h = h →
                (∀ op ∈ before ++ frame P ⟨w, h⟩ n, op.Narrow env) →
                Canvas.session env c0 τ (before ++ frame P ⟨w, h⟩ n) = some (c, τ') →
                (τ'.run env c.flush.1).screen (Y * w + X) = .glyph x.g.text 1
                  ⟨some ⟨col.r, col.g, col.b⟩, some ⟨b.r, b.g, b.b⟩,
                    ⟨t.bold, t.dim, t.italic, t.underline, t.strike, t.reverse⟩⟩ := by
  have hl := textLines_one s ws content hone hovered _ lines e
  have hvis : 0 < b.a := by
    have : (0 : Rat) < 1 := by decide
    grind
  have htx := htext.trans (rendering_exact s.frame.style t col b hop hcol hauto hb hvis hbt)
  have hst : ∀ line ∈ lines, ∀ x ∈ line.strip.cells, x.style.getD {} = s.text := fun line hm =>
    (lines_dressed s ws content hone hovered (plain_made (P := (· = s.text)) rfl hs) _ lines e line hm).cells
  obtain ⟨above, below, left, right, block, e1, e2, e3, e4, -, e6⟩ :=
    text_placed hist s lines title subtitle none none r hr ho hl h1 h2 (fun _ h => by cases h) hbw hbh fw fh
  refine ⟨above, below, left, right, block, e1, e2, e3, e4, fun i line hi hj => ?_⟩
  obtain ⟨pre, post, g1, g2, g3⟩ := e6 i line hi hj
  refine ⟨pre, post, g1, g2, fun k x X Y hk hX hY hXw hYh hXs hYs hcl => ?_⟩
  have hli : i < lines.length := (List.getElem?_eq_some_iff.1 hi).1
  have hki : k < line.strip.cellLength := by
    rw [← (hl line (List.mem_of_getElem? hi)).wf.length]
    exact (List.getElem?_eq_some_iff.1 hk).1
  have hseen : SeenAt (id, r, clips) X Y := by
    refine ⟨?_, hcl⟩
    simp only [textBox] at *
    simp only [At]
    omega
  obtain ⟨c, c1, c2, r1, r2, r3, r4⟩ := widget_on_top_partial h0 n P before hg ha ht id r clips hp X Y hXw hXs hYs hseen
  have hcell : c.cells[Y * w + X]? = some ⟨x.g.text, 1, false, some ⟨col.r, col.g, col.b⟩, some ⟨b.r, b.g, b.b⟩,
      ⟨t.bold, t.dim, t.italic, t.underline, t.strike, t.reverse⟩⟩ := by
    rw [hpaint] at r3
    have := (g3 c1 c2 (by rw [r2.len, r2.weq, r2.heq]) r3 k x X Y hk hX hY (by rw [r2.weq]; exact hXw)
      (by rw [r2.heq]; exact hYh) (by rw [r2.currentClip]; exact Canvas.clips_within hXw hYh hXs hYs clips hcl)).1 rfl rfl
    rw [r2.weq] at this
    have hi' : Y * w + X < c1.cells.length := by rw [r2.len]; exact Canvas.index_lt hXw hYh
    have hxs := hst line (List.mem_of_getElem? hi) x (List.mem_of_getElem? hk)
    rw [r4, this, List.getElem?_eq_getElem hi', Option.map_some, drawnOn_opaque (by rw [hxs, htx]; exact ⟨b, rfl, hba⟩)]
    unfold solid
    rw [hxs, htx]
    simp only [Option.map_some, toCrosstermColor, if_pos hca, toCrosstermRgb, Style.attrs]
  refine ⟨c, r1, hcell, fun env τ τ' hj hsp htw hth hnar hses => ?_⟩
  rw [Canvas.narrow_session_flush_shows hj hsp h0 htw hth _ hnar hses X Y _ hcell]
  rfl

/-- The strip of a title: all in the style given, if its markup keeps to it. -/
theorem label_made {P : Style → Prop} (ws : Grapheme → Bool) (most : Nat) (st : Style) (label : Content.Content)
    (hm : Made P { label with style := some st }) (h : ∀ g ∈ label.text, g.text ≠ "\n" → g.width = 1)
    (t : Strip) (e : labelStrip ws most st label = some t) (hpos : 0 < t.cellLength) : Label P t := by
  unfold labelStrip at e
  split at e
  · cases e
  · have hmem := List.mem_of_mem_head? e
    unfold Content.Content.wrap at hmem
    cases e1 : ({ label with style := some st } : Content.Content).wrapFull ws most .fold .wrap with
    | none => rw [e1] at hmem; cases hmem
    | some l =>
      rw [e1] at hmem
      obtain ⟨x, hx, rfl⟩ := List.mem_map.1 hmem
      exact ⟨Dressed.wrapFull hm h ws _ _ _ l e1 x hx,
        Content.wrapFull_one { label with style := some st } h ws _ _ _ l e1 x hx, hpos⟩

/-- **C189** (partial: see `covers_partial`). With labels made as the program makes them: a title and a subtitle on
opaque backgrounds hide what is behind them too. -/
theorem covers_labelled_partial (hist : List RenderCache.Sheet) (s : Sheet) (hc : NoClash (s.frame :: hist))
    (hg : Grounds (fun bg => ∃ b ∈ bg, 1 ≤ b.a) s.frame) (ht : Opaque s.text)
    (ws : Grapheme → Bool) (content : Content.Content) (hovered : Option String)
    (ho : ∀ g ∈ content.text, g.text ≠ "\n" → g.width = 1)
    (hs : ∀ spans ∈ content.spans, ∀ sp ∈ spans, ∀ b ∈ sp.style.bg, 1 ≤ b.a)
    (w : Nat) (lines : List WrappedLine) (e : textLines s ws content hovered w = some lines)
    (most : Nat) (own edge ground : Option RgbaColor) (ts : Css.TextStyle)
    (hgr : ∃ b ∈ ground.or s.frame.style.background, 1 ≤ b.a) (label : Content.Content)
    (hlo : ∀ g ∈ label.text, g.text ≠ "\n" → g.width = 1)
    (hls : ∀ spans ∈ label.spans, ∀ sp ∈ spans, ∀ b ∈ sp.style.bg, 1 ≤ b.a) (title : Strip)
    (et : labelStrip ws most (labelStyle s.frame.style own edge ground ts) label = some title) (hpos : 0 < title.cellLength)
    (r : Region) (hr : Room s.frame r.width.toNat (some title) none) (hw : 8 ≤ r.width)
    (c1 c2 : Canvas) (hl1 : c1.cells.length = c1.w * c1.h) (hl2 : c2.cells.length = c2.w * c2.h)
    (hw' : c1.w = c2.w) (hh' : c1.h = c2.h) (hcl : c1.currentClip = c2.currentClip)
    (X Y : Nat) (hin : Scroller.At r X Y) (hX : X < c1.w) (hY : Y < c1.h) (hcX : Canvas.Within c1.currentClip X Y) :
    ∃ d1 d2, c1.run ((paint s false (cacheAfter hist s.frame) lines (some title) none none none r).map .draw) = some d1 ∧
      c2.run ((paint s false (cacheAfter hist s.frame) lines (some title) none none none r).map .draw) = some d2 ∧
      d1.cells[Y * c1.w + X]? = d2.cells[Y * c1.w + X]? ∧ (d1.cells[Y * c1.w + X]?).isSome := by
  refine covers_partial hist s hc hg ht ws content hovered ho hs w lines e (some title) none ?_ (by rintro _ h; cases h) r hr
    (fun _ => hw) c1 c2 hl1 hl2 hw' hh' hcl X Y hin hX hY hcX
  intro t h
  cases h
  exact label_made ws most _ label (opaque_made (c := { label with style := some (labelStyle s.frame.style own edge ground ts) }) hgr hls) hlo title et hpos

/-! ### A case -/

/-- Navy blue. -/
def navy : RgbaColor := { r := 0, g := 0, b := 128, a := 1 }

/-- Yellow. -/
def yellow : RgbaColor := { r := 255, g := 255, b := 0, a := 1 }

/-- Bold yellow text on navy blue in a round border. -/
def posterFrame : RenderCache.Sheet :=
  { style := { color := some yellow, background := some navy }
    border := ⟨⟨.round, none⟩, ⟨.round, none⟩, ⟨.round, none⟩, ⟨.round, none⟩⟩ }

def poster : Sheet := { frame := posterFrame, text := renderingStyle posterFrame.style { bold := true } }

theorem poster_clash : NoClash [poster.frame] := by
  have hu : ∀ c, RenderCache.Uses poster.frame c → c = yellow ∨ c = navy := by
    rintro c (h | h | h | h)
    · rw [RenderCache.edgeColor_opaque _ rfl] at h
      injection h with h
      exact .inl h.symm
    · injection h with h
      exact .inl h.symm
    · right
      have : poster.frame.style.effectiveBackground = some navy := by decide +kernel
      rw [this] at h
      injection h with h
      exact h.symm
    · cases h
  intro s hs t ht c d hc hd e1 _ _
  simp only [List.mem_cons, List.not_mem_nil, or_false] at hs ht
  subst hs; subst ht
  rcases hu c hc with rfl | rfl <;> rcases hu d hd with rfl | rfl <;> first | rfl | (exact absurd e1 (by decide))

theorem poster_ground : poster.frame.style.effectiveBackground = some navy := by decide +kernel

theorem poster_text : poster.text.bg = some navy := by decide +kernel

theorem navy_opaque : 1 ≤ navy.a := by decide

/-- The lines of "ab cd" in the poster. -/
def posterLines : List WrappedLine := (textLines poster asciiWs words2 none 6).getD []

theorem poster_lines : textLines poster asciiWs words2 none 6 = some posterLines := rfl

/-- The poster hides what is behind it. -/
example (c1 c2 : Canvas) (hl1 : c1.cells.length = c1.w * c1.h) (hl2 : c2.cells.length = c2.w * c2.h)
    (hw' : c1.w = c2.w) (hh' : c1.h = c2.h) (hcl : c1.currentClip = c2.currentClip) (hX : 5 < c1.w) (hY : 4 < c1.h)
    (hcX : Canvas.Within c1.currentClip 5 4) :
    ∃ d1 d2, c1.run ((paint poster false (cacheAfter [] posterFrame) posterLines none none none none ⟨1, 3, 8, 6⟩).map .draw) = some d1 ∧
      c2.run ((paint poster false (cacheAfter [] posterFrame) posterLines none none none none ⟨1, 3, 8, 6⟩).map .draw) = some d2 ∧
      d1.cells[4 * c1.w + 5]? = d2.cells[4 * c1.w + 5]? ∧ (d1.cells[4 * c1.w + 5]?).isSome :=
  covers_partial [] poster poster_clash ⟨⟨navy, poster_ground, navy_opaque⟩, .inr ⟨by decide, by decide⟩⟩
    ⟨navy, poster_text, navy_opaque⟩ asciiWs words2 none (by decide) (by rintro _ h; cases h) 6 posterLines poster_lines
    none none (by rintro _ h; cases h) (by rintro _ h; cases h) ⟨1, 3, 8, 6⟩ (by unfold Room; decide) (by simp)
    c1 c2 hl1 hl2 hw' hh' hcl 5 4 (by unfold Scroller.At; decide) hX hY hcX

/-- Its corner is on navy blue. -/
example (c : Canvas) (hl : c.cells.length = c.w * c.h) (hX : 1 < c.w) (hY : 3 < c.h) (hcX : Canvas.Within c.currentClip 1 3) :
    ∃ c' cell, c.run ((paint poster false (cacheAfter [] posterFrame) posterLines none none none none ⟨1, 3, 8, 6⟩).map .draw) = some c' ∧
      c'.cells[3 * c.w + 1]? = some cell ∧ cell.bg = some ⟨0, 0, 128⟩ :=
  background_partial [] poster poster_clash navy navy_opaque poster_ground (by decide) (by decide) poster_text asciiWs words2
    none (by decide) rfl 6 posterLines poster_lines
    none none (by rintro _ h; cases h) (by rintro _ h; cases h) ⟨1, 3, 8, 6⟩ (by unfold Room; decide) (by simp)
    c hl 1 3 (by unfold Scroller.At; decide) hX hY hcX

/-- The title "ab cd" of the poster. -/
def posterTitle : Strip :=
  (labelStrip asciiWs 1000 (labelStyle posterFrame.style none none none {}) words2).getD Strip.new

/-- With a title. -/
example (c1 c2 : Canvas) (hl1 : c1.cells.length = c1.w * c1.h) (hl2 : c2.cells.length = c2.w * c2.h)
    (hw' : c1.w = c2.w) (hh' : c1.h = c2.h) (hcl : c1.currentClip = c2.currentClip) (hX : 5 < c1.w) (hY : 3 < c1.h)
    (hcX : Canvas.Within c1.currentClip 5 3) :
    ∃ d1 d2, c1.run ((paint poster false (cacheAfter [] posterFrame) posterLines (some posterTitle) none none none
        ⟨1, 3, 8, 6⟩).map .draw) = some d1 ∧
      c2.run ((paint poster false (cacheAfter [] posterFrame) posterLines (some posterTitle) none none none
        ⟨1, 3, 8, 6⟩).map .draw) = some d2 ∧
      d1.cells[3 * c1.w + 5]? = d2.cells[3 * c1.w + 5]? ∧ (d1.cells[3 * c1.w + 5]?).isSome :=
  covers_labelled_partial [] poster poster_clash ⟨⟨navy, poster_ground, navy_opaque⟩, .inr ⟨by decide, by decide⟩⟩
    ⟨navy, poster_text, navy_opaque⟩ asciiWs words2 none (by decide) (by rintro _ h; cases h) 6 posterLines poster_lines
    1000 none none none {} ⟨navy, rfl, navy_opaque⟩ words2 (by decide) (by rintro _ h; cases h) posterTitle rfl
    (by decide +kernel) ⟨1, 3, 8, 6⟩ (by unfold Room; decide +kernel) (by decide)
    c1 c2 hl1 hl2 hw' hh' hcl 5 3 (by unfold Scroller.At; decide) hX hY hcX

/-- All widgets of the tree of C174 are posters. -/
def posters : Nest.Paint where
  leaf _ r := paint poster false (cacheAfter [] posterFrame) posterLines none none none none r
  before _ _ := []
  over _ _ := []
  after _ _ := []

open Nest Canvas in
theorem posters_tidy : Tidy ⟨20, 10⟩ posters tree ⟨0, 0, 20, 10⟩ := by
  have lines : ∀ line ∈ posterLines, line.strip.OneColumn :=
    textLines_one poster asciiWs words2 (by decide) none 6 posterLines poster_lines
  have leaf : ∀ (id : Nat) (r : Region), 2 ≤ r.width → Inside r (posters.leaf id r) := by
    intro id r hw2
    refine paint_inside [] poster false posterLines none none none none r (fun hw _ => ?_) lines
      (by rintro t h; cases h) (by rintro t h; cases h) (by rintro t h; cases h)
    have h2 : 2 ≤ r.width.toNat := by omega
    exact ⟨by omega, h2, Nat.zero_le _, by simp⟩
  have w1 : ∀ c ∈ ((Box.screen { overflowX := .hidden } Nest.above (fun _ => false) {}).shown ⟨20, 10⟩ ⟨0, 0, 20, 10⟩).2,
      2 ≤ c.region.width ∧ ∀ d ∈ ((Box.scroller Scroller.padded Scroller.pair { scroll := ⟨0, 4, 8, 12, 16, 4⟩ }).shown
        ⟨20, 10⟩ c.region).2, 2 ≤ d.region.width := by decide +kernel
  refine ⟨nothing_in _, nothing_in _, nothing_in _, fun c hc => ?_⟩
  dsimp only
  split
  · exact ⟨nothing_in _, nothing_in _, nothing_in _, fun d hd => leaf _ _ ((w1 c hc).2 d hd)⟩
  · exact leaf _ _ (w1 c hc).1

open Nest Canvas in
/-- The first letter of the second poster is bold yellow on navy blue on the terminal. -/
example :
    ∃ c0 c, Canvas.new 20 10 = some c0 ∧ c0.run (frame posters ⟨20, 10⟩ tree) = some c ∧
      c.cells[4 * 20 + 2]? = some ⟨"a", 1, false, some ⟨255, 255, 0⟩, some ⟨0, 0, 128⟩,
        ⟨true, false, false, false, false, false⟩⟩ := by
  obtain ⟨c0, h0⟩ : ∃ c0, Canvas.new 20 10 = some c0 := ⟨_, rfl⟩
  obtain ⟨above, below, left, right, block, e1, e2, e3, e4, e6⟩ := colour_on_screen_partial h0 tree posters [] tree_ok.1 tree_ok.2
    posters_tidy 11 ⟨1, 3, 8, 6⟩ [⟨1, 1, 16, 4⟩, ⟨0, 0, 20, 10⟩] (by decide +kernel) [] poster { bold := true } yellow navy rfl rfl
    (by decide) rfl (by decide) rfl (by decide) rfl asciiWs words2 none (by decide) rfl posterLines rfl none none
    (by rintro t h; cases h) (by rintro t h; cases h) rfl
    (by unfold Room; decide) (by unfold NoOutline; decide) (by decide) (by decide) (by decide +kernel) (by decide +kernel)
  obtain ⟨pre, post, k1, k2, k3⟩ := e6 0 _ rfl (by decide)
  have s2 : above = 0 := e2
  have s4 : left = 0 := e4
  have s6 : pre = 0 := k2
  subst s2 s4 s6
  obtain ⟨c, r1, r2, -⟩ := k3 0 _ 2 4 rfl (by decide) (by decide) (by decide) (by decide) (by decide) (by decide) (by decide)
  exact ⟨c0, c, h0, r1, r2⟩

/-! ### Where it is not so -/

/-- A long title. -/
def longTitle : Strip :=
  Strip.ofSegments [Segment.mk' (["a", "b", "c", "d", "e"].map fun c => ⟨c, 1⟩) (some { fg := some yellow, bg := some navy })]

theorem longTitle_label : Label Opaque longTitle where
  dressed := by intro seg h; rw [List.mem_singleton.1 h]; exact ⟨navy, rfl, navy_opaque⟩
  one := ⟨⟨by decide, rfl⟩, by intro s h; rw [List.mem_singleton.1 h]; unfold Segment.mk'; decide⟩
  pos := by decide

/-- **C189** is false in narrow widgets: a title cut to nothing in a widget of seven columns leaves an ellipsis without a
style, which shows the background of what is behind it. -/
theorem narrow_label_counterexample : ∃ (c1 c2 : Canvas), Label Opaque longTitle ∧ Room posterFrame 7 (some longTitle) none ∧
    c1.w = c2.w ∧ c1.h = c2.h ∧ c1.currentClip = c2.currentClip ∧
    c1.cells.length = c1.w * c1.h ∧ c2.cells.length = c2.w * c2.h ∧
    let ops := (paint poster false (cacheAfter [] posterFrame) [] (some longTitle) none none none ⟨0, 0, 7, 3⟩).map .draw
    ((c1.run ops).bind fun d => d.cells[3]?) = some ⟨"…", 1, false, none, some ⟨1, 2, 3⟩, {}⟩ ∧
    ((c2.run ops).bind fun d => d.cells[3]?) = some ⟨"…", 1, false, none, none, {}⟩ :=
  ⟨⟨7, 3, List.replicate 21 { Cell.blank with bg := some ⟨1, 2, 3⟩ }, [], true, []⟩,
    ⟨7, 3, List.replicate 21 .blank, [], true, []⟩, longTitle_label, by unfold Room; decide, rfl, rfl, rfl, rfl, rfl,
    by decide +kernel⟩

/-- **C189** is false for faded widgets: the text of a widget at half opacity is on a background half faded into what is
behind it, its title is on the background unfaded. -/
theorem faded_label_counterexample : ∃ S : Restyle.Style, S.opacity = 1 / 2 ∧
    (renderingStyle S {}).bg ≠ (labelStyle S none none none {}).bg :=
  ⟨{ color := some yellow, background := some navy, inheritedBackground := some yellow, opacity := 1 / 2 }, rfl, by decide +kernel⟩

end Textual.Static
