import Verif.Props.RenderCacheMore
import Verif.Props.Restyle

/-!
C94 and C95: the characters and the colours of a border.
-/

namespace Textual.RenderCache

open Strip (AlignH)

/-- The columns of a line without labels and outline, in terms of the pieces of the border. -/
theorem border_cells (hist : List Sheet) (s : Sheet) (y ht w : Nat) (content : Option Strip) (hy : y < ht)
    (hr : Room s w none none) (hc : Narrow content) (ho : NoOutline s) (box : Box)
    (hbox : (cacheAfter hist s).box = some box) :
    let line := ((cacheAfter hist s).renderLine y ht w content none none).cells
    let l := s.border.left.kind.vertical
    let r := s.border.right.kind.vertical
    let row (p : Row) := if l && r then [col p.left] ++ List.replicate (w - 2) (col p.fill) ++ [col p.right]
      else List.replicate w (col p.fill)
    if y = 0 ∧ s.border.top.kind.horizontal = true then line = row box.top
    else if y + 1 = ht ∧ s.border.bottom.kind.horizontal = true then line = row box.bottom
    else ∃ mid, mid.length = w - (one l + one r) ∧
      line = only l (col box.middle.left) ++ mid ++ only r (col box.middle.right) := by
  intro line l r row
  have hS := cacheAfter_sound hist s
  have hob := noOutline_box (hist := hist) ho
  have hb := hS.box box hbox
  obtain ⟨hw, r1, _, _⟩ := hr
  have hrow : ∀ (p : Row) (a : Strip), p.Sound → (a = if l && r then renderRow p w none none s.titleAlign s.subtitleAlign
      else horizontalRow p w none s.titleAlign) ∨ (a = if l && r then renderRow p w none none s.titleAlign s.subtitleAlign
      else horizontalRow p w none s.subtitleAlign) → a.cells = row p := by
    intro p a hp ha
    by_cases hlr : (l && r) = true
    · simp only [hlr, if_true, or_self] at ha
      have hl : l = true := by simp at hlr; exact hlr.1
      have hr : r = true := by simp at hlr; exact hlr.2
      have r1' : one l + one r + s.paddingLeft + s.paddingRight ≤ w := r1
      rw [hl, hr] at r1'
      have h2 : 2 ≤ w := by simp [one] at r1'; omega
      have := renderRow_cells p hp w h2 none none s.titleAlign s.subtitleAlign
        (repeatSegment_wf _ _) (fun h => by cases h)
      rw [ha, this.2]
      show _ ++ (repeatSegment p.fill (w - 2)).cells ++ _ = if (l && r) = true then _ else _
      rw [if_pos hlr, repeatSegment_cells hp.fill]
    · have : row p = List.replicate w (col p.fill) := if_neg hlr
      rw [this]
      rcases ha with ha | ha <;> rw [ha, if_neg hlr]
      · exact (horizontalRow_none p hp w _).2
      · exact (horizontalRow_none p hp w _).2
  obtain ⟨h1, h2, h3, h4, _, _, _, _, _, _, _, _, ta, sa, _⟩ := cacheAfter_fields hist s
  by_cases ht0 : y = 0 ∧ s.border.top.kind.horizontal = true
  · rw [if_pos ht0]
    have e : (cacheAfter hist s).renderLine y ht w content none none =
        if l && r then renderRow box.top w none none s.titleAlign s.subtitleAlign
          else horizontalRow box.top w none s.titleAlign := by
      unfold Cache.renderLine
      rw [if_neg (by omega), hbox]
      dsimp only
      rw [h1, if_pos ht0, applyOutline_none _ hob, h3, h4, ta, sa]
    exact hrow box.top _ hb.top (Or.inl e)
  rw [if_neg ht0]
  by_cases hb0 : y + 1 = ht ∧ s.border.bottom.kind.horizontal = true
  · rw [if_pos hb0]
    have e : (cacheAfter hist s).renderLine y ht w content none none =
        if l && r then renderRow box.bottom w none none s.titleAlign s.subtitleAlign
          else horizontalRow box.bottom w none s.subtitleAlign := by
      unfold Cache.renderLine
      rw [if_neg (by omega), hbox]
      dsimp only
      rw [h1, if_neg ht0, h2, if_pos (show y = ht - 1 ∧ _ from ⟨by omega, hb0.2⟩), applyOutline_none _ hob, h3,
        h4, ta, sa]
    exact hrow box.bottom _ hb.bottom (Or.inr e)
  rw [if_neg hb0]
  have hp : PlainRow s y ht none none := by
    refine ⟨hy, fun h => ?_, fun h => ?_, ?_⟩
    · by_contra h'; exact ht0 ⟨by omega, h⟩
    · by_contra h'; exact hb0 ⟨by omega, h⟩
    all_goals simp
  obtain ⟨base, a, b, _, e1, e2, _, _, e3⟩ := plain_base hist s y ht w content none none hp hw (hc.cutAt _)
  obtain ⟨ea, eb⟩ := e3 box hbox
  refine ⟨_, ?_, by show (Cache.renderLine _ _ _ _ _ _ _).cells = _; rw [e1, applyOutline_none _ hob, e2, ea, eb]⟩
  simp only [List.length_append, List.length_replicate, window_length]
  have r1' : one l + one r + s.paddingLeft + s.paddingRight ≤ w := r1
  obtain ⟨_, _, _, _, p1, p2, _⟩ := cacheAfter_fields hist s
  show _ = w - (one l + one r)
  have : ((cacheAfter hist s).innerSize w ht).1 = w - (one l + one r) - (s.paddingLeft + s.paddingRight) := by
    unfold Cache.innerSize
    rw [h3, h4, p1, p2]
  omega

/-- C94: every border is drawn in the characters of its own kind, if all edges that have a border have the
same kind as the top edge. Missing: a different kind (or none) at the top, whose characters are then used
for all edges (`border_kind_counterexample`). -/
theorem border_glyphs_partial (hist : List Sheet) (s : Sheet) (y ht w : Nat) (content : Option Strip)
    (hy : y < ht) (hr : Room s w none none) (hc : Narrow content) (ho : NoOutline s)
    (hB : s.border.bottom.kind.horizontal = true → s.border.bottom.kind = s.border.top.kind)
    (hL : s.border.left.kind.vertical = true → s.border.left.kind = s.border.top.kind)
    (hR : s.border.right.kind.vertical = true → s.border.right.kind = s.border.top.kind) :
    let line := ((cacheAfter hist s).renderLine y ht w content none none).cells.map (·.g)
    let l := s.border.left.kind.vertical
    let r := s.border.right.kind.vertical
    let row (a f b : String) : List Grapheme :=
      if l && r then [⟨a, 1⟩] ++ List.replicate (w - 2) ⟨f, 1⟩ ++ [⟨b, 1⟩] else List.replicate w ⟨f, 1⟩
    if y = 0 ∧ s.border.top.kind.horizontal = true then
      line = row s.border.top.kind.chars.topLeft s.border.top.kind.chars.top s.border.top.kind.chars.topRight
    else if y + 1 = ht ∧ s.border.bottom.kind.horizontal = true then
      line = row s.border.bottom.kind.chars.bottomLeft s.border.bottom.kind.chars.bottom
        s.border.bottom.kind.chars.bottomRight
    else ∃ mid, mid.length = w - (one l + one r) ∧
      line = only l ⟨s.border.left.kind.chars.left, 1⟩ ++ mid ++ only r ⟨s.border.right.kind.chars.right, 1⟩ := by
  intro line l r row
  cases hbox : (cacheAfter hist s).box with
  | none =>
    obtain ⟨n1, n2, n3, n4⟩ := (cacheAfter_sound hist s).noBox hbox
    obtain ⟨h1, h2, h3, h4, _⟩ := cacheAfter_fields hist s
    rw [h1] at n1; rw [h2] at n3; rw [h3] at n4; rw [h4] at n2
    rw [n1, n3]
    simp only [Bool.false_eq_true, and_false, if_false]
    have hl : l = false := n4
    have hr' : r = false := n2
    rw [hl, hr']
    refine ⟨line, ?_, by simp [only_false]⟩
    show (List.map _ _).length = _
    rw [List.length_map]
    exact (line_good hist s y ht w content none none hy hr hc (by rintro x h; cases h)
      (by rintro x h; cases h)).2.1
  | some box =>
    have key := border_cells hist s y ht w content hy hr hc ho box hbox
    obtain ⟨d1, d2, d3, d4, d5, d6, d7, d8⟩ := (cacheAfter_drawn hist s).1 box hbox
    dsimp only at key
    have hrow : ∀ p : Row, List.map (·.g) (if (l && r) = true then
        [col p.left] ++ List.replicate (w - 2) (col p.fill) ++ [col p.right] else List.replicate w (col p.fill)) =
        if (l && r) = true then [(col p.left).g] ++ List.replicate (w - 2) (col p.fill).g ++ [(col p.right).g]
        else List.replicate w (col p.fill).g := by
      intro p
      split <;> simp
    split
    · rename_i h
      rw [if_pos h] at key
      show List.map _ _ = _
      rw [key, hrow, d1, d2, d3]
    · rename_i h
      rw [if_neg h] at key
      split
      · rename_i h'
        rw [if_pos h'] at key
        show List.map _ _ = _
        rw [key, hrow, d6, d7, d8, hB h'.2]
      · rename_i h'
        rw [if_neg h'] at key
        obtain ⟨mid, hm, e⟩ := key
        refine ⟨mid.map (·.g), by rw [List.length_map]; exact hm, ?_⟩
        show List.map _ _ = _
        rw [e, List.map_append, List.map_append]
        congr 1
        · congr 1
          show List.map _ (only l _) = only l _
          cases hl : l with
          | false => rfl
          | true => rw [hL hl]; exact congrArg (fun x => [x]) d4
        · show List.map _ (only r _) = only r _
          cases hr : r with
          | false => rfl
          | true => rw [hR hr]; exact congrArg (fun x => [x]) d5

/-! ### Colours -/

/-- A colour the border or outline of a widget with style `s` is drawn with. -/
def Uses (s : Sheet) (c : RgbaColor) : Prop :=
  edgeColor s.style s.border.top = some c ∨
  (match s.outline.top.color with | some c => some c | none => s.style.color) = some c ∨
  s.style.effectiveBackground = some c ∨ s.style.inheritedBackground = some c

/-- Colours with the same red, green and blue are the same colour. -/
def NoClash (sheets : List Sheet) : Prop :=
  ∀ s ∈ sheets, ∀ t ∈ sheets, ∀ c d, Uses s c → Uses t d → c.r = d.r → c.g = d.g → c.b = d.b → c = d

/-- A style of two colours among `P`. -/
def Of (P : RgbaColor → Prop) (i : Style) : Prop :=
  ∃ f b, i = { fg := f, bg := b } ∧ (∀ c, f = some c → P c) ∧ ∀ c, b = some c → P c

def Boxes.From (P : RgbaColor → Prop) (bs : Boxes) : Prop :=
  ∀ p ∈ bs, ∃ k i o, Of P i ∧ Of P o ∧ p = ((k, styleKey i, styleKey o), generateBox k i o)

def Inj (P : RgbaColor → Prop) : Prop :=
  ∀ c d, P c → P d → c.r = d.r → c.g = d.g → c.b = d.b → c = d

theorem opt_key {P : RgbaColor → Prop} (hP : Inj P) {a b : Option RgbaColor} (ha : ∀ c, a = some c → P c)
    (hb : ∀ c, b = some c → P c)
    (h : a.map (fun c => (c.r, c.g, c.b)) = b.map (fun c => (c.r, c.g, c.b))) : a = b := by
  cases a with
  | none => cases b with
    | none => rfl
    | some d => cases h
  | some c => cases b with
    | none => cases h
    | some d =>
      simp only [Option.map_some, Option.some.injEq, Prod.mk.injEq] at h
      exact congrArg some (hP c d (ha c rfl) (hb d rfl) h.1 h.2.1 h.2.2)

theorem key_inj {P : RgbaColor → Prop} (hP : Inj P) {i j : Style} (hi : Of P i) (hj : Of P j)
    (h : styleKey i = styleKey j) : i = j := by
  obtain ⟨f, b, rfl, hf, hb⟩ := hi
  obtain ⟨f', b', rfl, hf', hb'⟩ := hj
  simp only [styleKey, Prod.mk.injEq] at h
  rw [opt_key hP hf hf' h.1, opt_key hP hb hb' h.2]

theorem getBox_from {P : RgbaColor → Prop} {bs : Boxes} (h : bs.From P) (k : Kind) {i o : Style} (hi : Of P i)
    (ho : Of P o) : (getBox bs k i o).2.From P ∧ (Inj P → (getBox bs k i o).1 = generateBox k i o) := by
  unfold getBox
  dsimp only
  split
  · rename_i b e
    refine ⟨h, fun hP => ?_⟩
    obtain ⟨k', i', o', hi', ho', e'⟩ := h _ (lookup_mem e)
    injection e' with e1 e2
    injection e1 with e3 e4
    injection e4 with e4 e5
    rw [key_inj hP hi hi' e4, key_inj hP ho ho' e5, e3]
    exact e2
  · refine ⟨?_, fun _ => rfl⟩
    intro p hp
    rcases List.mem_cons.1 hp with rfl | hp
    · exact ⟨k, i, o, hi, ho, rfl⟩
    · exact h p hp

theorem borderBox_from {P : RgbaColor → Prop} {bs : Boxes} (h : bs.From P) (s : Sheet)
    (hs : ∀ c, Uses s c → P c) :
    (borderBox bs s).2.From P ∧ (Inj P → (borderBox bs s).1 = (borderBox [] s).1) := by
  have hi : Of P { fg := edgeColor s.style s.border.top, bg := s.style.effectiveBackground } :=
    ⟨_, _, rfl, fun c e => hs c (Or.inl e), fun c e => hs c (Or.inr (Or.inr (Or.inl e)))⟩
  have ho : Of P { fg := edgeColor s.style s.border.top, bg := s.style.inheritedBackground } :=
    ⟨_, _, rfl, fun c e => hs c (Or.inl e), fun c e => hs c (Or.inr (Or.inr (Or.inr e)))⟩
  unfold borderBox
  dsimp only
  split
  · have := getBox_from h s.border.top.kind hi ho
    exact ⟨this.1, fun hP => by rw [this.2 hP]; rfl⟩
  · exact ⟨h, fun _ => rfl⟩

theorem outlineBox_from {P : RgbaColor → Prop} {bs : Boxes} (h : bs.From P) (s : Sheet)
    (hs : ∀ c, Uses s c → P c) :
    (outlineBoxOf bs s).2.From P ∧ (Inj P → (outlineBoxOf bs s).1 = (outlineBoxOf [] s).1) := by
  unfold outlineBoxOf
  dsimp only
  have := getBox_from h s.outline.top.kind (i := { fg := _, bg := s.style.effectiveBackground })
    (o := { fg := _, bg := s.style.inheritedBackground })
    ⟨_, _, rfl, fun c e => hs c (Or.inr (Or.inl e)), fun c e => hs c (Or.inr (Or.inr (Or.inl e)))⟩
    ⟨_, _, rfl, fun c e => hs c (Or.inr (Or.inl e)), fun c e => hs c (Or.inr (Or.inr (Or.inr e)))⟩
  exact ⟨this.1, fun hP => (this.2 hP).trans rfl⟩

theorem new_from {P : RgbaColor → Prop} {bs : Boxes} (h : bs.From P) (s : Sheet) (hs : ∀ c, Uses s c → P c) :
    (Cache.new bs s).2.From P ∧ (Inj P → (Cache.new bs s).1 = (Cache.new [] s).1) := by
  have hb := borderBox_from h s hs
  have ob : ∀ bs' : Boxes, bs'.From P → (outlineBoxOf bs' s).2.From P ∧
      (Inj P → (outlineBoxOf bs' s).1 = (outlineBoxOf [] s).1) := fun bs' h' => outlineBox_from h' s hs
  have he : Boxes.From P [] := by intro p hp; cases hp
  have hb0 := borderBox_from he s hs
  unfold Cache.new
  dsimp only
  by_cases h1 : (s.border.top.kind.horizontal || s.border.right.kind.vertical ||
      s.border.bottom.kind.horizontal || s.border.left.kind.vertical) = true
  · rw [if_pos h1]
    dsimp only
    by_cases h2 : (s.outline.top.kind.horizontal || s.outline.right.kind.vertical ||
        s.outline.bottom.kind.horizontal || s.outline.left.kind.vertical) = true
    · rw [if_pos h2, if_pos h1]
      dsimp only
      rw [if_pos h2]
      dsimp only
      exact ⟨(ob _ hb.1).1, fun hP => by rw [hb.2 hP, (ob _ hb.1).2 hP, (ob _ hb0.1).2 hP]⟩
    · rw [if_neg h2, if_pos h1]
      dsimp only
      rw [if_neg h2]
      exact ⟨hb.1, fun hP => by rw [hb.2 hP]⟩
  · rw [if_neg h1]
    dsimp only
    by_cases h2 : (s.outline.top.kind.horizontal || s.outline.right.kind.vertical ||
        s.outline.bottom.kind.horizontal || s.outline.left.kind.vertical) = true
    · rw [if_pos h2, if_neg h1]
      dsimp only
      rw [if_pos h2]
      exact ⟨(ob _ h).1, fun hP => by rw [(ob _ h).2 hP]⟩
    · rw [if_neg h2, if_neg h1]
      dsimp only
      rw [if_neg h2]
      exact ⟨h, fun _ => rfl⟩

/-- C95: what a widget looks like does not depend on which widgets were drawn before it, if none of the
colours involved differ only in something other than red, green and blue. Missing: colours that differ in
their alpha value (`history_counterexample`). -/
theorem history_partial (hist : List Sheet) (s : Sheet) (h : NoClash (s :: hist)) (y ht w : Nat)
    (content title subtitle : Option Strip) :
    (cacheAfter hist s).renderLine y ht w content title subtitle =
      (cacheAfter [] s).renderLine y ht w content title subtitle := by
  let P : RgbaColor → Prop := fun c => ∃ t ∈ s :: hist, Uses t c
  have hP : Inj P := by
    rintro c d ⟨t, ht, hc⟩ ⟨u, hu, hd⟩ e1 e2 e3
    exact h t ht u hu c d hc hd e1 e2 e3
  have key : ∀ (l : List Sheet) (b : Boxes), (∀ t ∈ l, t ∈ hist) → b.From P →
      Boxes.From P (l.foldl (fun b s => (Cache.new b s).2) b) := by
    intro l
    induction l with
    | nil => intro b _ hb; exact hb
    | cons t l ih =>
      intro b hl hb
      exact ih _ (fun u hu => hl u (List.mem_cons_of_mem _ hu))
        (new_from hb t fun c hc => ⟨t, List.mem_cons_of_mem _ (hl t List.mem_cons_self), hc⟩).1
  have hf := key hist [] (fun _ h => h) (by intro p hp; cases hp)
  have : cacheAfter hist s = cacheAfter [] s :=
    (new_from hf s fun c hc => ⟨s, List.mem_cons_self, hc⟩).2 hP
  rw [this]

/-- The colours of an edge: its own colour, or else the widget's text colour, over the background. -/
def edgeStyle (s : Sheet) (e : Edge) : Style :=
  { fg := e.color.or s.style.color, bg := s.style.effectiveBackground }

theorem edgeColor_opaque (s : Sheet) (h : s.style.opacity = 1) (e : Edge) :
    edgeColor s.style e = e.color.or s.style.color := by
  unfold edgeColor
  rw [h]
  cases e.color <;> cases s.style.color <;> cases s.style.inheritedBackground <;>
    simp [RgbaColor.blendToward, RgbaColor.withOpacity]

/-- The pieces of a border drawn for the first time. -/
theorem alone_box (s : Sheet) (box : Box) (h : (cacheAfter [] s).box = some box) :
    let edge (e : Edge) : Style × Style :=
      ({ fg := edgeColor s.style e, bg := s.style.effectiveBackground },
        { fg := edgeColor s.style e, bg := s.style.inheritedBackground })
    box = perEdgeBox s.border.top.kind (edge s.border.top) (edge s.border.bottom) (edge s.border.left)
      (edge s.border.right) := by
  intro edge
  rw [(new_boxes [] s).1 box h]
  unfold borderBox
  dsimp only
  split
  · rename_i h
    obtain ⟨e1, e2, e3⟩ := h
    have : edge s.border.bottom = edge s.border.top ∧ edge s.border.left = edge s.border.top ∧
        edge s.border.right = edge s.border.top := by
      refine ⟨?_, ?_, ?_⟩
      · show (_, _) = (_, _); rw [e1]
      · show (_, _) = (_, _); rw [e2]
      · show (_, _) = (_, _); rw [e3]
    rw [this.1, this.2.1, this.2.2]
    rfl
  · rfl

/-- C95: every edge of an opaque widget's border is drawn in the colour given for that edge, or else in the
widget's text colour, over the widget's background. Missing: the kinds drawn with the colours swapped
(`tall`, `panel`, `wide`, `inner`, `block`), edges of different kinds, translucent widgets and colour
clashes. -/
theorem border_colors_partial (hist : List Sheet) (s : Sheet) (y ht w : Nat) (content : Option Strip)
    (hy : y < ht) (hr : Room s w none none) (hc : Narrow content) (ho : NoOutline s)
    (h : NoClash (s :: hist)) (hop : s.style.opacity = 1)
    (hk : s.border.top.kind ∉ [Kind.tall, .panel, .wide, .inner, .block]) (x : StripCell) :
    let line := ((cacheAfter hist s).renderLine y ht w content none none).cells
    let l := s.border.left.kind.vertical
    let r := s.border.right.kind.vertical
    if y = 0 ∧ s.border.top.kind.horizontal = true then
      x ∈ line → x.style = some (edgeStyle s s.border.top)
    else if y + 1 = ht ∧ s.border.bottom.kind.horizontal = true then
      x ∈ line → x.style = some (edgeStyle s s.border.bottom)
    else (l = true → line[0]? = some x → x.style = some (edgeStyle s s.border.left)) ∧
      (r = true → line[w - 1]? = some x → x.style = some (edgeStyle s s.border.right)) := by
  intro line l r
  have hz : s.border.top.kind.zones = ⟨0, 0, 0, 0, 0, 0, 0, 0, 0⟩ := by
    revert hk
    cases s.border.top.kind <;> simp [Kind.zones]
  have hline : line = ((cacheAfter [] s).renderLine y ht w content none none).cells := by
    show Strip.cells _ = _
    rw [history_partial hist s h]
  clear_value line
  cases hbox : (cacheAfter [] s).box with
  | none =>
    obtain ⟨n1, n2, n3, n4⟩ := (cacheAfter_sound [] s).noBox hbox
    obtain ⟨h1, h2, h3, h4, _⟩ := cacheAfter_fields [] s
    rw [h1] at n1; rw [h2] at n3; rw [h3] at n4; rw [h4] at n2
    rw [n1, n3]
    simp only [Bool.false_eq_true, and_false, if_false]
    have hl : l = false := n4
    have hr' : r = false := n2
    rw [hl, hr']
    simp
  | some box =>
    have key := border_cells [] s y ht w content hy hr hc ho box hbox
    dsimp only at key
    rw [← hline] at key
    have hb := alone_box s box hbox
    dsimp only at hb
    unfold perEdgeBox at hb
    rw [hz] at hb
    simp only [zoneStyle, if_true, edgeColor_opaque s hop] at hb
    have hrow : ∀ (p : Row) (e : Edge), (col p.left).style = some (edgeStyle s e) →
        (col p.fill).style = some (edgeStyle s e) → (col p.right).style = some (edgeStyle s e) →
        x ∈ (if (l && r) = true then
        [col p.left] ++ List.replicate (w - 2) (col p.fill) ++ [col p.right] else List.replicate w (col p.fill)) →
        x.style = some (edgeStyle s e) := by
      intro p e e1 e2 e3 hx
      split at hx
      · simp only [List.mem_append, List.mem_singleton, List.mem_replicate] at hx
        rcases hx with (hx | hx) | hx
        · rw [hx]; exact e1
        · rw [hx.2]; exact e2
        · rw [hx]; exact e3
      · rw [(List.mem_replicate.1 hx).2]; exact e2
    split
    · rename_i h
      rw [if_pos h] at key
      intro hx
      rw [key] at hx
      exact hrow box.top s.border.top (by rw [hb]; rfl) (by rw [hb]; rfl) (by rw [hb]; rfl) hx
    · rename_i h
      rw [if_neg h] at key
      split
      · rename_i h'
        rw [if_pos h'] at key
        intro hx
        rw [key] at hx
        exact hrow box.bottom s.border.bottom (by rw [hb]; rfl) (by rw [hb]; rfl) (by rw [hb]; rfl) hx
      · rename_i h'
        rw [if_neg h'] at key
        obtain ⟨mid, hm, e⟩ := key
        constructor
        · intro hl hx
          have e' : line = only l (col box.middle.left) ++ mid ++ only r (col box.middle.right) := e
          rw [hl] at e'
          rw [e'] at hx
          have : x = col box.middle.left := by
            simp only [only, if_true, List.cons_append, List.nil_append, List.getElem?_cons_zero,
              Option.some.injEq] at hx
            exact hx.symm
          rw [this, hb]; rfl
        · intro hr' hx
          have e' : line = only l (col box.middle.left) ++ mid ++ only r (col box.middle.right) := e
          have hm' : mid.length = w - (one l + one r) := hm
          have r1 : one l + one r + s.paddingLeft + s.paddingRight ≤ w := hr.2.1
          rw [hr'] at e' hm' r1
          have one1 : one true = 1 := rfl
          have hlen : (only l (col box.middle.left) ++ mid).length = w - 1 := by
            rw [List.length_append, only_length]; omega
          rw [e', List.getElem?_append_right (by omega), hlen, Nat.sub_self] at hx
          have : x = col box.middle.right := by
            simp only [only, if_true, List.getElem?_cons_zero, Option.some.injEq] at hx
            exact hx.symm
          rw [this, hb]; rfl

end Textual.RenderCache
