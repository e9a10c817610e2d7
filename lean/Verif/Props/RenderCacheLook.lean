import Verif.Props.RenderCacheCases

/-!
C95: the two colours of every piece of a border, also for the kinds that are drawn half outside.
-/

namespace Textual.RenderCache

/-- How a piece of border is painted: over the widget's own background (`inside`) or over what is behind the
widget (`outside`); `swapped` pieces are painted the other way round, the background on the border colour. -/
inductive Ground where
  | inside
  | outside
  | outsideSwapped
  | insideSwapped
deriving DecidableEq, Repr

/-- The ground of every piece: `inner` borders and the rows of `wide` and `block` lie outside, `tall` and
`panel` borders have their sides outside, all else is inside. -/
def ground : Kind → Grid3 Ground
  | .tall | .panel =>
    ⟨.outsideSwapped, .inside, .outside, .outsideSwapped, .inside, .outside, .outsideSwapped, .inside, .outside⟩
  | .wide => ⟨.outside, .outside, .outside, .inside, .outside, .insideSwapped, .outside, .outside, .outside⟩
  | .inner => ⟨.outside, .outside, .outside, .outside, .outside, .outside, .outside, .outside, .outside⟩
  | .block => ⟨.outside, .outside, .outside, .inside, .inside, .inside, .outside, .outside, .outside⟩
  | _ => ⟨.inside, .inside, .inside, .inside, .inside, .inside, .inside, .inside, .inside⟩

/-- The style of a piece of an edge. -/
def look (s : Sheet) (e : Edge) : Ground → Style
  | .inside => { fg := e.color.or s.style.color, bg := s.style.effectiveBackground }
  | .outside => { fg := e.color.or s.style.color, bg := s.style.inheritedBackground }
  | .outsideSwapped => { fg := e.color.or s.style.color, bg := s.style.inheritedBackground, reverse := true }
  | .insideSwapped => { fg := e.color.or s.style.color, bg := s.style.effectiveBackground, reverse := true }

/-- The styles of a border row, with corners if there are borders at both sides. -/
def rowLooks (s : Sheet) (e : Edge) (w : Nat) (left fill right : Ground) : List (Option Style) :=
  if s.border.left.kind.vertical && s.border.right.kind.vertical then
    [some (look s e left)] ++ List.replicate (w - 2) (some (look s e fill)) ++ [some (look s e right)]
  else List.replicate w (some (look s e fill))

/-- The zones and grounds agree. -/
theorem zone_look (s : Sheet) (hop : s.style.opacity = 1) (e : Edge) (k : Kind) :
    let inner : Style := { fg := edgeColor s.style e, bg := s.style.effectiveBackground }
    let outer : Style := { fg := edgeColor s.style e, bg := s.style.inheritedBackground }
    zoneStyle k.zones.topLeft inner outer = look s e (ground k).topLeft ∧
    zoneStyle k.zones.top inner outer = look s e (ground k).top ∧
    zoneStyle k.zones.topRight inner outer = look s e (ground k).topRight ∧
    zoneStyle k.zones.left inner outer = look s e (ground k).left ∧
    zoneStyle k.zones.right inner outer = look s e (ground k).right ∧
    zoneStyle k.zones.bottomLeft inner outer = look s e (ground k).bottomLeft ∧
    zoneStyle k.zones.bottom inner outer = look s e (ground k).bottom ∧
    zoneStyle k.zones.bottomRight inner outer = look s e (ground k).bottomRight := by
  dsimp only
  rw [edgeColor_opaque s hop e]
  cases k <;> exact ⟨rfl, rfl, rfl, rfl, rfl, rfl, rfl, rfl⟩

/-- C95: every piece of an opaque widget's border is painted in the colour of its own edge (or else in the text
colour), over or under the background of its kind. Missing: edges of a kind other than the top's (which are
drawn in the top's kind, C94), translucent widgets and colour clashes. -/
theorem border_looks_partial (hist : List Sheet) (s : Sheet) (y ht w : Nat) (content : Option Strip)
    (hy : y < ht) (hr : Room s w none none) (hc : Narrow content) (ho : NoOutline s)
    (h : NoClash (s :: hist)) (hop : s.style.opacity = 1) :
    let line := ((cacheAfter hist s).renderLine y ht w content none none).cells.map (·.style)
    let g := ground s.border.top.kind
    if y = 0 ∧ s.border.top.kind.horizontal = true then
      line = rowLooks s s.border.top w g.topLeft g.top g.topRight
    else if y + 1 = ht ∧ s.border.bottom.kind.horizontal = true then
      line = rowLooks s s.border.bottom w g.bottomLeft g.bottom g.bottomRight
    else (s.border.left.kind.vertical = true → line[0]? = some (some (look s s.border.left g.left))) ∧
      (s.border.right.kind.vertical = true → line[w - 1]? = some (some (look s s.border.right g.right))) := by
  intro line g
  have hline : line = ((cacheAfter [] s).renderLine y ht w content none none).cells.map (·.style) := by
    show List.map _ (Strip.cells _) = _
    rw [history_partial hist s h]
  clear_value line
  cases hbox : (cacheAfter [] s).box with
  | none =>
    obtain ⟨n1, n2, n3, n4⟩ := (cacheAfter_sound [] s).noBox hbox
    obtain ⟨h1, h2, h3, h4, _⟩ := cacheAfter_fields [] s
    rw [h1] at n1; rw [h2] at n3; rw [h3] at n4; rw [h4] at n2
    rw [n1, n3, n4, n2]
    simp
  | some box =>
    have key := border_cells [] s y ht w content hy hr hc ho box hbox
    dsimp only at key
    have hb := alone_box s box hbox
    dsimp only at hb
    obtain ⟨t1, t2, t3, _⟩ := zone_look s hop s.border.top s.border.top.kind
    obtain ⟨_, _, _, _, _, b1, b2, b3⟩ := zone_look s hop s.border.bottom s.border.top.kind
    obtain ⟨_, _, _, l1, _⟩ := zone_look s hop s.border.left s.border.top.kind
    obtain ⟨_, _, _, _, r1, _⟩ := zone_look s hop s.border.right s.border.top.kind
    have ct1 : (col box.top.left).style = some (look s s.border.top g.topLeft) := by
      rw [hb]; exact congrArg some t1
    have ct2 : (col box.top.fill).style = some (look s s.border.top g.top) := by
      rw [hb]; exact congrArg some t2
    have ct3 : (col box.top.right).style = some (look s s.border.top g.topRight) := by
      rw [hb]; exact congrArg some t3
    have cb1 : (col box.bottom.left).style = some (look s s.border.bottom g.bottomLeft) := by
      rw [hb]; exact congrArg some b1
    have cb2 : (col box.bottom.fill).style = some (look s s.border.bottom g.bottom) := by
      rw [hb]; exact congrArg some b2
    have cb3 : (col box.bottom.right).style = some (look s s.border.bottom g.bottomRight) := by
      rw [hb]; exact congrArg some b3
    have cl : (col box.middle.left).style = some (look s s.border.left g.left) := by
      rw [hb]; exact congrArg some l1
    have cr : (col box.middle.right).style = some (look s s.border.right g.right) := by
      rw [hb]; exact congrArg some r1
    clear_value g
    have hrow : ∀ (p : Row) (e : Edge) (a b c : Ground), (col p.left).style = some (look s e a) →
        (col p.fill).style = some (look s e b) → (col p.right).style = some (look s e c) →
        (if (s.border.left.kind.vertical && s.border.right.kind.vertical) = true then
          [col p.left] ++ List.replicate (w - 2) (col p.fill) ++ [col p.right]
          else List.replicate w (col p.fill)).map (·.style) = rowLooks s e w a b c := by
      intro p e a b c e1 e2 e3
      unfold rowLooks
      split
      · simp [e1, e2, e3]
      · simp [e2]
    split
    · rename_i h
      rw [if_pos h] at key
      rw [hline, key]
      exact hrow _ _ _ _ _ ct1 ct2 ct3
    · rename_i h
      rw [if_neg h] at key
      split
      · rename_i h'
        rw [if_pos h'] at key
        rw [hline, key]
        exact hrow _ _ _ _ _ cb1 cb2 cb3
      · rename_i h'
        rw [if_neg h'] at key
        obtain ⟨mid, hm, e⟩ := key
        rw [e] at hline
        constructor
        · intro hl
          rw [hline, hl]
          simp [only, cl]
        · intro hr'
          have r1 : one s.border.left.kind.vertical + one s.border.right.kind.vertical + s.paddingLeft +
            s.paddingRight ≤ w := hr.2.1
          rw [hr'] at hline hm r1
          have one1 : one true = 1 := rfl
          have hlen : ((only s.border.left.kind.vertical (col box.middle.left) ++ mid).map (·.style)).length =
              w - 1 := by
            rw [List.length_map, List.length_append, only_length]; omega
          rw [hline, List.map_append, List.getElem?_append_right (by omega), hlen, Nat.sub_self]
          simp [only, cr]

/-- A widget with a `wide` border in red. -/
def wideCard : Sheet := { border := ⟨⟨.wide, some (red 1)⟩, ⟨.wide, some (red 1)⟩, ⟨.wide, some (red 1)⟩, ⟨.wide, some (red 1)⟩⟩ }

theorem wide_clash : NoClash [wideCard] := by
  have hu : ∀ c, Uses wideCard c → c = red 1 := by
    rintro c (h | h | h | h)
    · rw [edgeColor_opaque _ rfl] at h
      injection h with h
      exact h.symm
    · cases h
    · cases h
    · cases h
  intro t ht u hu' c d hc hd _ _ _
  simp only [List.mem_cons, List.not_mem_nil, or_false] at ht hu'
  subst ht; subst hu'
  rw [hu c hc, hu d hd]

/-- The right side of a `wide` border is painted the other way round. -/
example : (((cacheAfter [] wideCard).renderLine 1 3 5 none none none).cells.map (·.style))[4]? =
    some (some { fg := some (red 1), reverse := true }) :=
  (border_looks_partial [] wideCard 1 3 5 none (by decide) (by unfold Room; decide) none_narrow
    (by unfold NoOutline; decide) wide_clash rfl).2 rfl

end Textual.RenderCache
