import Verif.Lemmas.Restyle

/-!
C87: restyling only what changed gives every widget the style due to it.
C88: text colour and visibility come from the nearest widget that sets them.
C89: inline colours win over the stylesheet.
-/

namespace Textual.Restyle

/-- C87: style a tree, apply any calls and redraws, redraw: every visible widget has the style the cascade
and the overrides give for the present state of it and its ancestors. Missing: `Center` and `Middle`, which
drop their style (`bare_counterexample`), and stylesheets that style a `Container` by the layout name it
advertises (`layout_counterexample`). -/
theorem frame_exact_partial {cas : Cascade} (hc : Settled cas) (inh : Inherited) (w : W) (evs : List Ev)
    (hw : w.Stores) (he : ∀ e ∈ evs, e.Stores) :
    (restyleDirty cas inh (run cas inh w evs)).Exact cas [] inh := by
  have h0 : (resolveStyles cas inh w).Exact cas [] inh :=
    passN_exact hc _ w _ _ _ hw (Nat.le_refl _) (fun e => by cases e)
  obtain ⟨h1, h2⟩ := run_inv hc inh evs _ (passN_stores cas _ w _ _ _ hw)
    (inv_of_exact cas _ _ _ h0) he
  exact passN_exact hc _ _ _ _ _ h1 (Nat.le_refl _) (fun _ => h2)

/-- C87: a redraw of the dirty widgets and a restyling of the whole tree change nothing but styles and
dirty flags. -/
theorem restyle_only_styles (cas : Cascade) (inh : Inherited) (w : W) :
    (resolveStyles cas inh w).bones = w.bones ∧ (restyleDirty cas inh w).bones = w.bones :=
  ⟨passN_bones cas _ w _ _ _, passN_bones cas _ w _ _ _⟩

/-- C87: a second redraw with nothing called in between changes nothing at all. -/
theorem frame_idle (cas : Cascade) (inh : Inherited) (w : W) :
    restyleDirty cas inh (restyleDirty cas inh w) = restyleDirty cas inh w :=
  passN_idle cas _ _ _ _ (passN_quiet cas _ w _ _ _ (Nat.le_refl _))

/-- C87: which type selectors reach a container follows from its layout. -/
theorem container_names (a : Attrs) (h : a.kind = .container) :
    ("Vertical" ∈ a.meta.typeNames ↔ a.style.layout = .vertical) ∧
    ("Horizontal" ∈ a.meta.typeNames ↔ a.style.layout = .horizontal) ∧
    "Container" ∈ a.meta.typeNames ∧ a.meta.id = a.base.id ∧ a.meta.classes = a.base.classes := by
  have e : a.meta = withLayout a.style.layout a.base := by unfold Attrs.meta; rw [h]
  rw [e]
  cases a.style.layout <;> simp [withLayout]

example : "Horizontal" ∈ (Attrs.meta
    { kind := .container, style := { layout := .horizontal }, base := { typeName := "Container" } }).typeNames :=
  (container_names _ rfl).2.1.2 rfl

/-- C87: each call has its effect on what selectors and overrides see of the widget, and no other. -/
theorem setter_effect (a : Attrs) (c d : String) (b : Bool) (o : Override) (cs : List String) :
    (d ∈ ((Setter.addClass c).apply a).base.classes ↔ d = c ∨ d ∈ a.base.classes) ∧
    (a.base.classes.Nodup →
      (d ∈ ((Setter.removeClass c).apply a).base.classes ↔ d ≠ c ∧ d ∈ a.base.classes)) ∧
    ((Setter.setClasses cs).apply a).base = { a.base with classes := cs } ∧
    ((Setter.setDisabled b).apply a).base = { a.base with disabled := b } ∧
    ((Setter.setHover b).apply a).base = { a.base with hover := b } ∧
    ((Setter.setFocus b).apply a).base = { a.base with focus := b } ∧
    ((Setter.setActive b).apply a).base = { a.base with active := b } ∧
    ((Setter.setVisible b).apply a).visible = b ∧ ((Setter.setVisible b).apply a).base = a.base ∧
    ((Setter.setInline o).apply a).inline = o ∧ ((Setter.setInline o).apply a).base = a.base ∧
    (Setter.clearInline.apply a).inline = {} ∧ (Setter.clearInline.apply a).base = a.base := by
  refine ⟨?_, ?_, rfl, ?_, ?_, ?_, ?_, ?_, ?_, rfl, rfl, rfl, rfl⟩
  · unfold Setter.apply
    dsimp only
    split
    · rename_i h
      rw [List.any_eq_true] at h
      obtain ⟨x, hx, hxc⟩ := h
      rw [beq_iff_eq] at hxc
      subst hxc
      constructor
      · exact Or.inr
      · rintro (rfl | h)
        · exact hx
        · exact h
    · simp only [List.mem_append, List.mem_singleton]
      exact Or.comm
  · intro hn
    unfold Setter.apply
    dsimp only
    split
    · rw [hn.mem_erase_iff]
    · rename_i h
      have h' : c ∉ a.base.classes := by
        intro hm
        exact h (List.any_eq_true.mpr ⟨c, hm, beq_self_eq_true c⟩)
      constructor
      · intro hd
        exact ⟨fun e => h' (e ▸ hd), hd⟩
      · exact And.right
  all_goals
    unfold Setter.apply
    dsimp only
    split
    · rfl
    · rename_i h
      obtain ⟨kind, base, visible, dirty, inline, style⟩ := a
      obtain ⟨t, ts, i, cl, f1, f2, f3, f4⟩ := base
      simp only [bne_iff_ne, ne_eq, not_not] at h
      first
      | (subst h; rfl)
      | rfl

example : ["a", "b"].Nodup ∧ "b" ∈ ((Setter.removeClass "a").apply
    { base := { typeName := "Static", classes := ["a", "b"] } }).base.classes := by decide +kernel

/-! A concrete run. -/

/-- `.warn { color: red }`, `Screen { background: blue }`, `Switch:hover { background: green }`. -/
def demoCascade : Cascade := fun w _ =>
  { color := if w.classes.any (· == "warn") then some (RgbaColor.rgb 255 0 0) else none
    background := if w.typeName == "Screen" then some (RgbaColor.rgb 0 0 255)
      else if w.typeName == "Switch" && w.hover then some (RgbaColor.rgb 0 255 0) else none }

/-- A screen with a container with a switch in it. -/
def demoTree : W :=
  .node { kind := .group, base := { typeName := "Screen" } }
    [.node { kind := .container, base := { typeName := "Container" } }
      [.node { base := { typeName := "Switch" } } []]]

theorem demo_settled : Settled demoCascade := by
  intro base l l' anc
  rfl

/-- The text colour and the background of the widget at a path. -/
def shownAt (p : List Nat) (w : W) : Option (Option RgbaColor × Option RgbaColor) :=
  ((w.chain p).bind List.getLast?).map fun a => (a.style.color, a.style.effectiveBackground)

example : Settled demoCascade ∧ demoTree.Stores ∧
    shownAt [0, 0] (restyleDirty demoCascade {} (run demoCascade {} demoTree
      [.call [0] (.addClass "warn"), .frame, .call [0, 0] (.setHover true)])) =
      some (some (RgbaColor.rgb 255 0 0), some (RgbaColor.rgb 0 255 0)) ∧
    shownAt [0, 0] (run demoCascade {} demoTree []) =
      some (none, some (RgbaColor.rgb 0 0 255)) := by
  refine ⟨demo_settled, ?_, ?_, ?_⟩
  · simp [demoTree, W.Stores, AllStore]
  · decide +kernel
  · decide +kernel

/-- A screen with a `Center` around a switch. -/
def centerTree : W :=
  .node { kind := .group, base := { typeName := "Screen", classes := ["warn"] } }
    [.node { kind := .bare, base := { typeName := "Center" } }
      [.node { base := { typeName := "Switch" } } []]]

/-- C87: a switch inside a `Center` inherits the screen's colour when the whole tree is styled, and loses
it when it alone is restyled; restyling everything would give it back. -/
theorem bare_counterexample :
    let before := run demoCascade {} centerTree []
    let after := restyleDirty demoCascade {} (run demoCascade {} centerTree
      [.call [0, 0] (.setFocus true)])
    shownAt [0, 0] before = some (some (RgbaColor.rgb 255 0 0), some (RgbaColor.rgb 0 0 255)) ∧
      shownAt [0, 0] after = some (none, some (RgbaColor.rgb 0 0 255)) ∧
      shownAt [0, 0] (resolveStyles demoCascade {} after) = shownAt [0, 0] before := by
  decide +kernel

/-- `Container { layout: horizontal }`, `Horizontal { color: red }`. -/
def layoutCascade : Cascade := fun w _ =>
  { layout := if w.typeName == "Container" then .horizontal else .vertical
    color := if w.typeNames.any (· == "Horizontal") then some (RgbaColor.rgb 255 0 0) else none }

/-- C87: a container becomes `Horizontal` by the stylesheet, but the rule for `Horizontal` reaches it only
when it is styled a second time: neither the first styling nor a redraw gives the colour, marking it dirty
does. -/
theorem layout_counterexample :
    let w : W := .node { kind := .container, base := { typeName := "Container" } } []
    let first := run layoutCascade {} w [.frame]
    let second := run layoutCascade {} w [.markDirty [], .frame]
    shownAt [] first = some (none, none) ∧
      shownAt [] second = some (some (RgbaColor.rgb 255 0 0), none) ∧ ¬ first.Exact layoutCascade [] {} := by
  refine ⟨by decide +kernel, by decide +kernel, ?_⟩
  intro h
  have h2 := congrArg Style.color (h rfl).2.1
  revert h2
  decide +kernel

/-- C87: the inherent `Static::add_class` leaves the widget clean, so the new class has no effect on the
next frames; the trait's `add_class` has. -/
theorem inherent_add_class_counterexample :
    let w := run demoCascade {} demoTree []
    let quiet := w.update (fun | .node a cs => .node (rawAddClass "warn" a) cs) [0, 0]
    shownAt [0, 0] (restyleDirty demoCascade {} quiet) = shownAt [0, 0] w ∧
      shownAt [0, 0] (restyleDirty demoCascade {} (step demoCascade {} w (.call [0, 0] (.addClass "warn")))) =
        some (some (RgbaColor.rgb 255 0 0), some (RgbaColor.rgb 0 0 255)) ∧
      shownAt [0, 0] w = some (none, some (RgbaColor.rgb 0 0 255)) := by
  decide +kernel

/-! ### C88 -/

theorem due_color (cas : Cascade) (a : Attrs) (anc : List Css.Widget) (inh : Inherited) :
    (a.due cas anc inh).color = (match a.ownColor cas anc with | some c => some c | none => inh.color) := by
  unfold Attrs.due Attrs.ownColor Override.applyTo applyInheritance
  cases a.inline.color with
  | some c => rfl
  | none =>
    cases h : (cas a.meta anc).color with
    | some c =>
      simp only [h, Option.isNone_some, Bool.false_and, Bool.false_eq_true, if_false]
      split <;> simp [h]
    | none =>
      cases h2 : inh.color with
      | some c =>
        simp only [h, Option.isNone_none, Option.isSome_some, Bool.and_true, if_true]
        split <;> rfl
      | none =>
        simp only [h, Option.isSome_none, Bool.and_false, Bool.false_eq_true, if_false]
        split <;> simp [h]

theorem due_hidden (cas : Cascade) (a : Attrs) (anc : List Css.Widget) (inh : Inherited) :
    (a.due cas anc inh).hidden =
      if (cas a.meta anc).visibilitySet then (cas a.meta anc).hidden else inh.hidden := by
  unfold Attrs.due Override.applyTo applyInheritance
  cases h : (cas a.meta anc).visibilitySet <;>
    by_cases h2 : ((cas a.meta anc).color.isNone && inh.color.isSome) = true <;>
    simp only [h2, if_true, Bool.false_eq_true, if_false, h, Bool.not_true, Bool.not_false]

/-- C88: with exact styles, the text colour of a widget shown is the one set, inline or by the
stylesheet, by the nearest of it and its ancestors that sets one, and the theme's if none does. The same
for `visibility`. -/
theorem nearest_wins (cas : Cascade) : ∀ (p : List Nat) (w : W) (anc : List Css.Widget) (inh : Inherited)
    (as : List Attrs), w.Exact cas anc inh → w.chain p = some as → (∀ a ∈ as, a.visible = true) →
    ∃ a, as.getLast? = some a ∧ a.style.color = nearestColor cas anc inh.color as ∧
      a.style.hidden = nearestHidden cas anc inh.hidden as := by
  intro p
  induction p with
  | nil =>
    intro w anc inh as hx hch hv
    cases w with
    | node a cs =>
      cases hch
      obtain ⟨_, h2, _⟩ := hx (hv a (List.mem_cons_self ..))
      refine ⟨a, rfl, ?_, ?_⟩
      · rw [h2, due_color]; rfl
      · rw [h2, due_hidden]; rfl
  | cons i p ih =>
    intro w anc inh as hx hch hv
    cases w with
    | node a cs =>
      rw [W.chain] at hch
      cases hg : cs[i]? with
      | none => rw [hg] at hch; cases hch
      | some c =>
        rw [hg] at hch
        cases hch' : c.chain p with
        | none => simp [hch'] at hch
        | some bs =>
          simp only [hch', Option.map_some, Option.some.injEq] at hch
          subst hch
          obtain ⟨_, h2, h3⟩ := hx (hv a (List.mem_cons_self ..))
          obtain ⟨b, hb, hcol, hhid⟩ := ih c _ _ bs
            (allExact_mem.mp h3 c (List.mem_of_getElem? hg)) hch'
            (fun b hb => hv b (List.mem_cons_of_mem _ hb))
          refine ⟨b, ?_, ?_, ?_⟩
          · rw [List.getLast?_cons, hb]; rfl
          · rw [hcol, nearestColor]
            show nearestColor cas (a.meta :: anc) a.style.color bs = _
            rw [h2, due_color]
            cases a.ownColor cas anc <;> rfl
          · rw [hhid, nearestHidden]
            show nearestHidden cas (a.meta :: anc) a.style.hidden bs = _
            rw [h2, due_hidden]

/-- C88, over runs: after any calls and redraws. Missing: as in `frame_exact_partial`. -/
theorem nearest_wins_partial {cas : Cascade} (hc : Settled cas) (theme : String → Option RgbaColor) (w : W)
    (evs : List Ev) (hw : w.Stores) (he : ∀ e ∈ evs, e.Stores) (p : List Nat) (as : List Attrs) :
    let inh := Inherited.fromTheme theme
    (restyleDirty cas inh (run cas inh w evs)).chain p = some as → (∀ a ∈ as, a.visible = true) →
    ∃ a, as.getLast? = some a ∧
      a.style.color = nearestColor cas [] ((theme "foreground").or (theme "text")) as ∧
      a.style.hidden = nearestHidden cas [] false as := by
  intro inh hch hv
  obtain ⟨a, h1, h2, h3⟩ := nearest_wins cas p _ _ _ as (frame_exact_partial hc inh w evs hw he) hch hv
  refine ⟨a, h1, ?_, h3⟩
  rw [h2]
  show nearestColor cas [] (match theme "foreground" with | some c => some c | none => theme "text") as = _
  cases theme "foreground" <;> rfl

example : ∃ as, (restyleDirty demoCascade {} (run demoCascade {} demoTree
      [.call [0] (.addClass "warn")])).chain [0, 0] = some as ∧ (∀ a ∈ as, a.visible = true) ∧
    nearestColor demoCascade [] none as = some (RgbaColor.rgb 255 0 0) := by
  refine ⟨_, rfl, ?_, ?_⟩
  · decide +kernel
  · decide +kernel

theorem composeBackground_paint (s : Style) (inh : Inherited) :
    composeBackground s inh = paint inh.background s.background s.backgroundTint := by
  unfold composeBackground paint
  cases s.background with
  | none => rfl
  | some bg =>
    cases inh.background with
    | none => cases s.backgroundTint <;> rfl
    | some b =>
      dsimp only
      by_cases h : bg.a < 1
      · rw [if_pos h]
        cases s.backgroundTint <;> rfl
      · rw [if_neg h]
        have : bg.blendOver b = bg := by
          unfold RgbaColor.blendOver
          rw [if_pos (Rat.not_lt.mp h)]
        cases s.backgroundTint <;> simp only [this]

theorem due_behind (cas : Cascade) (a : Attrs) (anc : List Css.Widget) (inh : Inherited) :
    (a.due cas anc inh).inheritedBackground = inh.background := by
  unfold Attrs.due Override.applyTo applyInheritance
  cases h : (cas a.meta anc).visibilitySet <;>
    by_cases h2 : ((cas a.meta anc).color.isNone && inh.color.isSome) = true <;>
    simp only [h2, if_true, Bool.false_eq_true, if_false, h, Bool.not_true, Bool.not_false]

/-- C88: with exact styles, the background a widget takes for what is behind it (for `auto` colours,
opacity and transparent widgets) is the one painted by its ancestors, from the root down. -/
theorem behind_exact (cas : Cascade) : ∀ (p : List Nat) (w : W) (anc : List Css.Widget) (inh : Inherited)
    (as : List Attrs), w.Exact cas anc inh → w.chain p = some as → (∀ a ∈ as, a.visible = true) →
    ∃ a, as.getLast? = some a ∧ a.style.inheritedBackground = behindLast inh.background as := by
  intro p
  induction p with
  | nil =>
    intro w anc inh as hx hch hv
    cases w with
    | node a cs =>
      cases hch
      obtain ⟨_, h2, _⟩ := hx (hv a (List.mem_cons_self ..))
      exact ⟨a, rfl, by rw [h2, due_behind]; rfl⟩
  | cons i p ih =>
    intro w anc inh as hx hch hv
    cases w with
    | node a cs =>
      rw [W.chain] at hch
      cases hg : cs[i]? with
      | none => rw [hg] at hch; cases hch
      | some c =>
        rw [hg] at hch
        cases hch' : c.chain p with
        | none => simp [hch'] at hch
        | some bs =>
          simp only [hch', Option.map_some, Option.some.injEq] at hch
          subst hch
          obtain ⟨_, h2, h3⟩ := hx (hv a (List.mem_cons_self ..))
          obtain ⟨b, hb, hbg⟩ := ih c _ _ bs
            (allExact_mem.mp h3 c (List.mem_of_getElem? hg)) hch'
            (fun b hb => hv b (List.mem_cons_of_mem _ hb))
          refine ⟨b, by rw [List.getLast?_cons, hb]; rfl, ?_⟩
          rw [hbg]
          show behindLast (composeBackground a.style inh) bs = _
          rw [composeBackground_paint]
          cases bs with
          | nil => cases hb
          | cons b' bs => rfl

/-- C88, over runs. Missing: as in `frame_exact_partial`. -/
theorem behind_partial {cas : Cascade} (hc : Settled cas) (theme : String → Option RgbaColor) (w : W)
    (evs : List Ev) (hw : w.Stores) (he : ∀ e ∈ evs, e.Stores) (p : List Nat) (as : List Attrs) :
    let inh := Inherited.fromTheme theme
    (restyleDirty cas inh (run cas inh w evs)).chain p = some as → (∀ a ∈ as, a.visible = true) →
    ∃ a, as.getLast? = some a ∧ a.style.inheritedBackground = behindLast none as := by
  intro inh hch hv
  exact behind_exact cas p _ _ _ as (frame_exact_partial hc inh w evs hw he) hch hv

example : ∃ as, (restyleDirty demoCascade {} (run demoCascade {} demoTree [])).chain [0, 0] = some as ∧
    (∀ a ∈ as, a.visible = true) ∧ behindLast none as = some (RgbaColor.rgb 0 0 255) := by
  refine ⟨_, rfl, ?_, ?_⟩
  · decide +kernel
  · decide +kernel

/-! ### C89 -/

theorem blendToward_one (c d : RgbaColor) (f : Rat) (h : 1 ≤ f) : c.blendToward d f = c := by
  unfold RgbaColor.blendToward
  rw [if_pos h]

/-- C89: a widget at full opacity with an inline text colour is painted in it, unless the style it
overrides says `auto`. Missing: the `auto` case (`inline_color_counterexample`). -/
theorem inline_color_partial (cas : Cascade) (a : Attrs) (anc : List Css.Widget) (inh : Inherited)
    (c : RgbaColor) (hc : a.inline.color = some c) (ho : 1 ≤ (a.due cas anc inh).opacity)
    (ha : (a.due cas anc inh).autoColor = false) : (a.due cas anc inh).foreground = some c := by
  have hcol : (a.due cas anc inh).color = some c := by
    rw [due_color, Attrs.ownColor, hc]
  unfold Style.foreground
  rw [ha, hcol]
  simp only [Bool.false_eq_true, if_false]
  cases (a.due cas anc inh).inheritedBackground with
  | some bg => exact congrArg some (blendToward_one _ _ _ ho)
  | none =>
    refine congrArg some ?_
    unfold RgbaColor.withOpacity
    rw [if_pos ho]

/-- C89: a widget at full opacity with an inline background that is not transparent is painted on it,
tinted by the inline tint, or by the stylesheet's if there is none inline. -/
theorem inline_background (cas : Cascade) (a : Attrs) (anc : List Css.Widget) (inh : Inherited)
    (bg : RgbaColor) (hb : a.inline.background = some bg) (hvis : 0 < bg.a)
    (ho : 1 ≤ (a.due cas anc inh).opacity) :
    (a.due cas anc inh).effectiveBackground =
      some (match a.inline.backgroundTint.or (cas a.meta anc).backgroundTint with
        | some t => bg.tint t
        | none => bg) := by
  have h1 : (a.due cas anc inh).background = some bg := by
    unfold Attrs.due Override.applyTo
    rw [hb]
  have h2 : (a.due cas anc inh).backgroundTint =
      a.inline.backgroundTint.or (cas a.meta anc).backgroundTint := by
    unfold Attrs.due Override.applyTo applyInheritance
    cases a.inline.backgroundTint with
    | some t => rfl
    | none =>
      simp only [Option.none_or]
      by_cases h : ((cas a.meta anc).color.isNone && inh.color.isSome) = true <;>
        simp only [h, if_true, Bool.false_eq_true, if_false] <;> split <;> rfl
  have h3 : bg.isTransparent = false := by
    unfold RgbaColor.isTransparent
    exact decide_eq_false (Rat.not_le.mpr hvis)
  have h4 : ¬ (a.due cas anc inh).opacity < 1 := Rat.not_lt.mpr ho
  unfold Style.effectiveBackground
  rw [h1, h2]
  simp only [h3, Bool.false_eq_true, if_false, h4]
  cases a.inline.backgroundTint.or (cas a.meta anc).backgroundTint <;>
    cases (a.due cas anc inh).inheritedBackground <;> rfl

/-- C89: the inline tint replaces the stylesheet's, and an empty override changes nothing. -/
theorem inline_tint (o : Override) (s : Style) :
    (o.applyTo s).tint = o.tint.or s.tint ∧ (({} : Override).applyTo s) = s := by
  refine ⟨?_, rfl⟩
  unfold Override.applyTo
  cases o.tint <;> rfl

example : let a : Attrs := { base := { typeName := "Static" }, inline := { color := some (RgbaColor.rgb 9 9 9), background := some (RgbaColor.rgb 1 2 3) } }
    a.inline.color = some (RgbaColor.rgb 9 9 9) ∧ 1 ≤ (a.due demoCascade [] {}).opacity ∧
      (a.due demoCascade [] {}).autoColor = false ∧ (0 : Rat) < (RgbaColor.rgb 1 2 3).a ∧
      a.inline.background = some (RgbaColor.rgb 1 2 3) := by
  decide +kernel

/-- `Placeholder { color: auto 87%; background: black }` (placeholder.rs:325 uses `$text`, an auto
colour). -/
def autoCascade : Cascade := fun _ _ =>
  { color := some (RgbaColor.autoColor (87 / 100)), autoColor := true, background := some RgbaColor.black }

/-- C89: with a stylesheet whose colour is `auto`, two widgets with different inline colours are painted
in the same colour, and it is neither. -/
theorem inline_color_counterexample :
    let w (c : RgbaColor) : Attrs := { base := { typeName := "Placeholder" }, inline := { color := some c } }
    let red := (w (RgbaColor.rgb 255 0 0)).due autoCascade [] {}
    let green := (w (RgbaColor.rgb 0 255 0)).due autoCascade [] {}
    red.color = some (RgbaColor.rgb 255 0 0) ∧ red.foreground = some RgbaColor.white ∧
      green.foreground = some RgbaColor.white := by
  decide +kernel

end Textual.Restyle
