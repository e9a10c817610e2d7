import Verif.Model.SwitchFace
import Verif.Props.Press
import Verif.Props.Small

/-!
# A switch shows its value (C176)
-/

namespace Textual.Press

open Canvas Placeholder

/-- What a switch should look like: whether it has the focus, and its value or, while it is loading, the frame of the
spinner after so many ticks. -/
def face (focused loading value : Bool) (ticks : Nat) : String :=
  match focused, loading, value with
  | true, false, true => ">[  ON  ]<"
  | true, false, false => ">[ OFF  ]<"
  | false, false, true => " [  ON  ] "
  | false, false, false => " [ OFF  ] "
  | true, true, _ => ">[  " ++ Small.frames.getD (ticks % 10) "" ++ "   ]<"
  | false, true, _ => " [  " ++ Small.frames.getD (ticks % 10) "" ++ "   ] "

/-- The flags last set, and the ticks so far. -/
def lastFocus (b : Bool) : Event → Bool
  | .setFocus v => v
  | _ => b

@[inherit_doc lastFocus] def lastLoading (b : Bool) : Event → Bool
  | .setLoading v => v
  | _ => b

/-- The parts drawn, but for the value, are the same. -/
def Same (t s : Switch) : Prop := t.focused = s.focused ∧ t.loading = s.loading ∧ t.frame = s.frame

theorem Same.trans {a b c : Switch} (h : Same a b) (g : Same b c) : Same a c :=
  ⟨h.1.trans g.1, h.2.1.trans g.2.1, h.2.2.trans g.2.2⟩

theorem same_clearHover (s : Switch) : Same s.clearHover s := by
  unfold Switch.clearHover Same
  cases s.hovered <;> cases h : s.active <;> simp [h]

theorem same_setHover (s : Switch) (v : Bool) : Same (s.setHover v) s := by
  unfold Switch.setHover Same
  split <;> exact ⟨rfl, rfl, rfl⟩

theorem same_onMouse (s : Switch) (e : Mouse) (r : Region) : Same (s.onMouse e r).2 s := by
  unfold Switch.onMouse Same
  generalize r.containsPoint e.column e.row = b
  dsimp only
  split
  · split <;> exact ⟨rfl, rfl, rfl⟩
  · split
    · split <;> exact ⟨rfl, rfl, rfl⟩
    · exact ⟨rfl, rfl, rfl⟩
  · split
    · exact ⟨rfl, rfl, rfl⟩
    · split <;> exact ⟨rfl, rfl, rfl⟩
  · exact ⟨rfl, rfl, rfl⟩

theorem step_flags (r : Region) (s : Switch) (e : Event) :
    (s.step r e).2.focused = lastFocus s.focused e ∧ (s.step r e).2.loading = lastLoading s.loading e ∧
    (s.step r e).2.frame = if e = .tick then (s.frame + 1) % 10 else s.frame := by
  cases e with
  | mouse e =>
    have h : Same (s.mouse e r).2 s := by
      unfold Switch.mouse
      have h1 : Same (if e.kind = .moved then s.clearHover else s) s := by
        split
        · exact same_clearHover s
        · exact ⟨rfl, rfl, rfl⟩
      dsimp only
      split
      · refine (same_onMouse _ e r).trans ?_
        split
        · rename_i hk; rw [if_pos hk] at h1; exact (same_setHover _ true).trans h1
        · rename_i hk; rw [if_neg hk] at h1; exact h1
      · exact h1
    unfold Same at h
    simpa [Switch.step, lastFocus, lastLoading] using h
  | key k =>
    have h : (s.onKey k).2.focused = s.focused ∧ (s.onKey k).2.loading = s.loading ∧
        (s.onKey k).2.frame = s.frame := by
      unfold Switch.onKey
      split
      · exact ⟨rfl, rfl, rfl⟩
      · cases k <;> exact ⟨rfl, rfl, rfl⟩
    simpa [Switch.step, lastFocus, lastLoading] using h
  | setFocus v => simp only [Switch.step, Switch.setFocus, lastFocus, lastLoading]; split <;> simp_all
  | setLoading v => simp only [Switch.step, Switch.setLoading, lastFocus, lastLoading]; split <;> simp_all
  | setValue v => simp only [Switch.step, Switch.setValue, lastFocus, lastLoading]; split <;> simp_all
  | setVisible v => simp only [Switch.step, Switch.setVisible, lastFocus, lastLoading]; split <;> simp_all
  | setDisabled v => simp only [Switch.step, Switch.setDisabled, lastFocus, lastLoading]; split <;> simp_all
  | tick => simp only [Switch.step, Switch.tick, lastFocus, lastLoading]; split <;> simp_all
  | clean => simp [Switch.step, lastFocus, lastLoading]

theorem run_flags (r : Region) (s : Switch) (es : List Event) (hf : s.frame < 10) :
    (s.run r es).2.focused = es.foldl lastFocus s.focused ∧ (s.run r es).2.loading = es.foldl lastLoading s.loading ∧
    (s.run r es).2.frame = (s.frame + es.count .tick) % 10 := by
  induction es generalizing s with
  | nil => simp [Switch.run, Nat.mod_eq_of_lt hf]
  | cons e es ih =>
    obtain ⟨h1, h2, h3⟩ := step_flags r s e
    have hlt : (s.step r e).2.frame < 10 := by rw [h3]; split <;> omega
    obtain ⟨i1, i2, i3⟩ := ih (s.step r e).2 hlt
    simp only [Switch.run, List.foldl_cons]
    rw [i1, i2, i3, h1, h2, h3]
    refine ⟨rfl, rfl, ?_⟩
    by_cases he : e = .tick
    · subst he; simp only [if_true, List.count_cons_self]; omega
    · rw [if_neg he, List.count_cons_of_ne he]

/-- `Switch.text` by the fields it reads. -/
def textOf (focused loading value : Bool) (frame : Nat) : Option (List Grapheme) :=
  Switch.text { focused, loading, value, frame }

theorem text_of (s : Switch) : s.text = textOf s.focused s.loading s.value s.frame := rfl

theorem text_face (f l v : Bool) (k : Nat) (hk : k < 10) : textOf f l v k = some (narrow (face f l v k)) := by
  have : ∀ f l v : Bool, ∀ k, k < 10 → textOf f l v k = some (narrow (face f l v k)) := by decide +kernel
  exact this f l v k hk

theorem face_mod (f l v : Bool) (k : Nat) : face f l v (k % 10) = face f l v k := by
  cases f <;> cases l <;> cases v <;> simp [face]

theorem face_width (f l v : Bool) (k : Nat) : widthOf (narrow (face f l v k)) = 10 := by
  rw [← face_mod]
  have : ∀ f l v : Bool, ∀ k, k < 10 → widthOf (narrow (face f l v k)) = 10 := by decide +kernel
  exact this f l v _ (Nat.mod_lt _ (by decide))

/-- **C176** (partial). Whatever happened to it, a switch that is not hidden draws its face: from the corner of its area ten columns
of one row are drawn, with the value last told or set, or the spinner while it is loading, and nothing else is touched. -/
theorem switch_shows_partial (r : Region) (s : Switch) (n : Nat) (es : List Event) (fg bg : Option RgbaColor) (a : Region)
    (c : Canvas) (hl : c.cells.length = c.w * c.h) :
    let after := (s.withFrame n).run r es
    let value := (es.zip after.1).foldl told s.value
    let shown := face (es.foldl lastFocus s.focused) (es.foldl lastLoading s.loading) value (n + es.count .tick)
    ∃ ds c', after.2.render false fg bg a = some ds ∧ drawAll c ds = some c' ∧
      OnlyCells (fun X Y => (Y : Int) = a.y ∧ a.x ≤ X ∧ (X : Int) < a.x + 10) c c' ∧
      ∀ (i X Y : Nat) (ch : Char), shown.toList[i]? = some ch → (X : Int) = a.x + i → (Y : Int) = a.y → X < c.w → Y < c.h →
        Within c.currentClip X Y → (ch ≠ ' ' ∨ fg.isSome) →
        ∃ cell, c'.cells[Y * c.w + X]? = some cell ∧ cell.symbol = ch.toString ∧ cell.fg = fg.map toCrosstermColor := by
  intro after value shown
  have htext : after.2.text = some (narrow shown) := by
    obtain ⟨h1, h2, h3⟩ := run_flags r (s.withFrame n) es (Nat.mod_lt _ (by decide))
    have h4 := Switch.value_told r (s.withFrame n) es
    rw [text_of, h1, h2, h3, h4]
    have := text_face (es.foldl lastFocus s.focused) (es.foldl lastLoading s.loading) value
      ((n % 10 + es.count .tick) % 10) (Nat.mod_lt _ (by decide))
    refine this.trans ?_
    have e : (n % 10 + es.count .tick) % 10 = (n + es.count .tick) % 10 := by omega
    rw [e, face_mod]
  have hw := face_width (es.foldl lastFocus s.focused) (es.foldl lastLoading s.loading) value (n + es.count .tick)
  have hone : ∀ g ∈ narrow shown, g.width = 1 := by
    intro g hg
    obtain ⟨ch, -, rfl⟩ := List.mem_map.1 hg
    rfl
  obtain ⟨c', hp, ho⟩ := putStr_range c hl a.x a.y (narrow shown) fg bg {} (fun g hg => by rw [hone g hg])
  refine ⟨[.str a.x a.y (narrow shown) fg bg {}], c', by simp [Switch.render, htext], by simp [drawAll, Canvas.draw, hp], ho.weaken ?_, ?_⟩
  · intro X Y hh
    have e : (widthOf (narrow shown) : Int) = 10 := by rw [hw]; rfl
    omega
  · intro i X Y ch hi hX hY hXw hYh hc hb
    have hil : i < shown.toList.length := (List.getElem?_eq_some_iff.1 hi).1
    have hsplit : narrow shown = (shown.toList.take i).map (fun c => (⟨c.toString, 1⟩ : Grapheme)) ++
        ⟨ch.toString, 1⟩ :: (shown.toList.drop (i + 1)).map (fun c => (⟨c.toString, 1⟩ : Grapheme)) := by
      have : shown.toList = shown.toList.take i ++ ch :: shown.toList.drop (i + 1) := by
        rw [← (List.getElem?_eq_some_iff.1 hi).2, List.cons_getElem_drop_succ, List.take_append_drop]
      conv_lhs => rw [narrow, this]
      simp
    have hc' := hc
    unfold Within at hc'
    unfold putStr at hp
    dsimp only at hp
    rw [if_neg (by omega), if_neg (by omega), hsplit] at hp
    have hpw : textWidth ((shown.toList.take i).map (fun c => (⟨c.toString, 1⟩ : Grapheme))) = i := by
      have : ∀ l : List Char, textWidth (l.map (fun c => (⟨c.toString, 1⟩ : Grapheme))) = l.length := by
        intro l
        induction l with
        | nil => rfl
        | cons a l ih => simp only [textWidth, List.map_cons, List.sum_cons, List.length_cons] at ih ⊢; omega
      rw [this, List.length_take]; omega
    obtain ⟨w1, -⟩ := putGraphemes_writes c hl a.x a.y _ bg {} c.currentClip _ _ ⟨ch.toString, 1⟩ X Y
      (by intro p hp; obtain ⟨ch, -, rfl⟩ := List.mem_map.1 hp; exact Nat.le_refl 1) (by rw [hpw]; exact hX) hY
      (Nat.le_refl 1) hYh (show X + 1 ≤ c.w from hXw) hc (by push_cast; omega) c' hp
    have hidx : Y * c.w + X < c.cells.length := by rw [hl]; exact index_lt hXw hYh
    rw [List.getElem?_eq_getElem hidx, Option.map_some] at w1
    have hpt : preserveText ⟨ch.toString, 1⟩ (fg.map toCrosstermColor) bg {} = false := by
      unfold preserveText
      rcases hb with hb | hb
      · have : ch.toString ≠ " " := fun e => hb (by
          have := congrArg String.toList e
          simpa using this)
        have hb2 : (ch.toString == " ") = false := beq_eq_false_iff_ne.2 this
        simp only [hb2, Bool.and_false, Bool.false_and]
      · obtain ⟨v, hv⟩ := Option.isSome_iff_exists.1 hb
        simp [hv]
    refine ⟨_, w1, ?_, ?_⟩ <;> simp only [leadCell, hpt, Bool.false_eq_true, if_false]

/-- Switched on by a click, then loading for two ticks. -/
example : let es : List Event := [.setFocus true, .mouse ⟨.down .left, 1, 1⟩, .mouse ⟨.up .left, 1, 1⟩, .setLoading true, .tick, .tick]
    let after := (({} : Switch).withFrame 9).run ⟨0, 0, 10, 3⟩ es
    after.1 = [none, none, some true, none, none, none] ∧
    face (es.foldl lastFocus false) (es.foldl lastLoading false) ((es.zip after.1).foldl told false) (9 + es.count .tick) =
      ">[  ⠙   ]<" := by decide +kernel

/-- **C176**: a hidden switch draws nothing. -/
theorem hidden_switch (s : Switch) (fg bg : Option RgbaColor) (a : Region) : s.render true fg bg a = some [] := by
  simp [Switch.render]

/-- **C176**: a switch in an area of the size it asks for draws in this area only. -/
theorem switch_inside (r : Region) (s : Switch) (n : Nat) (es : List Event) (fg bg : Option RgbaColor) (a : Region)
    (c : Canvas) (hl : c.cells.length = c.w * c.h) (h1 : Switch.size.1 ≤ a.width) (h2 : Switch.size.2 ≤ a.height) :
    ∃ ds c', ((s.withFrame n).run r es).2.render false fg bg a = some ds ∧ drawAll c ds = some c' ∧
      OnlyCells (Within a) c c' := by
  obtain ⟨ds, c', e1, e2, o, -⟩ := switch_shows_partial r s n es fg bg a c hl
  refine ⟨ds, c', e1, e2, o.weaken fun X Y h => ?_⟩
  simp only [Switch.size, Nat.cast_ofNat] at h1 h2
  unfold Within
  omega

/-- **C176**: a switch given less than ten columns draws over what is beside it. -/
theorem narrow_counterexample : ∃ (a : Region) (c : Canvas) (ds : List Draw), Canvas.new 10 1 = some c ∧
    a.width = 4 ∧ a.x = 0 ∧ ({} : Switch).render false none none a = some ds ∧
    (drawAll c ds).map (·.cells.map (·.symbol)) = some [" ", "[", " ", "O", "F", "F", " ", " ", "]", " "] :=
  ⟨⟨0, 0, 4, 1⟩, _, _, rfl, rfl, rfl, rfl, by decide +kernel⟩

end Textual.Press
