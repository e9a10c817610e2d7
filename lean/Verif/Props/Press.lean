import Verif.Spec.Press
import Mathlib.Tactic.Common

/-! C118–C120: switches and buttons. -/

namespace Textual.Press

/-! ### C118: the value of a switch -/

theorem Switch.step_told (r : Region) (s : Switch) (e : Event) :
    (s.step r e).2.value = told s.value (e, (s.step r e).1) := by
  cases e with
  | mouse e =>
    obtain ⟨k, x, y⟩ := e
    rcases s with ⟨v, f, h, a, vi, l, d, fr, di⟩
    generalize hc : r.containsPoint x y = c
    cases k <;> cases c <;> cases h <;> cases a <;> cases l <;> cases d <;>
      simp [Switch.step, Switch.mouse, Switch.onMouse, Switch.clearHover, Switch.setHover, told, hc]
  | key k =>
    rcases s with ⟨v, f, h, a, vi, l, d, fr, di⟩
    cases k <;> cases f <;> cases l <;> cases d <;> simp [Switch.step, Switch.onKey, told]
  | setValue v => simp only [Switch.step, Switch.setValue, told]; split <;> simp_all
  | setFocus v => simp only [Switch.step, Switch.setFocus, told]; split <;> rfl
  | setDisabled v => simp only [Switch.step, Switch.setDisabled, told]; split <;> rfl
  | setLoading v => simp only [Switch.step, Switch.setLoading, told]; split <;> rfl
  | setVisible v => simp only [Switch.step, Switch.setVisible, told]; split <;> rfl
  | tick => simp only [Switch.step, Switch.tick, told]; split <;> rfl
  | clean => rfl

/-- **C118** (a). Whatever happens, the value of a switch is the one last set by the program or told by a message. -/
theorem Switch.value_told (r : Region) (s : Switch) (es : List Event) :
    (s.run r es).2.value = (es.zip (s.run r es).1).foldl told s.value := by
  induction es generalizing s with
  | nil => rfl
  | cons e es ih => simp only [Switch.run, List.zip_cons_cons, List.foldl_cons, ← Switch.step_told]; exact ih _

/-- What of a switch can be seen: the styles depend on focus, hover, press and disabled; the frame is drawn while
loading, the value otherwise. -/
def Switch.look (s : Switch) : Bool × Bool × Bool × Bool × Bool × Bool × (Bool ⊕ Nat) :=
  (s.focused, s.hovered, s.active, s.disabled, s.visible, s.loading, if s.loading then .inr s.frame else .inl s.value)

/-- **C118** (b). A switch not marked for redrawing looks as it did at the last drawing. -/
theorem Switch.change_marks (r : Region) (s : Switch) (es : List Event) (hc : Event.clean ∉ es)
    (hd : ({ s with dirty := false }.run r es).2.dirty = false) :
    ({ s with dirty := false }.run r es).2.look = s.look := by
  have one : ∀ (s : Switch) (e : Event), e ≠ .clean → (s.step r e).2.dirty = false →
      s.dirty = false ∧ (s.step r e).2.look = s.look := by
    intro s e hne hd
    cases e with
    | mouse e =>
      obtain ⟨k, x, y⟩ := e
      rcases s with ⟨v, f, h, a, vi, l, d, fr, di⟩
      revert hd
      generalize hc : r.containsPoint x y = c
      cases k <;> cases c <;> cases h <;> cases a <;> cases l <;> cases d <;>
        simp [Switch.step, Switch.mouse, Switch.onMouse, Switch.clearHover, Switch.setHover, Switch.look, hc]
    | key k =>
      rcases s with ⟨v, f, h, a, vi, l, d, fr, di⟩
      revert hd
      cases k <;> cases f <;> cases l <;> cases d <;> simp [Switch.step, Switch.onKey, Switch.look]
    | setValue v => revert hd; simp only [Switch.step, Switch.setValue]; split <;> simp
    | setFocus v => revert hd; simp only [Switch.step, Switch.setFocus]; split <;> simp
    | setDisabled v => revert hd; simp only [Switch.step, Switch.setDisabled]; split <;> simp
    | setLoading v => revert hd; simp only [Switch.step, Switch.setLoading]; split <;> simp
    | setVisible v => revert hd; simp only [Switch.step, Switch.setVisible]; split <;> simp
    | tick =>
      rcases s with ⟨v, f, h, a, vi, l, d, fr, di⟩
      revert hd
      cases l <;> simp [Switch.step, Switch.tick, Switch.look]
    | clean => exact absurd rfl hne
  have key : ∀ (es : List Event) (s : Switch), Event.clean ∉ es → (s.run r es).2.dirty = false →
      s.dirty = false ∧ (s.run r es).2.look = s.look := by
    intro es
    induction es with
    | nil => exact fun s _ hd => ⟨hd, rfl⟩
    | cons e es ih =>
      intro s hc hd
      obtain ⟨h1, h2⟩ := ih (s.step r e).2 (fun h => hc (List.mem_cons_of_mem _ h)) hd
      obtain ⟨h3, h4⟩ := one s e (fun h => hc (h ▸ List.mem_cons_self ..)) h1
      exact ⟨h3, h2.trans h4⟩
  exact (key es _ hc hd).2

/-- **C118** (c). A key toggles the switch just if it is the space bar or Enter, and the switch has the focus, is
enabled and not loading. -/
theorem Switch.key_toggles (r : Region) (s : Switch) (k : Key) :
    (s.step r (.key k)).1 =
      if k ≠ .other ∧ s.focused = true ∧ s.disabled = false ∧ s.loading = false then some !s.value else none := by
  rcases s with ⟨v, f, h, a, vi, l, d, fr, di⟩
  cases k <;> cases f <;> cases l <;> cases d <;> simp [Switch.step, Switch.onKey]

example : (({} : Switch).run ⟨0, 0, 10, 3⟩ [.setFocus true, .key .space, .setValue false, .key .enter, .setLoading true,
    .tick, .key .space]).1 = [none, some true, none, some true, none, none, none] := by decide

example : Event.clean ∉ [Event.tick, .key .other, .setFocus false] ∧
    (({ dirty := false } : Switch).run ⟨0, 0, 10, 3⟩ [.tick, .key .other, .setFocus false]).2.dirty = false := by decide

/-! ### C119: clicks -/

/-- The widget agrees with the hand. -/
def Agrees (h : Hand) (active disabled loading : Bool) : Prop :=
  disabled = h.disabled ∧ loading = h.loading ∧
  (match h.down with
    | some b => active = b
    | none => active = true → h.stray = true)

theorem Switch.step_click (r : Region) (s : Switch) (h : Hand) (e : Event)
    (ha : Agrees h s.active s.disabled s.loading) (hl : h.Allows .switch r e) :
    Agrees (h.next .switch r e) (s.step r e).2.active (s.step r e).2.disabled (s.step r e).2.loading ∧
    (∀ m, e = .mouse m → (s.step r e).1 = if h.clicks .switch r e then some !s.value else none) := by
  obtain ⟨dn, st, hd, hlo⟩ := h
  rcases s with ⟨v, f, hv, a, vi, l, d, fr, di⟩
  obtain ⟨rfl, rfl, h3⟩ := ha
  cases e with
  | mouse e =>
    obtain ⟨k, x, y⟩ := e
    revert hl h3
    generalize hc : r.containsPoint x y = c
    cases k <;> cases c <;> cases hv <;> cases a <;> cases l <;> cases d <;> rcases dn with _ | (_ | _) <;> cases st <;>
      simp [Switch.step, Switch.mouse, Switch.onMouse, Switch.clearHover, Switch.setHover, hc, Agrees, Hand.next,
        Hand.Allows, Hand.clicks, Hand.enabled, Mouse.on, Which.counts]
  | key k =>
    refine ⟨?_, fun _ h => by cases h⟩
    cases k <;> cases f <;> cases l <;> cases d <;> exact ⟨rfl, rfl, h3⟩
  | setValue w => exact ⟨by simp only [Switch.step, Switch.setValue]; split <;> exact ⟨rfl, rfl, h3⟩, fun _ h => by cases h⟩
  | setFocus w => exact ⟨by simp only [Switch.step, Switch.setFocus]; split <;> exact ⟨rfl, rfl, h3⟩, fun _ h => by cases h⟩
  | setDisabled w =>
    refine ⟨?_, fun _ h => by cases h⟩
    simp only [Switch.step, Switch.setDisabled]
    split
    · exact ⟨rfl, rfl, h3⟩
    · rename_i hn; simp only [ne_eq, Decidable.not_not] at hn; exact ⟨hn, rfl, h3⟩
  | setLoading w =>
    refine ⟨?_, fun _ h => by cases h⟩
    simp only [Switch.step, Switch.setLoading]
    split
    · exact ⟨rfl, by simp [Hand.next], h3⟩
    · rename_i hn; simp only [ne_eq, Decidable.not_not] at hn; exact ⟨rfl, by simp [Hand.next, hn], h3⟩
  | setVisible w => exact ⟨by simp only [Switch.step, Switch.setVisible]; split <;> exact ⟨rfl, rfl, h3⟩, fun _ h => by cases h⟩
  | tick => exact ⟨by simp only [Switch.step, Switch.tick]; split <;> exact ⟨rfl, rfl, h3⟩, fun _ h => by cases h⟩
  | clean => exact ⟨⟨rfl, rfl, h3⟩, fun _ h => by cases h⟩

theorem Switch.run_agrees (r : Region) (s : Switch) (h : Hand) (es : List Event)
    (ha : Agrees h s.active s.disabled s.loading) (hp : h.Proper .switch r es) :
    Agrees (h.after .switch r es) (s.run r es).2.active (s.run r es).2.disabled (s.run r es).2.loading := by
  induction es generalizing s h with
  | nil => exact ha
  | cons e es ih => exact ih _ _ (s.step_click r h e ha hp.1).1 hp.2

theorem Hand.proper_append (w : Which) (r : Region) (h : Hand) (es fs : List Event) :
    h.Proper w r (es ++ fs) ↔ h.Proper w r es ∧ (h.after w r es).Proper w r fs := by
  induction es generalizing h with
  | nil => simp [Hand.Proper, Hand.after]
  | cons e es ih =>
    rw [List.cons_append, Hand.Proper, Hand.Proper, ih, and_assoc]
    rfl

/-- **C119** for switches (partial: one mouse button at a time, and after a press begun on the switch was let go
elsewhere the mouse moves before a button goes down elsewhere; see the counterexample). Whatever happened before, a mouse
event toggles the switch just if it completes a click on it. -/
theorem Switch.click_toggles_partial (r : Region) (es : List Event) (e : Mouse)
    (hp : ({} : Hand).Proper .switch r (es ++ [.mouse e])) :
    ((({} : Switch).run r es).2.step r (.mouse e)).1 =
      if (({} : Hand).after .switch r es).clicks .switch r (.mouse e) then some !(({} : Switch).run r es).2.value
      else none := by
  obtain ⟨h1, h2⟩ := (Hand.proper_append _ _ _ _ _).1 hp
  have ha := Switch.run_agrees r {} {} es ⟨rfl, rfl, fun h => by cases h⟩ h1
  exact (Switch.step_click r _ _ _ ha h2.1).2 e rfl

example : let r : Region := ⟨0, 0, 10, 3⟩
    ({} : Hand).Proper .switch r [.mouse ⟨.moved, 1, 1⟩, .mouse ⟨.down .left, 1, 1⟩, .mouse ⟨.drag .left, 20, 1⟩,
      .mouse ⟨.up .left, 20, 1⟩, .mouse ⟨.moved, 5, 1⟩, .mouse ⟨.down .left, 5, 1⟩, .mouse ⟨.up .left, 5, 1⟩] ∧
    (({} : Switch).run r [.mouse ⟨.moved, 1, 1⟩, .mouse ⟨.down .left, 1, 1⟩, .mouse ⟨.drag .left, 20, 1⟩,
      .mouse ⟨.up .left, 20, 1⟩, .mouse ⟨.moved, 5, 1⟩, .mouse ⟨.down .left, 5, 1⟩, .mouse ⟨.up .left, 5, 1⟩]).1 =
      [none, none, none, none, none, none, some true] := by decide

/-- **C119** fails for switches: a press let go elsewhere, then a drag from elsewhere onto the switch, toggles it. -/
theorem Switch.click_counterexample :
    (({} : Switch).run ⟨0, 0, 10, 3⟩ [.mouse ⟨.down .left, 1, 1⟩, .mouse ⟨.drag .left, 20, 1⟩, .mouse ⟨.up .left, 20, 1⟩,
      .mouse ⟨.down .left, 20, 1⟩, .mouse ⟨.drag .left, 1, 1⟩, .mouse ⟨.up .left, 1, 1⟩]).1 =
      [none, none, none, none, none, some true] := by decide

theorem Button.step_click (r : Region) (b : Button) (h : Hand) (e : Event) (hpe : b.pending = false)
    (ha : Agrees h b.active b.disabled false) (hl : h.Allows .button r e) :
    Agrees (h.next .button r e) (b.step r e).2.active (b.step r e).2.disabled false ∧
    (b.step r e).2.pending = false ∧ (b.step r e).2.hasAction = b.hasAction ∧ (b.step r e).2.hasPress = b.hasPress ∧
    (∀ m, e = .mouse m → (b.step r e).1 =
      if h.clicks .button r e then ⟨b.hasPress && !b.hasAction, b.hasAction⟩ else {}) := by
  obtain ⟨dn, st, hd, hlo⟩ := h
  rcases b with ⟨f, hv, a, d, hac, hpr, p, di⟩
  obtain ⟨rfl, rfl, h3⟩ := ha
  subst hpe
  cases e with
  | mouse e =>
    obtain ⟨k, x, y⟩ := e
    revert hl h3
    generalize hc : r.containsPoint x y = c
    rcases k with _ | (_ | _ | _) | (_ | _ | _) | _ | _ <;> cases c <;> cases hv <;> cases a <;> cases d <;> cases hac <;>
      rcases dn with _ | (_ | _) <;> cases st <;>
      simp [Button.step, Button.finish, Button.take, Button.press, Button.mouse, Button.onMouse, Button.clearHover,
        Button.setHover, hc, Agrees, Hand.next, Hand.Allows, Hand.clicks, Hand.enabled, Mouse.on, Which.counts]
  | key k =>
    refine ⟨?_, ?_, ?_, ?_, fun _ h => by cases h⟩ <;> cases k <;> cases hac <;> cases d <;>
      first | rfl | exact ⟨rfl, rfl, h3⟩
  | setFocus w =>
    refine ⟨?_, ?_, ?_, ?_, fun _ h => by cases h⟩ <;> simp only [Button.step, Button.setFocus] <;> split <;>
      first | rfl | exact ⟨rfl, rfl, h3⟩
  | setLoading w => exact ⟨⟨rfl, by simp [Hand.next], h3⟩, rfl, rfl, rfl, fun _ h => by cases h⟩
  | _ => exact ⟨⟨rfl, rfl, h3⟩, rfl, rfl, rfl, fun _ h => by cases h⟩

theorem Button.run_agrees (r : Region) (b : Button) (h : Hand) (es : List Event) (hpe : b.pending = false)
    (ha : Agrees h b.active b.disabled false) (hp : h.Proper .button r es) :
    Agrees (h.after .button r es) (b.run r es).2.active (b.run r es).2.disabled false ∧ (b.run r es).2.pending = false ∧
    (b.run r es).2.hasAction = b.hasAction ∧ (b.run r es).2.hasPress = b.hasPress := by
  induction es generalizing b h with
  | nil => exact ⟨ha, hpe, rfl, rfl⟩
  | cons e es ih =>
    obtain ⟨h1, h2, h3, h4, -⟩ := b.step_click r h e hpe ha hp.1
    obtain ⟨i1, i2, i3, i4⟩ := ih _ _ h2 h1 hp.2
    exact ⟨i1, i2, i3.trans h3, i4.trans h4⟩

/-- **C119** for buttons (partial: one mouse button at a time, and after a press begun on the button was let go
elsewhere the next press is on the button; see the counterexample). Whatever happened before, a mouse event sends the
message, or runs the action if there is one, just if it completes a click on the button. -/
theorem Button.click_fires_partial (r : Region) (hasAction hasPress : Bool) (es : List Event) (e : Mouse)
    (hp : ({} : Hand).Proper .button r (es ++ [.mouse e])) :
    ((({ hasAction, hasPress } : Button).run r es).2.step r (.mouse e)).1 =
      if (({} : Hand).after .button r es).clicks .button r (.mouse e) then ⟨hasPress && !hasAction, hasAction⟩
      else {} := by
  obtain ⟨h1, h2⟩ := (Hand.proper_append _ _ _ _ _).1 hp
  obtain ⟨ha, hpe, e1, e2⟩ := Button.run_agrees r { hasAction, hasPress } {} es rfl ⟨rfl, rfl, fun h => by cases h⟩ h1
  have := (Button.step_click r _ _ _ hpe ha h2.1).2.2.2.2 e rfl
  rw [e1, e2] at this
  exact this

example : let r : Region := ⟨0, 0, 10, 3⟩
    ({} : Hand).Proper .button r [.mouse ⟨.down .left, 1, 1⟩, .mouse ⟨.drag .left, 20, 1⟩, .mouse ⟨.drag .left, 2, 1⟩,
      .mouse ⟨.up .left, 2, 1⟩, .mouse ⟨.down .right, 2, 1⟩, .mouse ⟨.up .right, 2, 1⟩] ∧
    (({} : Button).run r [.mouse ⟨.down .left, 1, 1⟩, .mouse ⟨.drag .left, 20, 1⟩, .mouse ⟨.drag .left, 2, 1⟩,
      .mouse ⟨.up .left, 2, 1⟩, .mouse ⟨.down .right, 2, 1⟩, .mouse ⟨.up .right, 2, 1⟩]).1 =
      [{}, {}, {}, { message := true }, {}, {}] := by decide

/-- **C119** fails for buttons: a press let go elsewhere is never forgotten, so that much later a press begun elsewhere
and let go on the button fires it, although the mouse was moved in between. -/
theorem Button.click_counterexample :
    (({} : Button).run ⟨0, 0, 10, 3⟩ [.mouse ⟨.down .left, 1, 1⟩, .mouse ⟨.drag .left, 20, 1⟩, .mouse ⟨.up .left, 20, 1⟩,
      .mouse ⟨.moved, 30, 5⟩, .mouse ⟨.down .left, 30, 5⟩, .mouse ⟨.drag .left, 1, 1⟩, .mouse ⟨.up .left, 1, 1⟩]).1 =
      [{}, {}, {}, {}, {}, {}, { message := true }] := by decide

/-- **C119**, for every history: buttons fire no more often by mouse than they were pressed, and never while
disabled. -/
theorem Button.fires_le_presses (r : Region) (b : Button) (h : Hand) (es : List Event) (hb : b.pending = false)
    (hd : b.disabled = h.disabled) (hl : h.loading = false) (hk : ∀ k, Event.key k ∉ es) :
    ((b.run r es).1.filter (· ≠ {})).length ≤ (if b.active then 1 else 0) + h.pressCount .button r es := by
  induction es generalizing b h with
  | nil => simp [Button.run]
  | cons e es ih =>
    have hs : (b.step r e).2.pending = false ∧ (b.step r e).2.disabled = (h.next .button r e).disabled ∧
        (h.next .button r e).loading = false ∧
        (if (b.step r e).1 ≠ {} then 1 else 0) + (if (b.step r e).2.active then 1 else 0) ≤
          (if b.active then 1 else 0) + (if h.presses .button r e then 1 else 0) := by
      obtain ⟨dn, st, hd', hlo⟩ := h
      rcases b with ⟨f, hv, a, d, hac, hpr, p, di⟩
      subst hd hl hb
      cases e with
      | mouse e =>
        obtain ⟨k, x, y⟩ := e
        generalize hc : r.containsPoint x y = c
        rcases k with _ | (_ | _ | _) | (_ | _ | _) | _ | _ <;> cases c <;> cases hv <;> cases a <;> cases d <;>
          cases hac <;> cases hpr <;>
          simp [Button.step, Button.finish, Button.take, Button.press, Button.mouse, Button.onMouse, Button.clearHover,
            Button.setHover, hc, Hand.next, Hand.presses, Hand.enabled, Mouse.on, Which.counts]
      | key k => exact absurd (List.mem_cons_self ..) (hk k)
      | setFocus w =>
        simp only [Button.step, Button.setFocus]
        split <;> cases a <;> simp [Hand.next, Hand.presses]
      | _ => cases a <;> simp [Button.step, Button.setDisabled, Hand.next, Hand.presses]
    obtain ⟨s1, s2, s3, s4⟩ := hs
    have hi := ih _ _ s1 s2 s3 (fun k hm => hk k (List.mem_cons_of_mem _ hm))
    simp only [Button.run, Hand.pressCount, List.filter_cons, decide_eq_true_eq]
    split
    · rename_i hne
      rw [if_pos hne] at s4
      rw [List.length_cons]
      omega
    · rename_i hne
      rw [if_neg hne] at s4
      omega

example : (({} : Hand).pressCount .button ⟨0, 0, 10, 3⟩ [.mouse ⟨.down .left, 1, 1⟩, .mouse ⟨.up .left, 2, 1⟩,
    .mouse ⟨.up .left, 2, 1⟩]) = 1 ∧
    (({} : Button).run ⟨0, 0, 10, 3⟩ [.mouse ⟨.down .left, 1, 1⟩, .mouse ⟨.up .left, 2, 1⟩,
    .mouse ⟨.up .left, 2, 1⟩]).1 = [{}, { message := true }, {}] := by decide

/-! ### C120: hovering -/

/-- **C120** (partial: only moves count; see the counterexample). A switch is shown hovered just if the last move of the
mouse was onto it. -/
theorem Switch.hover_partial (r : Region) (s : Switch) (es : List Event) :
    (s.run r es).2.hovered = es.foldl (lastMove r) s.hovered := by
  induction es generalizing s with
  | nil => rfl
  | cons e es ih =>
    have : (s.step r e).2.hovered = lastMove r s.hovered e := by
      rcases s with ⟨v, f, hv, a, vi, l, d, fr, di⟩
      cases e with
      | mouse e =>
        obtain ⟨k, x, y⟩ := e
        generalize hc : r.containsPoint x y = c
        cases k <;> cases c <;> cases hv <;> cases a <;> cases l <;> cases d <;>
          simp [Switch.step, Switch.mouse, Switch.onMouse, Switch.clearHover, Switch.setHover, hc, lastMove, Mouse.on]
      | key k => cases k <;> cases f <;> cases l <;> cases d <;> rfl
      | setValue w => simp only [Switch.step, Switch.setValue]; split <;> rfl
      | setFocus w => simp only [Switch.step, Switch.setFocus]; split <;> rfl
      | setDisabled w => simp only [Switch.step, Switch.setDisabled]; split <;> rfl
      | setLoading w => simp only [Switch.step, Switch.setLoading]; split <;> rfl
      | setVisible w => simp only [Switch.step, Switch.setVisible]; split <;> rfl
      | tick => simp only [Switch.step, Switch.tick]; split <;> rfl
      | clean => rfl
    rw [Switch.run, List.foldl_cons, ← this]
    exact ih _

/-- **C120** (partial, as above) for buttons. -/
theorem Button.hover_partial (r : Region) (b : Button) (es : List Event) :
    (b.run r es).2.hovered = es.foldl (lastMove r) b.hovered := by
  induction es generalizing b with
  | nil => rfl
  | cons e es ih =>
    have : (b.step r e).2.hovered = lastMove r b.hovered e := by
      rcases b with ⟨f, hv, a, d, hac, hpr, p, di⟩
      cases e with
      | mouse e =>
        obtain ⟨k, x, y⟩ := e
        generalize hc : r.containsPoint x y = c
        rcases k with _ | (_ | _ | _) | (_ | _ | _) | _ | _ <;> cases c <;> cases hv <;> cases a <;> cases d <;>
          cases hac <;>
          simp [Button.step, Button.finish, Button.take, Button.press, Button.mouse, Button.onMouse, Button.clearHover,
            Button.setHover, hc, lastMove, Mouse.on]
      | key k => cases k <;> cases hac <;> cases d <;> rfl
      | setFocus w => simp only [Button.step, Button.setFocus]; split <;> rfl
      | _ => rfl
    rw [Button.run, List.foldl_cons, ← this]
    exact ih _

/-- **C120** fails during drags: the pointer has left, the button is still shown hovered. -/
theorem hover_counterexample :
    (({} : Button).run ⟨0, 0, 10, 3⟩ [.mouse ⟨.moved, 1, 1⟩, .mouse ⟨.down .left, 1, 1⟩,
      .mouse ⟨.drag .left, 20, 1⟩]).2.hovered = true ∧
    (({} : Switch).run ⟨0, 0, 10, 3⟩ [.mouse ⟨.moved, 1, 1⟩, .mouse ⟨.down .left, 1, 1⟩,
      .mouse ⟨.drag .left, 20, 1⟩]).2.hovered = true := by decide

end Textual.Press
