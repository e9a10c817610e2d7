import Verif.Model.Disabled
import Mathlib.Tactic.Common

/-!
# A disabled widget does not answer the user (C173)
-/

namespace Textual.Disabled

open Press (Switch Button Mouse)
open Header (Icon)
open Input (Input)
open Static (Links)

/-- What the user can set: the state of a switch, the text of an input and where its cursor is. -/
inductive Setting where
  | onOff (v : Bool)
  | typed (text : List Char) (cursor : Nat)
  | nothing
deriving DecidableEq, Repr

/-- The setting of a control. -/
def Control.setting : Control → Setting
  | .switch s => .onOff s.value
  | .input i => .typed i.value i.cursor
  | _ => .nothing

/-- No action waits to be taken, as between two events. -/
def Control.settled : Control → Prop
  | .button b => b.pending = false
  | .icon i => i.pending = false
  | .text l _ => l.pending = none
  | _ => True

/-- The control is a text that shows a link. -/
def Control.hasLinks : Control → Bool
  | .text l _ => !l.regions.isEmpty
  | _ => false

theorem switch_step (r : Region) (s : Switch) (hd : s.disabled = true) (a : Act) :
    (s.step r a.event).1 = none ∧ (s.step r a.event).2.value = s.value ∧ (s.step r a.event).2.disabled = true := by
  cases a with
  | key k => simp [Act.event, Switch.step, Switch.onKey, hd]
  | mouse e =>
    simp only [Act.event, Switch.step, Switch.mouse, Switch.onMouse, Switch.setHover, Switch.clearHover]
    repeat' split
    all_goals simp_all

theorem button_step (r : Region) (b : Button) (hd : b.disabled = true) (hp : b.pending = false) (a : Act) :
    (b.step r a.event).1 = {} ∧ (b.step r a.event).2.disabled = true ∧ (b.step r a.event).2.pending = false := by
  cases a with
  | key k => simp [Act.event, Button.step, Button.onKey, Button.finish, Button.take, hd, hp]
  | mouse e =>
    simp only [Act.event, Button.step, Button.mouse, Button.onMouse, Button.setHover, Button.clearHover, Button.finish,
      Button.take]
    repeat' split
    all_goals simp_all [Button.press]

theorem icon_step (r : Region) (b : Icon) (hd : b.disabled = true) (hp : b.pending = false) (a : Act) :
    (b.step r a.event).1 = false ∧ (b.step r a.event).2.disabled = true ∧ (b.step r a.event).2.pending = false := by
  cases a with
  | key k => simp [Act.event, Icon.step, Icon.finish, hd, hp]
  | mouse e =>
    simp only [Act.event, Icon.step, Icon.mouse, Icon.onMouse, Icon.setHover, Icon.clearHover, Icon.finish]
    repeat' split
    all_goals simp_all [Icon.press]

theorem text_step (r : Region) (l : Links) (hl : l.regions = []) (hp : l.pending = none) (e : Mouse) :
    (textMouse r l e).1 = none ∧ (textMouse r l e).2.pending = none ∧ (textMouse r l e).2.regions = [] := by
  have hf : ∀ x y, Static.findLink [] x y = none := fun _ _ => rfl
  simp only [textMouse, Links.onMouse, Links.clearHover, Links.take]
  repeat' split
  all_goals simp_all

theorem step_quiet (seg : List Char → List (List Char)) (r : Region) (name : String) (c : Control)
    (hd : c.disabled = true) (hs : c.settled) (hl : c.hasLinks = false) (a : Act) :
    (step seg r name a c).1 = {} ∧ (step seg r name a c).2.setting = c.setting ∧
    (step seg r name a c).2.disabled = true ∧ (step seg r name a c).2.settled ∧
    (step seg r name a c).2.hasLinks = false := by
  cases c with
  | switch s =>
    obtain ⟨h1, h2, h3⟩ := switch_step r s hd a
    simp [step, h1, Control.setting, h2, Control.disabled, h3, Control.settled, Control.hasLinks]
  | button b =>
    obtain ⟨h1, h2, h3⟩ := button_step r b hd hs a
    simp [step, h1, Control.setting, h2, Control.disabled, h3, Control.settled, Control.hasLinks]
  | icon b =>
    obtain ⟨h1, h2, h3⟩ := icon_step r b hd hs a
    simp [step, h1, Control.setting, h2, Control.disabled, h3, Control.settled, Control.hasLinks]
  | input i =>
    have hd : i.disabled = true := hd
    cases a with
    | key k => simp [step, Input.onKey, hd, Control.setting, Control.disabled, Control.settled, Control.hasLinks]
    | mouse e => simp [step, hd, Control.setting, Control.disabled, Control.settled, Control.hasLinks]
  | text l d =>
    have hd : d = true := hd
    have hp : l.pending = none := hs
    have hr : l.regions = [] := by simpa [Control.hasLinks] using hl
    cases a with
    | key k => simp [step, Links.take, hp, hr, hd, Control.setting, Control.disabled, Control.settled, Control.hasLinks]
    | mouse e =>
      obtain ⟨h1, h2, h3⟩ := text_step r l hr hp e
      simp [step, h1, h2, h3, hd, Control.setting, Control.disabled, Control.settled, Control.hasLinks]

/-- **C173**, for controls other than texts with links: while a control is disabled no act of the user, with mouse or
keyboard, makes it send a message, ask for an action, or change what the user can set. Missing: links, which a disabled
text still follows (`link_counterexample`). -/
theorem disabled_quiet_partial (seg : List Char → List (List Char)) (r : Region) (name : String) (c : Control)
    (hd : c.disabled = true) (hs : c.settled) (hl : c.hasLinks = false) (as : List Act) :
    (∀ h ∈ (run seg r name c as).1, h.message = false ∧ h.action = none) ∧
    (run seg r name c as).2.setting = c.setting := by
  induction as generalizing c with
  | nil => exact ⟨by simp [run], rfl⟩
  | cons a as ih =>
    obtain ⟨h1, h2, h3, h4, h5⟩ := step_quiet seg r name c hd hs hl a
    obtain ⟨i1, i2⟩ := ih _ h3 h4 h5
    simp only [run]
    refine ⟨?_, i2.trans h2⟩
    intro h hm
    rcases List.mem_cons.1 hm with rfl | hm
    · rw [h1]; exact ⟨rfl, rfl⟩
    · exact i1 h hm

/-- A switch disabled while the mouse button is down on it; released, clicked again, and Space pressed. -/
example : let s : Switch := { value := true, focused := true, active := true, disabled := true }
    let r : Region := ⟨0, 0, 8, 3⟩
    let as : List Act := [.mouse ⟨.up .left, 2, 1⟩, .mouse ⟨.down .left, 2, 1⟩, .mouse ⟨.up .left, 2, 1⟩, .key .enter]
    (Control.switch s).disabled = true ∧ (Control.switch s).hasLinks = false ∧
    (run (fun t => t.map ([·])) r "" (.switch s) as).1 = [{}, {}, {}, {}] ∧
    (run (fun t => t.map ([·])) r "" (.switch { s with disabled := false }) as).1 =
      [⟨true, none⟩, {}, ⟨true, none⟩, ⟨true, none⟩] := by
  decide +kernel

/-- **C173** fails for texts: a click on a link in a disabled text asks for the action of the link. -/
theorem link_counterexample :
    let l : Links := { regions := [⟨"app.quit", 0, 0, 5⟩] }
    (Control.text l true).disabled = true ∧
    (step (fun t => t.map ([·])) ⟨0, 0, 10, 1⟩ "" (.mouse ⟨.down .left, 2, 0⟩) (.text l true)).1 =
      ⟨false, some "app.quit"⟩ := by
  decide +kernel

/-- A switch that is not visible but has the focus still answers to the keyboard. -/
theorem hidden_switch_counterexample :
    let s : Switch := { focused := true, visible := false }
    (step (fun t => t.map ([·])) ⟨0, 0, 8, 3⟩ "" (.key .enter) (.switch s)).1 = ⟨true, none⟩ ∧
    (step (fun t => t.map ([·])) ⟨0, 0, 8, 3⟩ "" (.key .enter) (.switch s)).2.setting = .onOff true := by
  decide +kernel

end Textual.Disabled
