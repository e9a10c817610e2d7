import Verif.Model.Loop
import Verif.Props.Press
import Verif.Props.Tree
import Mathlib.Data.List.Induction
import Mathlib.Tactic.Common

/-! C121–C123: the event loop. -/

namespace Textual.Loop

set_option synthInstance.maxSize 1000

variable {α τ ν : Type}

/-! ### C121: the terminal is restored -/

/-- **C121** (partial: no terminal command fails and the loop does not panic; see the counterexamples). However the loop
ends, the terminal is as it was and the result is that of the loop. -/
theorem restored_partial (fails : Cmd → Bool) (loop : End) (hf : ∀ c, fails c = false) (hl : loop ≠ .panicked) :
    session fails loop {} = ({}, loop) := by
  cases loop <;> simp_all [session, Term.exec, Term.apply]

example : (∀ c, (fun _ : Cmd => false) c = false) ∧ End.failed ≠ .panicked ∧
    session (fun _ => false) .failed {} = ({}, .failed) := ⟨fun _ => rfl, by decide, rfl⟩

/-- **C121** fails if a handler panics: the terminal stays in raw mode, on the alternate screen, without cursor. -/
theorem panic_counterexample :
    session (fun _ => false) .panicked {} = ({ raw := true, alt := true, hidden := true, mouse := true }, .panicked) := by
  decide

/-- **C121** fails if a command fails half way. -/
theorem half_way_counterexample :
    session (fun c => c == .enterAlt) .ok {} = ({ raw := true }, .failed) ∧
    session (fun c => c == .disableMouse) .ok {} =
      ({ raw := true, alt := true, hidden := true, mouse := true }, .failed) := by decide

/-! ### C122: the screen is current -/

/-- The screen shows what the widgets look like. -/
def Shown (p : Program α τ ν) (st : State α τ ν) : Prop := st.shown = some (p.view st.size st.tree)

/-- Program and tree after the handlers. -/
def Event.result (st : State α τ ν) : Event α τ → α × τ
  | .mouse f => f (st.app, st.tree)
  | .shortcut f => f (st.app, st.tree)
  | .key f _ => f (st.app, st.tree)
  | .palette f _ => f (st.app, st.tree)
  | .message f _ => f (st.app, st.tree)
  | .tooltip f _ => (st.app, f st.tree)
  | _ => (st.app, st.tree)

/-- The event is followed by a redraw in any case: mouse events, the shortcut of the palette, new sizes, moves of the
focus, new tooltips and changes of the palette. -/
def Event.redraws : Event α τ → Bool
  | .mouse _ => true
  | .shortcut _ => true
  | .resize _ => true
  | .key _ moved => moved
  | .tooltip _ shows => shows
  | .palette _ changed => changed
  | .message _ changed => changed
  | .ignored => false

/-- The program is asked whether it wants to be rebuilt. -/
def Event.asks : Event α τ → Bool
  | .resize _ => false
  | .tooltip _ _ => false
  | .ignored => false
  | _ => true

/-- The program answers with a rebuild or another focus. -/
def Answers (p : Program α τ ν) (st : State α τ ν) (e : Event α τ) : Prop :=
  (e.asks = true ∧ p.needsRecompose (e.result st).1 = true) ∨ p.focusIndex (e.result st).1 ≠ p.focusIndex st.app

/-- The event changes nothing that can be seen. -/
def Quiet (p : Program α τ ν) (st : State α τ ν) (e : Event α τ) : Prop :=
  p.view st.size (p.fallback (e.result st).2).1 = p.view st.size st.tree

/-- Between events nothing is left to do. -/
def Settled (p : Program α τ ν) (st : State α τ ν) : Prop :=
  p.quits st.app = true ∨ (st.needsRender = false ∧ st.needsRecompose = false ∧ st.lastFocus = p.focusIndex st.app)

theorem draw_shown (p : Program α τ ν) (st : State α τ ν) (h : st.needsRender = true) : Shown p (st.draw p) := by
  unfold State.draw
  rw [if_pos h]
  rfl

theorem follow_focus (p : Program α τ ν) (st : State α τ ν) :
    (st.follow p).lastFocus = p.focusIndex st.app ∧ (st.follow p).app = st.app ∧
    (st.follow p).needsRecompose = st.needsRecompose ∧ (st.needsRender = true → (st.follow p).needsRender = true) := by
  unfold State.follow
  split
  · exact ⟨rfl, rfl, rfl, fun _ => rfl⟩
  · rename_i h
    exact ⟨(Decidable.not_not.1 h).symm, rfl, rfl, id⟩

theorem rebuild_facts (p : Program α τ ν) (st : State α τ ν) :
    (st.rebuild p).app = st.app ∧ (st.rebuild p).needsRecompose = false ∧
    (st.needsRender = true ∨ st.needsRecompose = true → (st.rebuild p).needsRender = true) := by
  unfold State.rebuild
  split
  · exact ⟨rfl, rfl, fun _ => rfl⟩
  · rename_i h
    exact ⟨rfl, by simpa using h, fun h' => h'.resolve_right h⟩

theorem settle_facts (p : Program α τ ν) (st : State α τ ν) :
    (st.settle p).app = st.app ∧ (st.settle p).needsRecompose = st.needsRecompose ∧
    (st.lastFocus = p.focusIndex st.app → (st.settle p).lastFocus = p.focusIndex st.app) ∧
    (st.needsRender = true → (st.settle p).needsRender = true) := by
  unfold State.settle
  dsimp only
  split
  · exact ⟨rfl, rfl, fun _ => rfl, fun _ => rfl⟩
  · exact ⟨rfl, rfl, id, id⟩

theorem draw_facts (p : Program α τ ν) (st : State α τ ν) :
    (st.draw p).app = st.app ∧ (st.draw p).needsRecompose = st.needsRecompose ∧
    (st.draw p).lastFocus = st.lastFocus ∧ (st.draw p).needsRender = false := by
  unfold State.draw
  split
  · exact ⟨rfl, rfl, rfl, rfl⟩
  · rename_i h; exact ⟨rfl, rfl, rfl, by simpa using h⟩

theorem top_settled (p : Program α τ ν) (st : State α τ ν) : Settled p (st.top p) := by
  unfold State.top
  split
  · rename_i h; exact .inl h
  · obtain ⟨a1, a2, -⟩ := rebuild_facts p st
    obtain ⟨b1, b2, b3, -⟩ := follow_focus p (st.rebuild p)
    obtain ⟨c1, c2, c3, -⟩ := settle_facts p ((st.rebuild p).follow p)
    obtain ⟨d1, d2, d3, d4⟩ := draw_facts p (((st.rebuild p).follow p).settle p)
    refine .inr ⟨d4, by rw [d2, c2, b3, a2], ?_⟩
    rw [d3, d1, c1, c3 (by rw [b1, b2])]

theorem step_settled (p : Program α τ ν) (st : State α τ ν) (e : Event α τ) (h : Settled p st) :
    Settled p (st.step p e) := by
  unfold State.step
  split
  · exact h
  · exact top_settled p _

theorem handle_facts (p : Program α τ ν) (st : State α τ ν) (e : Event α τ) :
    (st.handle p e).app = (e.result st).1 ∧ (st.handle p e).lastFocus = st.lastFocus ∧
    (st.handle p e).needsRender = (st.needsRender || e.redraws) ∧
    (st.handle p e).needsRecompose = (if e.asks then p.needsRecompose (e.result st).1 else st.needsRecompose) := by
  cases e <;> simp [State.handle, Event.result, Event.redraws, Event.asks]

/-- A redraw of the whole, or an answer of the program, brings the screen up to date, whatever it showed before. -/
theorem heals (p : Program α τ ν) (st : State α τ ν) (e : Event α τ) (hs : Settled p st)
    (hq : p.quits (e.result st).1 = false) (hq0 : p.quits st.app = false) (h : e.redraws = true ∨ Answers p st e) :
    Shown p (st.step p e) := by
  obtain ⟨h1, h2, h3⟩ := hs.resolve_left (by simp [hq0])
  obtain ⟨e1, e2, e3, e4⟩ := handle_facts p st e
  unfold State.step
  rw [if_neg (by simp [hq0])]
  unfold State.top
  rw [if_neg (by simp [e1, hq])]
  refine draw_shown p _ ?_
  refine (settle_facts p _).2.2.2 ?_
  obtain ⟨a1, a2, a3⟩ := rebuild_facts p (st.handle p e)
  rcases h with h | ⟨h, h'⟩ | h
  · exact (follow_focus p _).2.2.2 (a3 (.inl (by rw [e3, h, Bool.or_true])))
  · exact (follow_focus p _).2.2.2 (a3 (.inr (by rw [e4, if_pos h, h'])))
  · by_cases hr : (st.handle p e).needsRender = true ∨ (st.handle p e).needsRecompose = true
    · exact (follow_focus p _).2.2.2 (a3 hr)
    · have hb : (st.handle p e).rebuild p = st.handle p e := by
        unfold State.rebuild
        rw [if_neg fun h => hr (.inr h)]
      rw [hb]
      unfold State.follow
      rw [if_pos (by rw [e1, e2, h3]; exact h)]

theorem stays (p : Program α τ ν) (st : State α τ ν) (e : Event α τ) (hs : Settled p st) (hc : Shown p st)
    (hq : p.quits (e.result st).1 = false) (hq0 : p.quits st.app = false) (h : Quiet p st e) :
    Shown p (st.step p e) := by
  by_cases hr : e.redraws = true ∨ Answers p st e
  · exact heals p st e hs hq hq0 hr
  · obtain ⟨h1, h2, h3⟩ := hs.resolve_left (by simp [hq0])
    obtain ⟨e1, e2, e3, e4⟩ := handle_facts p st e
    simp only [not_or, Answers, not_and, Decidable.not_not, Bool.not_eq_true] at hr
    obtain ⟨r1, r2, r3⟩ := hr
    have f1 : (st.handle p e).needsRender = false := by rw [e3, h1, r1]; rfl
    have f2 : (st.handle p e).needsRecompose = false := by
      rw [e4]
      split
      · rename_i ha; exact r2 ha
      · exact h2
    have ft : (st.handle p e).tree = (e.result st).2 ∧ (st.handle p e).size = st.size ∧
        (st.handle p e).shown = st.shown := by
      cases e <;> simp [State.handle, Event.result, Event.redraws] at r1 ⊢
    obtain ⟨t1, t2, t3⟩ := ft
    unfold State.step
    rw [if_neg (by simp [hq0])]
    unfold State.top
    rw [if_neg (by simp [e1, hq])]
    have hb : (st.handle p e).rebuild p = st.handle p e := by
      unfold State.rebuild
      rw [if_neg (by simp [f2])]
    have hf : (st.handle p e).follow p = st.handle p e := by
      unfold State.follow
      rw [if_neg (by rw [e1, e2, h3]; simpa using r3)]
    rw [hb, hf]
    by_cases hfb : (p.fallback (st.handle p e).tree).2 = true
    · refine draw_shown p _ ?_
      unfold State.settle
      dsimp only
      rw [if_pos hfb]
    · have : ((st.handle p e).settle p).draw p = { st.handle p e with tree := (p.fallback (st.handle p e).tree).1 } := by
        unfold State.settle
        dsimp only
        rw [if_neg hfb]
        unfold State.draw
        rw [if_neg (by simp [f1])]
      rw [this]
      unfold Shown at hc ⊢
      show (st.handle p e).shown = some (p.view (st.handle p e).size (p.fallback (st.handle p e).tree).1)
      rw [t1, t2, t3, hc, h]

theorem run_snoc (p : Program α τ ν) (st : State α τ ν) (es : List (Event α τ)) (e : Event α τ) :
    st.run p (es ++ [e]) = (st.run p es).step p e := by
  simp [State.run]

/-- **C122** (partial: keys, messages and ticks must redraw, make the program answer, or change nothing that can be
seen; see the counterexamples). Whenever the loop waits for the next event, the screen shows what the widgets look
like. -/
theorem always_current_partial (p : Program α τ ν) (app : α) (size : Nat × Nat) (es : List (Event α τ))
    (h : ∀ es₁ e es₂, es = es₁ ++ e :: es₂ →
      let st := (State.start p app size).run p es₁
      e.redraws = true ∨ Answers p st e ∨ Quiet p st e) :
    p.quits ((State.start p app size).run p es).app = true ∨ Shown p ((State.start p app size).run p es) := by
  suffices Settled p ((State.start p app size).run p es) ∧
      (p.quits ((State.start p app size).run p es).app = true ∨ Shown p ((State.start p app size).run p es)) from this.2
  induction es using List.reverseRecOn with
  | nil =>
    refine ⟨top_settled p _, ?_⟩
    show p.quits (State.start p app size).app = true ∨ Shown p (State.start p app size)
    unfold State.start State.top
    split
    · rename_i hq; exact .inl hq
    · exact .inr (draw_shown p _ ((settle_facts p _).2.2.2 ((follow_focus p _).2.2.2 ((rebuild_facts p _).2.2 (.inl rfl)))))
  | append_singleton es e ih =>
    obtain ⟨i1, i2⟩ := ih fun es₁ e' es₂ he => h es₁ e' (es₂ ++ [e]) (by rw [he]; simp)
    have he := h es e [] rfl
    rw [run_snoc]
    refine ⟨step_settled p _ e i1, ?_⟩
    dsimp only at he
    generalize hst : (State.start p app size).run p es = st at *
    by_cases hq0 : p.quits st.app = true
    · left
      unfold State.step
      rw [if_pos hq0]
      exact hq0
    · simp only [Bool.not_eq_true] at hq0
      by_cases hq : p.quits (e.result st).1 = true
      · left
        have e1 := (handle_facts p st e).1
        unfold State.step State.top
        rw [if_neg (by simp [hq0]), if_pos (by rw [e1]; exact hq), e1]
        exact hq
      · simp only [Bool.not_eq_true] at hq
        right
        have hc := i2.resolve_left (by simp [hq0])
        rcases he with he | he | he
        · exact heals p st e i1 hq hq0 (.inl he)
        · exact heals p st e i1 hq hq0 (.inr he)
        · exact stays p st e i1 hc hq hq0 he

/-- **C122**, healing: after a mouse event, a new size, the shortcut of the palette or a move of the focus, the screen
shows what the widgets look like, whatever happened before. -/
theorem redraw_current (p : Program α τ ν) (app : α) (size : Nat × Nat) (es : List (Event α τ)) (e : Event α τ)
    (he : e.redraws = true) (hq0 : p.quits ((State.start p app size).run p es).app = false)
    (hq : p.quits (e.result ((State.start p app size).run p es)).1 = false) :
    Shown p ((State.start p app size).run p (es ++ [e])) := by
  rw [run_snoc]
  refine heals p _ e ?_ hq hq0 (.inl he)
  clear hq hq0
  induction es using List.reverseRecOn with
  | nil => exact top_settled p _
  | append_singleton es e' ih => rw [run_snoc]; exact step_settled p _ e' ih

theorem top_size (p : Program α τ ν) (st : State α τ ν) : (st.top p).size = st.size := by
  have h1 : ∀ st : State α τ ν, (st.rebuild p).size = st.size := fun st => by unfold State.rebuild; split <;> rfl
  have h2 : ∀ st : State α τ ν, (st.follow p).size = st.size := fun st => by unfold State.follow; split <;> rfl
  have h3 : ∀ st : State α τ ν, (st.settle p).size = st.size := fun st => by unfold State.settle; dsimp only; split <;> rfl
  have h4 : ∀ st : State α τ ν, (st.draw p).size = st.size := fun st => by unfold State.draw; split <;> rfl
  unfold State.top
  split
  · rfl
  · rw [h4, h3, h2, h1]

/-- **C122**, the size: the screen is drawn in the size last reported. -/
theorem size_last (p : Program α τ ν) (st : State α τ ν) (es rest : List (Event α τ)) (size : Nat × Nat)
    (hno : ∀ s, .resize s ∉ rest) (hq : p.quits (st.run p es).app = false) :
    (st.run p (es ++ .resize size :: rest)).size = size := by
  induction rest using List.reverseRecOn with
  | nil =>
    rw [run_snoc]
    unfold State.step
    rw [if_neg (by simp [hq]), top_size]
    rfl
  | append_singleton l e ih =>
    have h1 := ih fun s hs => hno s (by simp [hs])
    have e1 : es ++ .resize size :: (l ++ [e]) = (es ++ .resize size :: l) ++ [e] := by simp
    rw [e1, run_snoc]
    generalize st.run p (es ++ .resize size :: l) = st' at h1
    unfold State.step
    split
    · exact h1
    · rw [top_size]
      cases e with
      | resize s => exact absurd (by simp) (hno s)
      | _ => exact h1

/-- A program with one switch, which has the focus. -/
def switchProgram : Program Unit Press.Switch (Bool × Bool × Bool × Bool × Bool × Bool × (Bool ⊕ Nat)) where
  compose := fun _ _ => { focused := true }
  restyle := fun s => { s with dirty := false }
  view := fun _ s => s.look

/-- The space bar. -/
def space : Event Unit Press.Switch := .key (fun q => ((), (q.2.onKey .space).2)) false

/-- A click. -/
def clickDown : Event Unit Press.Switch := .mouse fun q => ((), (q.2.mouse ⟨.down .left, 1, 1⟩ ⟨0, 0, 10, 3⟩).2)

def clickUp : Event Unit Press.Switch := .mouse fun q => ((), (q.2.mouse ⟨.up .left, 1, 1⟩ ⟨0, 0, 10, 3⟩).2)

/-- The hypotheses of `size_last`. -/
example : (∀ s, (.resize s : Event Unit Press.Switch) ∉ [clickDown, clickUp]) ∧
    switchProgram.quits ((State.start switchProgram () (80, 24)).run switchProgram [space]).app = false :=
  ⟨by simp [clickDown, clickUp], rfl⟩

example : clickUp.redraws = true ∧
    ((State.start switchProgram () (80, 24)).run switchProgram [space, clickDown, clickUp]).shown =
      some { focused := true : Press.Switch }.look := by decide

/-- A quiet event: the key is not for the switch. -/
example : Quiet switchProgram (State.start switchProgram () (80, 24))
    (.key (fun q => ((), (q.2.onKey .other).2)) false) := rfl

example : ∀ es₁ e es₂, [clickDown, clickUp] = es₁ ++ e :: es₂ → e.redraws = true := by
  intro es₁ e es₂ h
  have : e ∈ [clickDown, clickUp] := h ▸ by simp
  simp only [List.mem_cons, List.not_mem_nil, or_false] at this
  rcases this with rfl | rfl <;> rfl

/-- **C122** fails for keys: a switch toggled with the space bar is drawn as before. -/
theorem key_counterexample :
    let st := (State.start switchProgram () (80, 24)).run switchProgram [space]
    st.tree.value = true ∧ st.tree.dirty = true ∧ st.shown = some { focused := true : Press.Switch }.look ∧
    ¬ Shown switchProgram st := by
  refine ⟨by decide, by decide, by decide, ?_⟩
  unfold Shown
  decide

/-- **C122** fails for messages of background tasks: a handler sets the switch, which is drawn as before. -/
theorem message_counterexample :
    ¬ Shown switchProgram ((State.start switchProgram () (80, 24)).run switchProgram
      [.message (fun q => ((), q.2.setValue true)) false]) := by
  unfold Shown
  decide

/-! ### C123: rebuilding -/

/-- **C123** (partial: the program does not ask for rebuilds; see the counterexamples). Then the tree is changed by
handlers only, but for focus and styles. -/
theorem kept_partial (p : Program α τ ν) (γ : Type) (keep : τ → γ) (hr : ∀ a, p.needsRecompose a = false)
    (hf : ∀ n t, keep (p.focus n t) = keep t) (hb : ∀ t, keep (p.fallback t).1 = keep t)
    (hs : ∀ t, keep (p.restyle t) = keep t) (st : State α τ ν) (hst : st.needsRecompose = false) (e : Event α τ)
    (hq0 : p.quits st.app = false) (he : ∀ size, e ≠ .resize size) :
    keep (st.step p e).tree = keep (e.result st).2 ∧ (st.step p e).needsRecompose = false := by
  obtain ⟨e1, e2, e3, e4⟩ := handle_facts p st e
  have f2 : (st.handle p e).needsRecompose = false := by
    rw [e4]; split
    · exact hr _
    · exact hst
  have ht : (st.handle p e).tree = (e.result st).2 := by
    cases e <;> simp [State.handle, Event.result] at he ⊢
  unfold State.step State.top
  rw [if_neg (by simp [hq0])]
  split
  · exact ⟨by rw [ht], f2⟩
  · have hb' : (st.handle p e).rebuild p = st.handle p e := by
      unfold State.rebuild
      rw [if_neg (by simp [f2])]
    rw [hb']
    have k1 : ∀ s : State α τ ν, keep (s.follow p).tree = keep s.tree := fun s => by
      unfold State.follow; split
      · exact hf _ _
      · rfl
    have k2 : ∀ s : State α τ ν, keep (s.settle p).tree = keep s.tree := fun s => by
      unfold State.settle; dsimp only; split <;> exact hb _
    have k3 : ∀ s : State α τ ν, keep (s.draw p).tree = keep s.tree := fun s => by
      unfold State.draw; split
      · exact hs _
      · rfl
    refine ⟨by rw [k3, k2, k1, ht], ?_⟩
    rw [(draw_facts p _).2.1, (settle_facts p _).2.1, (follow_focus p _).2.2.1, f2]

example : (∀ a, switchProgram.needsRecompose a = false) ∧
    (∀ t, (switchProgram.restyle t).value = t.value) ∧
    ((State.start switchProgram () (80, 24)).step switchProgram space).tree.value = true :=
  ⟨fun _ => rfl, fun _ => rfl, rfl⟩

/-- A program that always asks for a rebuild, as the documentation suggests (lib.rs:548-550), with the tree of
`Tree.demo`; the focus is moved by Tab. -/
def elmProgram : Program Unit Tree.WidgetTree (List Nat) where
  compose := fun _ _ => ({ root := Tree.demo.clearFocus } : Tree.WidgetTree).setFocusIndex 0 |>.1
  needsRecompose := fun _ => true
  view := fun _ t => t.path

def tab : Event Unit Tree.WidgetTree := .key (fun q => ((), q.2.focusNext.1)) true

/-- **C123** fails for such programs: Tab does not move the focus. -/
theorem tab_counterexample :
    ((State.start elmProgram () (80, 24)).run elmProgram [tab]).tree.index = 0 ∧
    ((State.start elmProgram () (80, 24)).tree.focusNext).1.index = 1 := by decide

/-- A program whose tree is whether the palette is open; `asks` is `needs_recompose`. -/
def paletteProgram (asks : Bool) : Program Unit Bool Bool where
  compose := fun _ _ => false
  needsRecompose := fun _ => asks
  view := fun _ t => t

/-- **C123** fails for such programs: the palette opened by its shortcut is never shown. -/
theorem palette_counterexample :
    ((State.start (paletteProgram true) () (80, 24)).run (paletteProgram true) [.shortcut fun _ => ((), true)]).shown =
      some false ∧
    ((State.start (paletteProgram false) () (80, 24)).run (paletteProgram false) [.shortcut fun _ => ((), true)]).shown =
      some true := by decide

/-- In general: if the program always asks, nothing the widgets keep survives an event that reaches the program: the
tree is the composed one, but for focus and styles. -/
theorem rebuilt_forgets (p : Program α τ ν) (γ : Type) (keep : τ → γ) (hr : ∀ a, p.needsRecompose a = true)
    (hf : ∀ n t, keep (p.focus n t) = keep t) (hb : ∀ t, keep (p.fallback t).1 = keep t)
    (hs : ∀ t, keep (p.restyle t) = keep t) (st : State α τ ν) (e : Event α τ) (ha : e.asks = true)
    (hq0 : p.quits st.app = false) (hq : p.quits (e.result st).1 = false) :
    keep (st.step p e).tree = keep (p.compose (e.result st).1 st.size) := by
  obtain ⟨e1, e2, e3, e4⟩ := handle_facts p st e
  have f2 : (st.handle p e).needsRecompose = true := by rw [e4, if_pos ha, hr]
  have fs : (st.handle p e).size = st.size := by
    cases e <;> simp [State.handle, Event.asks] at ha ⊢
  unfold State.step State.top
  rw [if_neg (by simp [hq0]), if_neg (by simp [e1, hq])]
  have k1 : ∀ s : State α τ ν, keep (s.follow p).tree = keep s.tree := fun s => by
    unfold State.follow; split
    · exact hf _ _
    · rfl
  have k2 : ∀ s : State α τ ν, keep (s.settle p).tree = keep s.tree := fun s => by
    unfold State.settle; dsimp only; split <;> exact hb _
  have k3 : ∀ s : State α τ ν, keep (s.draw p).tree = keep s.tree := fun s => by
    unfold State.draw; split
    · exact hs _
    · rfl
  rw [k3, k2, k1]
  unfold State.rebuild
  rw [if_pos f2, ← e1, ← fs]

end Textual.Loop
