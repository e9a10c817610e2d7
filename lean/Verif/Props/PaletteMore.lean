import Verif.Props.Palette

/-! The command palette, continued: C81 (clicks), C82 (only offered commands), C83 (events), C84 (focus),
C85 (busy indicator), C86 (confirmation). -/

namespace Textual.Palette

open Textual.OptionList (OptionList rowStart)
open Textual.Input (Input)
open Palette (Op)

variable {seg : List Char → List (List Char)} {ws : Char → Bool}

/-! ### C81: clicks -/

/-- C81: at any time, also while a search is running, a click on a line of the list runs the command displayed
there, if it is one. -/
theorem click_runs (r : Bool) (ps : List Provider) (ops : List Op) (y i : Nat) (e : Entry) (a : List Char) :
    let p := run seg ws (start r ps) ops
    p.visible = true → p.listShown = true → p.runOnSelect = true →
    p.entries[i]? = some e → e.disabled = false → e.action = some a →
    rowStart (p.entries.map Entry.display) i ≤ y → y < rowStart (p.entries.map Entry.display) (i + 1) →
    (p.step seg ws (.clickRow y)).pendingAction = some a ∧ (p.step seg ws (.clickRow y)).visible = false := by
  intro p hv hl hr he hd ha h1 h2
  have hb : Base p := base_run (base_start r ps) ops
  clear_value p
  have hi : i < p.entries.length := (List.getElem?_eq_some_iff.1 he).1
  have hrow : OptionList.OptionList.indexForRow p.list.lineCounts 0 y = some i := by
    rw [OptionList.row_index hb.current, hb.items]
    exact ⟨by rw [List.length_map]; exact hi, h1, h2⟩
  simp only [Palette.step]
  rcases clickRow_cases (seg := seg) hb y with ⟨_, hc⟩ | ⟨j, q, hj, _, _, _, _, ⟨l, ev, _, rfl, _⟩, hc⟩
  · have hdis := hc hv i hrow
    unfold OptionList.OptionList.disabledAt at hdis
    rw [hb.dis, List.getElem?_map, he] at hdis
    simp [hd] at hdis
  · rw [hc]
    have hji : j = i := by rw [hrow] at hj; exact (Option.some.inj hj).symm
    subst hji
    rw [activate_run (p := { p with selected := j, list := l, events := p.events ++ ev }) he hd hr ha]
    have := close_fields (seg := seg)
      ({ p with selected := j, list := l, events := p.events ++ ev, pendingAction := some a } : Palette) true hv
    exact ⟨this.1, close_visible _ _⟩

example : demo.visible = true ∧ demo.listShown = true ∧ demo.runOnSelect = true ∧
    demo.entries[2]?.map (·.text) = some "quit".toList ∧ rowStart (demo.entries.map Entry.display) 2 = 2 ∧
    (demo.step chars blank (.clickRow 2)).pendingAction = some "quit".toList := by decide +kernel

/-! ### C82: only offered commands -/

/-- Everything the palette knows comes from hits with the property `P`. -/
structure Offered (P : Hit → Prop) (p : Palette) : Prop where
  providers : ∀ q ∈ p.providers, ∀ g s, ∀ h ∈ q g s, P h
  flight : ∀ g hs, .results g hs ∈ p.flight → ∀ h ∈ hs, P h
  entries : ∀ e ∈ p.entries ++ p.pending, e = Entry.noMatches ∨ ∃ h n, P h ∧ e = Entry.ofHit h n
  pending : ∀ a, p.pendingAction = some a → ∃ h, P h ∧ h.action = a
  selected : ∀ a, p.selectedAction = some a → ∃ h, P h ∧ h.action = a
  events : ∀ i t a hp, .highlighted i t a hp ∈ p.log ++ p.events → ∃ h, P h ∧ h.text = t ∧ h.action = a ∧ h.help = hp

variable {P : Hit → Prop}

/-- An enabled entry comes from a hit. -/
theorem Offered.hit {p : Palette} (h : Offered P p) {e : Entry} (he : e ∈ p.entries ++ p.pending) (hd : e.disabled = false) :
    ∃ h, P h ∧ e.action = some h.action ∧ e.text = h.text ∧ e.help = h.help := by
  rcases h.entries e he with rfl | ⟨x, n, hx, rfl⟩
  · cases hd
  · exact ⟨x, hx, rfl, rfl, rfl⟩

theorem offered_refresh {p : Palette} (h : Offered P p) : Offered P (p.refreshResults seg) := by
  obtain ⟨ev, busy, hev, _, e⟩ := Palette.refreshResults_eq (seg := seg) p
  rw [e]
  refine ⟨h.providers, h.flight, ?_, h.pending, h.selected, ?_⟩
  · intro x hx
    refine h.entries x ?_
    rw [List.mem_append] at hx ⊢
    exact hx.imp (sorted_perm p).mem_iff.1 id
  · intro i t a hp hm
    rw [← List.append_assoc] at hm
    rcases List.mem_append.1 hm with hm | hm
    · exact h.events i t a hp hm
    · obtain ⟨_, x, hx, hd, hxe⟩ := hev _ hm
      obtain ⟨y, hy, h1, h2, h3⟩ := h.hit (List.mem_append_left _ ((sorted_perm p).mem_iff.1 hx)) hd
      injection hxe with e1 e2 e3 e4
      rw [e2, e3, e4, h1]
      exact ⟨y, hy, h2.symm, rfl, h3.symm⟩

theorem offered_emit {p : Palette} (h : Offered P p) : Offered P p.emitHighlight := by
  rw [Palette.emitHighlight_eq]
  refine ⟨h.providers, h.flight, h.entries, h.pending, h.selected, ?_⟩
  intro i t a hp hm
  rw [← List.append_assoc] at hm
  rcases List.mem_append.1 hm with hm | hm
  · exact h.events i t a hp hm
  · unfold Palette.highlights at hm
    split at hm
    · simp at hm
    · split at hm
      · simp at hm
      · rename_i x hx
        split at hm
        · simp at hm
        · rename_i hd
          obtain ⟨y, hy, h1, h2, h3⟩ := h.hit (List.mem_append_left _ (List.mem_of_getElem? hx)) (by simpa using hd)
          have hxe := List.mem_singleton.1 hm
          injection hxe with e1 e2 e3 e4
          rw [e2, e3, e4, h1]
          exact ⟨y, hy, h2.symm, rfl, h3.symm⟩

theorem offered_close {p : Palette} (h : Offered P p) (b : Bool) : Offered P (p.closeWith seg b) := by
  by_cases hv : p.visible = true
  · obtain ⟨c1, c2, c3, c4, c5, c6, c7, c8, c9, c10, c11⟩ := close_fields (seg := seg) p b hv
    refine ⟨by rw [c10]; exact h.providers, ?_, ?_, by rw [c1]; exact h.pending, ?_, ?_⟩
    · unfold Palette.flight; rw [c8, c9]; exact h.flight
    · rw [c5, c6]; simp
    · rw [c7]; intro a ha; cases ha
    · intro i t a hp hm
      rw [c2, c4, ← List.append_assoc] at hm
      rcases List.mem_append.1 hm with hm | hm
      · exact h.events i t a hp hm
      · simp at hm
  · rw [closeWith_closed p b (by simpa using hv)]; exact h

theorem offered_search {p : Palette} (h : Offered P p) (hv : p.visible = true) (q : List Char) (cursor : Option Nat) :
    Offered P (p.startSearch seg ws q cursor) := by
  have hs : ∀ es : List Entry, (∀ e ∈ es, e ∈ p.entries) → ∀ lv ls, Offered P ({ p.searching seg q cursor with
      entries := es, listVisible := lv, listShown := ls } : Palette) := by
    intro es hes lv ls
    refine ⟨h.providers, h.flight, ?_, h.pending, ?_, h.events⟩
    · intro e he
      have he : e ∈ es ++ [] := he
      rw [List.append_nil] at he
      exact h.entries e (List.mem_append_left _ (hes e he))
    · intro a ha
      have ha : (none : Option (List Char)) = some a := ha
      cases ha
  have hflight : ∀ (x : Palette) (ts : List Update), Offered P x → (∀ g hs, .results g hs ∈ ts → ∀ h ∈ hs, P h) →
      Offered P { x with tasks := ts } := by
    intro x ts hx hts
    refine ⟨hx.providers, ?_, hx.entries, hx.pending, hx.selected, hx.events⟩
    intro g hs hm
    rcases List.mem_append.1 hm with hm | hm
    · exact hts g hs hm
    · exact hx.flight g hs (List.mem_append_right _ hm)
  by_cases hp : p.providers = []
  · have e := startSearch_none (seg := seg) (ws := ws) p q cursor hv hp
    dsimp only at e
    rw [e]
    refine hflight _ _ (offered_refresh (hs [] (by simp) false false)) ?_
    intro g hs hm
    rcases List.mem_append.1 hm with hm | hm
    · exact h.flight g hs (List.mem_append_left _ hm)
    · split at hm <;> simp at hm
  · rw [startSearch_some p q cursor hv hp]
    refine hflight _ _ (hs p.entries (fun _ h => h) true true) ?_
    intro g hs hm
    rcases List.mem_append.1 hm with hm | hm
    · exact h.flight g hs (List.mem_append_left _ hm)
    · rcases List.mem_cons.1 hm with hm | hm
      · cases hm
      · obtain ⟨r, hr, e⟩ := List.mem_map.1 hm
        injection e with e1 e2
        intro x hx
        rw [← e2] at hx
        exact h.providers r hr _ _ x hx

theorem offered_flush {p : Palette} (h : Offered P p) : Offered P (p.flush seg) := by
  by_cases hp : p.pending = []
  · rw [flush_none p hp]; exact h
  · rw [flush_some p hp]
    refine offered_refresh ⟨h.providers, h.flight, ?_, h.pending, h.selected, h.events⟩
    intro e he
    refine h.entries e ?_
    unfold Palette.flushing at he
    dsimp only at he
    rw [List.append_nil] at he
    split at he
    · exact List.mem_append_right _ he
    · exact he

theorem offered_finished {p : Palette} (h : Offered P p) : Offered P (p.finished seg) := by
  unfold Palette.finished
  split
  · refine offered_refresh ⟨h.providers, h.flight, ?_, h.pending, h.selected, h.events⟩
    intro e he
    rw [List.nil_append] at he
    exact h.entries e (List.mem_append_right _ he)
  · exact offered_flush ⟨h.providers, h.flight, h.entries, h.pending, h.selected, h.events⟩

theorem offered_update {p : Palette} (h : Offered P p) (slow : Bool) (u : Update)
    (hu : ∀ g hs, u = .results g hs → ∀ h ∈ hs, P h) : Offered P (p.applyUpdate seg ws slow u) := by
  cases u with
  | results g hs =>
    by_cases hg : g = p.generation
    · subst hg
      have e := results_eq (seg := seg) (ws := ws) p slow hs
      dsimp only at e
      rw [e]
      have ha : Offered P (p.answered hs) := by
        refine ⟨h.providers, h.flight, ?_, h.pending, h.selected, h.events⟩
        intro x hx
        simp only [Palette.answered, numberedFrom, List.mem_append, List.mem_mapIdx] at hx
        rcases hx with hx | hx | ⟨i, hi, rfl⟩
        · exact h.entries x (List.mem_append_left _ hx)
        · exact h.entries x (List.mem_append_right _ hx)
        · exact Or.inr ⟨_, _, hu _ hs rfl _ (List.getElem_mem hi), rfl⟩
      have hr : Offered P (if slow then (p.answered hs).flush seg else p.answered hs) := by
        cases slow
        · exact ha
        · exact offered_flush ha
      generalize (if slow then (p.answered hs).flush seg else p.answered hs) = r at hr
      split
      · have hs' := offered_finished (seg := seg) hr
        generalize r.finished seg = s at hs'
        split
        · refine ⟨hs'.providers, ?_, hs'.entries, hs'.pending, hs'.selected, hs'.events⟩
          intro g hs hm
          unfold Palette.flight at hm
          simp only [List.mem_append, List.mem_singleton, reduceCtorEq, or_false] at hm
          exact hs'.flight g hs (List.mem_append.2 hm)
        · exact hs'
      · exact hr
    · rw [stale_update (u := .results g hs) p slow hg]
      exact h
  | showBusy g =>
    unfold Palette.applyUpdate
    dsimp only
    split
    · exact h
    · split
      · exact ⟨h.providers, h.flight, h.entries, h.pending, h.selected, h.events⟩
      · exact h
  | showNoMatches g b =>
    unfold Palette.applyUpdate
    dsimp only
    split
    · exact h
    · split
      · rw [Palette.sync_eq, Palette.updateList_eq]
        refine ⟨h.providers, h.flight, ?_, h.pending, h.selected, h.events⟩
        intro e he
        rcases List.mem_append.1 he with he | he
        · exact Or.inl (List.mem_singleton.1 he)
        · exact h.entries e (List.mem_append_right _ he)
      · rw [Palette.sync_eq]
        exact ⟨h.providers, h.flight, h.entries, h.pending, h.selected, h.events⟩

theorem offered_activate {p : Palette} (h : Offered P p) : Offered P (p.activate seg) := by
  rw [activate_eq]
  split
  · exact h
  · rename_i e he
    split
    · exact h
    · rename_i hd
      obtain ⟨y, hy, h1, h2, h3⟩ := h.hit (List.mem_append_left _ (List.mem_of_getElem? he)) (by simpa using hd)
      split
      · split
        · rename_i a ha
          refine offered_close (p := ({ p with pendingAction := some a } : Palette))
            ⟨h.providers, h.flight, h.entries, ?_, h.selected, h.events⟩ true
          intro b hb
          rw [h1] at ha
          exact ⟨y, hy, (Option.some.inj ha).trans (Option.some.inj hb)⟩
        · exact h
      · refine offered_refresh (p := p.choosing seg e) ⟨h.providers, h.flight, by simp [Palette.choosing], h.pending, ?_, h.events⟩
        intro a ha
        have ha : e.action = some a := ha
        rw [h1] at ha
        exact ⟨y, hy, Option.some.inj ha⟩

theorem offered_submit {p : Palette} (h : Offered P p) : Offered P (p.submit seg) := by
  unfold Palette.submit
  split
  · exact offered_activate h
  · split
    · rename_i a ha
      refine offered_close (p := ({ p with pendingAction := some a, selectedAction := none } : Palette))
        ⟨h.providers, h.flight, h.entries, ?_, (fun _ e => by cases e), h.events⟩ true
      intro b hb
      obtain ⟨y, hy, e⟩ := h.selected a ha
      exact ⟨y, hy, e.trans (Option.some.inj hb)⟩
    · exact h

theorem offered_move {p : Palette} (h : Offered P p) (delta : Int) : Offered P (p.moveSelection delta) := by
  unfold Palette.moveSelection
  split
  · exact h
  · split
    · refine offered_emit ?_
      rw [Palette.updateList_eq]
      exact ⟨h.providers, h.flight, h.entries, h.pending, h.selected, h.events⟩
    · exact h

theorem offered_arrow {p : Palette} (h : Offered P p) (delta : Int) : Offered P (p.arrow delta) := by
  unfold Palette.arrow
  split
  · rw [Palette.sync_eq, Palette.updateList_eq]
    exact offered_emit ⟨h.providers, h.flight, h.entries, h.pending, h.selected, h.events⟩
  · exact offered_move h delta

/-- The providers of an operation. -/
def Op.offers (P : Hit → Prop) : Op → Prop
  | .setProviders ps => ∀ q ∈ ps, ∀ g s, ∀ h ∈ q g s, P h
  | _ => True

theorem offered_step {p : Palette} (h : Offered P p) (hb : Base p) (op : Op) (ho : Op.offers P op) :
    Offered P (p.step seg ws op) := by
  cases op with
  | openPalette focus =>
    simp only [Palette.step]
    by_cases hv : p.visible = true
    · rw [show p.openWith seg ws focus = p from if_pos hv]; exact h
    · rw [openWith_eq focus (by simpa using hv)]
      refine offered_search (p := p.opening focus) ⟨h.providers, h.flight, h.entries, h.pending, h.selected, ?_⟩ rfl _ _
      intro i t a hp hm
      have hm : .highlighted i t a hp ∈ p.log ++ (p.events ++ [.opened]) := hm
      rw [← List.append_assoc] at hm
      rcases List.mem_append.1 hm with hm | hm
      · exact h.events i t a hp hm
      · simp at hm
  | close => exact offered_close h false
  | setProviders ps =>
    simp only [Palette.step]
    have hp : Offered P (p.supplied ps) := ⟨ho, h.flight, h.entries, h.pending, h.selected, h.events⟩
    by_cases hv : p.visible = true
    · rw [setProviders_open ps hv]
      exact offered_search hp hv _ _
    · rw [setProviders_closed ps (by simpa using hv)]
      exact hp
  | submit => exact offered_submit h
  | esc => simp only [Palette.step]; split; exacts [offered_close h false, h]
  | enter => simp only [Palette.step]; split; exacts [offered_submit h, h]
  | up => simp only [Palette.step]; split; exacts [offered_arrow h _, h]
  | down => simp only [Palette.step]; split; exacts [offered_arrow h _, h]
  | key k =>
    simp only [Palette.step]
    split
    · rename_i hv
      unfold Palette.typeKey
      dsimp only
      split
      · exact offered_search (p := p.typed (p.input.onKey seg k))
          ⟨h.providers, h.flight, h.entries, h.pending, (fun _ e => by cases e), h.events⟩ hv _ _
      · exact ⟨h.providers, h.flight, h.entries, h.pending, h.selected, h.events⟩
    · exact h
  | clickRow y =>
    simp only [Palette.step]
    rcases clickRow_cases (seg := seg) hb y with ⟨e, _⟩ | ⟨i, q, _, _, _, _, _, ⟨l, ev, _, rfl, hev⟩, e⟩
    · rw [e]; exact h
    · rw [e]
      refine offered_activate ?_
      have := offered_emit (p := ({ p with selected := i } : Palette))
        ⟨h.providers, h.flight, h.entries, h.pending, h.selected, h.events⟩
      rw [Palette.emitHighlight_eq] at this
      refine ⟨h.providers, h.flight, h.entries, h.pending, h.selected, ?_⟩
      rw [hev]
      exact this.events
  | clickOutside => simp only [Palette.step]; split; exacts [offered_close h false, h]
  | takeAction => exact ⟨h.providers, h.flight, h.entries, (fun _ e => by cases e), h.selected, h.events⟩
  | takeEvents =>
    refine ⟨h.providers, h.flight, h.entries, h.pending, h.selected, ?_⟩
    intro i t a hp hm
    have hm : .highlighted i t a hp ∈ (p.log ++ p.events) ++ [] := hm
    rw [List.append_nil] at hm
    exact h.events i t a hp hm
  | takeRestore =>
    simp only [Palette.step]
    split
    · exact h
    · exact ⟨h.providers, h.flight, h.entries, h.pending, h.selected, h.events⟩
  | setFocus on =>
    simp only [Palette.step]
    split
    · exact ⟨h.providers, h.flight, h.entries, h.pending, h.selected, h.events⟩
    · exact h
  | finish n =>
    simp only [Palette.step]
    split
    · rename_i u hu
      refine ⟨h.providers, ?_, h.entries, h.pending, h.selected, h.events⟩
      intro g hs hm
      refine h.flight g hs ?_
      unfold Palette.flight at hm ⊢
      simp only [List.mem_append, List.mem_singleton] at hm ⊢
      rcases hm with hm | hm | hm
      · exact Or.inl (List.mem_of_mem_eraseIdx hm)
      · exact Or.inr hm
      · rw [hm]; exact Or.inl (List.mem_of_getElem? hu)
    · exact h
  | receive slow =>
    simp only [Palette.step]
    split
    · rename_i u rest hc
      have hsub : ∀ v, v ∈ p.tasks ++ rest ∨ v = u → v ∈ p.flight := by
        intro v hv
        unfold Palette.flight
        rw [hc]
        simp only [List.mem_append, List.mem_cons] at hv ⊢
        rcases hv with (hv | hv) | hv
        · exact Or.inl hv
        · exact Or.inr (Or.inr hv)
        · exact Or.inr (Or.inl hv)
      refine offered_update (p := ({ p with channel := rest } : Palette))
        ⟨h.providers, fun g hs hm => h.flight g hs (hsub _ (Or.inl hm)), h.entries, h.pending, h.selected, h.events⟩ slow u ?_
      intro g hs e
      exact h.flight g hs (hsub _ (Or.inr e.symm))
    · exact h

/-- C82: a palette asks only for actions that a provider has offered, shows only what they have offered (or
that there is nothing), and reports only those as highlighted — whatever the history. -/
theorem only_offered (r : Bool) (ps : List Provider) (ops : List Op) (P : Hit → Prop)
    (h0 : ∀ q ∈ ps, ∀ g s, ∀ h ∈ q g s, P h) (h1 : ∀ op ∈ ops, Op.offers P op) :
    let p := run seg ws (start r ps) ops
    (∀ a, p.pendingAction = some a → ∃ h, P h ∧ h.action = a) ∧
    (∀ d ∈ p.list.items, d = Entry.noMatches.display ∨ ∃ h, P h ∧ d = buildPrompt h.display h.help) ∧
    (∀ i t a hp, .highlighted i t a hp ∈ p.log ++ p.events → ∃ h, P h ∧ h.text = t ∧ h.action = a ∧ h.help = hp) := by
  intro p
  have key : ∀ (ops : List Op) (q : Palette), Offered P q → Base q → (∀ op ∈ ops, Op.offers P op) →
      Offered P (run seg ws q ops) := by
    intro ops
    induction ops with
    | nil => intro q h _ _; exact h
    | cons op ops ih =>
      intro q h hb ho
      exact ih _ (offered_step h hb op (ho op (by simp))) (base_step hb op) (fun o hm => ho o (by simp [hm]))
  have hs : Offered P (start r ps) := by
    refine ⟨h0, ?_, ?_, ?_, ?_, ?_⟩ <;> simp [start, Palette.flight]
  have h : Offered P p := key ops _ hs (base_start r ps) h1
  have hb : Base p := base_run (base_start r ps) ops
  refine ⟨h.pending, ?_, h.events⟩
  intro d hd
  rw [hb.items] at hd
  obtain ⟨e, he, rfl⟩ := List.mem_map.1 hd
  rcases h.entries e (List.mem_append_left _ he) with rfl | ⟨x, n, hx, rfl⟩
  · exact Or.inl rfl
  · exact Or.inr ⟨x, hx, rfl⟩

/-- The hypotheses hold for the example with "is one of the three commands". -/
example : ∀ q ∈ [demoProvider, otherProvider], ∀ g s, ∀ h ∈ q g s, h.text ∈ ["save".toList, "quit".toList, "open".toList] := by
  intro q hq g s h hh
  simp only [List.mem_cons, List.not_mem_nil, or_false] at hq
  rcases hq with rfl | rfl
  · unfold demoProvider at hh
    split at hh <;> simp at hh
    · rcases hh with rfl | rfl <;> decide
    · rw [hh]; decide
  · unfold otherProvider at hh
    split at hh <;> simp at hh
    rw [hh]; decide

/-! ### C83: the events -/

/-- How the events of a palette follow each other: the state is whether it is open. -/
def Event.next : Option Bool → Event → Option Bool
  | some false, .opened => some true
  | some true, .closed _ => some false
  | some true, .highlighted .. => some true
  | _, _ => none

/-- The events sent in a step. -/
def Sends (p q : Palette) : Prop :=
  ∃ ev : List Event, q.log ++ q.events = p.log ++ p.events ++ ev ∧ ev.foldl Event.next (some p.visible) = some q.visible

theorem Sends.refl {p q : Palette} (h1 : q.log = p.log) (h2 : q.events = p.events) (h3 : q.visible = p.visible) : Sends p q :=
  ⟨[], by rw [h1, h2, List.append_nil], by rw [h3]; rfl⟩

theorem Sends.trans {p q r : Palette} (h1 : Sends p q) (h2 : Sends q r) : Sends p r := by
  obtain ⟨a, a1, a2⟩ := h1
  obtain ⟨b, b1, b2⟩ := h2
  exact ⟨a ++ b, by rw [b1, a1, List.append_assoc], by rw [List.foldl_append, a2, b2]⟩

theorem highlights_fold : ∀ (ev : List Event), (∀ x ∈ ev, ∃ i t a h, x = Event.highlighted i t a h) →
    ev.foldl Event.next (some true) = some true
  | [], _ => rfl
  | x :: ev, h => by
    obtain ⟨i, t, a, hh, rfl⟩ := h x (by simp)
    exact highlights_fold ev (fun y hy => h y (by simp [hy]))

theorem sends_refresh (p : Palette) : Sends p (p.refreshResults seg) := by
  obtain ⟨ev, busy, hev, _, e⟩ := Palette.refreshResults_eq (seg := seg) p
  rw [e]
  refine ⟨ev, by simp, ?_⟩
  cases hv : p.visible with
  | true => exact highlights_fold ev (fun x hx => by obtain ⟨_, e, _, _, rfl⟩ := hev x hx; exact ⟨_, _, _, _, rfl⟩)
  | false =>
    have : ev = [] := by
      apply List.eq_nil_iff_forall_not_mem.2
      intro x hx
      have := (hev x hx).1
      rw [hv] at this; cases this
    rw [this]; rfl

theorem sends_emit (p : Palette) : Sends p p.emitHighlight := by
  rw [Palette.emitHighlight_eq]
  refine ⟨p.highlights, by simp, ?_⟩
  unfold Palette.highlights
  dsimp only
  split
  · rfl
  · rename_i hv
    have : p.visible = true := by cases h : p.visible <;> simp_all
    rw [this]
    split
    · rfl
    · split <;> rfl

theorem sends_close (p : Palette) (b : Bool) : Sends p (p.closeWith seg b) := by
  by_cases hv : p.visible = true
  · have c := close_fields (seg := seg) p b hv
    refine ⟨[.closed b], by rw [c.2.1, c.2.2.2.1, List.append_assoc], ?_⟩
    rw [close_visible, hv]; rfl
  · rw [closeWith_closed p b (by simpa using hv)]; exact Sends.refl rfl rfl rfl

theorem sends_search (p : Palette) (hv : p.visible = true) (q : List Char) (cursor : Option Nat) :
    Sends p (p.startSearch seg ws q cursor) := by
  by_cases hp : p.providers = []
  · have e := startSearch_none (seg := seg) (ws := ws) p q cursor hv hp
    dsimp only at e
    rw [e]
    refine Sends.trans (q := ({ p.searching seg q cursor with entries := [], listVisible := false, listShown := false } : Palette))
      (Sends.refl rfl rfl hv.symm) ?_
    exact (sends_refresh _).trans (Sends.refl rfl rfl rfl)
  · rw [startSearch_some p q cursor hv hp]
    exact Sends.refl rfl rfl hv.symm

theorem sends_flush (p : Palette) : Sends p (p.flush seg) := by
  by_cases hp : p.pending = []
  · rw [flush_none p hp]; exact Sends.refl rfl rfl rfl
  · rw [flush_some p hp]
    exact Sends.trans (q := p.flushing) (Sends.refl rfl rfl rfl) (sends_refresh _)

theorem sends_update (p : Palette) (slow : Bool) (u : Update) : Sends p (p.applyUpdate seg ws slow u) := by
  cases u with
  | results g hs =>
    by_cases hg : g = p.generation
    · subst hg
      have e := results_eq (seg := seg) (ws := ws) p slow hs
      dsimp only at e
      rw [e]
      have ha : Sends p (if slow then (p.answered hs).flush seg else p.answered hs) := by
        cases slow
        · exact Sends.refl rfl rfl rfl
        · exact Sends.trans (q := p.answered hs) (Sends.refl rfl rfl rfl) (sends_flush _)
      generalize (if slow then (p.answered hs).flush seg else p.answered hs) = r at ha
      split
      · have hf : Sends r (r.finished seg) := by
          unfold Palette.finished
          split
          · exact Sends.trans (q := ({ r with showBusy := false, entries := [], clearCurrent := false } : Palette))
              (Sends.refl rfl rfl rfl) (sends_refresh _)
          · exact Sends.trans (q := ({ r with showBusy := false } : Palette)) (Sends.refl rfl rfl rfl) (sends_flush _)
        split
        · exact (ha.trans hf).trans (Sends.refl rfl rfl rfl)
        · exact ha.trans hf
      · exact ha
    · rw [stale_update (u := .results g hs) p slow hg]
      exact Sends.refl rfl rfl rfl
  | showBusy g =>
    unfold Palette.applyUpdate
    dsimp only
    split
    · exact Sends.refl rfl rfl rfl
    · split <;> exact Sends.refl rfl rfl rfl
  | showNoMatches g b =>
    unfold Palette.applyUpdate
    dsimp only
    split
    · exact Sends.refl rfl rfl rfl
    · split
      · rw [Palette.sync_eq, Palette.updateList_eq]; exact Sends.refl rfl rfl rfl
      · rw [Palette.sync_eq]; exact Sends.refl rfl rfl rfl

theorem sends_activate (p : Palette) : Sends p (p.activate seg) := by
  rw [activate_eq]
  split
  · exact Sends.refl rfl rfl rfl
  · split
    · exact Sends.refl rfl rfl rfl
    · split
      · split
        · exact Sends.trans (q := ({ p with pendingAction := some _ } : Palette)) (Sends.refl rfl rfl rfl) (sends_close _ _)
        · exact Sends.refl rfl rfl rfl
      · exact Sends.trans (q := p.choosing seg _) (Sends.refl rfl rfl rfl) (sends_refresh _)

theorem sends_submit (p : Palette) : Sends p (p.submit seg) := by
  unfold Palette.submit
  split
  · exact sends_activate p
  · split
    · exact Sends.trans (q := ({ p with pendingAction := some _, selectedAction := none } : Palette))
        (Sends.refl rfl rfl rfl) (sends_close _ _)
    · exact Sends.refl rfl rfl rfl

theorem sends_arrow (p : Palette) (delta : Int) : Sends p (p.arrow delta) := by
  unfold Palette.arrow
  split
  · rw [Palette.sync_eq, Palette.updateList_eq]
    exact Sends.trans (Sends.refl rfl rfl rfl) (sends_emit _)
  · unfold Palette.moveSelection
    split
    · exact Sends.refl rfl rfl rfl
    · split
      · rw [Palette.updateList_eq]
        exact Sends.trans (Sends.refl rfl rfl rfl) (sends_emit _)
      · exact Sends.refl rfl rfl rfl

theorem sends_step {p : Palette} (hb : Base p) (op : Op) : Sends p (p.step seg ws op) := by
  have same : Sends p p := Sends.refl rfl rfl rfl
  cases op with
  | openPalette focus =>
    simp only [Palette.step]
    by_cases hv : p.visible = true
    · rw [show p.openWith seg ws focus = p from if_pos hv]; exact same
    · rw [openWith_eq focus (by simpa using hv)]
      refine Sends.trans (q := p.opening focus) ?_ (sends_search _ rfl _ _)
      refine ⟨[.opened], ?_, ?_⟩
      · show p.log ++ (p.events ++ [_]) = _
        rw [List.append_assoc]
      · have : p.visible = false := by simpa using hv
        rw [this]; rfl
  | close => exact sends_close p false
  | setProviders ps =>
    simp only [Palette.step]
    have hp : Sends p (p.supplied ps) := Sends.refl rfl rfl rfl
    by_cases hv : p.visible = true
    · rw [setProviders_open ps hv]
      exact hp.trans (sends_search (p.supplied ps) hv _ _)
    · rw [setProviders_closed ps (by simpa using hv)]
      exact hp
  | submit => exact sends_submit p
  | esc => simp only [Palette.step]; split; exacts [sends_close p false, same]
  | enter => simp only [Palette.step]; split; exacts [sends_submit p, same]
  | up => simp only [Palette.step]; split; exacts [sends_arrow p _, same]
  | down => simp only [Palette.step]; split; exacts [sends_arrow p _, same]
  | key k =>
    simp only [Palette.step]
    split
    · rename_i hv
      unfold Palette.typeKey
      dsimp only
      split
      · exact Sends.trans (q := p.typed (p.input.onKey seg k)) (Sends.refl rfl rfl rfl)
          (sends_search (p.typed (p.input.onKey seg k)) hv _ _)
      · exact Sends.refl rfl rfl rfl
    · exact same
  | clickRow y =>
    simp only [Palette.step]
    rcases clickRow_cases (seg := seg) hb y with ⟨e, _⟩ | ⟨i, q, _, _, _, _, _, ⟨l, ev, _, rfl, hev⟩, e⟩
    · rw [e]; exact same
    · rw [e]
      refine Sends.trans ?_ (sends_activate _)
      have := sends_emit ({ p with selected := i } : Palette)
      rw [Palette.emitHighlight_eq] at this
      obtain ⟨ev', h1, h2⟩ := this
      rw [hev]
      exact ⟨ev', h1, h2⟩
  | clickOutside => simp only [Palette.step]; split; exacts [sends_close p false, same]
  | takeAction => exact Sends.refl rfl rfl rfl
  | takeEvents => exact ⟨[], by simp [Palette.step], rfl⟩
  | takeRestore => simp only [Palette.step]; split; exacts [same, Sends.refl rfl rfl rfl]
  | setFocus on => simp only [Palette.step]; split; exacts [Sends.refl rfl rfl rfl, same]
  | finish n => simp only [Palette.step]; split; exacts [Sends.refl rfl rfl rfl, same]
  | receive slow =>
    simp only [Palette.step]
    split
    · exact Sends.trans (q := ({ p with channel := _ } : Palette)) (Sends.refl rfl rfl rfl) (sends_update _ _ _)
    · exact same

/-- C83: the events of a palette are `Opened` and `Closed` in turn, beginning with `Opened`, and highlights
only in between; the palette is open exactly if the last of them was `Opened`. -/
theorem events_alternate (r : Bool) (ps : List Provider) (ops : List Op) :
    let p := run seg ws (start r ps) ops
    (p.log ++ p.events).foldl Event.next (some false) = some p.visible := by
  have key : ∀ (ops : List Op) (q : Palette), Base q → (q.log ++ q.events).foldl Event.next (some false) = some q.visible →
      ((run seg ws q ops).log ++ (run seg ws q ops).events).foldl Event.next (some false) = some (run seg ws q ops).visible := by
    intro ops
    induction ops with
    | nil => intro q _ h; exact h
    | cons op ops ih =>
      intro q hb h
      refine ih _ (base_step hb op) ?_
      obtain ⟨ev, h1, h2⟩ := sends_step (seg := seg) (ws := ws) hb op
      rw [h1, List.foldl_append, h, h2]
  exact key ops _ (base_start r ps) rfl

example : demo.events = [.opened, .highlighted 0 "open".toList "open".toList none] ∧
    (demo.step chars blank .enter).events =
      [.opened, .highlighted 0 "open".toList "open".toList none, .closed true] := by decide +kernel

/-! ### C84: the focus -/

theorem focus_refresh (p : Palette) : (p.refreshResults seg).restoreFocus = p.restoreFocus := by
  obtain ⟨ev, busy, _, _, e⟩ := Palette.refreshResults_eq (seg := seg) p
  rw [e]

theorem focus_emit (p : Palette) : p.emitHighlight.restoreFocus = p.restoreFocus := by rw [Palette.emitHighlight_eq]

theorem focus_close (p : Palette) (b : Bool) : (p.closeWith seg b).restoreFocus = p.restoreFocus := by
  by_cases hv : p.visible = true
  · exact (close_fields p b hv).2.2.1
  · rw [closeWith_closed p b (by simpa using hv)]

theorem focus_search (p : Palette) (hv : p.visible = true) (q : List Char) (cursor : Option Nat) :
    (p.startSearch seg ws q cursor).restoreFocus = p.restoreFocus := by
  by_cases hp : p.providers = []
  · have e := startSearch_none (seg := seg) (ws := ws) p q cursor hv hp
    dsimp only at e
    rw [e]
    exact focus_refresh ({ p.searching seg q cursor with entries := [], listVisible := false, listShown := false } : Palette)
  · rw [startSearch_some p q cursor hv hp]; rfl

theorem focus_flush (p : Palette) : (p.flush seg).restoreFocus = p.restoreFocus := by
  by_cases hp : p.pending = []
  · rw [flush_none p hp]
  · rw [flush_some p hp]; exact focus_refresh p.flushing

theorem focus_update (p : Palette) (slow : Bool) (u : Update) :
    (p.applyUpdate seg ws slow u).restoreFocus = p.restoreFocus := by
  cases u with
  | results g hs =>
    by_cases hg : g = p.generation
    · subst hg
      have e := results_eq (seg := seg) (ws := ws) p slow hs
      dsimp only at e
      rw [e]
      have ha : (if slow then (p.answered hs).flush seg else p.answered hs).restoreFocus = p.restoreFocus := by
        cases slow
        · rfl
        · exact focus_flush (p.answered hs)
      generalize (if slow then (p.answered hs).flush seg else p.answered hs) = r at ha
      split
      · have hf : (r.finished seg).restoreFocus = r.restoreFocus := by
          unfold Palette.finished
          split
          · exact focus_refresh ({ r with showBusy := false, entries := [], clearCurrent := false } : Palette)
          · exact focus_flush ({ r with showBusy := false } : Palette)
        split <;> exact hf.trans ha
      · exact ha
    · rw [stale_update (u := .results g hs) p slow hg]
  | showBusy g =>
    unfold Palette.applyUpdate
    dsimp only
    split
    · rfl
    · split <;> rfl
  | showNoMatches g b =>
    unfold Palette.applyUpdate
    dsimp only
    split
    · rfl
    · split
      · rw [Palette.sync_eq, Palette.updateList_eq]
      · rw [Palette.sync_eq]

theorem focus_activate (p : Palette) : (p.activate seg).restoreFocus = p.restoreFocus := by
  rw [activate_eq]
  split
  · rfl
  · split
    · rfl
    · split
      · split
        · rename_i a _
          exact focus_close ({ p with pendingAction := some a } : Palette) true
        · rfl
      · rename_i e _ _ _
        exact focus_refresh (p.choosing seg e)

theorem focus_submit (p : Palette) : (p.submit seg).restoreFocus = p.restoreFocus := by
  unfold Palette.submit
  split
  · exact focus_activate p
  · split
    · rename_i a _
      exact focus_close ({ p with pendingAction := some a, selectedAction := none } : Palette) true
    · rfl

theorem focus_arrow (p : Palette) (delta : Int) : (p.arrow delta).restoreFocus = p.restoreFocus := by
  unfold Palette.arrow
  split
  · rw [Palette.sync_eq, Palette.updateList_eq, focus_emit]
  · unfold Palette.moveSelection
    split
    · rfl
    · split
      · rw [Palette.updateList_eq, focus_emit]
      · rfl

/-- C84: the focus to restore is remembered when a closed palette is opened and forgotten when it is taken
from a closed one; nothing else changes it. -/
theorem focus_step (r : Bool) (ps : List Provider) (ops : List Op) (op : Op) :
    let p := run seg ws (start r ps) ops
    (p.step seg ws op).restoreFocus = match op with
      | .openPalette (some n) => if p.visible then p.restoreFocus else some n
      | .takeRestore => if p.visible then p.restoreFocus else none
      | _ => p.restoreFocus := by
  intro p
  have hb : Base p := base_run (base_start r ps) ops
  clear_value p
  cases op with
  | openPalette focus =>
    simp only [Palette.step]
    by_cases hv : p.visible = true
    · rw [show p.openWith seg ws focus = p from if_pos hv]; cases focus <;> simp [hv]
    · rw [openWith_eq focus (by simpa using hv), focus_search (p.opening focus) rfl]
      cases focus with
      | none => rfl
      | some n => simp [hv, Palette.opening]
  | close => exact focus_close p false
  | setProviders ps =>
    simp only [Palette.step]
    by_cases hv : p.visible = true
    · rw [setProviders_open ps hv, focus_search (p.supplied ps) hv]; rfl
    · rw [setProviders_closed ps (by simpa using hv)]; rfl
  | submit => exact focus_submit p
  | esc => simp only [Palette.step]; split; exacts [focus_close p false, rfl]
  | enter => simp only [Palette.step]; split; exacts [focus_submit p, rfl]
  | up => simp only [Palette.step]; split; exacts [focus_arrow p _, rfl]
  | down => simp only [Palette.step]; split; exacts [focus_arrow p _, rfl]
  | key k =>
    simp only [Palette.step]
    split
    · rename_i hv
      unfold Palette.typeKey
      dsimp only
      split
      · exact focus_search (p.typed (p.input.onKey seg k)) hv _ _
      · rfl
    · rfl
  | clickRow y =>
    simp only [Palette.step]
    rcases clickRow_cases (seg := seg) hb y with ⟨e, _⟩ | ⟨i, q, _, _, _, _, _, ⟨l, ev, _, rfl, hev⟩, e⟩
    · rw [e]
    · rw [e, focus_activate]
  | clickOutside => simp only [Palette.step]; split; exacts [focus_close p false, rfl]
  | takeAction => rfl
  | takeEvents => rfl
  | takeRestore => simp only [Palette.step]; split <;> rfl
  | setFocus on => simp only [Palette.step]; split <;> rfl
  | finish n => simp only [Palette.step]; split <;> rfl
  | receive slow =>
    simp only [Palette.step]
    split
    · rw [focus_update]
    · rfl

/-- C84: if the widget `n` had the focus when the palette was opened, then after whatever happens in between the
focus is given back to `n` as soon as the palette is closed, and not before; and only once. -/
theorem focus_restored (r : Bool) (ps : List Provider) (before after : List Op) (n : Nat)
    (hc : (run seg ws (start r ps) before).visible = false)
    (ha : ∀ op ∈ after, op ≠ .takeRestore ∧ ∀ m, op ≠ .openPalette (some m)) :
    let p := run seg ws (start r ps) (before ++ .openPalette (some n) :: after)
    p.takenFocus = (if p.visible then none else some n) ∧
    (p.visible = false → (p.step seg ws .takeRestore).takenFocus = none) := by
  intro p
  have hp : p.restoreFocus = some n := by
    have key : ∀ (after done : List Op), (∀ op ∈ after, op ≠ .takeRestore ∧ ∀ m, op ≠ .openPalette (some m)) →
        (run seg ws (start r ps) done).restoreFocus = some n →
        (run seg ws (start r ps) (done ++ after)).restoreFocus = some n := by
      intro after
      induction after with
      | nil => intro done _ h; rw [List.append_nil]; exact h
      | cons op after ih =>
        intro done ho h
        have := ih (done ++ [op]) (fun o hm => ho o (by simp [hm])) ?_
        · rw [List.append_assoc] at this; exact this
        · have e := focus_step (seg := seg) (ws := ws) r ps done op
          dsimp only at e
          have hr : run seg ws (start r ps) (done ++ [op]) = (run seg ws (start r ps) done).step seg ws op := by
            unfold run; rw [List.foldl_append]; rfl
          rw [hr, e]
          have h1 := (ho op (by simp)).1
          have h2 := (ho op (by simp)).2
          split
          · rename_i m; exact absurd rfl (h2 m)
          · exact absurd rfl h1
          · exact h
    have h0 := focus_step (seg := seg) (ws := ws) r ps before (.openPalette (some n))
    dsimp only at h0
    rw [hc] at h0
    have hr : run seg ws (start r ps) (before ++ [.openPalette (some n)]) =
        (run seg ws (start r ps) before).step seg ws (.openPalette (some n)) := by
      unfold run; rw [List.foldl_append]; rfl
    have := key after (before ++ [.openPalette (some n)]) ha (by rw [hr]; exact h0)
    rw [List.append_assoc] at this
    exact this
  clear_value p
  constructor
  · unfold Palette.takenFocus; rw [hp]
  · intro hv
    simp [Palette.step, Palette.takenFocus, hv]

/-- The hypotheses hold for a palette that is used, closed and used again. -/
example : (run chars blank demo [.enter]).visible = false ∧
    (run chars blank demo [.enter, .openPalette (some 3), .down, .key (.char 'a')]).takenFocus = none ∧
    (run chars blank demo [.enter, .openPalette (some 3), .down, .key (.char 'a'), .esc]).takenFocus = some 3 := by
  decide +kernel

/-! ### C85: the busy indicator -/

/-- C85 (partial): the busy indicator of an open palette is shown only below the list.  When the last answer to
the current query is received it goes off if the search has found nothing, or if the answer has hits and the
last update was less than 250 ms ago.  Missing: see `busy_late_counterexample` and `busy_empty_counterexample`. -/
theorem busy_off_partial (r : Bool) (ps : List Provider) (ops : List Op) (hs : List Hit) (rest : List Update) (slow : Bool) :
    let p := run seg ws (start r ps) ops
    p.visible = true → (p.loadingShown = true → p.listShown = true) ∧
    (p.selectedAction = none → p.channel = .results p.generation hs :: rest →
      (∀ hs', .results p.generation hs' ∉ p.tasks ++ rest) →
      (slow = false ∧ hs ≠ [] ∨
        p.providers.flatMap (fun provider => provider p.generation (Palette.trim ws p.input.value)) = []) →
      (p.step seg ws (.receive slow)).loadingShown = false) := by
  intro p hv
  have hinv := inv_run (seg := seg) (ws := ws) (inv_closed (ws := ws) (p := start r ps) rfl) (base_start r ps) ops
  have hb : Base p := hinv.2
  have hi : Inv ws p := hinv.1
  clear_value p
  constructor
  · intro hl; rw [hb.shown, hv, hb.busy hv hl]; rfl
  · intro ha hc hno hcase
    obtain ⟨R, hcnt, hph⟩ := hi hv ha
    have hmiss : p.missing.Perm (hs :: Palette.missing { p with channel := rest }) := by
      unfold Palette.missing Palette.flight
      dsimp only
      rw [hc, List.filterMap_append, List.filterMap_append, List.filterMap_cons]
      simp only [Update.answer, if_true]
      exact List.perm_middle
    have hnone : Palette.missing { p with channel := rest } = [] := by
      unfold Palette.missing
      rw [List.filterMap_eq_nil_iff]
      intro u hu
      cases u with
      | results g hs' =>
        simp only [Update.answer]
        split
        · rename_i hg
          exact absurd (show Update.results p.generation hs' ∈ p.tasks ++ rest from hg ▸ hu) (hno hs')
        · rfl
      | showBusy g => rfl
      | showNoMatches g b => rfl
    rw [hnone] at hmiss
    have hcount : p.completed + 1 = p.expected := by
      have := hcnt.count
      rw [hmiss.length_eq] at this
      exact this
    have hprog : Progress p R := by
      rcases hph with ⟨h1, _⟩ | ⟨_, h2, _⟩
      · exact h1
      · rw [h2] at hmiss; exact absurd hmiss.symm.eq_nil (by simp)
    simp only [Palette.step, hc]
    have e := results_eq (seg := seg) (ws := ws) ({ p with channel := rest } : Palette) slow hs
    dsimp only at e
    rw [e]
    have rr := results_rest (seg := seg) ({ p with channel := rest } : Palette) slow hs
    dsimp only at rr
    have fin : (Palette.finished seg (if slow = true then (({ p with channel := rest } : Palette).answered hs).flush seg
        else ({ p with channel := rest } : Palette).answered hs)).loadingShown = false := by
      have off : ∀ q : Palette, q.showBusy = false → (q.refreshResults seg).loadingShown = false := by
        intro q hq
        obtain ⟨ev, busy, _, hbz, e⟩ := Palette.refreshResults_eq (seg := seg) q
        rw [e]
        show busy = false
        rw [hbz, hq]; rfl
      rcases hcase with ⟨rfl, hne⟩ | hnil
      · rw [if_neg (by decide)]
        have hp : (({ p with channel := rest } : Palette).answered hs).pending ≠ [] := by
          simp [Palette.answered, numberedFrom, hne]
        unfold Palette.finished
        rw [if_neg (fun h => hp h.2), flush_some _ (by exact hp)]
        exact off _ rfl
      · have hall : (R ++ p.missing.flatten).Perm (p.hits ws).flatten := by
          obtain ⟨A, hA, hall⟩ := hcnt.all
          have := hall.flatten
          rwa [List.flatten_append, ← hA] at this
        have hh : (p.hits ws).flatten = [] := by
          unfold Palette.hits
          rw [← hb.text, ← List.flatMap_def]; exact hnil
        rw [hh] at hall
        have h0 := List.append_eq_nil_iff.1 hall.eq_nil
        have hs0 : hs = [] := by
          have h2 := (hmiss.flatten).symm
          rw [h0.2] at h2
          simpa using h2.eq_nil
        have hph : p.clearCurrent = true ∧ p.pending = [] := by
          rcases hprog.phase with ⟨h1, h2⟩ | ⟨_, h1, h2, _⟩
          · rw [h0.1] at h2; exact ⟨h1, h2⟩
          · rw [h0.1] at h2
            exact absurd (List.append_eq_nil_iff.1 h2.eq_nil).1 h1
        subst hs0
        have hp : (({ p with channel := rest } : Palette).answered []).pending = [] := by
          simp [Palette.answered, numberedFrom, hph.2]
        have hflush : (if slow = true then (({ p with channel := rest } : Palette).answered []).flush seg
            else ({ p with channel := rest } : Palette).answered []) = ({ p with channel := rest } : Palette).answered [] := by
          cases slow
          · rfl
          · exact flush_none _ hp
        rw [hflush]
        unfold Palette.finished
        rw [if_pos ⟨hph.1, hp⟩]
        exact off _ rfl
    generalize (if slow = true then (({ p with channel := rest } : Palette).answered hs).flush seg
        else ({ p with channel := rest } : Palette).answered hs) = q at rr fin
    obtain ⟨rt, rc, rg, rq, rv, ra, rp, re, rco, rs, -⟩ := rr
    rw [if_pos (by rw [rco, re]; show p.completed + 1 ≥ p.expected; omega)]
    split
    · exact fin
    · exact fin

/-- A search in which the busy indicator has appeared and all answers but the last one have been received. -/
def demoBusy : Palette :=
  run chars blank (start true [demoProvider]) [.openPalette none, .finish 0, .receive false, .finish 0]

example : demoBusy.visible = true ∧ demoBusy.loadingShown = true ∧ demoBusy.selectedAction = none ∧
    demoBusy.channel = [.results demoBusy.generation [hit 0 "save", hit 0 "quit"]] ∧ demoBusy.tasks = [] ∧
    (demoBusy.step chars blank (.receive false)).loadingShown = false := by decide +kernel

/-- C85: if the last answer arrives more than 250 ms after the last update (as it does in every search that
takes so long that the indicator has appeared), its hits are shown with the indicator still on, and it stays on
although nothing is being searched. -/
theorem busy_late_counterexample :
    let p := demoBusy.step chars blank (.receive true)
    p.visible = true ∧ p.tasks = [] ∧ p.channel = [] ∧ p.loadingShown = true := by decide +kernel

/-- C85: the indicator also stays on if the last answer is empty and earlier hits have already been shown. -/
theorem busy_empty_counterexample :
    let p := run chars blank (start true [otherProvider, fun _ _ => []])
      [.openPalette none, .finish 1, .receive true, .finish 0, .receive false, .finish 0, .receive false]
    p.visible = true ∧ p.tasks = [] ∧ p.channel = [] ∧ p.loadingShown = true := by decide +kernel

/-! ### C86: confirmation -/

/-- A command has been chosen and nothing else can happen to it. -/
structure Chosen (p : Palette) (a : List Char) : Prop where
  visible : p.visible = true
  action : p.selectedAction = some a
  hidden : p.listVisible = false
  empty : p.entries = []
  quiet : ∀ u ∈ p.flight, u.gen = p.generation → u = .showBusy p.generation

/-- What does not edit the text. -/
def Op.keeps : Op → Prop
  | .up | .down | .openPalette _ | .clickRow _ | .takeAction | .takeEvents | .takeRestore | .setFocus _ | .finish _
  | .receive _ => True
  | .key k => k = .left ∨ k = .right ∨ k = .home ∨ k = .end ∨ k = .other
  | _ => False

theorem key_value (i : Input) (k : Textual.Input.Key) (h : k = .left ∨ k = .right ∨ k = .home ∨ k = .end ∨ k = .other) :
    (i.onKey seg k).value = i.value := by
  unfold Input.Input.onKey
  split
  · rfl
  · rcases h with rfl | rfl | rfl | rfl | rfl
    · dsimp only; split <;> rfl
    · dsimp only; split <;> rfl
    · rfl
    · rfl
    · rfl

theorem chosen_step {p : Palette} {a : List Char} (h : Chosen p a) (hb : Base p) (op : Op) (ho : Op.keeps op) :
    Chosen (p.step seg ws op) a := by
  have arrow : ∀ delta, p.arrow delta = p := by
    intro delta
    unfold Palette.arrow
    rw [if_neg (by simp [h.empty])]
    unfold Palette.moveSelection
    rw [if_pos (by simp [h.empty])]
  cases op with
  | openPalette focus =>
    simp only [Palette.step]
    rw [show p.openWith seg ws focus = p from if_pos h.visible]; exact h
  | close => exact ho.elim
  | setProviders ps => exact ho.elim
  | submit => exact ho.elim
  | esc => exact ho.elim
  | enter => exact ho.elim
  | clickOutside => exact ho.elim
  | up => simp only [Palette.step, arrow, ite_self]; exact h
  | down => simp only [Palette.step, arrow, ite_self]; exact h
  | key k =>
    simp only [Palette.step, h.visible, if_true]
    unfold Palette.typeKey
    dsimp only
    rw [if_neg (by rw [key_value _ _ ho]; simp)]
    exact ⟨h.visible, h.action, h.hidden, h.empty, h.quiet⟩
  | clickRow y =>
    simp only [Palette.step]
    rcases clickRow_cases (seg := seg) hb y with ⟨e, _⟩ | ⟨i, q, _, hi, _⟩
    · rw [e]; exact h
    · rw [h.empty] at hi; simp at hi
  | takeAction => exact ⟨h.visible, h.action, h.hidden, h.empty, h.quiet⟩
  | takeEvents => exact ⟨h.visible, h.action, h.hidden, h.empty, h.quiet⟩
  | takeRestore => simp only [Palette.step, h.visible, if_true]; exact h
  | setFocus on =>
    simp only [Palette.step]
    split
    · exact ⟨h.visible, h.action, h.hidden, h.empty, h.quiet⟩
    · exact h
  | finish n =>
    simp only [Palette.step]
    split
    · rename_i u hu
      refine ⟨h.visible, h.action, h.hidden, h.empty, ?_⟩
      intro v hv
      refine h.quiet v ?_
      unfold Palette.flight at hv ⊢
      simp only [List.mem_append, List.mem_singleton] at hv ⊢
      rcases hv with hm | hm | hm
      · exact Or.inl (List.mem_of_mem_eraseIdx hm)
      · exact Or.inr hm
      · rw [hm]; exact Or.inl (List.mem_of_getElem? hu)
    · exact h
  | receive slow =>
    simp only [Palette.step]
    split
    · rename_i u rest hc
      have h' : Chosen ({ p with channel := rest } : Palette) a := by
        refine ⟨h.visible, h.action, h.hidden, h.empty, fun v hv => h.quiet v ?_⟩
        unfold Palette.flight at hv ⊢
        rw [hc]
        simp only [List.mem_append, List.mem_cons] at hv ⊢
        exact hv.imp id Or.inr
      by_cases hg : u.gen = p.generation
      · have := h.quiet u (by unfold Palette.flight; rw [hc]; simp) hg
        rw [this]
        unfold Palette.applyUpdate
        dsimp only
        rw [if_neg (by simp), if_neg (by simp [h.hidden])]
        exact h'
      · rw [stale_update (p := ({ p with channel := rest } : Palette)) slow (by exact hg)]
        exact h'
    · exact h

theorem chosen_enter {p : Palette} {a : List Char} (h : Chosen p a) :
    (p.step seg ws .enter).pendingAction = some a ∧ (p.step seg ws .enter).visible = false := by
  have : p.step seg ws .enter =
      ({ p with pendingAction := some a, selectedAction := none } : Palette).closeWith seg true := by
    simp only [Palette.step, h.visible, if_true, Palette.submit, h.hidden, h.action, Bool.false_eq_true, if_false]
  rw [this]
  exact ⟨(close_fields ({ p with pendingAction := some a, selectedAction := none } : Palette) true h.visible).1, close_visible _ _⟩

/-- C86 (partial): without `run_on_select`, if a command is chosen with Enter once every answer to the query has
been received, then a second Enter runs it, also after moving the cursor and whatever the runtime does in
between.  Missing: choosing while a search is running, see `confirm_counterexample`. -/
theorem confirm_runs_partial (r : Bool) (ps : List Provider) (ops later : List Op) (row : OptionList.Row) (i : Nat)
    (hl : ∀ op ∈ later, Op.keeps op) :
    let p := run seg ws (start r ps) ops
    p.visible = true → p.selectedAction = none → p.runOnSelect = false →
    (∀ hs, .results p.generation hs ∉ p.tasks ++ p.channel) →
    p.list.rows[i]? = some row → row.highlighted = true →
    ∃ e ∈ p.entries, ∃ a, row.content = e.display ∧ e.action = some a ∧
      (run seg ws p (.enter :: later ++ [.enter])).pendingAction = some a ∧
      (run seg ws p (.enter :: later ++ [.enter])).visible = false := by
  intro p hv ha hr hno hrow hh
  obtain ⟨e, he, a, hei, h1, h2, _, h3⟩ := enter_runs_partial (seg := seg) (ws := ws) r ps ops hv ha hno i row hrow hh
  obtain ⟨c1, c2, _, c4, c5⟩ := h3 hr
  have hinv := inv_run (seg := seg) (ws := ws) (inv_closed (ws := ws) (p := start r ps) rfl) (base_start r ps) ops
  have hb : Base p := hinv.2
  have hi : Inv ws p := hinv.1
  have hb1 : Base (p.step seg ws .enter) := base_step hb .enter
  refine ⟨e, he, a, h1, h2, ?_⟩
  have hmiss : p.missing = [] := by
    unfold Palette.missing
    rw [List.filterMap_eq_nil_iff]
    intro u hu
    cases u with
    | results g hs =>
      simp only [Update.answer]
      split
      · rename_i hg; subst hg; exact absurd hu (hno hs)
      · rfl
    | showBusy g => rfl
    | showNoMatches g b => rfl
  obtain ⟨R, hcnt, hph⟩ := hi hv ha
  -- the highlighted row is enabled, so something has been found
  obtain ⟨hil, hsel, hrw⟩ := highlighted_row hb.current hrow hh
  have hd : e.disabled = false := by
    have : row.highlighted = true := hh
    rw [hrw] at this
    unfold OptionList.OptionList.row at this
    simp only [Bool.and_eq_true, Bool.not_eq_true'] at this
    have h2 := this.2
    unfold OptionList.OptionList.disabledAt at h2
    rw [hb.dis, List.getElem?_map, hei] at h2
    simpa using h2
  have hprog : Progress p R ∧ ¬ p.Asks ∧ (p.missing = [] → p.clearCurrent = false ∧ p.pending = []) := by
    rcases hph with h | ⟨_, _, h⟩
    · exact h
    · exfalso
      rcases h.shown with ⟨h4, _⟩ | ⟨h4, _⟩
      · rw [show Palette.entries _ = [] from h4] at he; simp at he
      · rw [show Palette.entries _ = [Entry.noMatches] from h4] at he
        rw [List.mem_singleton.1 he] at hd; cases hd
  have hsel' : p.list.selected = p.selected := by
    rcases hprog.1.phase with ⟨h4, _⟩ | ⟨_, _, _, _, h5⟩
    · exact absurd (h4.symm.trans (hprog.2.2 hmiss).1) (by decide)
    · exact h5
  have hsp : p.entries[p.selected]? = some e := by rw [← hsel', ← hsel]; exact hei
  have hent : p.step seg ws .enter = (p.choosing seg e).refreshResults seg := by
    have : p.step seg ws .enter = p.activate seg := by
      simp only [Palette.step, hv, if_true, Palette.submit, show p.listVisible = true from hprog.1.listed]
    rw [this, activate_choose hsp hd hr]
  have hfl : (p.step seg ws .enter).flight = p.flight ∧ (p.step seg ws .enter).generation = p.generation := by
    obtain ⟨ev, busy, _, _, er⟩ := Palette.refreshResults_eq (seg := seg) (p.choosing seg e)
    rw [hent, er]
    exact ⟨rfl, rfl⟩
  have hch : Chosen (p.step seg ws .enter) a := by
    refine ⟨c2, c1, ?_, c5, ?_⟩
    · have := hb1.shown
      rw [c4, c2, Bool.true_and] at this
      exact this.symm
    · rw [hfl.1, hfl.2]
      intro u hu hg
      cases u with
      | results g hs =>
        have hg : g = p.generation := hg
        subst hg
        exact absurd hu (hno hs)
      | showBusy g =>
        have hg : g = p.generation := hg
        rw [hg]
      | showNoMatches g b =>
        have hg : g = p.generation := hg
        subst hg
        exact absurd ⟨b, hu⟩ hprog.2.1
  have key : ∀ (later : List Op) (q : Palette), Chosen q a → Base q → (∀ op ∈ later, Op.keeps op) →
      Chosen (run seg ws q later) a := by
    intro later
    induction later with
    | nil => intro q h _ _; exact h
    | cons op later ih =>
      intro q h hb ho
      exact ih _ (chosen_step h hb op (ho op (by simp))) (base_step hb op) (fun o hm => ho o (by simp [hm]))
  have hfin := key later _ hch hb1 hl
  have hr : run seg ws p (.enter :: later ++ [.enter]) = (run seg ws (p.step seg ws .enter) later).step seg ws .enter := by
    unfold run
    rw [List.cons_append, List.foldl_cons, List.foldl_append]; rfl
  rw [hr]
  exact chosen_enter hfin

/-- The example without `run_on_select`. -/
def demoChoose : Palette :=
  run chars blank (start false [demoProvider, otherProvider])
    [.openPalette none, .finish 2, .finish 1, .receive false, .receive false, .down]

example : demoChoose.visible = true ∧ demoChoose.selectedAction = none ∧ demoChoose.runOnSelect = false ∧
    demoChoose.channel = [] ∧ demoChoose.tasks = [.showBusy demoChoose.generation] ∧
    demoChoose.list.rows[1]? = some ⟨"save".toList, false, true⟩ ∧
    (run chars blank demoChoose [.enter, .finish 0, .receive false, .key .home, .enter]).pendingAction = some "save".toList := by
  decide +kernel

/-- C86: if a provider is still searching when a command is chosen and then finds nothing, the list is opened
again to say that nothing matches (the text of the chosen command), and Enter does not run it. -/
theorem confirm_counterexample :
    let p := run chars blank (start false [demoProvider, fun _ _ => []])
      [.openPalette none, .finish 1, .receive true, .enter]
    let q := run chars blank p [.finish 1, .receive false, .finish 1, .receive false]
    p.selectedAction = some "save".toList ∧ p.listShown = false ∧
    (p.step chars blank .enter).pendingAction = some "save".toList ∧
    q.selectedAction = some "save".toList ∧ q.list.items = [Entry.noMatches.display] ∧ q.listShown = true ∧
    (q.step chars blank .enter).pendingAction = none ∧ (q.step chars blank .enter).visible = true := by
  decide +kernel

/-- C81: a click where nothing is shown can choose a command.  After a command was chosen the list is hidden; when
another provider answers then, its commands are put into the hidden list, which still gets the mouse: a click
below the input replaces the chosen command. -/
theorem hidden_click_counterexample :
    let p := run chars blank (start false [demoProvider, otherProvider])
      [.openPalette none, .finish 1, .receive true, .enter, .finish 1, .receive true]
    p.visible = true ∧ p.listShown = false ∧ p.selectedAction = some "save".toList ∧ p.input.value = "save".toList ∧
    (p.step chars blank (.clickRow 0)).selectedAction ≠ some "save".toList ∧
    (p.step chars blank (.clickRow 0)).selectedAction.isSome = true ∧
    (run chars blank p [.clickRow 0, .enter]).pendingAction ≠ some "save".toList := by
  decide +kernel

end Textual.Palette
