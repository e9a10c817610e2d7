import Verif.Lemmas.PaletteMain

/-! The command palette: C80 (search results), C81 (choosing), C82 (only offered commands), C83 (events),
C84 (focus), C85 (busy indicator), C86 (confirmation). -/

namespace Textual.Palette

open Textual.OptionList (OptionList)
open Textual.Input (Input)
open Palette (Op)

variable {seg : List Char → List (List Char)} {ws : Char → Bool}

/-! ### Example -/

/-- Every character is a grapheme. -/
def chars (s : List Char) : List (List Char) := s.map ([·])
/-- Blanks. -/
def blank (c : Char) : Bool := c == ' '

/-- A hit. -/
def hit (score : Rat) (name : String) : Hit := ⟨some score, name.toList, name.toList, name.toList, none⟩

/-- A provider with two commands; the first one is found by any query, the second one only by the empty one. -/
def demoProvider : Provider := fun _ q => if q = [] then [hit 0 "save", hit 0 "quit"] else [hit 1 "save"]
/-- Another provider. -/
def otherProvider : Provider := fun _ q => if q = ['x'] then [] else [hit 2 "open"]

/-- The palette is opened and both providers answer, the second one first. -/
def demo : Palette :=
  run chars blank (start true [demoProvider, otherProvider])
    [.openPalette none, .finish 2, .finish 1, .receive false, .receive false]

example : demo.entries.map (·.text) = ["open".toList, "save".toList, "quit".toList] := by decide +kernel

/-! ### C80: the results -/

/-- C80: in whatever order and at whatever time the providers of an open palette answer, once every answer to
the current query has been received the list shows exactly all the hits, best score first and then in order
of arrival; each provider's hits arrive together and in its order; if there are none the list is hidden, or says
so if something was typed. -/
theorem results_exact (r : Bool) (ps : List Provider) (ops : List Op) :
    let p := run seg ws (start r ps) ops
    let query := Palette.trim ws p.input.value
    p.visible = true → p.selectedAction = none →
    (∀ u ∈ p.tasks ++ p.channel, u.gen = p.generation → u = .showBusy p.generation) →
    ∃ (order : List (List Hit)) (arrived : List Hit),
      order.Perm (p.providers.map (fun provider => provider p.generation query)) ∧ arrived = order.flatten ∧
      (arrived ≠ [] → p.entries.Perm (arrived.mapIdx (fun i h => Entry.ofHit h (i + 1))) ∧ p.listShown = true) ∧
      (arrived = [] → query ≠ [] → p.entries = [Entry.noMatches] ∧ p.listShown = true) ∧
      (arrived = [] → query = [] → p.entries = [] ∧ p.listShown = false) ∧
      p.entries.Pairwise (fun a b => b.score < a.score ∨ a.score = b.score ∧ a.seq ≤ b.seq) ∧
      p.list.items = p.entries.map Entry.display ∧ p.list.disabled = p.entries.map Entry.disabled := by
  intro p query hv ha hno
  have hinv := inv_run (seg := seg) (ws := ws) (inv_closed (ws := ws) (p := start r ps) rfl) (base_start r ps) ops
  have hb : Base p := hinv.2
  have hmiss : p.missing = [] := by
    unfold Palette.missing
    rw [List.filterMap_eq_nil_iff]
    intro u hu
    cases u with
    | results g hs =>
      simp only [Update.answer]
      split
      · rename_i hg; cases hno _ hu hg
      · rfl
    | showBusy g => rfl
    | showNoMatches g b => rfl
  have hnoask : ¬ p.Asks := by
    rintro ⟨b, hb⟩
    cases hno _ hb rfl
  obtain ⟨R, hc, hp⟩ := hinv.1 hv ha
  have hq : Palette.trim ws p.query = query := by
    show Palette.trim ws p.query = Palette.trim ws p.input.value
    rw [hb.text]
  obtain ⟨A, hA, hperm⟩ : ∃ A : List (List Hit), R = A.flatten ∧
      A.Perm (p.providers.map (fun provider => provider p.generation query)) := by
    obtain ⟨A, hA, h1⟩ := hc.all
    rw [hmiss, List.append_nil] at h1
    unfold Palette.hits at h1
    rw [hq] at h1
    exact ⟨A, hA, h1⟩
  have hnum : numbered R = R.mapIdx (fun i h => Entry.ofHit h (i + 1)) := by
    unfold numbered numberedFrom
    simp only [Nat.zero_add]
  have hsh := hb.shown
  rw [hv, Bool.true_and] at hsh
  refine ⟨A, R, hperm, hA, ?_⟩
  rcases hp with ⟨h1, _, h3⟩ | ⟨h1, _, h3⟩
  · have h3 := h3 hmiss
    rcases h1.phase with ⟨h4, _⟩ | ⟨_, h5, h6, h7, _⟩
    · exact absurd (h4.symm.trans h3.1) (by decide)
    · have h3' : p.pending = [] := h3.2
      rw [show Palette.pending _ = [] from h3', List.append_nil] at h6
      have hR : R ≠ [] := by
        rintro rfl
        exact h5 h6.eq_nil
      exact ⟨fun _ => ⟨hnum ▸ h6, hsh.trans h1.listed⟩, fun e => absurd e hR, fun e => absurd e hR, h7, hb.items, hb.dis⟩
  · refine ⟨fun e => absurd h1 e, ?_, ?_, ?_, hb.items, hb.dis⟩
    · intro _ hne
      rcases h3.shown with ⟨h4, _⟩ | ⟨h4, h5, _⟩
      · exact absurd (h3.asked h4 (by rw [hq]; exact hne)) hnoask
      · exact ⟨h4, hsh.trans h5⟩
    · intro _ he
      rcases h3.shown with ⟨h4, h5⟩ | ⟨_, _, h5⟩
      · exact ⟨h4, hsh.trans h5⟩
      · rw [hq] at h5; exact absurd he h5
    · rcases h3.shown with ⟨h4, _⟩ | ⟨h4, _⟩
      · rw [show Palette.entries _ = [] from h4]; exact List.Pairwise.nil
      · rw [show Palette.entries _ = [Entry.noMatches] from h4]; exact List.pairwise_singleton _ _

example : demo.visible = true ∧ demo.selectedAction = none ∧
    (∀ u ∈ demo.tasks ++ demo.channel, u.gen = demo.generation → u = .showBusy demo.generation) ∧
    demo.list.items = ["open".toList, "save".toList, "quit".toList] := by decide +kernel

/-- A query without a match. -/
def demoNothing : Palette :=
  run chars blank (start true [otherProvider])
    [.openPalette none, .key (.char 'x'), .finish 3, .receive false, .finish 3, .receive true]

example : demoNothing.visible = true ∧ demoNothing.selectedAction = none ∧ demoNothing.entries = [Entry.noMatches] ∧
    (∀ u ∈ demoNothing.tasks ++ demoNothing.channel, u.gen = demoNothing.generation → u = .showBusy demoNothing.generation) := by
  decide +kernel

/-- C80: a key typed into an open palette edits the query as it edits any text input; if the text changes, every
provider is asked for the new text. -/
theorem typing_searches (p : Palette) (k : Textual.Input.Key) (hv : p.visible = true) :
    (p.step seg ws (.key k)).input = p.input.onKey seg k ∧
      ((p.input.onKey seg k).value ≠ p.input.value →
        (p.step seg ws (.key k)).generation = p.generation + 1 ∧ (p.step seg ws (.key k)).selected = 0 ∧
        ∀ r ∈ p.providers, .results (p.generation + 1) (r (p.generation + 1) (Palette.trim ws (p.input.onKey seg k).value)) ∈
          (p.step seg ws (.key k)).tasks) := by
  rw [Palette.step, if_pos hv, Palette.typeKey]
  by_cases hne : (p.input.onKey seg k).value ≠ p.input.value
  · rw [if_pos hne]
    by_cases hp : p.providers = []
    · rw [startSearch_none ({ p with input := p.input.onKey seg k, query := (p.input.onKey seg k).value, selected := 0, selectedAction := none } : Palette) _ _ hv hp]
      obtain ⟨ev, busy, _, _, e⟩ := Palette.refreshResults_eq (seg := seg)
        ({ ({ p with input := p.input.onKey seg k, query := (p.input.onKey seg k).value, selected := 0, selectedAction := none } : Palette).searching seg (p.input.onKey seg k).value none with entries := [], listVisible := false, listShown := false } : Palette)
      rw [e]
      refine ⟨?_, fun _ => ⟨rfl, rfl, ?_⟩⟩
      · simp [Palette.searching, Palette.setText]
      · rw [hp]; intro r hr; cases hr
    · rw [startSearch_some ({ p with input := p.input.onKey seg k, query := (p.input.onKey seg k).value, selected := 0, selectedAction := none } : Palette) _ _ hv hp]
      refine ⟨?_, fun _ => ⟨rfl, rfl, ?_⟩⟩
      · simp [Palette.searching, Palette.setText]
      · intro r hr
        exact List.mem_append_right _ (List.mem_cons_of_mem _ (List.mem_map_of_mem hr))
  · rw [if_neg hne]
    exact ⟨rfl, fun e => absurd e hne⟩

example : demo.visible = true ∧ (demo.input.onKey chars (.char 'z')).value ≠ demo.input.value ∧ demo.providers ≠ [] := by
  refine ⟨by decide +kernel, by decide +kernel, ?_⟩
  intro h
  have := congrArg List.length h
  revert this
  decide +kernel

/-- C80: an answer to an earlier query is dropped. -/
theorem stale_dropped (p : Palette) (u : Update) (rest : List Update) (slow : Bool) (hc : p.channel = u :: rest)
    (hu : u.gen ≠ p.generation) : p.step seg ws (.receive slow) = { p with channel := rest } := by
  simp only [Palette.step, hc]
  exact stale_update _ slow hu

example : ∃ u ∈ demoNothing.tasks, u.gen ≠ demoNothing.generation := by decide +kernel

/-- C80: a closed palette should have no results, but answers that were received by the channel before it was
closed fill the list, which shows them when the palette is opened again. -/
theorem closed_results_counterexample :
    let p := run chars blank (start true [demoProvider])
      [.openPalette none, .finish 1, .close, .receive false]
    p.visible = false ∧ p.entries ≠ [] ∧ (p.step chars blank (.openPalette none)).list.items = ["save".toList, "quit".toList] := by
  decide +kernel

/-! ### C81: choosing -/

theorem highlighted_row {l : OptionList} (h : l.Current) {i : Nat} {row : OptionList.Row} (hr : l.rows[i]? = some row)
    (hh : row.highlighted = true) : i < l.items.length ∧ i = l.selected ∧ row = l.row i (l.items[i]?.getD []) := by
  have e := h.1
  unfold OptionList.OptionList.refresh at e
  dsimp only at e
  by_cases hne : (l.items.mapIdx fun i item => l.row i item).isEmpty = true
  · rw [if_pos hne] at e
    rw [e] at hr
    cases i with
    | zero => simp at hr; rw [← hr] at hh; cases hh
    | succ i => simp at hr
  · rw [if_neg hne] at e
    rw [e, List.getElem?_mapIdx] at hr
    cases hi : l.items[i]? with
    | none => rw [hi] at hr; cases hr
    | some item =>
      rw [hi] at hr
      simp only [Option.map_some, Option.some.injEq] at hr
      subst hr
      unfold OptionList.OptionList.row at hh
      simp only [Bool.and_eq_true, beq_iff_eq] at hh
      exact ⟨(List.getElem?_eq_some_iff.1 hi).1, hh.1, rfl⟩

/-- C81 (partial): if every answer to the current query has been received, Enter runs the command of the
highlighted row and closes the palette; without `run_on_select` it fills in its text and closes the list.
Missing: while a search is running, see `highlight_counterexample`. -/
theorem enter_runs_partial (r : Bool) (ps : List Provider) (ops : List Op) :
    let p := run seg ws (start r ps) ops
    p.visible = true → p.selectedAction = none → (∀ hs, .results p.generation hs ∉ p.tasks ++ p.channel) →
    ∀ (i : Nat) (row : OptionList.Row), p.list.rows[i]? = some row → row.highlighted = true →
    ∃ e ∈ p.entries, ∃ a, p.entries[i]? = some e ∧ row.content = e.display ∧ e.action = some a ∧
      (p.runOnSelect = true → (p.step seg ws .enter).pendingAction = some a ∧ (p.step seg ws .enter).visible = false ∧
        (p.step seg ws .enter).events = p.events ++ [.closed true]) ∧
      (p.runOnSelect = false → (p.step seg ws .enter).selectedAction = some a ∧ (p.step seg ws .enter).visible = true ∧
        (p.step seg ws .enter).input.value = e.text ∧ (p.step seg ws .enter).listShown = false ∧
        (p.step seg ws .enter).entries = []) := by
  intro p hv ha hno i row hrow hh
  have hinv := inv_run (seg := seg) (ws := ws) (inv_closed (ws := ws) (p := start r ps) rfl) (base_start r ps) ops
  have hb : Base p := hinv.2
  have hmiss : p.missing = [] := by
    unfold Palette.missing
    rw [List.filterMap_eq_nil_iff]
    intro u hu
    cases u with
    | results g hs =>
      simp only [Update.answer]
      split
      · rename_i hg; subst hg; exact absurd hu (hno hs)
      · rfl
    | showBusy g => rfl
    | showNoMatches g b => rfl
  obtain ⟨R, hc, hp⟩ := hinv.1 hv ha
  obtain ⟨hi, hsel, hrw⟩ := highlighted_row hb.current hrow hh
  have hi' : i < p.entries.length := by rw [hb.items, List.length_map] at hi; exact hi
  have hlv : p.listVisible = true ∧ p.list.selected = p.selected := by
    rcases hp with ⟨h1, _, h3⟩ | ⟨h1, _, h3⟩
    · refine ⟨h1.listed, ?_⟩
      rcases h1.phase with ⟨h4, _⟩ | ⟨_, _, _, _, h5⟩
      · exact absurd (h4.symm.trans (h3 hmiss).1) (by decide)
      · exact h5
    · refine ⟨?_, h3.selected⟩
      rcases h3.shown with ⟨h4, _⟩ | ⟨_, h4, _⟩
      · rw [show p.entries = [] from h4] at hi'; simp at hi'
      · exact h4
  obtain ⟨e, he⟩ : ∃ e, p.entries[i]? = some e := ⟨_, List.getElem?_eq_getElem hi'⟩
  have hd : e.disabled = false := by
    have : row.highlighted = true := hh
    rw [hrw] at this
    unfold OptionList.OptionList.row at this
    simp only [Bool.and_eq_true, Bool.not_eq_true'] at this
    have h2 := this.2
    unfold OptionList.OptionList.disabledAt at h2
    rw [hb.dis, List.getElem?_map, he] at h2
    simpa using h2
  have hact := hb.acts e (List.mem_append_left _ (List.mem_of_getElem? he)) hd
  obtain ⟨a, hae⟩ := Option.isSome_iff_exists.1 hact
  have hcont : row.content = e.display := by
    rw [hrw]
    unfold OptionList.OptionList.row
    dsimp only
    rw [hb.markup, if_pos rfl, hb.items, List.getElem?_map, he]
    rfl
  have hent : p.step seg ws .enter = p.activate seg := by
    simp only [Palette.step, hv, if_true, Palette.submit, hlv.1]
  have hsp : p.entries[p.selected]? = some e := by rw [← hlv.2, ← hsel]; exact he
  refine ⟨e, List.mem_of_getElem? he, a, he, hcont, hae, ?_, ?_⟩
  · intro hr
    rw [hent, activate_run hsp hd hr hae]
    have := close_fields (seg := seg) ({ p with pendingAction := some a } : Palette) true hv
    exact ⟨this.1, close_visible _ _, this.2.1⟩
  · intro hr
    have h0 : (p.choosing seg e).sorted = [] := sorted_nil rfl
    have hl0 : (p.choosing seg e).lv = false := by unfold Palette.lv; rw [h0]; rfl
    obtain ⟨ev, busy, _, _, er⟩ := Palette.refreshResults_eq (seg := seg) (p.choosing seg e)
    rw [hent, activate_choose hsp hd hr, er]
    refine ⟨hae, hv, setText_value _ _, ?_, h0⟩
    dsimp only
    rw [hl0, Bool.and_false]

example : demo.list.rows[0]? = some ⟨"open".toList, false, true⟩ ∧
    (∀ u ∈ demo.tasks ++ demo.channel, u.gen = demo.generation → u = .showBusy demo.generation) ∧
    (demo.step chars blank .enter).pendingAction = some "open".toList := by
  decide +kernel

/-- C81: after typing, the list still shows the old entries and the old highlight until the first answer, but
Enter runs the first entry and not the highlighted one. -/
theorem highlight_counterexample :
    let p := run chars blank demo [.down, .key (.char 'a')]
    p.list.rows[1]? = some ⟨"save".toList, false, true⟩ ∧ p.listShown = true ∧
    (p.step chars blank .enter).pendingAction = some "open".toList := by
  decide +kernel

/-- C81: Down highlights the next row and Up the one before, as long as there is one. -/
theorem arrows_move (r : Bool) (ps : List Provider) (ops : List Op) :
    let p := run seg ws (start r ps) ops
    p.visible = true → p.selectedAction = none → (∀ hs, .results p.generation hs ∉ p.tasks ++ p.channel) →
    p.entries ≠ [Entry.noMatches] →
    (p.selected + 1 < p.entries.length → (p.step seg ws .down).selected = p.selected + 1 ∧
      (p.step seg ws .down).list.selected = p.selected + 1) ∧
    (p.entries.length ≤ p.selected + 1 → p.step seg ws .down = p) ∧
    (0 < p.selected → (p.step seg ws .up).selected = p.selected - 1 ∧
      (p.step seg ws .up).list.selected = p.selected - 1) ∧
    (p.selected = 0 → p.step seg ws .up = p) := by
  intro p hv ha hno hnm
  have hinv := inv_run (seg := seg) (ws := ws) (inv_closed (ws := ws) (p := start r ps) rfl) (base_start r ps) ops
  have hb : Base p := hinv.2
  have hmiss : p.missing = [] := by
    unfold Palette.missing
    rw [List.filterMap_eq_nil_iff]
    intro u hu
    cases u with
    | results g hs =>
      simp only [Update.answer]
      split
      · rename_i hg; subst hg; exact absurd hu (hno hs)
      · rfl
    | showBusy g => rfl
    | showNoMatches g b => rfl
  obtain ⟨R, hc, hp⟩ := hinv.1 hv ha
  have hcases : p.entries = [] ∨ (p.listVisible = true ∧ ∀ e ∈ p.entries, e.disabled = false) := by
    rcases hp with ⟨h1, _, h3⟩ | ⟨h1, _, h3⟩
    · right
      rcases h1.phase with ⟨h4, _⟩ | ⟨_, _, h5, _⟩
      · exact absurd (h4.symm.trans (h3 hmiss).1) (by decide)
      · exact ⟨h1.listed, fun e he => (numbered_enabled (h5.mem_iff.1 (List.mem_append_left _ he))).1⟩
    · rcases h3.shown with ⟨h4, _⟩ | ⟨h4, _⟩
      · left; exact h4
      · exact absurd h4 hnm
  have step : ∀ delta : Int, p.arrow delta = p.moveSelection delta := by
    intro delta
    unfold Palette.arrow
    rw [if_neg]
    rcases hcases with h | h
    · simp [h]
    · simp [h.1]
  have hdn : p.step seg ws .down = p.moveSelection 1 := by simp only [Palette.step, hv, if_true]; exact step 1
  have hup : p.step seg ws .up = p.moveSelection (-1) := by simp only [Palette.step, hv, if_true]; exact step (-1)
  rw [hdn, hup]
  rcases hcases with h | ⟨_, hen⟩
  · have hz := hb.zero h
    have hm : ∀ delta, p.moveSelection delta = p := by
      intro delta; unfold Palette.moveSelection; rw [if_pos (by simp [h])]
    rw [hm, hm, h, hz]
    simp
  · by_cases h : p.entries = []
    · have hz := hb.zero h
      have hm : ∀ delta, p.moveSelection delta = p := by
        intro delta; unfold Palette.moveSelection; rw [if_pos (by simp [h])]
      rw [hm, hm, h, hz]
      simp
    · have hr := hb.range h
      have dis : ∀ k, k < p.entries.length → ((p.entries[k]?).map (·.disabled)).getD true = false := by
        intro k hk
        rw [List.getElem?_eq_getElem hk]
        exact hen _ (List.getElem_mem hk)
      have mv : ∀ (delta : Int) (j : Nat), p.nextEnabled p.selected delta = some j → j < p.entries.length →
          (p.moveSelection delta).selected = j ∧ (p.moveSelection delta).list.selected = j := by
        intro delta j hj hjl
        unfold Palette.moveSelection
        rw [if_neg (by simpa using h), hj]
        dsimp only
        rw [Palette.updateList_eq, Palette.emitHighlight_eq]
        refine ⟨rfl, mirror_selected _ _ _ hjl (Or.inl ?_)⟩
        rw [List.getElem?_eq_getElem hjl]
        simp [hen _ (List.getElem_mem hjl)]
      have stay : ∀ (delta : Int), p.nextEnabled p.selected delta = none → p.moveSelection delta = p := by
        intro delta hj
        unfold Palette.moveSelection
        rw [if_neg (by simpa using h), hj]
      refine ⟨?_, ?_, ?_, ?_⟩
      · intro hlt
        refine mv 1 _ ?_ hlt
        exact (OptionList.loop_up _ _ _ _ (by omega) _).2 ⟨by omega, hlt, dis _ hlt, fun k h1 h2 => by omega⟩
      · intro hge
        apply stay
        cases hj : p.nextEnabled p.selected 1 with
        | none => rfl
        | some j =>
          have := (OptionList.loop_up _ _ _ _ (by omega) _).1 hj
          omega
      · intro hpos
        refine mv (-1) _ ?_ (by omega)
        exact (OptionList.loop_down _ _ _ _ (by omega) (by omega) _).2 ⟨by omega, dis _ (by omega), fun k h1 h2 => by omega⟩
      · intro hz
        apply stay
        cases hj : p.nextEnabled p.selected (-1) with
        | none => rfl
        | some j =>
          have := (OptionList.loop_down _ _ _ _ (by omega) (by omega) _).1 hj
          omega

example : (demo.step chars blank .down).selected = 1 ∧ demo.selected + 1 < demo.entries.length ∧
    demo.entries ≠ [Entry.noMatches] := by decide +kernel

end Textual.Palette
