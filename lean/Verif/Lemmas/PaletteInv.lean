import Verif.Lemmas.Palette

/-! Invariants of the palette that hold in every state. -/

namespace Textual.Palette

open Textual.OptionList (OptionList)
open Textual.Input (Input)

variable {seg : List Char → List (List Char)} {ws : Char → Bool}

/-- The search a message belongs to. -/
def Update.gen : Update → Nat
  | .results g _ => g
  | .showBusy g => g
  | .showNoMatches g _ => g

/-- Messages that have not been received. -/
def Palette.flight (p : Palette) : List Update := p.tasks ++ p.channel

/-- The part of the invariant that `refresh_results` does not establish by itself. -/
structure Pre (p : Palette) : Prop where
  gens : ∀ u ∈ p.flight, u.gen ≤ p.generation
  flags : ∀ g b, .showNoMatches g b ∈ p.flight → b = true
  acts : ∀ e ∈ p.entries ++ p.pending, e.disabled = false → e.action.isSome = true
  off : p.list.off = false
  vis : p.list.visible = true
  markup : p.list.allowMarkup = true
  taken : p.list.pendingSelection = none

/-- What holds of a palette at any time. -/
structure Base (p : Palette) : Prop extends Pre p where
  items : p.list.items = p.entries.map Entry.display
  dis : p.list.disabled = p.entries.map Entry.disabled
  ok : p.list.Ok
  current : p.list.Current
  shown : p.listShown = (p.visible && p.listVisible)
  text : p.input.value = p.query
  range : p.entries ≠ [] → p.selected < p.entries.length
  zero : p.entries = [] → p.selected = 0
  busy : p.visible = true → p.loadingShown = true → p.listVisible = true

theorem normalize_range (p : Palette) (h : p.entries ≠ []) : p.normalize.selected < p.entries.length := by
  have hl : 0 < p.entries.length := List.length_pos_iff.2 h
  have up : ∀ (dis : Nat → Bool) (len : Nat) (i j : Nat), OptionList.OptionList.nextEnabledLoop dis len 1 (len + 1) i = some j → j < len := by
    intro dis len i j hj
    exact ((OptionList.loop_up dis len (len + 1) i (by omega) j).1 hj).2.1
  have down : ∀ (dis : Nat → Bool) (len : Nat) (i j : Nat), i < len → OptionList.OptionList.nextEnabledLoop dis len (-1) (len + 1) i = some j → j < len := by
    intro dis len i j hi hj
    have := ((OptionList.loop_down dis len (len + 1) i (by omega) (by omega) j).1 hj).1
    omega
  have key : ∀ q : Palette, q.entries = p.entries → q.selected < p.entries.length →
      (if ((q.entries[q.selected]?).map (·.disabled)).getD false then
        match q.nextEnabled q.selected 1 with
        | some i => { q with selected := i }
        | none => match q.nextEnabled q.selected (-1) with
          | some i => { q with selected := i }
          | none => q
      else q : Palette).selected < p.entries.length := by
    intro q e hq
    split
    · split
      · rename_i i hi
        have := up _ _ _ _ hi
        rw [e] at this; exact this
      · split
        · rename_i i hi
          have := down _ _ _ _ (by rw [e]; exact hq) hi
          rw [e] at this; exact this
        · exact hq
    · exact hq
  unfold Palette.normalize
  rw [if_neg (by simpa using h)]
  dsimp only
  by_cases hge : p.selected ≥ p.entries.length
  · rw [if_pos hge]; exact key { p with selected := p.entries.length - 1 } rfl (by dsimp only; omega)
  · rw [if_neg hge]; exact key p rfl (by omega)

theorem normalize_enabled (p : Palette) (hs : p.selected < p.entries.length)
    (he : ((p.entries[p.selected]?).map Entry.disabled) = some false) : p.normalize.selected = p.selected := by
  unfold Palette.normalize
  rw [if_neg (by intro hn; rw [List.isEmpty_iff.1 hn] at hs; simp at hs)]
  dsimp only
  rw [if_neg (show ¬ p.selected ≥ p.entries.length by omega), if_neg (by rw [he]; simp)]

theorem sel_range (p : Palette) : (p.sorted ≠ [] → p.sel < p.sorted.length) ∧ (p.sorted = [] → p.sel = 0) := by
  constructor
  · intro h
    unfold Palette.sel
    rw [if_neg (by simpa using h)]
    exact normalize_range { p with entries := p.sorted, selected := min p.selected (p.sorted.length - 1) } h
  · intro h
    unfold Palette.sel
    rw [if_pos (by simp [h])]

theorem sel_enabled (p : Palette) (h : ∀ e ∈ p.sorted, e.disabled = false) (hne : p.sorted ≠ []) :
    p.sel = min p.selected (p.sorted.length - 1) ∧ p.sorted[p.sel]?.map Entry.disabled = some false := by
  have hl : 0 < p.sorted.length := List.length_pos_iff.2 hne
  have e : p.sel = min p.selected (p.sorted.length - 1) := by
    unfold Palette.sel
    rw [if_neg (by simpa using hne)]
    rw [normalize_enabled]
    · dsimp only; omega
    · dsimp only
      rw [List.getElem?_eq_getElem (by omega)]
      simp [h]
  refine ⟨e, ?_⟩
  rw [List.getElem?_eq_getElem (by omega)]
  simp [h]

theorem base_refresh {p : Palette} (h : Pre p) : Base (p.refreshResults seg) := by
  obtain ⟨ev, busy, _, hb, e⟩ := Palette.refreshResults_eq (seg := seg) p
  rw [e]
  have m := mirror_items p.list p.sorted p.sel
  have mo := mirror_ok p.list p.sorted p.sel
  refine { gens := h.gens, flags := h.flags, acts := ?_, off := ?_, vis := ?_, markup := ?_, taken := ?_, items := m.1
           dis := m.2.1, ok := mo.1, current := mo.2, shown := rfl, text := setText_value _ _
           range := (sel_range p).1, zero := (sel_range p).2, busy := ?_ }
  · intro x hx
    refine h.acts x ?_
    rw [List.mem_append] at hx ⊢
    exact hx.imp (sorted_perm p).mem_iff.1 id
  · exact m.2.2.1.trans h.off
  · exact m.2.2.2.1.trans h.vis
  · exact m.2.2.2.2.1.trans h.markup
  · exact m.2.2.2.2.2.trans h.taken
  · intro _ hl
    dsimp only at hl ⊢
    subst hb
    simp at hl
    exact hl.2.2

theorem pre_new : Base ({} : Palette) := by
  have hi : ((OptionList.OptionList.new []).setMarkup true).Ok ∧ ((OptionList.OptionList.new []).setMarkup true).Current :=
    OptionList.ok_step (OptionList.ok_new []).1 (OptionList.ok_new []).2 (.setMarkup true)
  refine { gens := ?_, flags := ?_, acts := ?_, off := ?_, vis := ?_, markup := ?_, taken := ?_, items := ?_
           dis := ?_, ok := hi.1, current := hi.2, shown := rfl, text := rfl, range := ?_, zero := ?_, busy := ?_ }
  all_goals first | decide | (simp [Palette.flight])

/-- The fields that do not matter to the invariant. -/
theorem Base.same {p : Palette} (h : Base p) (pa sa : Option (List Char)) (ev lg : List Event) (rf : Option Nat)
    (f : Bool) : Base { p with
      pendingAction := pa, selectedAction := sa, events := ev, log := lg, restoreFocus := rf, focused := f } :=
  { gens := h.gens, flags := h.flags, acts := h.acts, off := h.off, vis := h.vis, markup := h.markup, taken := h.taken
    items := h.items, dis := h.dis, ok := h.ok, current := h.current, shown := h.shown, text := h.text
    range := h.range, zero := h.zero, busy := h.busy }

theorem pre_close {p : Palette} (h : Pre p) :
    Pre { p with
      visible := false, showBusy := false, loadingShown := false, expected := 0, completed := 0
      query := [], selected := 0, selectedAction := none, entries := [], pending := [], listVisible := false } :=
  { gens := h.gens, flags := h.flags, acts := by simp, off := h.off, vis := h.vis, markup := h.markup, taken := h.taken }

/-- The state in which `close_with_selected` calls `refresh_results`. -/
def Palette.closing (p : Palette) : Palette := { p with
  visible := false, expected := 0, completed := 0, query := [], selected := 0, selectedAction := none, entries := []
  pending := [], listVisible := false, showBusy := false, loadingShown := false, listShown := false }

theorem closeWith_eq (p : Palette) (b : Bool) (hv : p.visible = true) :
    p.closeWith seg b = (p.closing.refreshResults seg).enqueue (.closed b) := by
  unfold Palette.closeWith
  rw [if_pos hv]
  dsimp only [Palette.cancelSearch]
  rw [Palette.sync_eq]
  rfl

theorem closeWith_closed (p : Palette) (b : Bool) (hv : p.visible = false) : p.closeWith seg b = p := by
  unfold Palette.closeWith; rw [if_neg (by simp [hv])]

theorem base_close {p : Palette} (h : Base p) (b : Bool) : Base (p.closeWith seg b) := by
  by_cases hv : p.visible = true
  · rw [closeWith_eq p b hv]
    have hp : Pre p.closing :=
      { gens := h.gens, flags := h.flags, acts := by simp [Palette.closing], off := h.off, vis := h.vis, markup := h.markup
        taken := h.taken }
    exact (base_refresh (seg := seg) hp).same _ _ _ _ _ _
  · rw [closeWith_closed p b (by simpa using hv)]; exact h

theorem close_visible (p : Palette) (b : Bool) : (p.closeWith seg b).visible = false := by
  by_cases hv : p.visible = true
  · rw [closeWith_eq p b hv]
    obtain ⟨ev, busy, _, _, e⟩ := Palette.refreshResults_eq (seg := seg) p.closing
    rw [e]; rfl
  · rw [closeWith_closed p b (by simpa using hv)]; simpa using hv

/-- The state after `start_search` before the tasks are spawned. -/
def Palette.searching (seg : List Char → List (List Char)) (p : Palette) (q : List Char) (cursor : Option Nat) : Palette :=
  { p with
    visible := true, query := q, selected := 0, selectedAction := none, pending := [], seq := 0, completed := 0
    expected := p.providers.length, clearCurrent := true, generation := p.generation + 1, listVisible := true
    input := match cursor with
      | some n => (Palette.setText seg p.input q).step seg (.setCursor n)
      | none => Palette.setText seg p.input q
    listShown := true, showBusy := false, loadingShown := false }

theorem startSearch_some (p : Palette) (q : List Char) (cursor : Option Nat) (hv : p.visible = true) (hp : p.providers ≠ []) :
    p.startSearch seg ws q cursor = { p.searching seg q cursor with
      tasks := p.tasks ++ .showBusy (p.generation + 1) ::
        p.providers.map (fun r => .results (p.generation + 1) (r (p.generation + 1) (Palette.trim ws q))) } := by
  unfold Palette.startSearch
  dsimp only [Palette.cancelSearch]
  have hn : ¬ p.providers.length = 0 := by simpa using hp
  cases cursor with
  | none =>
    simp only [hv, Option.isNone_none, Bool.and_self, if_true, Palette.updateInput_none, Palette.sync_eq, if_neg hn]
    rfl
  | some n =>
    simp only [hv, Option.isNone_none, Bool.and_self, if_true, Palette.updateInput_some, Palette.sync_eq, if_neg hn]
    rfl

theorem startSearch_none (p : Palette) (q : List Char) (cursor : Option Nat) (hv : p.visible = true) (hp : p.providers = []) :
    let r := ({ p.searching seg q cursor with entries := [], listVisible := false, listShown := false } : Palette).refreshResults seg
    p.startSearch seg ws q cursor = { r with
      tasks := p.tasks ++ if (Palette.trim ws q).isEmpty then [] else [.showNoMatches (p.generation + 1) true] } := by
  intro r
  have hr : r.tasks = p.tasks ∧ r.generation = p.generation + 1 := by
    obtain ⟨ev, busy, _, _, e⟩ := Palette.refreshResults_eq (seg := seg)
      ({ p.searching seg q cursor with entries := [], listVisible := false, listShown := false } : Palette)
    show ((Palette.refreshResults seg _ : Palette)).tasks = _ ∧ ((Palette.refreshResults seg _ : Palette)).generation = _
    rw [e]; exact ⟨rfl, rfl⟩
  have key : p.startSearch seg ws q cursor =
      if (Palette.trim ws q).isEmpty then r else { r with tasks := r.tasks ++ [.showNoMatches r.generation true] } := by
    unfold Palette.startSearch
    dsimp only [Palette.cancelSearch]
    have hn : p.providers.length = 0 := by simp [hp]
    cases cursor with
    | none =>
      simp only [hv, Option.isNone_none, Bool.and_self, if_true, Palette.updateInput_none, Palette.sync_eq, if_pos hn,
        Bool.and_false]
      rfl
    | some n =>
      simp only [hv, Option.isNone_none, Bool.and_self, if_true, Palette.updateInput_some, Palette.sync_eq, if_pos hn,
        Bool.and_false]
      rfl
  rw [key]
  by_cases ht : (Palette.trim ws q).isEmpty = true
  · rw [if_pos ht, if_pos ht, List.append_nil, ← hr.1]
  · rw [if_neg ht, if_neg ht, hr.1, hr.2]

theorem searching_text (p : Palette) (q : List Char) (cursor : Option Nat) : (p.searching seg q cursor).input.value = q := by
  unfold Palette.searching
  cases cursor with
  | none => exact setText_value _ _
  | some n => exact (setCursor_value _ _).trans (setText_value _ _)

theorem Base.flight {p : Palette} (h : Base p) (ts ch : List Update)
    (hg : ∀ u ∈ ts ++ ch, u.gen ≤ p.generation) (hf : ∀ g b, .showNoMatches g b ∈ ts ++ ch → b = true) :
    Base { p with tasks := ts, channel := ch } :=
  { gens := hg, flags := hf, acts := h.acts, off := h.off, vis := h.vis, markup := h.markup, taken := h.taken
    items := h.items, dis := h.dis, ok := h.ok, current := h.current, shown := h.shown, text := h.text
    range := h.range, zero := h.zero, busy := h.busy }

theorem base_search {p : Palette} (h : Pre p) (hi : p.list.items = p.entries.map Entry.display)
    (hd : p.list.disabled = p.entries.map Entry.disabled) (ho : p.list.Ok) (hc : p.list.Current) (hv : p.visible = true)
    (q : List Char) (cursor : Option Nat) : Base (p.startSearch seg ws q cursor) := by
  by_cases hp : p.providers = []
  · have e := startSearch_none (seg := seg) (ws := ws) p q cursor hv hp
    dsimp only at e
    rw [e]
    have hpre : Pre ({ p.searching seg q cursor with entries := [], listVisible := false, listShown := false } : Palette) :=
      { gens := fun u hu => Nat.le_succ_of_le (h.gens u hu), flags := h.flags, acts := by simp [Palette.searching]
        off := h.off, vis := h.vis, markup := h.markup, taken := h.taken }
    have hb := base_refresh (seg := seg) hpre
    obtain ⟨ev, busy, _, _, e'⟩ := Palette.refreshResults_eq (seg := seg)
      ({ p.searching seg q cursor with entries := [], listVisible := false, listShown := false } : Palette)
    have hch : (({ p.searching seg q cursor with entries := [], listVisible := false, listShown := false } : Palette).refreshResults seg).channel = p.channel := by
      rw [e']; rfl
    have hge : (({ p.searching seg q cursor with entries := [], listVisible := false, listShown := false } : Palette).refreshResults seg).generation = p.generation + 1 := by
      rw [e']; rfl
    generalize ({ p.searching seg q cursor with entries := [], listVisible := false, listShown := false } : Palette).refreshResults seg = r at hb hch hge
    refine hb.flight _ r.channel ?_ ?_
    · rw [hch, hge]
      intro u hu
      simp only [List.mem_append] at hu
      rcases hu with (hu | hu) | hu
      · exact Nat.le_succ_of_le (h.gens u (List.mem_append_left _ hu))
      · split at hu
        · simp at hu
        · rw [List.mem_singleton.1 hu]; exact Nat.le_refl _
      · exact Nat.le_succ_of_le (h.gens u (List.mem_append_right _ hu))
    · rw [hch]
      intro g b hu
      simp only [List.mem_append] at hu
      rcases hu with (hu | hu) | hu
      · exact h.flags g b (List.mem_append_left _ hu)
      · split at hu
        · simp at hu
        · have := List.mem_singleton.1 hu; injection this
      · exact h.flags g b (List.mem_append_right _ hu)
  · rw [startSearch_some p q cursor hv hp]
    refine { gens := ?_, flags := ?_, acts := ?_, off := h.off, vis := h.vis, markup := h.markup, taken := h.taken
             items := hi, dis := hd, ok := ho, current := hc, shown := ?_, text := searching_text p q cursor
             range := fun hne => List.length_pos_iff.2 hne, zero := fun _ => rfl, busy := fun _ _ => rfl }
    · intro u hu
      simp only [Palette.flight, Palette.searching, List.mem_append, List.mem_cons, List.mem_map] at hu ⊢
      rcases hu with (hu | rfl | ⟨r, _, rfl⟩) | hu
      · exact Nat.le_succ_of_le (h.gens u (List.mem_append_left _ hu))
      · exact Nat.le_refl _
      · exact Nat.le_refl _
      · exact Nat.le_succ_of_le (h.gens u (List.mem_append_right _ hu))
    · intro g b hu
      simp only [Palette.flight, Palette.searching, List.mem_append, List.mem_cons, List.mem_map] at hu
      rcases hu with (hu | hu | ⟨r, _, hu⟩) | hu
      · exact h.flags g b (List.mem_append_left _ hu)
      · cases hu
      · cases hu
      · exact h.flags g b (List.mem_append_right _ hu)
    · intro e he
      refine h.acts e ?_
      simp only [Palette.searching, List.append_nil] at he
      exact List.mem_append_left _ he
    · rfl

theorem base_flush {p : Palette} (h : Base p) : Base (p.flush seg) := by
  unfold Palette.flush
  split
  · exact h
  · dsimp only
    split
    · refine base_refresh { h.toPre with acts := ?_ }
      intro e he
      refine h.acts e ?_
      simp only [List.nil_append, List.append_nil] at he
      exact List.mem_append_right _ he
    · refine base_refresh { h.toPre with acts := ?_ }
      intro e he
      refine h.acts e ?_
      simpa using he

/-- The state in which `flush_pending_entries` calls `refresh_results`. -/
def Palette.flushing (p : Palette) : Palette := { p with
  entries := (if p.clearCurrent then [] else p.entries) ++ p.pending, clearCurrent := false, pending := [] }

theorem flush_some (p : Palette) (h : p.pending ≠ []) : p.flush seg = p.flushing.refreshResults seg := by
  unfold Palette.flush Palette.flushing
  rw [if_neg (by simpa using h)]
  dsimp only
  by_cases hc : p.clearCurrent = true
  · rw [if_pos hc, if_pos hc]
  · have : p.clearCurrent = false := by simpa using hc
    rw [if_neg hc, if_neg hc, ← this]

theorem flush_none (p : Palette) (h : p.pending = []) : p.flush seg = p := by
  unfold Palette.flush; rw [if_pos (by simp [h])]

/-- The hits of an answer numbered from `n`. -/
def numberedFrom (n : Nat) (hs : List Hit) : List Entry := hs.mapIdx (fun i h => Entry.ofHit h (n + i + 1))

/-- The state after the hits of an answer have been added. -/
def Palette.answered (p : Palette) (hs : List Hit) : Palette := { p with
  completed := p.completed + 1, seq := p.seq + hs.length, pending := p.pending ++ numberedFrom p.seq hs }

/-- The end of a search with at least one hit not yet shown, or with hits already shown. -/
def Palette.finished (seg : List Char → List (List Char)) (p : Palette) : Palette :=
  if p.clearCurrent = true ∧ p.pending = [] then
    ({ p with showBusy := false, entries := [], clearCurrent := false } : Palette).refreshResults seg
  else ({ p with showBusy := false } : Palette).flush seg

/-- An answer to the current search. -/
theorem results_eq (p : Palette) (slow : Bool) (hs : List Hit) :
    let r := if slow then (p.answered hs).flush seg else p.answered hs
    p.applyUpdate seg ws slow (.results p.generation hs) =
      if r.completed ≥ r.expected then
        let s := r.finished seg
        if s.entries.isEmpty && !(Palette.trim ws s.query).isEmpty then
          { s with tasks := s.tasks ++ [.showNoMatches p.generation true] }
        else s
      else r := by
  have ha : Palette.addHits { p with completed := p.completed + 1 } hs = p.answered hs := Palette.addHits_eq _ _
  unfold Palette.applyUpdate
  dsimp only
  rw [if_neg (show ¬ p.generation ≠ p.generation by simp), ha]
  generalize (if slow = true then (p.answered hs).flush seg else p.answered hs) = r
  by_cases hc : r.completed ≥ r.expected
  · rw [if_pos hc, if_pos hc]
    unfold Palette.finished
    by_cases h : r.clearCurrent = true ∧ r.pending = []
    · have hb : (r.clearCurrent && r.pending.isEmpty) = true := by simp [h.1, h.2]
      rw [if_pos h, hb]
      simp only [if_true]
      have hfl := flush_none (seg := seg) ({ r with showBusy := false, entries := [], clearCurrent := false } : Palette) h.2
      rw [hfl]
    · have hb : (r.clearCurrent && r.pending.isEmpty) = false := by
        cases h1 : r.clearCurrent
        · rfl
        · have : r.pending ≠ [] := fun e => h ⟨h1, e⟩
          simp [this]
      rw [if_neg h, hb]
      simp only [Bool.false_eq_true, if_false]
  · rw [if_neg hc, if_neg hc]

theorem Base.counts {p : Palette} (h : Base p) (c s : Nat) (b : Bool) :
    Base { p with completed := c, seq := s, showBusy := b } :=
  { gens := h.gens, flags := h.flags, acts := h.acts, off := h.off, vis := h.vis, markup := h.markup, taken := h.taken
    items := h.items, dis := h.dis, ok := h.ok, current := h.current, shown := h.shown, text := h.text
    range := h.range, zero := h.zero, busy := h.busy }

theorem base_answered {p : Palette} (h : Base p) (hs : List Hit) : Base (p.answered hs) :=
  { gens := h.gens, flags := h.flags, off := h.off, vis := h.vis, markup := h.markup, taken := h.taken
    items := h.items, dis := h.dis, ok := h.ok, current := h.current, shown := h.shown, text := h.text
    range := h.range, zero := h.zero, busy := h.busy
    acts := by
      intro e he hd
      simp only [Palette.answered, numberedFrom, List.mem_append, List.mem_mapIdx] at he
      rcases he with he | he | ⟨i, hi, rfl⟩
      · exact h.acts e (List.mem_append_left _ he) hd
      · exact h.acts e (List.mem_append_right _ he) hd
      · rfl }

theorem base_finished {p : Palette} (h : Base p) : Base (p.finished seg) := by
  unfold Palette.finished
  split
  · rename_i hc
    refine base_refresh { h.toPre with acts := ?_ }
    intro e he
    rw [List.nil_append] at he
    exact h.acts e (List.mem_append_right _ he)
  · exact base_flush (h.counts _ _ _)

/-- The channel and the search of a state after a refresh. -/
theorem refresh_rest (p : Palette) : (p.refreshResults seg).tasks = p.tasks ∧ (p.refreshResults seg).channel = p.channel ∧
    (p.refreshResults seg).generation = p.generation ∧ (p.refreshResults seg).query = p.query ∧
    (p.refreshResults seg).visible = p.visible ∧ (p.refreshResults seg).selectedAction = p.selectedAction ∧
    (p.refreshResults seg).providers = p.providers ∧ (p.refreshResults seg).expected = p.expected ∧
    (p.refreshResults seg).completed = p.completed ∧ (p.refreshResults seg).seq = p.seq ∧
    (p.refreshResults seg).pending = p.pending ∧ (p.refreshResults seg).clearCurrent = p.clearCurrent ∧
    (p.refreshResults seg).runOnSelect = p.runOnSelect ∧ (p.refreshResults seg).pendingAction = p.pendingAction ∧
    (p.refreshResults seg).restoreFocus = p.restoreFocus ∧ (p.refreshResults seg).log = p.log := by
  obtain ⟨ev, busy, _, _, e⟩ := Palette.refreshResults_eq (seg := seg) p
  rw [e]
  exact ⟨rfl, rfl, rfl, rfl, rfl, rfl, rfl, rfl, rfl, rfl, rfl, rfl, rfl, rfl, rfl, rfl⟩

theorem refresh_shown (p : Palette) : (p.refreshResults seg).entries = p.sorted ∧ (p.refreshResults seg).selected = p.sel ∧
    (p.refreshResults seg).listVisible = p.lv ∧ (p.refreshResults seg).list = Palette.mirror p.list p.sorted p.sel := by
  obtain ⟨ev, busy, _, _, e⟩ := Palette.refreshResults_eq (seg := seg) p
  rw [e]
  exact ⟨rfl, rfl, rfl, rfl⟩

theorem flush_rest (p : Palette) : (p.flush seg).tasks = p.tasks ∧ (p.flush seg).channel = p.channel ∧
    (p.flush seg).generation = p.generation ∧ (p.flush seg).query = p.query ∧
    (p.flush seg).visible = p.visible ∧ (p.flush seg).selectedAction = p.selectedAction ∧
    (p.flush seg).providers = p.providers ∧ (p.flush seg).expected = p.expected ∧
    (p.flush seg).completed = p.completed ∧ (p.flush seg).seq = p.seq ∧
    (p.flush seg).runOnSelect = p.runOnSelect ∧ (p.flush seg).pendingAction = p.pendingAction ∧
    (p.flush seg).restoreFocus = p.restoreFocus ∧ (p.flush seg).log = p.log := by
  by_cases h : p.pending = []
  · rw [flush_none p h]; exact ⟨rfl, rfl, rfl, rfl, rfl, rfl, rfl, rfl, rfl, rfl, rfl, rfl, rfl, rfl⟩
  · rw [flush_some p h]
    have := refresh_rest (seg := seg) p.flushing
    exact ⟨this.1, this.2.1, this.2.2.1, this.2.2.2.1, this.2.2.2.2.1, this.2.2.2.2.2.1, this.2.2.2.2.2.2.1,
      this.2.2.2.2.2.2.2.1, this.2.2.2.2.2.2.2.2.1, this.2.2.2.2.2.2.2.2.2.1, this.2.2.2.2.2.2.2.2.2.2.2.2.1,
      this.2.2.2.2.2.2.2.2.2.2.2.2.2.1, this.2.2.2.2.2.2.2.2.2.2.2.2.2.2.1, this.2.2.2.2.2.2.2.2.2.2.2.2.2.2.2⟩

theorem finished_rest (p : Palette) : (p.finished seg).tasks = p.tasks ∧ (p.finished seg).channel = p.channel ∧
    (p.finished seg).generation = p.generation ∧ (p.finished seg).query = p.query ∧
    (p.finished seg).visible = p.visible ∧ (p.finished seg).selectedAction = p.selectedAction ∧
    (p.finished seg).providers = p.providers ∧ (p.finished seg).expected = p.expected ∧
    (p.finished seg).completed = p.completed ∧ (p.finished seg).seq = p.seq ∧
    (p.finished seg).runOnSelect = p.runOnSelect ∧ (p.finished seg).pendingAction = p.pendingAction ∧
    (p.finished seg).restoreFocus = p.restoreFocus ∧ (p.finished seg).log = p.log := by
  unfold Palette.finished
  split
  · have := refresh_rest (seg := seg) ({ p with showBusy := false, entries := [], clearCurrent := false } : Palette)
    exact ⟨this.1, this.2.1, this.2.2.1, this.2.2.2.1, this.2.2.2.2.1, this.2.2.2.2.2.1, this.2.2.2.2.2.2.1,
      this.2.2.2.2.2.2.2.1, this.2.2.2.2.2.2.2.2.1, this.2.2.2.2.2.2.2.2.2.1, this.2.2.2.2.2.2.2.2.2.2.2.2.1,
      this.2.2.2.2.2.2.2.2.2.2.2.2.2.1, this.2.2.2.2.2.2.2.2.2.2.2.2.2.2.1, this.2.2.2.2.2.2.2.2.2.2.2.2.2.2.2⟩
  · exact flush_rest _

theorem results_rest (p : Palette) (slow : Bool) (hs : List Hit) :
    let r := if slow then (p.answered hs).flush seg else p.answered hs
    r.tasks = p.tasks ∧ r.channel = p.channel ∧ r.generation = p.generation ∧ r.query = p.query ∧ r.visible = p.visible ∧
    r.selectedAction = p.selectedAction ∧ r.providers = p.providers ∧ r.expected = p.expected ∧
    r.completed = p.completed + 1 ∧ r.seq = p.seq + hs.length ∧ r.runOnSelect = p.runOnSelect ∧
    r.pendingAction = p.pendingAction ∧ r.restoreFocus = p.restoreFocus ∧ r.log = p.log := by
  intro r
  show (if slow then (p.answered hs).flush seg else p.answered hs).tasks = _ ∧ _
  cases slow
  · exact ⟨rfl, rfl, rfl, rfl, rfl, rfl, rfl, rfl, rfl, rfl, rfl, rfl, rfl, rfl⟩
  · exact flush_rest _

theorem stale_update (p : Palette) (slow : Bool) {u : Update} (hu : u.gen ≠ p.generation) : p.applyUpdate seg ws slow u = p := by
  cases u <;> exact if_pos hu

theorem base_update {p : Palette} (h : Base p) (slow : Bool) (u : Update) (hu : u.gen ≤ p.generation)
    (hf : ∀ g b, u = .showNoMatches g b → b = true) : Base (p.applyUpdate seg ws slow u) := by
  cases u with
  | results g hs =>
    by_cases hg : g = p.generation
    · subst hg
      have e := results_eq (seg := seg) (ws := ws) p slow hs
      dsimp only at e
      rw [e]
      have hr : Base (if slow then (p.answered hs).flush seg else p.answered hs) := by
        cases slow
        · exact base_answered h hs
        · exact base_flush (base_answered h hs)
      have hrr := results_rest (seg := seg) p slow hs
      dsimp only at hrr
      generalize (if slow then (p.answered hs).flush seg else p.answered hs) = r at hr hrr
      split
      · have hs' := base_finished (seg := seg) hr
        have hfr := finished_rest (seg := seg) r
        generalize r.finished seg = s at hs' hfr
        split
        · refine hs'.flight _ s.channel ?_ ?_
          · intro u hu
            rw [List.mem_append, List.mem_append] at hu
            rcases hu with (hu | hu) | hu
            · exact hs'.gens u (List.mem_append_left _ hu)
            · rw [List.mem_singleton.1 hu, hfr.2.2.1, hrr.2.2.1]; exact Nat.le_refl _
            · exact hs'.gens u (List.mem_append_right _ hu)
          · intro g b hu
            rw [List.mem_append, List.mem_append] at hu
            rcases hu with (hu | hu) | hu
            · exact hs'.flags g b (List.mem_append_left _ hu)
            · have := List.mem_singleton.1 hu; injection this
            · exact hs'.flags g b (List.mem_append_right _ hu)
        · exact hs'
      · exact hr
    · rw [stale_update (u := .results g hs) p slow hg]
      exact h
  | showBusy g =>
    unfold Palette.applyUpdate
    dsimp only
    split
    · exact h
    · split
      · rename_i hl
        exact { gens := h.gens, flags := h.flags, acts := h.acts, off := h.off, vis := h.vis, markup := h.markup
                taken := h.taken, items := h.items, dis := h.dis, ok := h.ok, current := h.current, shown := h.shown
                text := h.text, range := h.range, zero := h.zero, busy := fun _ _ => hl }
      · exact h
  | showNoMatches g b =>
    unfold Palette.applyUpdate
    dsimp only
    split
    · exact h
    · have := hf g b rfl
      subst this
      rw [if_pos rfl, Palette.sync_eq, Palette.updateList_eq]
      dsimp only
      have m := mirror_items p.list [Entry.noMatches] 0
      have mo := mirror_ok p.list [Entry.noMatches] 0
      refine { gens := h.gens, flags := h.flags, acts := ?_, off := ?_, vis := ?_, markup := ?_, taken := ?_, items := m.1
               dis := m.2.1, ok := mo.1, current := mo.2, shown := rfl, text := h.text
               range := fun _ => Nat.zero_lt_one, zero := fun _ => rfl, busy := fun _ _ => rfl }
      · intro e he hd
        rcases List.mem_append.1 he with he | he
        · rw [List.mem_singleton.1 he] at hd; cases hd
        · exact h.acts e (List.mem_append_right _ he) hd
      · exact m.2.2.1.trans h.off
      · exact m.2.2.2.1.trans h.vis
      · exact m.2.2.2.2.1.trans h.markup
      · exact m.2.2.2.2.2.trans h.taken

/-- The selection and the list widget may change together. -/
theorem Base.select {p : Palette} (h : Base p) (n : Nat) (hn : p.entries ≠ [] → n < p.entries.length)
    (hz : p.entries = [] → n = 0) : Base ({ p with selected := n } : Palette).updateList := by
  rw [Palette.updateList_eq]
  dsimp only
  have m := mirror_items p.list p.entries n
  have mo := mirror_ok p.list p.entries n
  exact { gens := h.gens, flags := h.flags, acts := h.acts, off := m.2.2.1.trans h.off, vis := m.2.2.2.1.trans h.vis
          markup := m.2.2.2.2.1.trans h.markup, taken := m.2.2.2.2.2.trans h.taken, items := m.1, dis := m.2.1
          ok := mo.1, current := mo.2, shown := h.shown, text := h.text, range := hn, zero := hz, busy := h.busy }

theorem base_emit {p : Palette} (h : Base p) : Base p.emitHighlight := by
  rw [Palette.emitHighlight_eq]
  exact h.same _ _ _ _ _ _

theorem nextEnabled_range (p : Palette) {delta : Int} (hd : delta = 1 ∨ delta = -1) {i n : Nat} (hi : i ≤ p.entries.length)
    (h : p.nextEnabled i delta = some n) : n < p.entries.length ∧ (p.entries[n]?.map Entry.disabled) = some false := by
  unfold Palette.nextEnabled at h
  have key : ∀ n, ((p.entries[n]?).map (·.disabled)).getD true = false →
      n < p.entries.length ∧ (p.entries[n]?.map Entry.disabled) = some false := by
    intro n hn
    cases he : p.entries[n]? with
    | none => rw [he] at hn; simp at hn
    | some e =>
      rw [he] at hn
      exact ⟨(List.getElem?_eq_some_iff.1 he).1, by simpa using hn⟩
  rcases hd with rfl | rfl
  · exact key n ((OptionList.loop_up _ _ _ _ (by omega) n).1 h).2.2.1
  · exact key n ((OptionList.loop_down _ _ _ _ hi (by omega) n).1 h).2.1

theorem base_move {p : Palette} (h : Base p) {delta : Int} (hd : delta = 1 ∨ delta = -1) : Base (p.moveSelection delta) := by
  unfold Palette.moveSelection
  split
  · exact h
  · rename_i hne
    have hne' : p.entries ≠ [] := by simpa using hne
    split
    · rename_i i hi
      have := nextEnabled_range p hd (Nat.le_of_lt (h.range hne')) hi
      exact base_emit (h.select i (fun _ => this.1) (fun e => absurd e hne'))
    · exact h

theorem base_arrow {p : Palette} (h : Base p) {delta : Int} (hd : delta = 1 ∨ delta = -1) : Base (p.arrow delta) := by
  unfold Palette.arrow
  split
  · rename_i hc
    rw [Palette.sync_eq]
    refine base_emit ?_
    have hb : Base { p with
        listVisible := true, listShown := p.visible && true, showBusy := p.showBusy && (p.visible && true)
        loadingShown := p.loadingShown && (p.visible && true) } :=
      { gens := h.gens, flags := h.flags, acts := h.acts, off := h.off, vis := h.vis, markup := h.markup
        taken := h.taken, items := h.items, dis := h.dis, ok := h.ok, current := h.current, shown := rfl
        text := h.text, range := h.range, zero := h.zero, busy := fun _ _ => rfl }
    exact hb.select p.selected h.range h.zero
  · exact base_move h hd

/-- The state in which `activate_selected` calls `refresh_results` if the command is not run at once. -/
def Palette.choosing (seg : List Char → List (List Char)) (p : Palette) (e : Entry) : Palette := { p with
  query := e.text, selectedAction := e.action, listVisible := false, entries := [], pending := [], selected := 0
  listShown := false, showBusy := false, loadingShown := false
  input := (Palette.setText seg p.input e.text).step seg (.setCursor (seg e.text).length) }

/-- What activation does. -/
theorem activate_eq (p : Palette) : p.activate seg = match p.entries[p.selected]? with
    | none => p
    | some e =>
      if e.disabled then p
      else if p.runOnSelect then
        match e.action with
        | some a => ({ p with pendingAction := some a } : Palette).closeWith seg true
        | none => p
      else (p.choosing seg e).refreshResults seg := by
  unfold Palette.activate
  by_cases hne : p.entries.isEmpty = true
  · rw [if_pos hne, List.isEmpty_iff.1 hne]; rfl
  · rw [if_neg hne]
    cases he : p.entries[p.selected]? with
    | none => rfl
    | some e =>
      dsimp only
      by_cases hd : e.disabled = true
      · rw [if_pos hd, if_pos hd]
      · rw [if_neg hd, if_neg hd]
        by_cases hr : p.runOnSelect = true
        · rw [if_pos hr, if_pos hr]
          cases e.action <;> rfl
        · rw [if_neg hr, if_neg hr, Palette.sync_eq, Palette.updateInput_some]
          dsimp only
          simp only [Bool.and_false]
          rfl

theorem activate_run {p : Palette} {e : Entry} {a : List Char} (he : p.entries[p.selected]? = some e)
    (hd : e.disabled = false) (hr : p.runOnSelect = true) (ha : e.action = some a) :
    p.activate seg = ({ p with pendingAction := some a } : Palette).closeWith seg true := by
  rw [activate_eq, he]
  dsimp only
  rw [if_neg (by simp [hd]), if_pos hr, ha]

theorem activate_choose {p : Palette} {e : Entry} (he : p.entries[p.selected]? = some e)
    (hd : e.disabled = false) (hr : p.runOnSelect = false) : p.activate seg = (p.choosing seg e).refreshResults seg := by
  rw [activate_eq, he]
  dsimp only
  rw [if_neg (by simp [hd]), if_neg (by simp [hr])]

/-- The events after closing, and what closing leaves alone. -/
theorem close_fields (p : Palette) (b : Bool) (hv : p.visible = true) :
    (p.closeWith seg b).pendingAction = p.pendingAction ∧ (p.closeWith seg b).events = p.events ++ [.closed b] ∧
    (p.closeWith seg b).restoreFocus = p.restoreFocus ∧ (p.closeWith seg b).log = p.log ∧
    (p.closeWith seg b).entries = [] ∧ (p.closeWith seg b).pending = [] ∧ (p.closeWith seg b).selectedAction = none ∧
    (p.closeWith seg b).tasks = p.tasks ∧ (p.closeWith seg b).channel = p.channel ∧
    (p.closeWith seg b).providers = p.providers ∧ (p.closeWith seg b).generation = p.generation := by
  rw [closeWith_eq p b hv]
  obtain ⟨ev, busy, hev, _, er⟩ := Palette.refreshResults_eq (seg := seg) p.closing
  rw [er]
  have : ev = [] := by
    apply List.eq_nil_iff_forall_not_mem.2
    intro x hx
    have := (hev x hx).1
    cases this
  rw [this]
  refine ⟨rfl, ?_, rfl, rfl, sorted_nil rfl, rfl, rfl, rfl, rfl, rfl, rfl⟩
  show (p.events ++ []) ++ [_] = _
  rw [List.append_nil]

theorem base_activate {p : Palette} (h : Base p) : Base (p.activate seg) := by
  rw [activate_eq]
  split
  · exact h
  · split
    · exact h
    · split
      · split
        · exact base_close (h.same _ _ _ _ _ _) true
        · exact h
      · refine base_refresh ?_
        exact { gens := h.gens, flags := h.flags, acts := by simp [Palette.choosing], off := h.off, vis := h.vis
                markup := h.markup, taken := h.taken }

theorem base_submit {p : Palette} (h : Base p) : Base (p.submit seg) := by
  unfold Palette.submit
  split
  · exact base_activate h
  · split
    · exact base_close (h.same _ _ _ _ _ _) true
    · exact h

theorem click_fields (l : OptionList) (y : Nat) : (l.click y).items = l.items ∧ (l.click y).disabled = l.disabled ∧
    (l.click y).off = l.off ∧ (l.click y).visible = l.visible ∧ (l.click y).allowMarkup = l.allowMarkup ∧
    ((l.click y).pendingSelection = l.pendingSelection ∧ (l.click y) = l ∨
      ∃ i, OptionList.OptionList.indexForRow l.lineCounts 0 y = some i ∧ l.disabledAt i = false ∧
        (l.click y).pendingSelection = some i ∧ (l.click y).selected = i) := by
  unfold OptionList.OptionList.click
  split
  · exact ⟨rfl, rfl, rfl, rfl, rfl, Or.inl ⟨rfl, rfl⟩⟩
  · split
    · rename_i i hi
      split
      · rename_i hd
        dsimp only
        split
        · exact ⟨rfl, rfl, rfl, rfl, rfl, Or.inr ⟨i, hi, by simpa using hd, rfl, rfl⟩⟩
        · rename_i he
          exact ⟨rfl, rfl, rfl, rfl, rfl, Or.inr ⟨i, hi, by simpa using hd, rfl, by simpa using he⟩⟩
      · exact ⟨rfl, rfl, rfl, rfl, rfl, Or.inl ⟨rfl, rfl⟩⟩
    · exact ⟨rfl, rfl, rfl, rfl, rfl, Or.inl ⟨rfl, rfl⟩⟩

/-- A click on the list: nothing, or the activation of the entry displayed in the row. -/
theorem clickRow_cases {p : Palette} (h : Base p) (y : Nat) :
    (p.clickRow seg y = p ∧ (p.visible = true → ∀ i,
      OptionList.OptionList.indexForRow p.list.lineCounts 0 y = some i → p.list.disabledAt i = true)) ∨
    ∃ i, ∃ q : Palette, OptionList.OptionList.indexForRow p.list.lineCounts 0 y = some i ∧ i < p.entries.length ∧
      (p.entries[i]?.map Entry.disabled) = some false ∧ p.visible = true ∧
      Base q ∧ (∃ l ev, l.selected = i ∧ q = { p with selected := i, list := l, events := p.events ++ ev } ∧
        ev = ({ p with selected := i } : Palette).highlights) ∧
      p.clickRow seg y = q.activate seg := by
  unfold Palette.clickRow
  by_cases hs : (!p.visible) = true
  · rw [if_pos hs]
    left
    refine ⟨rfl, fun hv => ?_⟩
    rw [hv] at hs; cases hs
  · rw [if_neg hs]
    have hv : p.visible = true := by cases hq : p.visible <;> simp_all
    have hf := click_fields p.list y
    dsimp only
    have hok := OptionList.ok_click h.ok h.current y
    rcases hf.2.2.2.2.2 with ⟨hp, he⟩ | ⟨i, hi, hd, hp, hsel⟩
    · left
      refine ⟨by rw [hp, h.taken, he], fun _ i hi => ?_⟩
      by_contra hd
      have hd : p.list.disabledAt i = false := by simpa using hd
      have hpend : (p.list.click y).pendingSelection = some i := by
        unfold OptionList.OptionList.click
        rw [if_neg (by simp [h.off, h.vis]), hi]
        dsimp only
        rw [if_pos (by simp [hd])]
      rw [hp, h.taken] at hpend
      cases hpend
    · right
      rw [hp]
      dsimp only
      have hir := ((OptionList.row_index h.current y i).1 hi).1
      rw [h.items, List.length_map] at hir
      have hen := (OptionList.disabledAt_iff h.ok.flags (by rw [h.items, List.length_map]; exact hir)).1 hd
      have hen' : (p.entries[i]?.map Entry.disabled) = some false := by
        have := hen.2
        rw [h.dis, List.getElem?_map] at this; exact this
      have hb : Base { p with list := { p.list.click y with pendingSelection := none } } :=
        { gens := h.gens, flags := h.flags, acts := h.acts, off := hf.2.2.1.trans h.off, vis := hf.2.2.2.1.trans h.vis
          markup := hf.2.2.2.2.1.trans h.markup, taken := rfl, items := hf.1.trans h.items, dis := hf.2.1.trans h.dis
          ok := ⟨hok.1.1, hok.1.2, hok.1.3, hok.1.4⟩
          current := hok.2, shown := h.shown, text := h.text, range := h.range, zero := h.zero, busy := h.busy }
      have hne : p.entries ≠ [] := by intro e; rw [e] at hir; simp at hir
      by_cases hc : i ≠ p.selected
      · rw [if_pos hc]
        have hb2 := hb.select i (fun _ => hir) (fun e => absurd e hne)
        rw [Palette.updateList_eq] at hb2 ⊢
        refine ⟨i, _, hi, hir, hen', hv, base_emit hb2, ?_, rfl⟩
        rw [Palette.emitHighlight_eq]
        dsimp only
        exact ⟨_, _, mirror_selected _ _ _ hir (Or.inl hen'), rfl, rfl⟩
      · rw [if_neg hc]
        have hc' : i = p.selected := by simpa using hc
        refine ⟨i, _, hi, hir, hen', hv, base_emit hb, ?_, rfl⟩
        rw [Palette.emitHighlight_eq]
        dsimp only
        refine ⟨{ p.list.click y with pendingSelection := none }, _, hsel, ?_, rfl⟩
        rw [hc']
        rfl

/-- The state after `set_providers` before a new search. -/
def Palette.supplied (p : Palette) (ps : List Provider) : Palette := { p with
  showBusy := false, loadingShown := false, expected := ps.length, completed := 0, providers := ps }

theorem setProviders_open {p : Palette} (ps : List Provider) (hv : p.visible = true) :
    p.setProviders seg ws ps = (p.supplied ps).startSearch seg ws p.query none := if_pos hv

theorem setProviders_closed {p : Palette} (ps : List Provider) (hv : p.visible = false) :
    p.setProviders seg ws ps = p.supplied ps := if_neg (by show ¬ p.visible = true; simp [hv])

/-- The state in which `open` starts a search. -/
def Palette.opening (p : Palette) (focus : Option Nat) : Palette := { p with
  visible := true, listShown := p.listVisible, showBusy := p.showBusy && p.listVisible
  loadingShown := p.loadingShown && p.listVisible, events := p.events ++ [.opened]
  restoreFocus := match focus with
    | some n => some n
    | none => p.restoreFocus }

theorem openWith_eq {p : Palette} (focus : Option Nat) (hv : p.visible = false) :
    p.openWith seg ws focus = (p.opening focus).startSearch seg ws [] (some 0) := by
  unfold Palette.openWith
  rw [if_neg (by simp [hv])]
  cases focus with
  | none => dsimp only; rw [Palette.sync_eq]; rfl
  | some n => dsimp only; rw [Palette.sync_eq]; rfl

/-- The state in which an edit of the query starts a search. -/
def Palette.typed (p : Palette) (i : Input) : Palette := { p with
  input := i, query := i.value, selected := 0, selectedAction := none }

theorem base_step {p : Palette} (h : Base p) (op : Palette.Op) : Base (p.step seg ws op) := by
  cases op with
  | openPalette focus =>
    simp only [Palette.step]
    by_cases hv : p.visible = true
    · rw [show p.openWith seg ws focus = p from if_pos hv]; exact h
    · rw [openWith_eq focus (by simpa using hv)]
      exact base_search (p := p.opening focus) { gens := h.gens, flags := h.flags, acts := h.acts, off := h.off, vis := h.vis
                                                 markup := h.markup, taken := h.taken }
        h.items h.dis h.ok h.current rfl [] (some 0)
  | close => exact base_close h false
  | setProviders ps =>
    simp only [Palette.step]
    have hp : Base (p.supplied ps) :=
      { gens := h.gens, flags := h.flags, acts := h.acts, off := h.off, vis := h.vis, markup := h.markup, taken := h.taken
        items := h.items, dis := h.dis, ok := h.ok, current := h.current, shown := h.shown, text := h.text
        range := h.range, zero := h.zero, busy := fun _ hl => by cases hl }
    by_cases hv : p.visible = true
    · rw [setProviders_open ps hv]
      exact base_search hp.toPre hp.items hp.dis hp.ok hp.current hv _ _
    · rw [setProviders_closed ps (by simpa using hv)]
      exact hp
  | submit => exact base_submit h
  | esc => simp only [Palette.step]; split; exacts [base_close h false, h]
  | enter => simp only [Palette.step]; split; exacts [base_submit h, h]
  | up => simp only [Palette.step]; split; exacts [base_arrow h (Or.inr rfl), h]
  | down => simp only [Palette.step]; split; exacts [base_arrow h (Or.inl rfl), h]
  | key k =>
    simp only [Palette.step]
    split
    · rename_i hv
      unfold Palette.typeKey
      dsimp only
      split
      · exact base_search (p := p.typed (p.input.onKey seg k))
          { gens := h.gens, flags := h.flags, acts := h.acts, off := h.off, vis := h.vis, markup := h.markup
            taken := h.taken } h.items h.dis h.ok h.current hv _ _
      · rename_i he
        have he' : (p.input.onKey seg k).value = p.input.value := by simpa using he
        exact { gens := h.gens, flags := h.flags, acts := h.acts, off := h.off, vis := h.vis, markup := h.markup
                taken := h.taken, items := h.items, dis := h.dis, ok := h.ok, current := h.current, shown := h.shown
                text := he'.trans h.text, range := h.range, zero := h.zero, busy := h.busy }
    · exact h
  | clickRow y =>
    simp only [Palette.step]
    rcases clickRow_cases (seg := seg) h y with ⟨e, _⟩ | ⟨i, q, _, _, _, _, hq, _, e⟩
    · rw [e]; exact h
    · rw [e]; exact base_activate hq
  | clickOutside => simp only [Palette.step]; split; exacts [base_close h false, h]
  | takeAction => exact h.same _ _ _ _ _ _
  | takeEvents => exact h.same _ _ _ _ _ _
  | takeRestore => simp only [Palette.step]; split; exacts [h, h.same _ _ _ _ _ _]
  | setFocus on =>
    simp only [Palette.step]
    split
    · refine { gens := h.gens, flags := h.flags, acts := h.acts, off := h.off, vis := h.vis, markup := h.markup
               taken := h.taken, items := h.items, dis := h.dis, ok := h.ok, current := h.current, shown := h.shown
               text := ?_, range := h.range, zero := h.zero, busy := h.busy }
      simp only [Input.Input.step]
      split <;> exact h.text
    · exact h
  | finish n =>
    simp only [Palette.step]
    split
    · rename_i u hu
      have hm : ∀ v ∈ p.tasks.eraseIdx n ++ (p.channel ++ [u]), v ∈ p.flight := by
        intro v hv
        unfold Palette.flight
        rw [List.mem_append, List.mem_append] at hv
        rw [List.mem_append]
        rcases hv with hv | hv | hv
        · exact Or.inl (List.mem_of_mem_eraseIdx hv)
        · exact Or.inr hv
        · rw [List.mem_singleton.1 hv]; exact Or.inl (List.mem_of_getElem? hu)
      exact h.flight _ _ (fun v hv => h.gens v (hm v hv)) (fun g b hv => h.flags g b (hm _ hv))
    · exact h
  | receive slow =>
    simp only [Palette.step]
    split
    · rename_i u rest hc
      have hm : ∀ v ∈ p.tasks ++ rest, v ∈ p.flight := by
        intro v hv
        unfold Palette.flight
        rw [hc]
        rw [List.mem_append] at hv ⊢
        exact hv.imp id (List.mem_cons_of_mem _)
      have hu : u ∈ p.flight := by unfold Palette.flight; rw [hc]; simp
      refine base_update (h.flight p.tasks rest (fun v hv => h.gens v (hm v hv)) (fun g b hv => h.flags g b (hm _ hv)))
        slow u (h.gens u hu) ?_
      intro g b e
      exact h.flags g b (e ▸ hu)
    · exact h

/-- A new palette with providers. -/
def start (run : Bool) (ps : List Provider) : Palette := { runOnSelect := run, providers := ps, expected := ps.length }

/-- The palette after a history. -/
def run (seg : List Char → List (List Char)) (ws : Char → Bool) (p : Palette) (ops : List Palette.Op) : Palette :=
  ops.foldl (fun p op => p.step seg ws op) p

theorem base_start (r : Bool) (ps : List Provider) : Base (start r ps) :=
  let h := pre_new
  { gens := h.gens, flags := h.flags, acts := h.acts, off := h.off, vis := h.vis, markup := h.markup
    taken := h.taken, items := h.items, dis := h.dis, ok := h.ok, current := h.current, shown := h.shown
    text := h.text, range := h.range, zero := h.zero, busy := h.busy }

theorem base_run {p : Palette} (h : Base p) (ops : List Palette.Op) : Base (run seg ws p ops) := by
  induction ops generalizing p with
  | nil => exact h
  | cons op ops ih => exact ih (base_step h op)

end Textual.Palette
