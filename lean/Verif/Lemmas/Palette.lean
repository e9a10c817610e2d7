import Verif.Model.Palette
import Verif.Props.OptionList
import Mathlib.Tactic.Common
import Mathlib.Tactic.Linarith

/-! Equations for the functions of the palette model: which fields they change. -/

namespace Textual.Palette

open Textual.OptionList (OptionList)
open Textual.Input (Input)

variable {seg : List Char → List (List Char)} {ws : Char → Bool}

namespace Palette

theorem sync_eq (p : Palette) : p.sync = { p with
    listShown := p.visible && p.listVisible
    showBusy := p.showBusy && (p.visible && p.listVisible)
    loadingShown := p.loadingShown && (p.visible && p.listVisible) } := by
  unfold sync
  dsimp only
  by_cases h : (p.visible && p.listVisible) = true
  · rw [if_neg (by simp [h])]; simp [h]
  · have h' : (p.visible && p.listVisible) = false := by simpa using h
    rw [if_pos (by simp [h'])]; simp [h']

/-- The events sent by `emit_highlight`. -/
def highlights (p : Palette) : List Event :=
  if !p.visible || !p.listVisible then []
  else match p.entries[p.selected]? with
    | none => []
    | some e => if e.disabled then [] else [.highlighted p.selected e.text (e.action.getD []) e.help]

theorem emitHighlight_eq (p : Palette) : p.emitHighlight = { p with events := p.events ++ p.highlights } := by
  unfold emitHighlight highlights
  by_cases h : (!p.visible || !p.listVisible) = true
  · rw [if_pos h, if_pos h]; simp
  · rw [if_neg h, if_neg h]
    cases p.entries[p.selected]? with
    | none => simp
    | some e =>
      dsimp only
      by_cases hd : e.disabled = true
      · rw [if_pos hd, if_pos hd]; simp
      · rw [if_neg hd, if_neg hd]; rfl

theorem normalize_eq (p : Palette) : p.normalize = { p with selected := p.normalize.selected } := by
  unfold normalize
  split
  · rfl
  · dsimp only
    by_cases h : p.selected ≥ p.entries.length
    · rw [if_pos h]
      dsimp only
      split
      · split
        · rfl
        · split <;> rfl
      · rfl
    · rw [if_neg h]
      split
      · split
        · rfl
        · split <;> rfl
      · rfl

/-- The entries after `refresh_results`. -/
def sorted (p : Palette) : List Entry := sortEntries p.entries

/-- The selection after `refresh_results`. -/
def sel (p : Palette) : Nat :=
  if p.sorted.isEmpty then 0
  else ({ p with entries := p.sorted, selected := min p.selected (p.sorted.length - 1) } : Palette).normalize.selected

/-- The list shown after `refresh_results`. -/
def lv (p : Palette) : Bool := !p.sorted.isEmpty && p.selectedAction.isNone

/-- The option list after `update_list_widget`. -/
def mirror (l : OptionList) (es : List Entry) (n : Nat) : OptionList :=
  (l.setItemsWithState (es.map (fun e => (e.display, e.disabled)))).setSelected n

/-- The input after `update_input_widget`. -/
def setText (seg : List Char → List (List Char)) (i : Input) (q : List Char) : Input :=
  if i.value ≠ q then i.step seg (.setValue q) else i

theorem updateList_eq (p : Palette) : p.updateList = { p with list := mirror p.list p.entries p.selected } := rfl

theorem updateInput_none (p : Palette) : p.updateInput seg none = { p with input := setText seg p.input p.query } := rfl

theorem updateInput_some (p : Palette) (n : Nat) :
    p.updateInput seg (some n) = { p with input := (setText seg p.input p.query).step seg (.setCursor n) } := rfl

/-- `refresh_results` with the events it sends. -/
theorem refreshResults_eq (p : Palette) : ∃ ev : List Event, ∃ busy : Bool,
    (∀ x ∈ ev, p.visible = true ∧ ∃ e ∈ p.sorted, e.disabled = false ∧ x = .highlighted p.sel e.text (e.action.getD []) e.help) ∧
    (busy = (p.showBusy && (p.visible && p.lv))) ∧
    p.refreshResults seg = { p with
      entries := p.sorted, selected := p.sel, listVisible := p.lv
      list := mirror p.list p.sorted p.sel, input := setText seg p.input p.query
      listShown := p.visible && p.lv, showBusy := busy, loadingShown := busy, events := p.events ++ ev } := by
  have fin : ∀ q : Palette, q.entries = p.sorted → q.selected = p.sel → q.listVisible = p.lv →
      q = { p with entries := p.sorted, selected := p.sel, listVisible := p.lv } →
      ∃ ev : List Event, ∃ busy : Bool,
    (∀ x ∈ ev, p.visible = true ∧ ∃ e ∈ p.sorted, e.disabled = false ∧ x = .highlighted p.sel e.text (e.action.getD []) e.help) ∧
    (busy = (p.showBusy && (p.visible && p.lv))) ∧
    (let r := (q.updateList.updateInput seg none).sync
     let r := if r.listVisible then r.emitHighlight else r
     { r with loadingShown := r.showBusy }) = { p with
      entries := p.sorted, selected := p.sel, listVisible := p.lv
      list := mirror p.list p.sorted p.sel, input := setText seg p.input p.query
      listShown := p.visible && p.lv, showBusy := busy, loadingShown := busy, events := p.events ++ ev } := by
    intro q _ _ _ hq
    subst hq
    dsimp only
    rw [updateList_eq, updateInput_none, sync_eq]
    dsimp only
    by_cases hl : p.lv = true
    · rw [if_pos hl, emitHighlight_eq]
      refine ⟨_, _, ?_, rfl, rfl⟩
      intro e he
      unfold highlights at he
      dsimp only at he
      split at he
      · simp at he
      · rename_i hv
        refine ⟨by by_contra hc; simp [hc] at hv, ?_⟩
        split at he
        · simp at he
        · rename_i e' he'
          split at he
          · simp at he
          · rename_i hd
            exact ⟨e', List.mem_of_getElem? he', by simpa using hd, List.mem_singleton.1 he⟩
    · rw [if_neg hl]
      exact ⟨[], _, by simp, rfl, by simp⟩
  unfold refreshResults
  dsimp only
  by_cases he : p.sorted.isEmpty = true
  · have h1 : p.sel = 0 := by unfold sel; rw [if_pos he]
    have h2 : p.lv = false := by unfold lv; simp [he]
    have he' : (sortEntries p.entries).isEmpty = true := he
    rw [if_pos he']
    exact fin _ rfl h1.symm h2.symm (by rw [h1, h2]; rfl)
  · have h1 : p.sel = ({ p with entries := p.sorted, selected := min p.selected (p.sorted.length - 1) } : Palette).normalize.selected := by
      unfold sel; rw [if_neg he]
    have h2 : p.lv = p.selectedAction.isNone := by
      unfold lv
      have : p.sorted.isEmpty = false := by simpa using he
      simp [this]
    have he' : ¬ (sortEntries p.entries).isEmpty = true := he
    rw [if_neg he', normalize_eq]
    refine fin _ rfl h1.symm h2.symm ?_
    rw [h1, h2]; rfl

/-- The events of a refresh. -/
theorem addHits_eq : ∀ (hs : List Hit) (p : Palette), p.addHits hs = { p with
    seq := p.seq + hs.length
    pending := p.pending ++ hs.mapIdx (fun i h => Entry.ofHit h (p.seq + i + 1)) }
  | [], p => by simp [addHits]
  | h :: hs, p => by
    rw [addHits, addHits_eq hs]
    simp only [List.mapIdx_cons, List.append_assoc, List.singleton_append, List.length_cons, Nat.add_zero]
    have e1 : p.seq + 1 + hs.length = p.seq + (hs.length + 1) := by omega
    have e2 : (hs.mapIdx fun i h => Entry.ofHit h (p.seq + 1 + i + 1)) = hs.mapIdx fun i h => Entry.ofHit h (p.seq + (i + 1) + 1) := by
      apply List.ext_getElem (by simp)
      intro i _ _
      simp only [List.getElem_mapIdx]
      congr 1; omega
    rw [e1, e2]

end Palette

/-! ### Sorting -/

theorem before_iff (a b : Entry) : Palette.before a b = true ↔ b.score < a.score ∨ a.score = b.score ∧ a.seq ≤ b.seq := by
  simp [Palette.before]

/-- The order of the entries. -/
def LeE (a b : Entry) : Prop := b.score < a.score ∨ a.score = b.score ∧ a.seq ≤ b.seq

theorem insert_perm (a : Entry) : ∀ l : List Entry, (Palette.insert a l).Perm (a :: l)
  | [] => List.Perm.refl _
  | b :: bs => by
    unfold Palette.insert
    split
    · exact List.Perm.refl _
    · exact ((insert_perm a bs).cons b).trans (List.Perm.swap _ _ _)

theorem sortEntries_perm : ∀ l : List Entry, (Palette.sortEntries l).Perm l
  | [] => List.Perm.refl _
  | a :: l => (insert_perm a _).trans ((sortEntries_perm l).cons a)

theorem insert_sorted (a : Entry) : ∀ l : List Entry, l.Pairwise LeE → (Palette.insert a l).Pairwise LeE
  | [], _ => by simp [Palette.insert]
  | b :: bs, h => by
    unfold Palette.insert
    have hb := List.pairwise_cons.1 h
    split
    · rename_i hab
      have hab := (before_iff a b).1 hab
      refine List.pairwise_cons.2 ⟨?_, h⟩
      intro c hc
      rcases List.mem_cons.1 hc with rfl | hc
      · exact hab
      · unfold LeE
        rcases hab with h1 | ⟨h1, h2⟩ <;> rcases hb.1 c hc with h3 | ⟨h3, h4⟩
        · left; linarith
        · left; linarith
        · left; linarith
        · right; exact ⟨by linarith, by omega⟩
    · rename_i hab
      have hab : ¬ LeE a b := fun h => hab ((before_iff a b).2 h)
      refine List.pairwise_cons.2 ⟨?_, insert_sorted a bs hb.2⟩
      intro c hc
      rcases List.mem_cons.1 ((insert_perm a bs).mem_iff.1 hc) with rfl | hc
      · unfold LeE at hab ⊢
        rcases lt_trichotomy b.score c.score with h | h | h
        · exact absurd (Or.inl h) hab
        · right
          refine ⟨h, ?_⟩
          by_contra hn
          exact hab (Or.inr ⟨h.symm, by omega⟩)
        · left; exact h
      · exact hb.1 c hc

theorem sortEntries_sorted : ∀ l : List Entry, (Palette.sortEntries l).Pairwise LeE
  | [] => List.Pairwise.nil
  | a :: l => insert_sorted a _ (sortEntries_sorted l)

theorem sorted_perm (p : Palette) : p.sorted.Perm p.entries := sortEntries_perm _

theorem sorted_pairwise (p : Palette) : p.sorted.Pairwise (fun a b => b.score < a.score ∨ a.score = b.score ∧ a.seq ≤ b.seq) :=
  sortEntries_sorted _

theorem sorted_nil {p : Palette} (h : p.entries = []) : p.sorted = [] := by
  have := sorted_perm p
  rw [h] at this
  exact this.eq_nil

theorem sorted_eq_nil {p : Palette} : p.sorted = [] ↔ p.entries = [] :=
  ⟨fun h => by have := (sorted_perm p).symm; rw [h] at this; exact this.eq_nil, sorted_nil⟩

/-! ### The option list and the input -/

theorem setItems_fields (l : OptionList) (es : List Entry) :
    let m := l.setItemsWithState (es.map (fun e => (e.display, e.disabled)))
    m.items = es.map Entry.display ∧ m.disabled = es.map Entry.disabled ∧ m.off = l.off ∧ m.visible = l.visible ∧
    m.allowMarkup = l.allowMarkup ∧ m.pendingSelection = l.pendingSelection := by
  intro m
  have : m = l.setItemsWithState (es.map (fun e => (e.display, e.disabled))) := rfl
  unfold OptionList.OptionList.setItemsWithState at this
  rw [OptionList.normalize_same] at this
  rw [this]
  refine ⟨?_, ?_, rfl, rfl, rfl, rfl⟩ <;> simp [OptionList.OptionList.refresh, Function.comp_def]

theorem setSelected_fields (l : OptionList) (n : Nat) :
    let m := l.setSelected n
    m.items = l.items ∧ m.disabled = l.disabled ∧ m.off = l.off ∧ m.visible = l.visible ∧
    m.allowMarkup = l.allowMarkup ∧ m.pendingSelection = l.pendingSelection := by
  intro m
  have : m = l.setSelected n := rfl
  unfold OptionList.OptionList.setSelected at this
  split at this
  · rw [this]; exact ⟨rfl, rfl, rfl, rfl, rfl, rfl⟩
  · rw [OptionList.normalize_same] at this
    rw [this]; exact ⟨rfl, rfl, rfl, rfl, rfl, rfl⟩

theorem mirror_items (l : OptionList) (es : List Entry) (n : Nat) :
    (Palette.mirror l es n).items = es.map Entry.display ∧ (Palette.mirror l es n).disabled = es.map Entry.disabled ∧
    (Palette.mirror l es n).off = l.off ∧ (Palette.mirror l es n).visible = l.visible ∧
    (Palette.mirror l es n).allowMarkup = l.allowMarkup ∧
    (Palette.mirror l es n).pendingSelection = l.pendingSelection := by
  have h1 := setItems_fields l es
  have h2 := setSelected_fields (l.setItemsWithState (es.map (fun e => (e.display, e.disabled)))) n
  dsimp only at h1 h2
  unfold Palette.mirror
  rw [h2.1, h2.2.1, h2.2.2.1, h2.2.2.2.1, h2.2.2.2.2.1, h2.2.2.2.2.2]
  exact h1

theorem mirror_ok (l : OptionList) (es : List Entry) (n : Nat) :
    (Palette.mirror l es n).Ok ∧ (Palette.mirror l es n).Current := by
  have h1 : (l.setItemsWithState (es.map (fun e => (e.display, e.disabled)))).Ok ∧
      (l.setItemsWithState (es.map (fun e => (e.display, e.disabled)))).Current :=
    ⟨OptionList.ok_refresh (OptionList.ok_normalize _ (by simp)), OptionList.current_refresh _⟩
  exact OptionList.ok_step h1.1 h1.2 (.setSelected n)

/-- A selection in range of enabled entries is shown as it is. -/
theorem mirror_selected (l : OptionList) (es : List Entry) (n : Nat) (hn : n < es.length)
    (he : (es[n]?.map Entry.disabled) = some false ∨ es = [Entry.noMatches]) : (Palette.mirror l es n).selected = n := by
  rcases he with he | rfl
  · have hm := mirror_items l es n
    have hne : es ≠ [] := by rintro rfl; simp at hn
    generalize hl : l.setItemsWithState (es.map (fun e => (e.display, e.disabled))) = l1
    have h1 : l1.items = es.map Entry.display ∧ l1.disabled = es.map Entry.disabled := by
      rw [← hl]
      exact ⟨(setItems_fields l es).1, (setItems_fields l es).2.1⟩
    have h2 : Palette.mirror l es n = l1.setSelected n := by rw [← hl]; rfl
    rw [h2]
    unfold OptionList.OptionList.setSelected
    rw [if_neg (by rw [h1.1]; simp [hne])]
    have hlen : l1.items.length = es.length := by rw [h1.1]; simp
    rw [Nat.min_eq_left (by omega)]
    have hc := OptionList.normalize_chosen { l1 with selected := n } (by dsimp only; rw [h1.1, h1.2]; simp)
      (by dsimp only; rw [h1.1]; simp [hne])
    dsimp only at hc
    rw [Nat.min_eq_left (by omega)] at hc
    have hen : OptionList.OptionList.Enabled { l1 with selected := n } n := by
      refine ⟨by dsimp only; omega, ?_⟩
      dsimp only
      rw [h1.2, List.getElem?_map]; exact he
    show (OptionList.OptionList.normalizeSelected _).selected = n
    rcases hc with ⟨_, h⟩ | ⟨h, _⟩ | ⟨h, _⟩ | ⟨h, _⟩
    · exact h
    · exact absurd hen h
    · exact absurd hen h
    · exact h n hen |>.elim
  · have : n = 0 := by simpa using hn
    subst this
    have h := (mirror_ok l [Entry.noMatches] 0).1
    have hi := (mirror_items l [Entry.noMatches] 0).1
    have := h.2 (by rw [hi]; simp)
    rw [hi] at this
    simpa using this

theorem setText_value (i : Input) (q : List Char) : (Palette.setText seg i q).value = q := by
  unfold Palette.setText
  split
  · rfl
  · rename_i h; simpa using h

theorem setCursor_value (i : Input) (n : Nat) : (i.step seg (.setCursor n)).value = i.value := rfl

end Textual.Palette
