import Verif.Model.OptionList
import Verif.Props.Markup
import Mathlib.Tactic.Common
import Mathlib.Data.Nat.Find

/-! Option lists: C78 (selection), C79 (rows and clicks). -/

namespace Textual.OptionList

open Textual.Markup (escape parse Ext)
open OptionList (Op)

/-! ### Specification -/

/-- The option exists and can be chosen. -/
def OptionList.Enabled (l : OptionList) (i : Nat) : Prop := i < l.items.length ∧ l.disabled[i]? = some false

/-- The nearest enabled option after `i`. -/
def OptionList.IsNext (l : OptionList) (i j : Nat) : Prop :=
  i < j ∧ l.Enabled j ∧ ∀ k, i < k → k < j → ¬ l.Enabled k

/-- The nearest enabled option before `i`. -/
def OptionList.IsPrev (l : OptionList) (i j : Nat) : Prop :=
  j < i ∧ l.Enabled j ∧ ∀ k, j < k → k < i → ¬ l.Enabled k

/-- What holds of every option list at any time: one flag per option; the selected option exists, and if any
option can be chosen then it can. -/
structure OptionList.Ok (l : OptionList) : Prop where
  flags : l.disabled.length = l.items.length
  inRange : l.items ≠ [] → l.selected < l.items.length
  empty : l.items = [] → l.selected = 0
  enabled : (∃ i, l.Enabled i) → l.Enabled l.selected

/-! ### The search -/

theorem disabledAt_iff {l : OptionList} (h : l.disabled.length = l.items.length) {i : Nat} (hi : i < l.items.length) :
    l.disabledAt i = false ↔ l.Enabled i := by
  unfold OptionList.disabledAt OptionList.Enabled
  have : i < l.disabled.length := by omega
  rw [List.getElem?_eq_getElem this]
  simp [hi]

theorem loop_up (dis : Nat → Bool) (len : Nat) : ∀ (fuel i : Nat), len ≤ i + fuel →
    (∀ j, OptionList.nextEnabledLoop dis len 1 fuel i = some j ↔
      i < j ∧ j < len ∧ dis j = false ∧ ∀ k, i < k → k < j → dis k = true) := by
  intro fuel
  induction fuel with
  | zero =>
    intro i hi j
    simp only [OptionList.nextEnabledLoop, reduceCtorEq, false_iff]
    omega
  | succ fuel ih =>
    intro i hi j
    rw [OptionList.nextEnabledLoop]
    split
    · simp only [reduceCtorEq, false_iff]
      rename_i h
      rintro ⟨h1, h2, _⟩
      omega
    · rename_i h
      have e : ((i : Int) + 1).toNat = i + 1 := by omega
      rw [e]
      split
      · rename_i hd
        simp only [Bool.not_eq_true'] at hd
        constructor
        · intro hj
          cases hj
          refine ⟨by omega, by omega, hd, ?_⟩
          intro k h1 h2
          omega
        · rintro ⟨h1, h2, h3, h4⟩
          by_cases hij : j = i + 1
          · rw [hij]
          · have := h4 (i + 1) (by omega) (by omega)
            rw [hd] at this
            cases this
      · rename_i hd
        simp only [Bool.not_eq_true', Bool.not_eq_false] at hd
        have := ih (i + 1) (by omega) j
        rw [show ((i + 1 : Nat) : Int) = (i : Int) + 1 by omega] at this
        rw [this]
        constructor
        · rintro ⟨h1, h2, h3, h4⟩
          refine ⟨by omega, h2, h3, ?_⟩
          intro k hk1 hk2
          by_cases hk : k = i + 1
          · rw [hk]; exact hd
          · exact h4 k (by omega) hk2
        · rintro ⟨h1, h2, h3, h4⟩
          refine ⟨?_, h2, h3, fun k hk1 hk2 => h4 k (by omega) hk2⟩
          by_cases hij : j = i + 1
          · rw [hij, hd] at h3; cases h3
          · omega

theorem loop_down (dis : Nat → Bool) (len : Nat) : ∀ (fuel i : Nat), i ≤ len → i < fuel →
    (∀ j, OptionList.nextEnabledLoop dis len (-1) fuel i = some j ↔
      j < i ∧ dis j = false ∧ ∀ k, j < k → k < i → dis k = true) := by
  intro fuel
  induction fuel with
  | zero => intro i _ hi; omega
  | succ fuel ih =>
    intro i hlen hi j
    rw [OptionList.nextEnabledLoop]
    split
    · simp only [reduceCtorEq, false_iff]
      rename_i h
      rintro ⟨h1, _⟩
      omega
    · rename_i h
      have e : ((i : Int) + -1).toNat = i - 1 := by omega
      rw [e]
      split
      · rename_i hd
        simp only [Bool.not_eq_true'] at hd
        constructor
        · intro hj
          cases hj
          refine ⟨by omega, hd, ?_⟩
          intro k h1 h2
          omega
        · rintro ⟨h1, h3, h4⟩
          by_cases hij : j = i - 1
          · rw [hij]
          · have := h4 (i - 1) (by omega) (by omega)
            rw [hd] at this
            cases this
      · rename_i hd
        simp only [Bool.not_eq_true', Bool.not_eq_false] at hd
        have := ih (i - 1) (by omega) (by omega) j
        rw [show ((i - 1 : Nat) : Int) = (i : Int) + -1 by omega] at this
        rw [this]
        constructor
        · rintro ⟨h1, h3, h4⟩
          refine ⟨by omega, h3, ?_⟩
          intro k hk1 hk2
          by_cases hk : k = i - 1
          · rw [hk]; exact hd
          · exact h4 k hk1 (by omega)
        · rintro ⟨h1, h3, h4⟩
          refine ⟨?_, h3, fun k hk1 hk2 => h4 k hk1 (by omega)⟩
          by_cases hij : j = i - 1
          · rw [hij, hd] at h3; cases h3
          · omega

theorem not_enabled_iff {l : OptionList} (h : l.disabled.length = l.items.length) {i : Nat} (hi : i < l.items.length) :
    l.disabledAt i = true ↔ ¬ l.Enabled i := by
  rw [← disabledAt_iff h hi]; simp

theorem next_iff {l : OptionList} (h : l.disabled.length = l.items.length) (i j : Nat) :
    l.nextEnabledFrom i 1 = some j ↔ l.IsNext i j := by
  unfold OptionList.nextEnabledFrom
  rw [loop_up _ _ _ _ (by omega)]
  unfold OptionList.IsNext
  constructor
  · rintro ⟨h1, h2, h3, h4⟩
    exact ⟨h1, (disabledAt_iff h h2).1 h3, fun k hk1 hk2 => (not_enabled_iff h (by omega)).1 (h4 k hk1 hk2)⟩
  · rintro ⟨h1, h2, h3⟩
    exact ⟨h1, h2.1, (disabledAt_iff h h2.1).2 h2, fun k hk1 hk2 =>
      (not_enabled_iff h (by have := h2.1; omega)).2 (h3 k hk1 hk2)⟩

theorem prev_iff {l : OptionList} (h : l.disabled.length = l.items.length) (i j : Nat) (hi : i ≤ l.items.length) :
    l.nextEnabledFrom i (-1) = some j ↔ l.IsPrev i j := by
  unfold OptionList.nextEnabledFrom
  rw [loop_down _ _ _ _ hi (by omega)]
  unfold OptionList.IsPrev
  constructor
  · rintro ⟨h1, h3, h4⟩
    exact ⟨h1, (disabledAt_iff h (by omega)).1 h3, fun k hk1 hk2 => (not_enabled_iff h (by omega)).1 (h4 k hk1 hk2)⟩
  · rintro ⟨h1, h2, h3⟩
    exact ⟨h1, (disabledAt_iff h h2.1).2 h2, fun k hk1 hk2 => (not_enabled_iff h (by omega)).2 (h3 k hk1 hk2)⟩

theorem exists_next {l : OptionList} {i j : Nat} (hj : l.Enabled j) (hij : i < j) : ∃ k, l.IsNext i k := by
  classical
  have hex : ∃ k, i < k ∧ l.Enabled k := ⟨j, hij, hj⟩
  refine ⟨Nat.find hex, (Nat.find_spec hex).1, (Nat.find_spec hex).2, ?_⟩
  intro k h1 h2 hk
  exact Nat.find_min hex h2 ⟨h1, hk⟩

theorem exists_prev {l : OptionList} {j : Nat} : ∀ {i : Nat}, l.Enabled j → j < i → ∃ k, l.IsPrev i k := by
  intro i
  induction i with
  | zero => intro _ h; omega
  | succ i ih =>
    intro hj hij
    by_cases hi : l.Enabled i
    · exact ⟨i, by omega, hi, fun k h1 h2 => by omega⟩
    · have hne : j ≠ i := fun e => hi (e ▸ hj)
      obtain ⟨k, h1, h2, h3⟩ := ih hj (by omega)
      refine ⟨k, by omega, h2, ?_⟩
      intro m hm1 hm2
      by_cases hmi : m = i
      · rw [hmi]; exact hi
      · exact h3 m hm1 (by omega)

/-! ### Which option a request selects -/

/-- The option chosen when option `n` is asked for: itself if it can be chosen, otherwise the nearest one
after it, otherwise the nearest one before it, otherwise (no option can be chosen) itself. -/
def OptionList.Chosen (l : OptionList) (n i : Nat) : Prop :=
  (l.Enabled n ∧ i = n) ∨ (¬ l.Enabled n ∧ l.IsNext n i) ∨
  (¬ l.Enabled n ∧ (∀ k, n < k → ¬ l.Enabled k) ∧ l.IsPrev n i) ∨ ((∀ k, ¬ l.Enabled k) ∧ i = n)

theorem normalize_same (l : OptionList) : l.normalizeSelected = { l with selected := l.normalizeSelected.selected } := by
  unfold OptionList.normalizeSelected
  split
  · rfl
  · dsimp only
    split
    · split
      · split
        · rfl
        · split <;> rfl
      · rfl
    · split
      · split
        · rfl
        · split <;> rfl
      · rfl

theorem normalize_chosen (l : OptionList) (h : l.disabled.length = l.items.length) (hne : l.items ≠ []) :
    l.Chosen (min l.selected (l.items.length - 1)) l.normalizeSelected.selected := by
  have hlen : 0 < l.items.length := List.length_pos_iff.2 hne
  have key : ∀ l' : OptionList, l'.items = l.items → l'.disabled = l.disabled → l'.selected < l.items.length →
      l.Chosen l'.selected (if l'.disabledAt l'.selected then
        match l'.nextEnabledFrom l'.selected 1 with
        | some i => { l' with selected := i }
        | none => match l'.nextEnabledFrom l'.selected (-1) with
          | some i => { l' with selected := i }
          | none => l'
      else l').selected := by
    intro l' e1 e2 hs
    have h' : l'.disabled.length = l'.items.length := by rw [e1, e2]; exact h
    have hen : ∀ i, l'.Enabled i ↔ l.Enabled i := by
      intro i; unfold OptionList.Enabled; rw [e1, e2]
    have hnx : ∀ i j, l'.IsNext i j ↔ l.IsNext i j := by
      intro i j; unfold OptionList.IsNext; simp only [hen]
    have hpv : ∀ i j, l'.IsPrev i j ↔ l.IsPrev i j := by
      intro i j; unfold OptionList.IsPrev; simp only [hen]
    unfold OptionList.Chosen
    by_cases hd : l'.disabledAt l'.selected = true
    · rw [if_pos hd]
      have hnd : ¬ l.Enabled l'.selected := by
        rw [← hen]; exact (not_enabled_iff h' (by rw [e1]; exact hs)).1 hd
      cases hn : l'.nextEnabledFrom l'.selected 1 with
      | some j =>
        right; left
        exact ⟨hnd, (hnx _ _).1 ((next_iff h' _ _).1 hn)⟩
      | none =>
        have hno : ∀ k, l'.selected < k → ¬ l.Enabled k := by
          intro k hk he
          obtain ⟨m, hm⟩ := exists_next ((hen k).2 he) hk
          rw [(next_iff h' _ _).2 hm] at hn
          cases hn
        dsimp only
        cases hp : l'.nextEnabledFrom l'.selected (-1) with
        | some j =>
          right; right; left
          exact ⟨hnd, hno, (hpv _ _).1 ((prev_iff h' _ _ (by rw [e1]; omega)).1 hp)⟩
        | none =>
          right; right; right
          refine ⟨?_, rfl⟩
          intro k he
          rcases Nat.lt_trichotomy k l'.selected with hk | hk | hk
          · obtain ⟨m, hm⟩ := exists_prev ((hen k).2 he) hk
            rw [(prev_iff h' _ _ (by rw [e1]; omega)).2 hm] at hp
            cases hp
          · exact hnd (hk ▸ he)
          · exact hno k hk he
    · rw [if_neg hd]
      left
      refine ⟨?_, rfl⟩
      rw [← hen]
      exact (disabledAt_iff h' (by rw [e1]; exact hs)).1 (by simpa using hd)
  unfold OptionList.normalizeSelected
  rw [if_neg (by simpa using hne)]
  dsimp only
  by_cases hge : l.selected ≥ l.items.length
  · rw [if_pos hge]
    have := key { l with selected := l.items.length - 1 } rfl rfl (by dsimp only; omega)
    rw [Nat.min_eq_right (by omega)]
    exact this
  · rw [if_neg hge]
    rw [Nat.min_eq_left (by omega)]
    exact key l rfl rfl (by omega)

theorem chosen_ok {l : OptionList} {n i : Nat} (h : l.Chosen n i) (hn : n < l.items.length) :
    i < l.items.length ∧ ((∃ k, l.Enabled k) → l.Enabled i) := by
  rcases h with ⟨h1, rfl⟩ | ⟨_, h1⟩ | ⟨_, _, h1⟩ | ⟨h1, rfl⟩
  · exact ⟨hn, fun _ => h1⟩
  · exact ⟨h1.2.1.1, fun _ => h1.2.1⟩
  · exact ⟨h1.2.1.1, fun _ => h1.2.1⟩
  · exact ⟨hn, fun ⟨k, hk⟩ => absurd hk (h1 k)⟩

theorem ok_normalize (l : OptionList) (h : l.disabled.length = l.items.length) : l.normalizeSelected.Ok := by
  by_cases hne : l.items = []
  · have : l.normalizeSelected = { l with selected := 0 } := by
      unfold OptionList.normalizeSelected; rw [if_pos (by simp [hne])]
    rw [this]
    refine ⟨h, fun hn => absurd hne hn, fun _ => rfl, ?_⟩
    rintro ⟨i, hi⟩
    have := hi.1
    simp [hne] at this
  · have hc := normalize_chosen l h hne
    have hlen : 0 < l.items.length := List.length_pos_iff.2 hne
    have := chosen_ok hc (by omega)
    rw [normalize_same l]
    exact ⟨h, fun _ => this.1, fun he => absurd he hne, this.2⟩

theorem ok_refresh {l : OptionList} (h : l.Ok) : l.refresh.Ok := ⟨h.1, h.2, h.3, h.4⟩

/-- The rows are those of the current state. -/
def OptionList.Current (l : OptionList) : Prop := l.rows = l.refresh.rows ∧ l.lineCounts = l.refresh.lineCounts

theorem current_refresh (l : OptionList) : l.refresh.Current := ⟨rfl, rfl⟩

theorem ok_move {l : OptionList} (h : l.Ok) {delta : Int} (hd : delta = 1 ∨ delta = -1) : (l.moveSelection delta).Ok := by
  unfold OptionList.moveSelection
  split
  · exact h
  · rename_i hne
    have hne' : l.items ≠ [] := by simpa using hne
    have hr := h.inRange hne'
    split
    · rename_i i hi
      apply ok_refresh
      have hen : l.Enabled i := by
        rcases hd with rfl | rfl
        · exact ((next_iff h.flags l.selected i).1 hi).2.1
        · exact ((prev_iff h.flags l.selected i (by omega)).1 hi).2.1
      exact ⟨h.flags, fun _ => hen.1, fun he => absurd he hne', fun _ => hen⟩
    · exact h

theorem current_move {l : OptionList} (h : l.Current) (delta : Int) : (l.moveSelection delta).Current := by
  unfold OptionList.moveSelection
  split
  · exact h
  · split
    · exact current_refresh _
    · exact h

/-! ### C79: rows -/

/-- The rows of the screen that belong to option `i`: each option has as many as it has lines. -/
def rowStart (items : List (List Char)) (i : Nat) : Nat := ((items.take i).map (fun s => s.count '\n' + 1)).sum

theorem indexForRow_spec : ∀ (items : List (List Char)) (off index r i : Nat),
    OptionList.indexForRow (items.map (fun s => max (OptionList.lineCount s) 1)) off r = some index ↔
      off ≤ index ∧ index - off < items.length ∧ rowStart items (index - off) ≤ r ∧ r < rowStart items (index - off + 1) := by
  intro items
  induction items with
  | nil => intro off index r _; simp [OptionList.indexForRow]
  | cons s items ih =>
    intro off index r i
    have hm : max (OptionList.lineCount s) 1 = s.count '\n' + 1 := by unfold OptionList.lineCount; omega
    have hrs : ∀ j, rowStart (s :: items) (j + 1) = (s.count '\n' + 1) + rowStart items j := by
      intro j; unfold rowStart; rw [List.take_succ_cons, List.map_cons, List.sum_cons]
    have h0 : ∀ l : List (List Char), rowStart l 0 = 0 := by intro l; simp [rowStart]
    rw [List.map_cons, OptionList.indexForRow, hm]
    split
    · rename_i hlt
      constructor
      · intro h
        cases h
        refine ⟨Nat.le_refl _, by simp, ?_, ?_⟩
        · rw [Nat.sub_self, h0]; omega
        · rw [Nat.sub_self, hrs, h0]; omega
      · rintro ⟨h1, h2, h3, h4⟩
        by_cases he : index = off
        · rw [he]
        · obtain ⟨d, hd⟩ : ∃ d, index - off = d + 1 := ⟨index - off - 1, by omega⟩
          rw [hd, hrs] at h3
          omega
    · rename_i hge
      rw [ih (off + 1) index (r - (s.count '\n' + 1)) i]
      constructor
      · rintro ⟨h1, h2, h3, h4⟩
        have hd : index - off = (index - (off + 1)) + 1 := by omega
        rw [hd, hrs, hrs]
        refine ⟨by omega, ?_, by omega, by omega⟩
        rw [List.length_cons]; omega
      · rintro ⟨h1, h2, h3, h4⟩
        by_cases he : index = off
        · rw [he, Nat.sub_self, hrs, h0] at h4; omega
        · have hd : index - off = (index - (off + 1)) + 1 := by omega
          rw [hd, hrs] at h3
          rw [hd, hrs] at h4
          rw [hd, List.length_cons] at h2
          exact ⟨by omega, by omega, by omega, by omega⟩

theorem row_index {l : OptionList} (h : l.Current) (r i : Nat) :
    OptionList.indexForRow l.lineCounts 0 r = some i ↔
      i < l.items.length ∧ rowStart l.items i ≤ r ∧ r < rowStart l.items (i + 1) := by
  rw [h.2]
  show OptionList.indexForRow (l.items.map _) 0 r = some i ↔ _
  rw [indexForRow_spec l.items 0 i r 0]
  simp

theorem ok_click {l : OptionList} (h : l.Ok) (hc : l.Current) (y : Nat) : (l.click y).Ok ∧ (l.click y).Current := by
  unfold OptionList.click
  split
  · exact ⟨h, hc⟩
  · split
    · rename_i i hi
      have hlt := ((row_index hc y i).1 hi).1
      split
      · rename_i hd
        have hen : l.Enabled i := (disabledAt_iff h.flags hlt).1 (by simpa using hd)
        have hne : l.items ≠ [] := by intro e; rw [e] at hlt; simp at hlt
        dsimp only
        split
        · exact ⟨⟨h.flags, fun _ => hlt, fun he => absurd he hne, fun _ => hen⟩, ⟨rfl, rfl⟩⟩
        · exact ⟨⟨h.1, h.2, h.3, h.4⟩, hc⟩
      · exact ⟨h, hc⟩
    · exact ⟨h, hc⟩

theorem ok_step {l : OptionList} (h : l.Ok) (hc : l.Current) (op : Op) : (l.step op).Ok ∧ (l.step op).Current := by
  cases op with
  | up =>
    simp only [OptionList.step]
    split
    · exact ⟨h, hc⟩
    · exact ⟨ok_move h (.inr rfl), current_move hc _⟩
  | down =>
    simp only [OptionList.step]
    split
    · exact ⟨h, hc⟩
    · exact ⟨ok_move h (.inl rfl), current_move hc _⟩
  | otherKey => exact ⟨h, hc⟩
  | click y => exact ok_click h hc y
  | setItems items => exact ⟨ok_refresh (ok_normalize _ (by simp)), current_refresh _⟩
  | setItemsWithState items => exact ⟨ok_refresh (ok_normalize _ (by simp)), current_refresh _⟩
  | setMarkup allow =>
    simp only [OptionList.step, OptionList.setMarkup]
    split
    · exact ⟨⟨h.1, h.2, h.3, h.4⟩, current_refresh _⟩
    · exact ⟨h, hc⟩
  | setSelected n =>
    simp only [OptionList.step, OptionList.setSelected]
    split
    · rename_i he
      have he' : l.items = [] := by simpa using he
      refine ⟨⟨h.1, fun hn => absurd he' hn, fun _ => rfl, ?_⟩, current_refresh _⟩
      rintro ⟨i, hi⟩
      have h0 : i < l.items.length := hi.1
      rw [he'] at h0
      exact absurd h0 (by simp)
    · exact ⟨ok_refresh (ok_normalize _ h.flags), current_refresh _⟩
  | takePending => exact ⟨⟨h.1, h.2, h.3, h.4⟩, hc⟩
  | setFocus on =>
    simp only [OptionList.step]
    split
    · exact ⟨⟨h.1, h.2, h.3, h.4⟩, current_refresh _⟩
    · exact ⟨h, hc⟩
  | setDisabled on => exact ⟨⟨h.1, h.2, h.3, h.4⟩, hc⟩
  | setVisible on => exact ⟨⟨h.1, h.2, h.3, h.4⟩, hc⟩
  | restyle => exact ⟨ok_refresh h, current_refresh _⟩

theorem ok_new (items : List (List Char)) : (OptionList.new items).Ok ∧ (OptionList.new items).Current :=
  ⟨ok_refresh (ok_normalize _ (by simp)), current_refresh _⟩

theorem ok_history (items : List (List Char)) (ops : List Op) :
    (ops.foldl OptionList.step (.new items)).Ok ∧ (ops.foldl OptionList.step (.new items)).Current := by
  have key : ∀ (ops : List Op) (l : OptionList), l.Ok → l.Current →
      (ops.foldl OptionList.step l).Ok ∧ (ops.foldl OptionList.step l).Current := by
    intro ops
    induction ops with
    | nil => intro l h hc; exact ⟨h, hc⟩
    | cons op ops ih => intro l h hc; exact ih _ (ok_step h hc op).1 (ok_step h hc op).2
  exact key ops _ (ok_new items).1 (ok_new items).2

/-! ### C78 -/

/-- C78: after any history the selected option exists, and it is one that can be chosen whenever there is
one. -/
theorem selection_valid (items : List (List Char)) (ops : List Op) :
    let l := ops.foldl OptionList.step (.new items)
    (l.items = [] → l.selected = 0) ∧ (l.items ≠ [] → l.selected < l.items.length) ∧
    ((∃ i, i < l.items.length ∧ l.disabled[i]? = some false) → l.disabled[l.selected]? = some false) := by
  have h := (ok_history items ops).1
  exact ⟨h.empty, h.inRange, fun hex => (h.enabled hex).2⟩

/-- Three options, the second one disabled. -/
def demoList : OptionList :=
  ([Op.setItemsWithState [("a".toList, false), ("b".toList, true), ("c\nd".toList, false)]]).foldl OptionList.step (.new [])

example : demoList.selected = 0 ∧ (demoList.step .down).selected = 2 ∧ ((demoList.step .down).step .up).selected = 0 ∧
    (demoList.step (.setSelected 1)).selected = 2 := by decide

/-- C78: Down selects the nearest option below that can be chosen, and changes nothing if there is none;
Up the same above. -/
theorem keys_select (items : List (List Char)) (ops : List Op) :
    let l := ops.foldl OptionList.step (.new items)
    l.off = false → l.visible = true →
    (∀ j, l.IsNext l.selected j → (l.step .down).selected = j) ∧
    ((∀ j, ¬ l.IsNext l.selected j) → l.step .down = l) ∧
    (∀ j, l.IsPrev l.selected j → (l.step .up).selected = j) ∧
    ((∀ j, ¬ l.IsPrev l.selected j) → l.step .up = l) := by
  intro l ho hv
  have h : l.Ok := (ok_history items ops).1
  have hle : l.selected ≤ l.items.length := by
    by_cases he : l.items = []
    · rw [h.empty he]; omega
    · exact Nat.le_of_lt (h.inRange he)
  have hne : ∀ {j}, l.Enabled j → l.items.isEmpty = false := by
    intro j hj
    have := hj.1
    cases hi : l.items with
    | nil => rw [hi] at this; simp at this
    | cons a b => rfl
  have hd : ∀ d, (if (l.off || !l.visible) = true then l else l.moveSelection d) = l.moveSelection d := by
    intro d; rw [ho, hv]; rfl
  have hm : ∀ d, l.moveSelection d = if l.items.isEmpty then l else match l.nextEnabledFrom l.selected d with
      | some i => { l with selected := i }.refresh
      | none => l := fun _ => rfl
  simp only [OptionList.step, hd]
  refine ⟨?_, ?_, ?_, ?_⟩
  · intro j hj
    rw [hm, if_neg (by rw [hne hj.2.1]; simp), (next_iff h.flags _ _).2 hj]
    rfl
  · intro hno
    rw [hm]
    split
    · rfl
    · cases hn : l.nextEnabledFrom l.selected 1 with
      | none => rfl
      | some j => exact absurd ((next_iff h.flags _ _).1 hn) (hno j)
  · intro j hj
    rw [hm, if_neg (by rw [hne hj.2.1]; simp), (prev_iff h.flags _ _ hle).2 hj]
    rfl
  · intro hno
    rw [hm]
    split
    · rfl
    · cases hn : l.nextEnabledFrom l.selected (-1) with
      | none => rfl
      | some j => exact absurd ((prev_iff h.flags _ _ hle).1 hn) (hno j)

example : demoList.off = false ∧ demoList.visible = true ∧ demoList.IsNext demoList.selected 2 := by
  refine ⟨by decide, by decide, by decide, ⟨by decide, by decide⟩, ?_⟩
  intro k h1 h2 h3
  have e : demoList.selected = 0 := by decide
  have : k = 1 := by omega
  rw [this] at h3
  exact absurd h3.2 (by decide)

/-- C78: asking for an option selects it, or the nearest one that can be chosen. -/
theorem select_chosen (items : List (List Char)) (ops : List Op) (n : Nat) :
    let l := ops.foldl OptionList.step (.new items)
    l.items ≠ [] → l.Chosen (min n (l.items.length - 1)) (l.step (.setSelected n)).selected ∧
      (l.step (.setSelected n)).items = l.items := by
  intro l hne
  have h : l.Ok := (ok_history items ops).1
  have e : l.step (.setSelected n) = ({ l with selected := min n (l.items.length - 1) }.normalizeSelected).refresh := by
    simp only [OptionList.step, OptionList.setSelected]
    rw [if_neg (by simpa using hne)]
  rw [e]
  have hlen : 0 < l.items.length := List.length_pos_iff.2 hne
  have := normalize_chosen { l with selected := min n (l.items.length - 1) } h.flags hne
  dsimp only at this
  rw [show min (min n (l.items.length - 1)) (l.items.length - 1) = min n (l.items.length - 1) by omega] at this
  refine ⟨this, ?_⟩
  show (OptionList.normalizeSelected _).items = _
  rw [normalize_same]

example : demoList.Chosen (min 1 (demoList.items.length - 1)) 2 := by
  right; left
  refine ⟨fun h => absurd h.2 (by decide), by decide, ⟨by decide, by decide⟩, fun k h1 h2 => ?_⟩
  have : min 1 (demoList.items.length - 1) = 1 := by decide
  omega

/-- C78: new options keep the position of the selection, moved to the nearest option that can be chosen. -/
theorem items_chosen (items : List (List Char)) (ops : List Op) (new : List (List Char × Bool)) (hne : new ≠ []) :
    let l := ops.foldl OptionList.step (.new items)
    let l' := l.step (.setItemsWithState new)
    l'.items = new.map Prod.fst ∧ l'.disabled = new.map Prod.snd ∧
      l'.Chosen (min l.selected (new.length - 1)) l'.selected := by
  intro l l'
  have e : l' = ({ l with items := new.map Prod.fst, disabled := new.map Prod.snd }.normalizeSelected).refresh := rfl
  have hc := normalize_chosen { l with items := new.map Prod.fst, disabled := new.map Prod.snd } (by simp) (by simpa using hne)
  have e2 := normalize_same { l with items := new.map Prod.fst, disabled := new.map Prod.snd }
  dsimp only [List.length_map] at hc
  have ei : l'.items = new.map Prod.fst := by
    rw [e]; show (OptionList.normalizeSelected _).items = _; rw [e2]
  have ed : l'.disabled = new.map Prod.snd := by
    rw [e]; show (OptionList.normalizeSelected _).disabled = _; rw [e2]
  refine ⟨ei, ed, ?_⟩
  have es : l'.selected = (OptionList.normalizeSelected { l with items := new.map Prod.fst, disabled := new.map Prod.snd }).selected := by
    rw [e]; rfl
  rw [es]
  rw [List.length_map] at hc
  unfold OptionList.Chosen OptionList.IsNext OptionList.IsPrev OptionList.Enabled at hc ⊢
  rw [ei, ed]
  exact hc

example : (demoList.step (.setItemsWithState [("x".toList, true), ("y".toList, false)])).selected = 1 := by decide

/-! ### C79 -/

/-- C79: after any history the list shows one row group per option, in order; each is marked disabled or not
as it is; exactly the selected one is highlighted, if it can be chosen; without markup the text is shown
literally. -/
theorem rows_exact (ext : Ext) (items : List (List Char)) (ops : List Op) :
    let l := ops.foldl OptionList.step (.new items)
    (l.items = [] → l.rows = [⟨[], false, false⟩]) ∧
    (l.items ≠ [] → l.rows.length = l.items.length) ∧
    ∀ i item, l.items[i]? = some item → ∃ r, l.rows[i]? = some r ∧
      (r.disabled = false ↔ l.disabled[i]? = some false) ∧
      (r.highlighted = true ↔ i = l.selected ∧ l.disabled[i]? = some false) ∧
      (l.allowMarkup = true → r.content = item) ∧
      (l.allowMarkup = false → parse ext r.content = .ok ⟨item, []⟩) := by
  intro l
  have h := (ok_history items ops).1
  have hc := (ok_history items ops).2
  have hrows : l.rows = if (l.items.mapIdx (fun i item => l.row i item)).isEmpty then [⟨[], false, false⟩]
      else l.items.mapIdx (fun i item => l.row i item) := hc.1
  refine ⟨?_, ?_, ?_⟩
  · intro he
    rw [hrows, he]; rfl
  · intro hne
    rw [hrows, if_neg]
    · simp
    · simpa using hne
  · intro i item hi
    have hlt : i < l.items.length := (List.getElem?_eq_some_iff.1 hi).1
    have hne : l.items ≠ [] := by intro e; rw [e] at hlt; simp at hlt
    refine ⟨l.row i item, ?_, ?_, ?_, ?_, ?_⟩
    · rw [hrows, if_neg (by simpa using hne), List.getElem?_mapIdx, hi]
      rfl
    · have := disabledAt_iff h.flags hlt
      unfold OptionList.Enabled at this
      simp only [OptionList.row]
      rw [this]
      exact ⟨fun x => x.2, fun x => ⟨hlt, x⟩⟩
    · have := disabledAt_iff h.flags hlt
      unfold OptionList.Enabled at this
      simp only [OptionList.row, Bool.and_eq_true, beq_iff_eq, Bool.not_eq_true']
      rw [this]
      exact ⟨fun x => ⟨x.1, x.2.2⟩, fun x => ⟨x.1, hlt, x.2⟩⟩
    · intro ha
      simp [OptionList.row, ha]
    · intro ha
      simp only [OptionList.row, ha, Bool.false_eq_true, if_false]
      exact Textual.Markup.escape_roundtrip ext item

example : demoList.rows = [⟨"a".toList, false, true⟩, ⟨"b".toList, true, false⟩, ⟨"c\nd".toList, false, false⟩] := by decide

/-- C79: a click on a row selects the option drawn there, if it can be chosen, and reports it; a click
elsewhere, or on a disabled option, changes nothing. -/
theorem click_exact (items : List (List Char)) (ops : List Op) (r : Nat) :
    let l := ops.foldl OptionList.step (.new items)
    l.off = false → l.visible = true →
    (∀ i, l.Enabled i → rowStart l.items i ≤ r → r < rowStart l.items (i + 1) →
      (l.step (.click r)).selected = i ∧ (l.step (.click r)).pendingSelection = some i) ∧
    ((∀ i, l.Enabled i → ¬ (rowStart l.items i ≤ r ∧ r < rowStart l.items (i + 1))) → l.step (.click r) = l) := by
  intro l ho hv
  have h : l.Ok := (ok_history items ops).1
  have hc : l.Current := (ok_history items ops).2
  have hclick : l.step (.click r) = match OptionList.indexForRow l.lineCounts 0 r with
    | some i =>
      if !l.disabledAt i then
        { (if l.selected ≠ i then { l with selected := i }.refresh else l) with pendingSelection := some i }
      else l
    | none => l := by
    simp only [OptionList.step, OptionList.click, ho, hv]
    rfl
  rw [hclick]
  constructor
  · intro i hi h1 h2
    rw [(row_index hc r i).2 ⟨hi.1, h1, h2⟩]
    dsimp only
    rw [if_pos (by rw [(disabledAt_iff h.flags hi.1).2 hi]; rfl)]
    refine ⟨?_, rfl⟩
    dsimp only
    split
    · rfl
    · rename_i e; simpa using e
  · intro hno
    split
    · rename_i i hi
      have := (row_index hc r i).1 hi
      rw [if_neg]
      intro hd
      exact hno i ((disabledAt_iff h.flags this.1).1 (by simpa using hd)) this.2
    · rfl

example : demoList.off = false ∧ demoList.visible = true ∧ demoList.Enabled 2 ∧ rowStart demoList.items 2 ≤ 3 ∧
    3 < rowStart demoList.items 3 := by
  refine ⟨by decide, by decide, ⟨by decide, by decide⟩, by decide, by decide⟩

/-- C79 is false for the reported click when the options change before it is taken: the report then names an
option that does not exist. -/
theorem stale_click_counterexample :
    ∃ (items : List (List Char)) (ops : List Op),
      let l := ops.foldl OptionList.step (.new items)
      l.pendingSelection = some 1 ∧ l.items.length = 1 :=
  ⟨["a".toList, "b".toList], [.click 1, .setItems ["c".toList]], by decide, by decide⟩

/-- C79: a report that was made since the options last changed names an option that can be chosen. -/
theorem click_report_partial (items : List (List Char)) (ops : List Op) (later : List Op)
    (hl : ∀ op ∈ later, (∀ x, op ≠ .setItems x) ∧ (∀ x, op ≠ .setItemsWithState x)) :
    let l := ops.foldl OptionList.step (.new items)
    let l' := later.foldl OptionList.step l
    l.pendingSelection = none → ∀ i, l'.pendingSelection = some i → l'.Enabled i := by
  intro l l' hnone
  have key : ∀ (later : List Op) (l : OptionList), l.Ok → l.Current → (∀ i, l.pendingSelection = some i → l.Enabled i) →
      (∀ op ∈ later, (∀ x, op ≠ .setItems x) ∧ (∀ x, op ≠ .setItemsWithState x)) →
      ∀ i, (later.foldl OptionList.step l).pendingSelection = some i → (later.foldl OptionList.step l).Enabled i := by
    intro later
    induction later with
    | nil => intro l _ _ hp _; exact hp
    | cons op later ih =>
      intro l h hc hp hl
      refine ih _ (ok_step h hc op).1 (ok_step h hc op).2 ?_ (fun o ho => hl o (by simp [ho]))
      have hop := hl op (by simp)
      have keep : ∀ l2 : OptionList, l2.items = l.items → l2.disabled = l.disabled →
          l2.pendingSelection = l.pendingSelection → ∀ i, l2.pendingSelection = some i → l2.Enabled i := by
        intro l2 e1 e2 e3 i hi
        unfold OptionList.Enabled
        rw [e1, e2]
        exact hp i (by rw [← e3]; exact hi)
      cases op with
      | up =>
        simp only [OptionList.step, OptionList.moveSelection]
        split
        · exact hp
        · split
          · exact hp
          · split
            · exact keep _ rfl rfl rfl
            · exact hp
      | down =>
        simp only [OptionList.step, OptionList.moveSelection]
        split
        · exact hp
        · split
          · exact hp
          · split
            · exact keep _ rfl rfl rfl
            · exact hp
      | otherKey => exact hp
      | click y =>
        simp only [OptionList.step, OptionList.click]
        split
        · exact hp
        · split
          · rename_i j hj
            have hlt := ((row_index hc y j).1 hj).1
            split
            · rename_i hd
              have hen := (disabledAt_iff h.flags hlt).1 (by simpa using hd)
              intro i hi
              dsimp only at hi
              cases hi
              unfold OptionList.Enabled at hen ⊢
              dsimp only
              split <;> exact hen
            · exact hp
          · exact hp
      | setItems x => exact absurd rfl (hop.1 x)
      | setItemsWithState x => exact absurd rfl (hop.2 x)
      | setMarkup allow =>
        simp only [OptionList.step, OptionList.setMarkup]
        split
        · exact keep _ rfl rfl rfl
        · exact hp
      | setSelected n =>
        simp only [OptionList.step, OptionList.setSelected]
        split
        · exact keep _ rfl rfl rfl
        · refine keep _ ?_ ?_ ?_
          · show (OptionList.normalizeSelected _).items = _; rw [normalize_same]
          · show (OptionList.normalizeSelected _).disabled = _; rw [normalize_same]
          · show (OptionList.normalizeSelected _).pendingSelection = _; rw [normalize_same]
      | takePending => intro i hi; cases hi
      | setFocus on =>
        simp only [OptionList.step]
        split
        · exact keep _ rfl rfl rfl
        · exact hp
      | setDisabled on => exact keep _ rfl rfl rfl
      | setVisible on => exact keep _ rfl rfl rfl
      | restyle => exact keep _ rfl rfl rfl
  exact key later l (ok_history items ops).1 (ok_history items ops).2 (by intro i hi; rw [hnone] at hi; cases hi) hl

example : let l := [Op.click 3].foldl OptionList.step demoList
    demoList.pendingSelection = none ∧ l.pendingSelection = some 2 := by decide

end Textual.OptionList
