import Verif.Props.OptionList

/-! Every option that can be chosen can be reached with the keys (C78). -/

namespace Textual.OptionList

open OptionList (Op)

/-- Moving the selection changes neither the options nor whether the list answers. -/
theorem move_keeps (l : OptionList) (d : Int) : (l.moveSelection d).items = l.items ∧
    (l.moveSelection d).disabled = l.disabled ∧ (l.moveSelection d).off = l.off ∧
    (l.moveSelection d).visible = l.visible := by
  unfold OptionList.moveSelection
  split
  · exact ⟨rfl, rfl, rfl, rfl⟩
  · split <;> exact ⟨rfl, rfl, rfl, rfl⟩

theorem arrow_keeps (l : OptionList) {k : Op} (hk : k = .up ∨ k = .down) : (l.step k).items = l.items ∧
    (l.step k).disabled = l.disabled ∧ (l.step k).off = l.off ∧ (l.step k).visible = l.visible := by
  rcases hk with rfl | rfl <;> unfold OptionList.step <;> dsimp only <;> split
  all_goals first
    | exact ⟨rfl, rfl, rfl, rfl⟩
    | exact move_keeps l _

/-- C78: whatever happened before, each option that can be chosen is reached from the selected one by pressing one of the
arrow keys, not more often than there are options between. -/
theorem keys_reach (items : List (List Char)) (ops : List Op) (j : Nat) :
    let l := ops.foldl OptionList.step (.new items)
    l.off = false → l.visible = true → l.Enabled j →
    (l.selected ≤ j → ∃ n, n ≤ j - l.selected ∧ ((List.replicate n Op.down).foldl OptionList.step l).selected = j) ∧
    (j ≤ l.selected → ∃ n, n ≤ l.selected - j ∧ ((List.replicate n Op.up).foldl OptionList.step l).selected = j) := by
  intro l ho hv hj
  constructor
  · intro hle
    generalize hd : j - l.selected = d
    induction d using Nat.strong_induction_on generalizing ops with
    | _ d ih =>
    by_cases he : l.selected = j
    · exact ⟨0, Nat.zero_le _, he⟩
    · obtain ⟨k, hk⟩ := exists_next hj (show l.selected < j by omega)
      have hs := (keys_select items ops ho hv).1 k hk
      have hkj : k ≤ j := by
        by_contra h
        exact hk.2.2 j (by omega) (by omega) hj
      have h1 := hk.1
      obtain ⟨a1, a2, a3, a4⟩ := arrow_keeps l (k := .down) (Or.inr rfl)
      have e : l.step .down = (ops ++ [Op.down]).foldl OptionList.step (.new items) := by
        rw [List.foldl_append]; rfl
      have hs' : ((ops ++ [Op.down]).foldl OptionList.step (.new items)).selected = k := by rw [← e]; exact hs
      obtain ⟨n, hn, hr⟩ := ih (j - k) (by omega) (ops ++ [Op.down]) (by rw [← e, a3]; exact ho) (by rw [← e, a4]; exact hv)
        (by rw [← e]; unfold OptionList.Enabled; rw [a1, a2]; exact hj) (by rw [hs']; exact hkj) (by rw [hs'])
      refine ⟨n + 1, by omega, ?_⟩
      rw [List.replicate_succ, List.foldl_cons, e]
      exact hr
  · intro hle
    generalize hd : l.selected - j = d
    induction d using Nat.strong_induction_on generalizing ops with
    | _ d ih =>
    by_cases he : l.selected = j
    · exact ⟨0, Nat.zero_le _, he⟩
    · obtain ⟨k, hk⟩ := exists_prev hj (show j < l.selected by omega)
      have hs := (keys_select items ops ho hv).2.2.1 k hk
      have hkj : j ≤ k := by
        by_contra h
        exact hk.2.2 j (by omega) (by omega) hj
      have h1 := hk.1
      obtain ⟨a1, a2, a3, a4⟩ := arrow_keeps l (k := .up) (Or.inl rfl)
      have e : l.step .up = (ops ++ [Op.up]).foldl OptionList.step (.new items) := by
        rw [List.foldl_append]; rfl
      have hs' : ((ops ++ [Op.up]).foldl OptionList.step (.new items)).selected = k := by rw [← e]; exact hs
      obtain ⟨n, hn, hr⟩ := ih (l.selected - j - (l.selected - k)) (by omega) (ops ++ [Op.up]) (by rw [← e, a3]; exact ho)
        (by rw [← e, a4]; exact hv) (by rw [← e]; unfold OptionList.Enabled; rw [a1, a2]; exact hj) (by rw [hs']; exact hkj)
        (by rw [hs']; omega)
      refine ⟨n + 1, by omega, ?_⟩
      rw [List.replicate_succ, List.foldl_cons, e]
      exact hr

example : demoList.off = false ∧ demoList.visible = true ∧ demoList.Enabled 2 ∧ demoList.selected = 0 ∧
    ((List.replicate 1 Op.down).foldl OptionList.step demoList).selected = 2 := by
  refine ⟨by decide, by decide, ⟨by decide, by decide⟩, by decide, by decide⟩

end Textual.OptionList
