import Verif.Model.Sender
import Mathlib.Tactic.Common

/-! C161, C162: the sender of a message, and what is on top gets the mouse. -/

namespace Textual.Sender

variable {Ev M : Type}

/-- A widget of the tree, known as `i`, itself makes the message `m` on the event `e`. -/
inductive Makes : W Ev M → Info → M → Ev → Prop where
  | leaf {who react e r m} : react e r = some m → Makes (.leaf who react) who m e
  | own {who own route cs e r m} : own e r = some m → Makes (.group who own route cs) who m e
  | child {who own route cs c i m e} : c ∈ cs → Makes c i m e → Makes (.group who own route cs) i m e
  | centre {who shown place c i m e} : Makes c i m e → Makes (.centre who shown place c) i m e

/-- No `Center` or `Middle` in the tree. -/
inductive Plain : W Ev M → Prop where
  | leaf {who react} : Plain (.leaf who react)
  | group {who own route cs} : (∀ c ∈ cs, Plain c) → Plain (.group who own route cs)

theorem mouseAll_eq (cs : List (W Ev M)) : mouseAll cs = cs.map mouse := by
  induction cs with
  | nil => rfl
  | cons c cs ih => simp [mouseAll, ih]

theorem mouseFromAll_eq (cs : List (W Ev M)) : mouseFromAll cs = cs.map mouseFrom := by
  induction cs with
  | nil => rfl
  | cons c cs ih => simp [mouseFromAll, ih]

/-- An answer of a child is the answer of some child. -/
theorem asked_child {α : Type} (f : W Ev M → Ev → Region → Option α) (cs : List (W Ev M)) (e : Ev)
    (ps : List (Nat × Region)) (a : α)
    (h : (ps.findSome? fun p => ((cs.map f)[p.1]?).bind fun g => g e p.2) = some a) :
    ∃ c ∈ cs, ∃ r, f c e r = some a := by
  obtain ⟨p, _, hp⟩ := List.exists_of_findSome?_eq_some h
  rw [List.getElem?_map] at hp
  cases hc : cs[p.1]? with
  | none => rw [hc] at hp; simp at hp
  | some c => rw [hc] at hp; exact ⟨c, List.mem_of_getElem? hc, p.2, hp⟩

/-- Every message was made by some widget of the tree. -/
theorem made (w : W Ev M) (e : Ev) (r : Region) (m : M) (h : mouse w e r = some m) : ∃ i, Makes w i m e := by
  match w with
  | .leaf who react => exact ⟨who, .leaf (by rwa [mouse] at h)⟩
  | .group who own route cs =>
    rw [mouse] at h
    split at h
    · rename_i m' hm
      exact ⟨who, .own (by rw [hm]; exact h)⟩
    · rw [mouseAll_eq] at h
      obtain ⟨c, hc, q, hq⟩ := asked_child _ _ _ _ _ h
      have := List.sizeOf_lt_of_mem hc
      obtain ⟨i, hi⟩ := made c e q m hq
      exact ⟨i, .child hc hi⟩
  | .centre who shown place c =>
    rw [mouse] at h
    split at h
    · exact absurd h (by simp)
    · obtain ⟨i, hi⟩ := made c e _ m h
      exact ⟨i, .centre hi⟩
termination_by w
decreasing_by all_goals (simp_wf; try omega)

/-- With the sender or without it, the message is the same. -/
theorem same_message (w : W Ev M) (e : Ev) (r : Region) : (mouseFrom w e r).map Prod.fst = mouse w e r := by
  match w with
  | .leaf who react => rw [mouseFrom, mouse, Option.map_map]; exact Option.map_id'
  | .group who own route cs =>
    rw [mouseFrom, mouse, mouseAll_eq, mouseFromAll_eq]
    cases own e r with
    | some m => rfl
    | none =>
      dsimp only
      rw [List.map_findSome?]
      congr 1
      funext p
      show Option.map Prod.fst (((cs.map mouseFrom)[p.1]?).bind fun f => f e p.2) =
        ((cs.map mouse)[p.1]?).bind fun f => f e p.2
      rw [List.getElem?_map, List.getElem?_map]
      cases hc : cs[p.1]? with
      | none => rfl
      | some c =>
        have := List.sizeOf_lt_of_mem (List.mem_of_getElem? hc)
        exact same_message c e p.2
  | .centre who shown place c => rw [mouseFrom, Option.map_map]; exact Option.map_id'
termination_by w
decreasing_by all_goals (simp_wf; try omega)

/-- The message of a mouse event comes with the widget that made it, as long as there is no `Center` or `Middle`. -/
theorem sender_partial (w : W Ev M) (hp : Plain w) (e : Ev) (r : Region) (m : M) (i : Info)
    (h : mouseFrom w e r = some (m, i)) : Makes w i m e := by
  match w, hp with
  | .leaf who react, _ =>
    rw [mouseFrom, Option.map_eq_some_iff] at h
    obtain ⟨m', hm, he⟩ := h
    cases he
    exact .leaf hm
  | .group who own route cs, .group hcs =>
    rw [mouseFrom] at h
    split at h
    · rename_i m' hm
      cases h
      exact .own hm
    · rw [mouseFromAll_eq] at h
      obtain ⟨c, hc, q, hq⟩ := asked_child _ _ _ _ _ h
      have := List.sizeOf_lt_of_mem hc
      exact .child hc (sender_partial c (hcs c hc) e q m i hq)
termination_by w
decreasing_by all_goals (simp_wf; try omega)

/-- A button in a `Center`: pressed with the mouse, the message says that it comes from the `Center`, which made
nothing. -/
def saved : W Unit Nat :=
  .centre ⟨none, "Center"⟩ true id (.leaf ⟨some "save", "Button"⟩ fun _ _ => some 1)

example : Plain (.group ⟨none, "Container"⟩ (fun _ _ => none) (fun _ r => [(0, r)])
      [.leaf ⟨some "save", "Button"⟩ fun (_ : Unit) _ => some 1]) ∧
    mouseFrom (.group ⟨none, "Container"⟩ (fun _ _ => none) (fun _ r => [(0, r)])
      [.leaf ⟨some "save", "Button"⟩ fun (_ : Unit) _ => some 1]) () ⟨0, 0, 9, 1⟩ =
      some (1, ⟨some "save", "Button"⟩) :=
  ⟨.group fun c hc => by simp at hc; subst hc; exact .leaf, rfl⟩

theorem sender_counterexample :
    ∃ i, mouseFrom saved () ⟨0, 0, 9, 1⟩ = some (1, i) ∧ ¬ Makes saved i 1 () := by
  refine ⟨⟨none, "Center"⟩, rfl, fun h => ?_⟩
  cases h with
  | centre h => cases h

/-! ### Layers -/

/-- The layers from the top down to the first that blocks. -/
def reach {α : Type} : List (Layer α) → List (Layer α)
  | [] => []
  | l :: ls => if l.blocks then [l] else l :: reach ls

/-- The message is that of the topmost widget that answers, and the widgets below it do not get the event. -/
theorem topmost {α : Type} (ls : List (Layer α)) :
    (sweep ls).2 = ls.findSome? Layer.answer ∧
      ∀ l ∈ ls.take ((sweep ls).1 - 1), l.answer = none := by
  induction ls with
  | nil => exact ⟨rfl, fun l hl => by simp at hl⟩
  | cons l ls ih =>
    unfold sweep
    rw [List.findSome?_cons]
    cases ha : l.answer with
    | some m => exact ⟨rfl, fun l hl => by simp at hl⟩
    | none =>
      dsimp only
      rw [if_neg (by simp [Layer.asked])]
      refine ⟨ih.1, fun k hk => ?_⟩
      rw [Nat.add_sub_cancel] at hk
      by_cases h0 : (sweep ls).1 = 0
      · rw [h0] at hk; simp at hk
      · rw [show (sweep ls).1 = ((sweep ls).1 - 1) + 1 by omega, List.take_succ_cons, List.mem_cons] at hk
        rcases hk with rfl | hk
        · exact ha
        · exact ih.2 k hk

example : sweep [⟨none, false⟩, ⟨some 3, false⟩, ⟨some 4, false⟩] = (2, some 3) := by decide

/-- While the palette is open, the event loop asks nothing behind it. -/
theorem palette_alone {α : Type} (l : Layer α) (ls : List (Layer α)) : loop true (l :: ls) = (1, l.answer) := rfl

example : loop true [⟨none, true⟩, ⟨some 3, false⟩] = (1, none) := by decide

/-- Nothing behind a widget that blocks the mouse gets the event, if the widget that blocks answers. -/
theorem blocks_partial {α : Type} (ls : List (Layer α)) (h : ∀ l ∈ ls, l.blocks = true → l.answer ≠ none) :
    (sweep ls).1 ≤ (reach ls).length := by
  induction ls with
  | nil => exact Nat.le_refl _
  | cons l ls ih =>
    unfold sweep reach
    cases ha : l.answer with
    | some m => by_cases hb : l.blocks = true <;> simp [hb]
    | none =>
      rw [if_neg (fun hb => h l (by simp) hb ha)]
      dsimp only
      rw [if_neg (by simp [Layer.asked])]
      have := ih fun k hk => h k (by simp [hk])
      simp only [List.length_cons]
      omega

example : ∀ l ∈ [(⟨none, false⟩ : Layer Nat), ⟨some 1, true⟩, ⟨some 2, false⟩], l.blocks = true → l.answer ≠ none := by
  decide

/-- A widget that blocks the mouse and does not answer: what is behind it gets the event all the same. -/
theorem blocks_counterexample :
    let ls : List (Layer Nat) := [⟨none, true⟩, ⟨some 7, false⟩]
    (reach ls).length = 1 ∧ sweep ls = (2, some 7) := by decide

end Textual.Sender
