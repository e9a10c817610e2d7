import Verif.Model.Pointer
import Verif.Model.Wheel
import Verif.Props.Clicks

/-!
# The button under the pointer is shown as hovered, no other (C205)
-/

namespace Textual.Clicks

open Layout (Viewport)
open Press (Button)
open Nest (Node Good NoOverlap SeenAt painted reach)
open Scroller (At OnScreen)

theorem clear_hovered (b : Button) : b.clearHover.hovered = false := by
  obtain ⟨f, h, a, d, ac, p, pe, di⟩ := b
  cases h <;> rfl

theorem onMouse_hovered (b : Button) (e : Press.Mouse) (r : Region) :
    (b.onMouse e r).2.hovered = if e.kind = .moved then r.containsPoint e.column e.row else b.hovered := by
  obtain ⟨f, h, a, d, ac, p, pe, di⟩ := b
  obtain ⟨k, x, y⟩ := e
  generalize hi : r.containsPoint x y = c
  cases k with
  | moved => cases c <;> cases h <;> simp [Button.onMouse, hi]
  | down g => cases g <;> cases c <;> cases a <;> cases d <;> simp [Button.onMouse, hi]
  | up g => cases g <;> cases c <;> cases a <;> cases d <;> cases ac <;> simp [Button.onMouse, Button.press, hi]
  | drag g => simp [Button.onMouse]
  | other => simp [Button.onMouse]

theorem give_hovered (e : Press.Mouse) (he : e.kind ≠ .moved) (l : List (Nat × Region)) (s : Nat → Button) (i : Nat) :
    ((give e l s).2 i).hovered = (s i).hovered := by
  induction l generalizing s with
  | nil => rfl
  | cons x l ih =>
    obtain ⟨j, r⟩ := x
    simp only [give]
    rw [ih]
    by_cases h : i = j
    · subst h; rw [if_pos rfl, onMouse_hovered, if_neg he]
    · rw [if_neg h]

/-- **C205**: an event that is no move leaves the hover of every button as it is, wherever it is and whatever the tree. -/
theorem point_other (s : Nat → Button) (t : Touch) (h : t.event.kind ≠ .moved) (i : Nat) :
    ((point s t).2 i).hovered = (s i).hovered := by
  simp only [point, clearAll, if_neg h, step, Button.take]
  exact give_hovered _ h _ _ _

/-- **C205**: after a move the button seen under the pointer is hovered and all others are not. -/
theorem point_move_partial (s : Nat → Button) (t : Touch) (h : t.event.kind = .moved) (hf : t.Fair) (i : Nat) :
    ((point s t).2 i).hovered = true ↔ t.On i := by
  by_cases ho : ∃ j, t.On j
  · obtain ⟨j, hj⟩ := ho
    obtain ⟨r, hr, e⟩ := step_on (clearAll s t) t hf j hj
    simp only [point, e]
    by_cases hij : i = j
    · subst hij
      simp [onMouse_hovered, h, hr, hj]
    · rw [if_neg hij]
      simp only [clearAll, if_pos h, clear_hovered, Bool.false_eq_true, false_iff]
      exact fun hi => hij (on_unique t hf i j hi hj)
  · have hn : ∀ j, ¬ t.On j := fun j hj => ho ⟨j, hj⟩
    have e := (reached (clearAll s t) t hf).2 hn
    simp only [point, step, e, give, Button.take]
    simp only [clearAll, if_pos h, clear_hovered, Bool.false_eq_true, false_iff]
    exact hn i

/-- **C205** (partial: the last move is inside the screen and the containers are as in C174; see the counterexamples). In any
tree of containers, after any history of mouse events, a button is shown as hovered just if it was seen under the pointer at
the last move. The trees and sizes may differ from event to event, and nothing is asked of the events before and after the
move. -/
theorem hover_tree_partial (s : Nat → Button) (before later : List Touch) (t : Touch) (h : t.event.kind = .moved)
    (hf : t.Fair) (hl : ∀ u ∈ later, u.event.kind ≠ .moved) (i : Nat) :
    (pointed s (before ++ t :: later) i).hovered = true ↔ t.On i := by
  have keep : ∀ (later : List Touch) (s : Nat → Button), (∀ u ∈ later, u.event.kind ≠ .moved) →
      (pointed s later i).hovered = (s i).hovered := by
    intro later
    induction later with
    | nil => intro s _; rfl
    | cons u l ih =>
      intro s hu
      show (pointed (point s u).2 l i).hovered = _
      rw [ih _ fun v hv => hu v (List.mem_cons_of_mem _ hv), point_other s u (hu u (List.mem_cons_self ..))]
  have e : pointed s (before ++ t :: later) = pointed (point (pointed s before) t).2 later := by
    simp only [pointed, List.foldl_append, List.foldl_cons]
  rw [e, keep later _ hl]
  exact point_move_partial _ t h hf i

/-- At most one button is shown as hovered. -/
theorem hover_one_partial (s : Nat → Button) (before later : List Touch) (t : Touch) (h : t.event.kind = .moved)
    (hf : t.Fair) (hl : ∀ u ∈ later, u.event.kind ≠ .moved) (i j : Nat)
    (hi : (pointed s (before ++ t :: later) i).hovered = true)
    (hj : (pointed s (before ++ t :: later) j).hovered = true) : i = j :=
  on_unique t hf i j ((hover_tree_partial s before later t h hf hl i).1 hi)
    ((hover_tree_partial s before later t h hf hl j).1 hj)

/-! ### The messages are those of C196 -/

/-- The buttons differ at most in hover and the flag to redraw. -/
def Alike (a b : Button) : Prop := { a with hovered := b.hovered, dirty := b.dirty } = b

theorem Alike.onMouse (a b : Button) (h : Alike a b) (e : Press.Mouse) (r : Region) :
    (a.onMouse e r).1 = (b.onMouse e r).1 ∧ Alike (a.onMouse e r).2 (b.onMouse e r).2 := by
  unfold Alike at h
  generalize b.hovered = bh at h
  generalize b.dirty = bd at h
  subst h
  obtain ⟨f, h, a, d, ac, p, pe, di⟩ := a
  obtain ⟨k, x, y⟩ := e
  generalize hi : r.containsPoint x y = c
  cases k with
  | moved => cases c <;> cases h <;> cases bh <;> simp [Button.onMouse, hi, Alike]
  | down g => cases g <;> cases c <;> cases a <;> cases d <;> simp [Button.onMouse, hi, Alike]
  | up g => cases g <;> cases c <;> cases a <;> cases d <;> cases ac <;> simp [Button.onMouse, Button.press, hi, Alike]
  | drag g => simp [Button.onMouse, Alike]
  | other => simp [Button.onMouse, Alike]

theorem Alike.clear (a b : Button) (h : Alike a b) : Alike a b.clearHover := by
  unfold Alike at h
  generalize b.hovered = bh at h
  generalize b.dirty = bd at h
  subst h
  unfold Button.clearHover
  split <;> rfl

theorem alike_give (e : Press.Mouse) (l : List (Nat × Region)) (s u : Nat → Button) (h : ∀ i, Alike (s i) (u i)) :
    (give e l s).1 = (give e l u).1 ∧ ∀ i, Alike ((give e l s).2 i) ((give e l u).2 i) := by
  induction l generalizing s u with
  | nil => exact ⟨rfl, h⟩
  | cons x l ih =>
    obtain ⟨j, r⟩ := x
    obtain ⟨m1, m2⟩ := (h j).onMouse _ _ e r
    have := ih (fun k => if k = j then ((s j).onMouse e r).2 else s k)
      (fun k => if k = j then ((u j).onMouse e r).2 else u k) (by
        intro k
        by_cases hk : k = j
        · simpa [hk] using m2
        · simpa [hk] using h k)
    simp only [give, m1, this.1]
    exact ⟨trivial, this.2⟩

theorem alike_answering (e : Press.Mouse) (s u : Nat → Button) (h : ∀ i, Alike (s i) (u i)) (n : Node) :
    answering s e n = answering u e n := by
  induction n with
  | leaf i a => simp only [answering, ((h i).onMouse _ _ e _).1]
  | box b child ih => simp only [answering, ih]

theorem alike_step (s u : Nat → Button) (h : ∀ i, Alike (s i) (u i)) (t : Touch) :
    (step s t).1 = (step u t).1 ∧ ∀ i, Alike ((step s t).2 i) ((step u t).2 i) := by
  have g := alike_give t.event (reach t.viewport t.mouse (answering u t.event t.node) t.screen).1 s u h
  simp only [step, alike_answering t.event s u h, g.1, Button.take]
  refine ⟨?_, fun i => ?_⟩
  · congr 1
    funext i
    have := g.2 i
    unfold Alike at this
    rw [← this]
  · have := g.2 i
    unfold Alike at this ⊢
    rw [← this]

/-- **C205**: clearing the hover at a move does not change what the program is told: after any history it is that of
`Model/Clicks.lean`, so that C196 holds with the clearing as well. -/
theorem told_same (s : Nat → Button) (ts : List Touch) (t : Touch) :
    (point (pointed s ts) t).1 = (step (after s ts) t).1 := by
  have all : ∀ (ts : List Touch) (s u : Nat → Button), (∀ i, Alike (s i) (u i)) →
      ∀ i, Alike (after s ts i) (pointed u ts i) := by
    intro ts
    induction ts with
    | nil => intro s u h; exact h
    | cons t ts ih =>
      intro s u h
      refine ih _ _ (alike_step s (clearAll u t) (fun i => ?_) t).2
      unfold clearAll
      split
      · exact (h i).clear
      · exact h i
  refine (alike_step _ (clearAll (pointed s ts) t) (fun i => ?_) t).1.symm
  have := all ts s s (fun _ => rfl) i
  unfold clearAll
  split
  · exact this.clear
  · exact this

/-- The pointer comes to the card of `Nest.tree`, which is then pressed and dragged off. -/
example : let s : Nat → Button := fun _ => {}
    let t := touch .moved 3 4
    let later := [touch (.down .left) 3 4, touch (.drag .left) 3 6]
    t.Fair ∧ t.On 11 ∧ (∀ u ∈ later, u.event.kind ≠ .moved) ∧
    ∀ i, (pointed s ([touch .moved 3 6] ++ t :: later) i).hovered = true ↔ i = 11 := by
  intro s t later
  have hf : t.Fair := touch_fair _ _ _ (by decide) (by decide) (by decide)
  have ho : t.On 11 := by
    refine touch_painted _ _ _ 11 (11, ⟨1, 3, 8, 6⟩, [⟨1, 1, 16, 4⟩, ⟨0, 0, 20, 10⟩]) rfl ?_ ?_
    · decide +kernel
    · simp only [SeenAt, At, List.mem_cons, List.not_mem_nil, or_false, forall_eq_or_imp, forall_eq]
      omega
  have hl : ∀ u ∈ later, u.event.kind ≠ .moved := by
    intro d hd
    simp only [later, List.mem_cons, List.not_mem_nil, or_false] at hd
    rcases hd with rfl | rfl <;> decide
  refine ⟨hf, ho, hl, fun i => ?_⟩
  rw [hover_tree_partial s [touch .moved 3 6] later t rfl hf hl i]
  exact ⟨fun h => on_unique t hf i 11 h ho, fun h => h ▸ ho⟩

/-- Two cards in a container that scrolls, the pointer rests in its sixth row. -/
def column (st : ScrollState) : Nest.Box := .scroller {}
  { arrange := fun a _ => [⟨0, ⟨a.x, a.y, 8, 6⟩⟩, ⟨1, ⟨a.x, a.y + 6, 8, 6⟩⟩] } { scroll := st }

def rest (st : ScrollState) (k : Press.Kind) : Touch :=
  ⟨⟨k, 3, 5⟩, .box (column st) fun j => .leaf (10 + j) true, ⟨0, 0, 20, 10⟩, ⟨20, 10⟩⟩

/-- **C205** fails if the content moves under the pointer: after a turn of the wheel the second card is seen under the pointer,
the first is still shown as hovered. -/
theorem wheel_counterexample : let s : Nat → Button := fun _ => {}
    let old : ScrollState := ⟨0, 0, 0, 0, 0, 0⟩
    let new := (column old).wheeled ⟨20, 10⟩ ⟨0, 0, 20, 10⟩ ⟨.scrollDown, 3, 5, false⟩
    (rest new .moved).On 11 ∧
    (pointed s [rest old .moved, rest old .other] 10).hovered = true ∧
    (pointed s [rest old .moved, rest old .other] 11).hovered = false := by
  refine ⟨⟨⟨0, 5, 8, 6⟩, [⟨0, 0, 18, 10⟩], ?_, ?_⟩, ?_⟩
  · decide +kernel
  · simp only [SeenAt, At, rest, List.mem_cons, List.not_mem_nil, or_false, forall_eq]
    omega
  · decide +kernel

/-- **C205** fails for buttons in a plain container with a border, as C196: the pointer is over the lower row of the first, the
second is shown as hovered. -/
theorem hover_border_counterexample : let s : Nat → Button := fun _ => {}
    (bordered .moved 3 2).On 10 ∧
    (pointed s [bordered .moved 3 2] 10).hovered = false ∧ (pointed s [bordered .moved 3 2] 11).hovered = true := by
  refine ⟨⟨⟨1, 1, 8, 2⟩, [⟨1, 1, 18, 6⟩, ⟨0, 0, 20, 10⟩], ?_, ?_⟩, ?_⟩
  · decide +kernel
  · simp only [SeenAt, At, bordered, List.mem_cons, List.not_mem_nil, or_false, forall_eq_or_imp, forall_eq]
    omega
  · decide +kernel

end Textual.Clicks
