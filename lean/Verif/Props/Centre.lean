import Verif.Model.Centre
import Mathlib.Tactic.Common

/-! C160: `Center` and `Middle` put their child in the middle. -/

namespace Textual.Centre

/-- The first area lies within the second. -/
def Inside (a b : Region) : Prop :=
  b.x ≤ a.x ∧ a.x + a.width ≤ b.x + b.width ∧ b.y ≤ a.y ∧ a.y + a.height ≤ b.y + b.height

/-- The interval of length `len` at `at_` is in the middle of the interval of length `total` at `start`: the space before
and after it differs by at most one cell, which goes after it. -/
def Mid (at_ len start total : Int) : Prop :=
  start ≤ at_ ∧ 0 ≤ (start + total - (at_ + len)) - (at_ - start) ∧ (start + total - (at_ + len)) - (at_ - start) ≤ 1

theorem mid_of (start total : Int) (n : Nat) (h : (n : Int) ≤ total) :
    Mid (start + max (total - n) 0 / 2) n start total := by
  unfold Mid
  rw [Int.max_eq_left (by omega)]
  omega

/-- A child that fits is in the middle of the area, across for `Center` and down for `Middle`, with its own size in that
direction and the whole size in the other, and stays inside. -/
theorem in_the_middle_partial (a : Axis) (c : Child) (r q : Region) (hd : drawn a c r = some q)
    (hw : a = .center → (c.width : Int) ≤ r.width) (hh : a = .middle → (c.height : Int) ≤ r.height) :
    Inside q r ∧
      (a = .center → Mid q.x q.width r.x r.width ∧ q.width = c.width ∧ q.y = r.y ∧ q.height = r.height) ∧
      (a = .middle → Mid q.y q.height r.y r.height ∧ q.height = c.height ∧ q.x = r.x ∧ q.width = r.width) := by
  unfold drawn at hd
  split at hd
  · exact absurd hd (by simp)
  · cases hd
    cases a
    · have hm := mid_of r.x r.width c.width (hw rfl)
      refine ⟨?_, fun _ => ⟨hm, rfl, rfl, rfl⟩, fun h => by cases h⟩
      obtain ⟨h1, h2, h3⟩ := hm
      exact ⟨h1, by show r.x + _ + (c.width : Int) ≤ _; omega, Int.le_refl _, Int.le_refl _⟩
    · have hm := mid_of r.y r.height c.height (hh rfl)
      refine ⟨?_, (fun h => absurd h (by decide)), fun _ => ⟨hm, rfl, rfl, rfl⟩⟩
      obtain ⟨h1, h2, h3⟩ := hm
      exact ⟨Int.le_refl _, Int.le_refl _, h1, by show r.y + _ + (c.height : Int) ≤ _; omega⟩

example : drawn .center ⟨5, 1, true, false⟩ ⟨10, 2, 12, 3⟩ = some ⟨13, 2, 5, 3⟩ := by decide

/-- One inside the other puts the child in the middle both ways, with its own size. -/
theorem both_partial (a : Axis) (c : Child) (r q : Region) (hv : c.visible = true)
    (hw : (c.width : Int) ≤ r.width) (hh : (c.height : Int) ≤ r.height)
    (hd : ((drawn a (asChild c) r).bind fun s => drawn (if a = .center then .middle else .center) c s) = some q) :
    Inside q r ∧ Mid q.x c.width r.x r.width ∧ Mid q.y c.height r.y r.height ∧
      q.width = c.width ∧ q.height = c.height := by
  have hx := mid_of r.x r.width c.width hw
  have hy := mid_of r.y r.height c.height hh
  cases a
  · simp only [drawn, asChild, size, hv, place, centered, middled, Bool.not_true, Bool.false_eq_true, if_false,
      if_true, Option.bind_some, Option.some.injEq, reduceCtorEq] at hd
    subst hd
    refine ⟨?_, hx, hy, rfl, rfl⟩
    obtain ⟨h1, h2, h3⟩ := hx
    obtain ⟨k1, k2, k3⟩ := hy
    exact ⟨h1, by show r.x + _ + (c.width : Int) ≤ _; omega, k1, by show r.y + _ + (c.height : Int) ≤ _; omega⟩
  · simp only [drawn, asChild, size, hv, place, centered, middled, Bool.not_true, Bool.false_eq_true, if_false,
      if_true, Option.bind_some, Option.some.injEq, reduceCtorEq] at hd
    subst hd
    refine ⟨?_, hx, hy, rfl, rfl⟩
    obtain ⟨h1, h2, h3⟩ := hx
    obtain ⟨k1, k2, k3⟩ := hy
    exact ⟨h1, by show r.x + _ + (c.width : Int) ≤ _; omega, k1, by show r.y + _ + (c.height : Int) ≤ _; omega⟩

example : ((drawn .middle (asChild ⟨5, 1, true, false⟩) ⟨10, 2, 12, 4⟩).bind fun s =>
    drawn .center ⟨5, 1, true, false⟩ s) = some ⟨13, 3, 5, 1⟩ := by decide

/-- The child gets the mouse events with the area it is drawn in, and none while it is hidden. -/
theorem mouse_where_drawn (a : Axis) (c : Child) (r : Region) :
    heard a c r = drawn a c r ∧ (c.visible = false → drawn a c r = none ∧ size c = (0, 0)) :=
  ⟨rfl, fun h => by simp [drawn, size, h]⟩

example : drawn .center { width := 3, height := 1, visible := false } ⟨0, 0, 9, 9⟩ = none := by decide

/-- A child that is larger than the area is not cut: the area it is given sticks out of that of the container. This
holds for each child that fills the space there is, whose size is the largest number. -/
theorem large_counterexample (c : Child) (r : Region) (hv : c.visible = true) (h0 : 0 ≤ r.width) (h : r.width < c.width) :
    ∃ q, drawn .center c r = some q ∧ ¬ Inside q r := by
  refine ⟨centered c r, by simp [drawn, hv, place], fun hi => ?_⟩
  have h2 := hi.2.1
  simp only [centered] at h2
  rw [Int.max_eq_right (by omega)] at h2
  omega

example : drawn .center ⟨65535, 65535, true, false⟩ ⟨0, 0, 20, 5⟩ = some ⟨0, 0, 65535, 5⟩ := by decide

/-- A child with `display: none` is drawn, and takes up space. -/
theorem display_counterexample :
    ∃ c : Child, c.displayNone = true ∧ drawn .center c ⟨0, 0, 9, 1⟩ ≠ none ∧ size c ≠ (0, 0) :=
  ⟨⟨3, 1, true, true⟩, rfl, by decide, by decide⟩

/-- **C160**: neither is made with no child or with more than one. -/
theorem one_child (children : List Child) : new children ≠ none ↔ children.length = 1 := by
  match children with
  | [] => simp [new]
  | [_] => simp [new]
  | _ :: _ :: _ => simp [new]

example : new [⟨1, 1, true, false⟩] = some ⟨1, 1, true, false⟩ ∧ new [⟨1, 1, true, false⟩, ⟨2, 2, true, false⟩] = none := by
  decide

end Textual.Centre
