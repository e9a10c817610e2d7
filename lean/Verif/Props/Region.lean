import Verif.Model.Region

/-! C03: region intersection is point-set intersection. -/

namespace Textual.Region

/-- C03: a point is in the intersection exactly when it is in both regions. No hypothesis about
sizes: the saturating arithmetic is part of the model. -/
theorem mem_intersection (a b : Region) (x y : Int) :
    (a.intersection b).containsPoint x y = (a.containsPoint x y && b.containsPoint x y) := by
  have key : ∀ p q : Int, -2147483648 ≤ satAdd p q ∧ satAdd p q ≤ 2147483647 := by
    intro p q; unfold satAdd; omega
  have h1 := key a.x a.width; have h2 := key b.x b.width
  have h3 := key a.y a.height; have h4 := key b.y b.height
  unfold intersection containsPoint
  simp only
  generalize satAdd a.x a.width = ax at *
  generalize satAdd b.x b.width = bx at *
  generalize satAdd a.y a.height = ay at *
  generalize satAdd b.y b.height = byy at *
  rw [Bool.eq_iff_iff]
  simp only [Bool.and_eq_true, decide_eq_true_eq]
  split <;> simp only [satAdd] <;> omega

/-- C03: the point set does not depend on the order of the arguments. -/
theorem intersection_comm (a b : Region) : a.intersection b = b.intersection a := by
  simp only [intersection, Int.max_comm a.x, Int.max_comm a.y, Int.min_comm (satAdd a.x a.width),
    Int.min_comm (satAdd a.y a.height)]

/-- C03: associativity on point sets. -/
theorem mem_intersection_assoc (a b c : Region) (x y : Int) :
    ((a.intersection b).intersection c).containsPoint x y =
      (a.intersection (b.intersection c)).containsPoint x y := by
  simp [mem_intersection, Bool.and_assoc]

/-- C03: idempotence on point sets. -/
theorem mem_intersection_self (a : Region) (x y : Int) :
    (a.intersection a).containsPoint x y = a.containsPoint x y := by
  simp [mem_intersection]

/-- C03: `is_empty` of an intersection is true exactly when no point is shared. -/
theorem isEmpty_intersection (a b : Region) :
    (a.intersection b).isEmpty = true ↔ ∀ x y, ¬ (a.containsPoint x y = true ∧ b.containsPoint x y = true) := by
  constructor
  · intro h x y hxy
    have : (a.intersection b).containsPoint x y = true := by rw [mem_intersection]; simp [hxy]
    revert h this
    unfold isEmpty containsPoint intersection
    simp only
    split
    · rename_i hc; simp; omega
    · simp [satAdd]; omega
  · intro h
    have hx := h (max a.x b.x) (max a.y b.y)
    revert hx
    rw [← Bool.and_eq_true, ← mem_intersection]
    unfold isEmpty intersection containsPoint
    simp only
    split
    · rename_i hc
      intro hx
      exfalso; apply hx
      have key : ∀ p q : Int, -2147483648 ≤ satAdd p q ∧ satAdd p q ≤ 2147483647 := by
        intro p q; unfold satAdd; omega
      have h1 := key a.x a.width; have h2 := key b.x b.width
      have h3 := key a.y a.height; have h4 := key b.y b.height
      generalize satAdd a.x a.width = ax at *
      generalize satAdd b.x b.width = bx at *
      generalize satAdd a.y a.height = ay at *
      generalize satAdd b.y b.height = byy at *
      simp only [Bool.and_eq_true, decide_eq_true_eq]
      simp only [satAdd]
      omega
    · simp

/-- C03: an intersection never has a negative size. -/
theorem intersection_size_nonneg (a b : Region) :
    0 ≤ (a.intersection b).width ∧ 0 ≤ (a.intersection b).height := by
  unfold intersection; simp only; split <;> simp <;> omega

/-- C03: `is_empty` is true exactly when the region holds no point, for regions whose edges are `i32`. -/
theorem isEmpty_exact (r : Region) (hx : -2147483648 ≤ r.x) (hy : -2147483648 ≤ r.y)
    (hw : r.x + r.width ≤ 2147483647) (hh : r.y + r.height ≤ 2147483647) :
    r.isEmpty = true ↔ ∀ x y, r.containsPoint x y = false := by
  have key : ∀ p q : Int, -2147483648 ≤ p → p + q ≤ 2147483647 →
      (q ≤ 0 → satAdd p q ≤ p) ∧ (0 < q → satAdd p q = p + q) := by
    intro p q; unfold satAdd; omega
  have h1 := key r.x r.width hx hw
  have h2 := key r.y r.height hy hh
  unfold isEmpty containsPoint
  generalize satAdd r.x r.width = ax at *
  generalize satAdd r.y r.height = ay at *
  constructor
  · intro h x y
    simp only [Bool.or_eq_true, decide_eq_true_eq] at h
    rw [Bool.eq_false_iff]
    intro hc
    simp only [Bool.and_eq_true, decide_eq_true_eq] at hc
    omega
  · intro h
    have hc := h r.x r.y
    rw [Bool.eq_false_iff] at hc
    simp only [Bool.or_eq_true, decide_eq_true_eq]
    apply Classical.byContradiction
    intro hn
    apply hc
    simp only [Bool.and_eq_true, decide_eq_true_eq]
    omega

/-- C03: a new region never has a negative size, and keeps a size that is not negative. -/
theorem new_size (x y w h : Int) :
    0 ≤ (new x y w h).width ∧ 0 ≤ (new x y w h).height ∧ (0 ≤ w → (new x y w h).width = w) ∧
      (0 ≤ h → (new x y w h).height = h) ∧ (new x y w h).x = x ∧ (new x y w h).y = y := by
  refine ⟨?_, ?_, ?_, ?_, rfl, rfl⟩ <;> simp only [new] <;> omega

/-- A region of one row without columns holds nothing; a negative size becomes zero. -/
example : (⟨3, 4, 0, 1⟩ : Region).isEmpty = true ∧ (⟨3, 4, 2, 1⟩ : Region).isEmpty = false ∧
    (⟨3, 4, 2, 1⟩ : Region).containsPoint 4 4 = true := by decide
example : new 1 2 (-3) 4 = ⟨1, 2, 0, 4⟩ := by decide

/-- A proper overlap, and a disjoint pair. -/
example : (Region.new (-3) 2 10 4).intersection (Region.new 1 0 100 3) = ⟨1, 2, 6, 1⟩ := by decide
example : ((Region.new 0 0 2 2).intersection (Region.new 2 0 2 2)).isEmpty = true := by decide

end Textual.Region
