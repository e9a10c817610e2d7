import Mathlib.Tactic.Common
import Verif.Lemmas.Keyline
import Verif.Spec.BoxGlyphs

/-! C19, C40, C41: keylines. -/

namespace Textual.Keyline

/-! ### C19: combining -/

/-- C19: each arm of the result is the heavier of the two. -/
theorem combineQuads_arms (a b : Quad) :
    (combineQuads a b).top = max a.top b.top ∧ (combineQuads a b).right = max a.right b.right ∧
    (combineQuads a b).bottom = max a.bottom b.bottom ∧ (combineQuads a b).left = max a.left b.left :=
  ⟨rfl, rfl, rfl, rfl⟩

/-- C19: drawing order does not matter. -/
theorem combineQuads_comm (a b : Quad) : combineQuads a b = combineQuads b a := by
  simp [combineQuads, Nat.max_comm]

/-- C19: grouping does not matter. -/
theorem combineQuads_assoc (a b c : Quad) :
    combineQuads (combineQuads a b) c = combineQuads a (combineQuads b c) := by
  simp [combineQuads, Nat.max_assoc]

/-- C19: repetition does not matter. -/
theorem combineQuads_self (a : Quad) : combineQuads a a = a := by simp [combineQuads]

theorem contrib_cons (c : Cmd) (cs : List Cmd) (a b : Nat) :
    contrib (c :: cs) a b =
      combineQuads (if c.1 = a ∧ c.2.1 = b then c.2.2 else ⟨0, 0, 0, 0⟩) (contrib cs a b) := by
  conv_lhs => unfold contrib
  rw [List.foldl_cons, foldl_contrib]
  split <;> simp [combineQuads]

theorem contrib_append (l m : List Cmd) (a b : Nat) :
    contrib (l ++ m) a b = combineQuads (contrib l a b) (contrib m a b) := by
  induction l with
  | nil => simp [contrib, combineQuads]
  | cons c cs ih => rw [List.cons_append, contrib_cons, contrib_cons, ih, combineQuads_assoc]

/-- C19: what a cell shows after any sequence of edge contributions, in terms of arms: an arm has weight at
least `k` exactly when it had it before or some contribution to this cell has it. -/
theorem setAll_arm (k : KCanvas) (cmds : List Cmd) (a b n : Nat) (hn : 0 < n) (old : Quad)
    (h : k.get a b = some old) : ∃ q, (k.setAll cmds).get a b = some q ∧
      (n ≤ q.top ↔ n ≤ old.top ∨ ∃ c ∈ cmds, c.1 = a ∧ c.2.1 = b ∧ n ≤ c.2.2.top) ∧
      (n ≤ q.right ↔ n ≤ old.right ∨ ∃ c ∈ cmds, c.1 = a ∧ c.2.1 = b ∧ n ≤ c.2.2.right) ∧
      (n ≤ q.bottom ↔ n ≤ old.bottom ∨ ∃ c ∈ cmds, c.1 = a ∧ c.2.1 = b ∧ n ≤ c.2.2.bottom) ∧
      (n ≤ q.left ↔ n ≤ old.left ∨ ∃ c ∈ cmds, c.1 = a ∧ c.2.1 = b ∧ n ≤ c.2.2.left) := by
  refine ⟨_, by rw [KCanvas.get_setAll, h]; rfl, ?_⟩
  have key : ∀ arm : Quad → Nat, arm ⟨0, 0, 0, 0⟩ = 0 →
      (∀ p q, arm (combineQuads p q) = max (arm p) (arm q)) →
      (n ≤ arm (combineQuads old (contrib cmds a b)) ↔
        n ≤ arm old ∨ ∃ c ∈ cmds, c.1 = a ∧ c.2.1 = b ∧ n ≤ arm c.2.2) := by
    intro arm h0 hm
    have := contrib_arm cmds arm h0 hm n a b hn
    unfold At at this
    rw [hm, ← this]
    omega
  exact ⟨key Quad.top rfl (fun _ _ => rfl), key Quad.right rfl (fun _ _ => rfl),
    key Quad.bottom rfl (fun _ _ => rfl), key Quad.left rfl (fun _ _ => rfl)⟩

/-- C19: the order in which edges are contributed does not matter. -/
theorem setAll_perm (k : KCanvas) (l m : List Cmd) (h : l.Perm m) (a b : Nat) :
    (k.setAll l).get a b = (k.setAll m).get a b := by
  have : contrib l a b = contrib m a b := by
    induction h with
    | nil => rfl
    | cons c _ ih => rw [contrib_cons, contrib_cons, ih]
    | swap c d l =>
      simp only [contrib_cons]
      rw [← combineQuads_assoc, ← combineQuads_assoc]
      congr 1
      exact combineQuads_comm _ _
    | trans _ _ ih1 ih2 => rw [ih1, ih2]
  rw [KCanvas.get_setAll, KCanvas.get_setAll, this]

/-- C19: contributing the same edges twice changes nothing. -/
theorem setAll_twice (k : KCanvas) (l : List Cmd) (a b : Nat) :
    (k.setAll (l ++ l)).get a b = (k.setAll l).get a b := by
  rw [KCanvas.get_setAll, KCanvas.get_setAll, contrib_append, combineQuads_self]

example : combineQuads ⟨0, 1, 1, 0⟩ ⟨0, 0, 2, 1⟩ = ⟨0, 1, 2, 1⟩ := by decide

/-! ### C40: what a canvas of boxes and tables shows -/

/-- The public drawing operations of a keyline canvas. -/
inductive Op where
  | box (x y w h : Nat)
  | table (cols rows : List Nat)
  | merged (cols rows : List Nat) (occ : List (List (Option Nat)))

/-- Run one operation. -/
def Op.run (k : KCanvas) : Op → KCanvas
  | .box x y w h => k.addWidgetBox x y w h
  | .table cols rows => k.addGrid cols rows
  | .merged cols rows occ => k.addGridWithOccupancy cols rows occ

/-- The lines an operation is meant to draw. -/
def Op.lines : Op → Lines
  | .box x y w h => boxLines x y w h
  | .table cols rows => tableLines cols rows
  | .merged cols rows occ => mergedLines cols rows occ

/-- Boxes at least two cells wide and high; tables with increasing positions. -/
def Op.Proper : Op → Prop
  | .box _ _ w h => 2 ≤ w ∧ 2 ≤ h
  | .table cols rows => Increasing cols ∧ Increasing rows
  | .merged cols rows _ => Increasing cols ∧ Increasing rows

/-- All lines of a list of operations. -/
def allLines (ops : List Op) : Lines := ops.foldr (fun o L => o.lines.union L) Lines.empty

theorem quad_union (A B : Lines) (lt x y : Nat) :
    (A.union B).quad lt x y = combineQuads (A.quad lt x y) (B.quad lt x y) := by
  have : ∀ (p q : Prop) [Decidable p] [Decidable q] (r : Prop) [Decidable r], (r ↔ p ∨ q) →
      (if r then lt else 0) = max (if p then lt else 0) (if q then lt else 0) := by
    intro p q _ _ r _ h
    by_cases hp : p <;> by_cases hq : q <;> simp [hp, hq, h]
  apply Quad.ext' <;> simp only [combineQuads, Lines.quad, Lines.union, Bool.or_eq_true] <;> apply this <;> tauto

theorem Op.run_get (k : KCanvas) (o : Op) (ho : o.Proper) (a b : Nat) (ha : a < k.width) (hb : b < k.height) :
    (o.run k).get a b = (k.get a b).map (fun q => combineQuads q (o.lines.quad k.lineType a b)) := by
  cases o with
  | box x y w h =>
    simp only [Op.run, KCanvas.addWidgetBox, KCanvas.get_setAll, Op.lines, contrib_box _ x y w h a b ho.1 ho.2]
  | table cols rows =>
    simp only [Op.run, KCanvas.addGrid, KCanvas.get_setAll, Op.lines,
      contrib_table k.width k.height _ cols rows ho.1 ho.2 a b ha hb]
  | merged cols rows occ =>
    simp only [Op.run, KCanvas.addGridWithOccupancy, KCanvas.get_setAll, Op.lines,
      contrib_merged k.width k.height _ cols rows occ ho.1 ho.2 a b ha hb]

theorem Op.run_shape (k : KCanvas) (o : Op) :
    (o.run k).width = k.width ∧ (o.run k).height = k.height ∧ (o.run k).lineType = k.lineType := by
  cases o <;> exact ⟨(KCanvas.setAll_shape k _).1, (KCanvas.setAll_shape k _).2.1, (KCanvas.setAll_shape k _).2.2.1⟩

theorem KCanvas.get_new (w h lt a b : Nat) (ha : a < w) (hb : b < h) :
    (KCanvas.new w h lt).get a b = some ⟨0, 0, 0, 0⟩ := by
  have : b * w + a < w * h := by
    calc b * w + a < b * w + w := by omega
      _ = (b + 1) * w := by rw [Nat.add_mul, Nat.one_mul]
      _ ≤ h * w := Nat.mul_le_mul_right w (by omega)
      _ = w * h := Nat.mul_comm h w
  simp [KCanvas.get, KCanvas.new, ha, hb, this]

theorem run_get (ops : List Op) : ∀ k : KCanvas, (∀ o ∈ ops, o.Proper) → ∀ a b, a < k.width → b < k.height →
    (ops.foldl Op.run k).get a b = (k.get a b).map (fun q => combineQuads q ((allLines ops).quad k.lineType a b)) := by
  induction ops with
  | nil =>
    intro k _ a b _ _
    have : ∀ q : Quad, combineQuads q (Lines.empty.quad k.lineType a b) = q := by
      intro q; cases q; simp [combineQuads, Lines.quad, Lines.empty]
    simp [allLines, this]
  | cons o os ih =>
    intro k h a b ha hb
    obtain ⟨h1, h2, h3⟩ := o.run_shape k
    rw [List.foldl_cons, ih (o.run k) (fun o' ho' => h o' (by simp [ho'])) a b (by omega) (by omega),
      Op.run_get k o (h o (by simp)) a b ha hb, Option.map_map, h3]
    congr 1
    funext q
    show combineQuads (combineQuads q _) _ = combineQuads q ((o.lines.union (allLines os)).quad _ _ _)
    rw [quad_union, combineQuads_assoc]

/-- C40: after any sequence of boxes and tables, every cell of the canvas holds exactly the arms of the
lines that run through it. Missing for the full claim: boxes one cell wide or high. -/
theorem keylines_exact_partial (w h lt : Nat) (ops : List Op) (hops : ∀ o ∈ ops, o.Proper) (x y : Nat)
    (hx : x < w) (hy : y < h) :
    (ops.foldl Op.run (KCanvas.new w h lt)).get x y = some ((allLines ops).quad lt x y) := by
  rw [run_get ops (KCanvas.new w h lt) hops x y hx hy, KCanvas.get_new w h lt x y hx hy]
  simp [combineQuads, KCanvas.new]

/-- The lines of a list of operations are those of its members. -/
theorem allLines_iff (ops : List Op) (x y : Nat) :
    ((allLines ops).h x y = true ↔ ∃ o ∈ ops, o.lines.h x y = true) ∧
    ((allLines ops).v x y = true ↔ ∃ o ∈ ops, o.lines.v x y = true) := by
  induction ops with
  | nil => simp [allLines, Lines.empty]
  | cons o os ih =>
    constructor
    · show (o.lines.union (allLines os)).h x y = true ↔ _
      simp [Lines.union, ih.1]
    · show (o.lines.union (allLines os)).v x y = true ↔ _
      simp [Lines.union, ih.2]

/-- C40: lines are connected: neighbouring cells agree about the line between them. -/
theorem keylines_connected_partial (w h lt : Nat) (ops : List Op) (hops : ∀ o ∈ ops, o.Proper) (x y : Nat) :
    (x + 1 < w → y < h → ∃ p q, (ops.foldl Op.run (KCanvas.new w h lt)).get x y = some p ∧
      (ops.foldl Op.run (KCanvas.new w h lt)).get (x + 1) y = some q ∧ p.right = q.left) ∧
    (x < w → y + 1 < h → ∃ p q, (ops.foldl Op.run (KCanvas.new w h lt)).get x y = some p ∧
      (ops.foldl Op.run (KCanvas.new w h lt)).get x (y + 1) = some q ∧ p.bottom = q.top) := by
  constructor
  · intro hx hy
    exact ⟨_, _, keylines_exact_partial w h lt ops hops x y (by omega) hy,
      keylines_exact_partial w h lt ops hops (x + 1) y hx hy, by simp [Lines.quad]⟩
  · intro hx hy
    exact ⟨_, _, keylines_exact_partial w h lt ops hops x y hx (by omega),
      keylines_exact_partial w h lt ops hops x (y + 1) hx hy, by simp [Lines.quad]⟩

/-- C40 is false for a box one cell wide: its corners have arms that lead nowhere. -/
theorem keylines_narrow_counterexample :
    let k := (KCanvas.new 2 2 1).addWidgetBox 0 0 1 2
    k.get 0 0 = some ⟨0, 1, 1, 0⟩ ∧ k.get 1 0 = some ⟨0, 0, 0, 0⟩ := by decide

/-- A table with a merged first row beside a box: a non-trivial case. -/
def exOps : List Op := [.merged [0, 3, 6] [0, 2, 4] [[some 0, some 0], [some 1, some 2]], .box 6 0 3 5]

theorem exOps_proper : ∀ o ∈ exOps, o.Proper := by
  have h : ∀ l : List Nat, l.length = 3 → l[0]?.getD 0 < l[1]?.getD 0 → l[1]?.getD 0 < l[2]?.getD 0 → Increasing l := by
    intro l hl h1 h2
    refine ⟨by omega, ?_⟩
    intro i j hij hj
    rw [hl] at hj
    match i, j, hij, hj with
    | 0, 1, _, _ => exact h1
    | 0, 2, _, _ => omega
    | 1, 2, _, _ => exact h2
    | i + 2, j, _, _ => omega
  intro o ho
  simp only [exOps, List.mem_cons, List.not_mem_nil, or_false] at ho
  rcases ho with rfl | rfl
  · exact ⟨h _ rfl (by decide) (by decide), h _ rfl (by decide) (by decide)⟩
  · exact ⟨by decide, by decide⟩

example : (exOps.foldl Op.run (KCanvas.new 9 5 1)).get 3 2 = some ⟨0, 1, 1, 1⟩ := by
  rw [keylines_exact_partial 9 5 1 exOps exOps_proper 3 2 (by decide) (by decide)]; decide

/-! ### C41: glyphs -/

/-- C41: the glyph of a quad has exactly the quad's arms, except for six entries of the table. Missing:
those six, which are swapped. -/
theorem boxChar_arms_partial : ∀ e ∈ boxCharacters, getBoxChar e.1 = some e.2 ∧
    (e.1 ∉ [⟨2, 2, 1, 2⟩, ⟨1, 2, 2, 2⟩, ⟨0, 1, 0, 0⟩, ⟨0, 0, 0, 1⟩, ⟨0, 2, 0, 0⟩, ⟨0, 0, 0, 2⟩] →
      glyphArms e.2 = some e.1) := by decide +kernel

/-- C41 is false for these: the glyph shown has the arm on the other side. -/
theorem boxChar_arms_counterexample :
    getBoxChar ⟨0, 1, 0, 0⟩ = some '╴' ∧ glyphArms '╴' = some ⟨0, 0, 0, 1⟩ ∧
    getBoxChar ⟨0, 0, 0, 1⟩ = some '╶' ∧ glyphArms '╶' = some ⟨0, 1, 0, 0⟩ ∧
    getBoxChar ⟨0, 2, 0, 0⟩ = some '╸' ∧ glyphArms '╸' = some ⟨0, 0, 0, 2⟩ ∧
    getBoxChar ⟨0, 0, 0, 2⟩ = some '╺' ∧ glyphArms '╺' = some ⟨0, 2, 0, 0⟩ ∧
    getBoxChar ⟨2, 2, 1, 2⟩ = some '╈' ∧ glyphArms '╈' = some ⟨1, 2, 2, 2⟩ ∧
    getBoxChar ⟨1, 2, 2, 2⟩ = some '╇' ∧ glyphArms '╇' = some ⟨2, 2, 1, 2⟩ := by decide +kernel

/-- No line ends in the open: a cell reached by one arm is left by another. -/
def NoEnds (L : Lines) : Prop := ∀ x y,
  (L.h x y = true → (0 < x ∧ L.h (x - 1) y = true) ∨ L.v x y = true ∨ (0 < y ∧ L.v x (y - 1) = true)) ∧
  (0 < x → L.h (x - 1) y = true → L.h x y = true ∨ L.v x y = true ∨ (0 < y ∧ L.v x (y - 1) = true)) ∧
  (L.v x y = true → (0 < y ∧ L.v x (y - 1) = true) ∨ L.h x y = true ∨ (0 < x ∧ L.h (x - 1) y = true)) ∧
  (0 < y → L.v x (y - 1) = true → L.v x y = true ∨ L.h x y = true ∨ (0 < x ∧ L.h (x - 1) y = true))

theorem noEnds_box (x y w h : Nat) (hw : 2 ≤ w) (hh : 2 ≤ h) : NoEnds (boxLines x y w h) := by
  intro a b
  simp only [boxLines, decide_eq_true_eq]
  refine ⟨?_, ?_, ?_, ?_⟩ <;> intros <;> omega

theorem noEnds_table (cols rows : List Nat) (hc : Increasing cols) (hr : Increasing rows) :
    NoEnds (tableLines cols rows) := by
  intro a b
  have hc2 := hc.1
  have hr2 := hr.1
  simp only [table_h_iff hc, table_v_iff hr]
  refine ⟨?_, ?_, ?_, ?_⟩
  · rintro ⟨⟨r, hr1, h1⟩, h2, h3⟩
    by_cases he : cols[0]?.getD 0 = a
    · by_cases hl : r = rows.length - 1
      · have := hr.2 0 r (by omega) hr1
        subst hl
        exact Or.inr (Or.inr ⟨by omega, ⟨0, by omega, he⟩, by omega, by omega⟩)
      · have g1 := hr.le (Nat.zero_le r) hr1
        have g2 := hr.2 r (rows.length - 1) (by omega) (by omega)
        exact Or.inr (Or.inl ⟨⟨0, by omega, he⟩, by omega, by omega⟩)
    · exact Or.inl ⟨by omega, ⟨r, hr1, h1⟩, by omega, by omega⟩
  · rintro h0 ⟨⟨r, hr1, h1⟩, h2, h3⟩
    by_cases he : cols[cols.length - 1]?.getD 0 = a
    · by_cases hl : r = rows.length - 1
      · have := hr.2 0 r (by omega) hr1
        subst hl
        exact Or.inr (Or.inr ⟨by omega, ⟨_, by omega, he⟩, by omega, by omega⟩)
      · have g1 := hr.le (Nat.zero_le r) hr1
        have g2 := hr.2 r (rows.length - 1) (by omega) (by omega)
        exact Or.inr (Or.inl ⟨⟨_, by omega, he⟩, by omega, by omega⟩)
    · exact Or.inl ⟨⟨r, hr1, h1⟩, by omega, by omega⟩
  · rintro ⟨⟨r, hr1, h1⟩, h2, h3⟩
    by_cases he : rows[0]?.getD 0 = b
    · by_cases hl : r = cols.length - 1
      · have := hc.2 0 r (by omega) hr1
        subst hl
        exact Or.inr (Or.inr ⟨by omega, ⟨0, by omega, he⟩, by omega, by omega⟩)
      · have g1 := hc.le (Nat.zero_le r) hr1
        have g2 := hc.2 r (cols.length - 1) (by omega) (by omega)
        exact Or.inr (Or.inl ⟨⟨0, by omega, he⟩, by omega, by omega⟩)
    · exact Or.inl ⟨by omega, ⟨r, hr1, h1⟩, by omega, by omega⟩
  · rintro h0 ⟨⟨r, hr1, h1⟩, h2, h3⟩
    by_cases he : rows[rows.length - 1]?.getD 0 = b
    · by_cases hl : r = cols.length - 1
      · have := hc.2 0 r (by omega) hr1
        subst hl
        exact Or.inr (Or.inr ⟨by omega, ⟨_, by omega, he⟩, by omega, by omega⟩)
      · have g1 := hc.le (Nat.zero_le r) hr1
        have g2 := hc.2 r (cols.length - 1) (by omega) (by omega)
        exact Or.inr (Or.inl ⟨⟨_, by omega, he⟩, by omega, by omega⟩)
    · exact Or.inl ⟨⟨r, hr1, h1⟩, by omega, by omega⟩

/-- Lines along the rows of a table whose cells hold `o r c` (a helper for both directions). -/
def Hseg (R C : List Nat) (o : Nat → Nat → Option Nat) (a b : Nat) : Prop :=
  ∃ r c : Nat, r < R.length ∧ c < C.length - 1 ∧ R[r]?.getD 0 = b ∧ (C[c]?.getD 0 ≤ a ∧ a < C[c + 1]?.getD 0) ∧
    ((r = 0 ∨ r = R.length - 1) ∨ o (r - 1) c ≠ o r c)

theorem Hseg_right (R C : List Nat) (o : Nat → Nat → Option Nat) (hR : Increasing R) (hC : Increasing C) (a b : Nat)
    (h : Hseg R C o a b) : (0 < a ∧ Hseg R C o (a - 1) b) ∨ Hseg C R (fun c r => o r c) b a ∨
      (0 < b ∧ Hseg C R (fun c r => o r c) (b - 1) a) := by
  have hR2 := hR.1
  have hC2 := hC.1
  obtain ⟨r, c, hr, hc, h1, ⟨h2, h3⟩, h4⟩ := h
  by_cases he : C[c]?.getD 0 = a
  · -- a junction
    have up : 0 < r → (c = 0 ∨ o (r - 1) (c - 1) ≠ o (r - 1) c) → 0 < b ∧ Hseg C R (fun c r => o r c) (b - 1) a := by
      intro hr0 h
      have g := hR.2 (r - 1) r (by omega) hr
      have e : r - 1 + 1 = r := by omega
      exact ⟨by omega, c, r - 1, by omega, by omega, he, ⟨by omega, by rw [e]; omega⟩, h.imp Or.inl id⟩
    have down : r < R.length - 1 → (c = 0 ∨ o r (c - 1) ≠ o r c) → Hseg C R (fun c r => o r c) b a := by
      intro hr0 h
      have g := hR.2 r (r + 1) (by omega) (by omega)
      exact ⟨c, r, by omega, hr0, he, ⟨by omega, by omega⟩, h.imp Or.inl id⟩
    have left : 0 < c → ((r = 0 ∨ r = R.length - 1) ∨ o (r - 1) (c - 1) ≠ o r (c - 1)) → 0 < a ∧ Hseg R C o (a - 1) b := by
      intro hc0 h
      have g := hC.2 (c - 1) c (by omega) (by omega)
      have e : c - 1 + 1 = c := by omega
      exact ⟨by omega, r, c - 1, hr, by omega, h1, ⟨by omega, by rw [e]; omega⟩, h⟩
    by_cases hc0 : c = 0
    · by_cases hr0 : r = 0
      · exact Or.inr (Or.inl (down (by omega) (Or.inl hc0)))
      · exact Or.inr (Or.inr (up (by omega) (Or.inl hc0)))
    · by_cases hed : r = 0 ∨ r = R.length - 1
      · exact Or.inl (left (by omega) (Or.inl hed))
      · have hd := h4.resolve_left hed
        by_cases hA : o (r - 1) (c - 1) = o (r - 1) c
        · by_cases hB : o (r - 1) (c - 1) = o r (c - 1)
          · have : o r (c - 1) ≠ o r c := by rw [← hB, hA]; exact hd
            exact Or.inr (Or.inl (down (by omega) (Or.inr this)))
          · exact Or.inl (left (by omega) (Or.inr hB))
        · exact Or.inr (Or.inr (up (by omega) (Or.inr hA)))
  · exact Or.inl ⟨by omega, r, c, hr, hc, h1, ⟨by omega, by omega⟩, h4⟩

theorem Hseg_left (R C : List Nat) (o : Nat → Nat → Option Nat) (hR : Increasing R) (hC : Increasing C) (a b : Nat)
    (ha : 0 < a) (h : Hseg R C o (a - 1) b) : Hseg R C o a b ∨ Hseg C R (fun c r => o r c) b a ∨
      (0 < b ∧ Hseg C R (fun c r => o r c) (b - 1) a) := by
  have hR2 := hR.1
  have hC2 := hC.1
  obtain ⟨r, c, hr, hc, h1, ⟨h2, h3⟩, h4⟩ := h
  by_cases he : C[c + 1]?.getD 0 = a
  · have up : 0 < r → (c + 1 = C.length - 1 ∨ o (r - 1) c ≠ o (r - 1) (c + 1)) →
        0 < b ∧ Hseg C R (fun c r => o r c) (b - 1) a := by
      intro hr0 h
      have g := hR.2 (r - 1) r (by omega) hr
      have e : r - 1 + 1 = r := by omega
      refine ⟨by omega, c + 1, r - 1, by omega, by omega, he, ⟨by omega, by rw [e]; omega⟩, ?_⟩
      rcases h with h | h
      · exact Or.inl (Or.inr h)
      · exact Or.inr (by simpa using h)
    have down : r < R.length - 1 → (c + 1 = C.length - 1 ∨ o r c ≠ o r (c + 1)) → Hseg C R (fun c r => o r c) b a := by
      intro hr0 h
      have g := hR.2 r (r + 1) (by omega) (by omega)
      refine ⟨c + 1, r, by omega, hr0, he, ⟨by omega, by omega⟩, ?_⟩
      rcases h with h | h
      · exact Or.inl (Or.inr h)
      · exact Or.inr (by simpa using h)
    have right : c + 1 < C.length - 1 → ((r = 0 ∨ r = R.length - 1) ∨ o (r - 1) (c + 1) ≠ o r (c + 1)) →
        Hseg R C o a b := by
      intro hc0 h
      have g := hC.2 (c + 1) (c + 1 + 1) (by omega) (by omega)
      exact ⟨r, c + 1, hr, by omega, h1, ⟨by omega, by omega⟩, h⟩
    by_cases hc0 : c + 1 = C.length - 1
    · by_cases hr0 : r = 0
      · exact Or.inr (Or.inl (down (by omega) (Or.inl hc0)))
      · exact Or.inr (Or.inr (up (by omega) (Or.inl hc0)))
    · by_cases hed : r = 0 ∨ r = R.length - 1
      · exact Or.inl (right (by omega) (Or.inl hed))
      · have hd := h4.resolve_left hed
        by_cases hA : o (r - 1) c = o (r - 1) (c + 1)
        · by_cases hB : o (r - 1) (c + 1) = o r (c + 1)
          · have : o r c ≠ o r (c + 1) := by rw [← hB, ← hA]; exact Ne.symm hd
            exact Or.inr (Or.inl (down (by omega) (Or.inr this)))
          · exact Or.inl (right (by omega) (Or.inr hB))
        · exact Or.inr (Or.inr (up (by omega) (Or.inr hA)))
  · exact Or.inl ⟨r, c, hr, hc, h1, ⟨by omega, by omega⟩, h4⟩

theorem merged_h_Hseg (cols rows : List Nat) (occ : List (List (Option Nat))) (a b : Nat) :
    (mergedLines cols rows occ).h a b = true ↔ Hseg rows cols (occupant occ) a b := by
  rw [merged_h_iff]; simp only [Hseg, differ, bne_iff_ne]

theorem merged_v_Hseg (cols rows : List Nat) (occ : List (List (Option Nat))) (a b : Nat) :
    (mergedLines cols rows occ).v a b = true ↔ Hseg cols rows (fun c r => occupant occ r c) b a := by
  rw [merged_v_iff]
  simp only [Hseg, differ, bne_iff_ne]
  constructor
  · rintro ⟨r, c, hr, hc, h⟩; exact ⟨c, r, hc, hr, h⟩
  · rintro ⟨c, r, hc, hr, h⟩; exact ⟨r, c, hr, hc, h⟩

theorem noEnds_merged (cols rows : List Nat) (occ : List (List (Option Nat))) (hc : Increasing cols)
    (hr : Increasing rows) : NoEnds (mergedLines cols rows occ) := by
  intro x y
  simp only [merged_h_Hseg, merged_v_Hseg]
  exact ⟨Hseg_right rows cols _ hr hc x y, Hseg_left rows cols _ hr hc x y,
    Hseg_right cols rows (fun c r => occupant occ r c) hc hr y x,
    Hseg_left cols rows (fun c r => occupant occ r c) hc hr y x⟩

theorem noEnds_all (ops : List Op) (hops : ∀ o ∈ ops, o.Proper) : NoEnds (allLines ops) := by
  induction ops with
  | nil => intro x y; simp [allLines, Lines.empty]
  | cons o os ih =>
    have h1 : NoEnds o.lines := by
      have := hops o (by simp)
      cases o with
      | box x y w h => exact noEnds_box x y w h this.1 this.2
      | table cols rows => exact noEnds_table cols rows this.1 this.2
      | merged cols rows occ => exact noEnds_merged cols rows occ this.1 this.2
    have h2 := ih (fun o' ho' => hops o' (by simp [ho']))
    intro x y
    obtain ⟨a1, a2, a3, a4⟩ := h1 x y
    obtain ⟨b1, b2, b3, b4⟩ := h2 x y
    have e : allLines (o :: os) = o.lines.union (allLines os) := rfl
    rw [e]
    simp only [Lines.union, Bool.or_eq_true]
    refine ⟨?_, ?_, ?_, ?_⟩
    · rintro (h | h)
      · rcases a1 h with ⟨p, q⟩ | q | ⟨p, q⟩ <;> simp_all
      · rcases b1 h with ⟨p, q⟩ | q | ⟨p, q⟩ <;> simp_all
    · rintro h0 (h | h)
      · rcases a2 h0 h with q | q | ⟨p, q⟩ <;> simp_all
      · rcases b2 h0 h with q | q | ⟨p, q⟩ <;> simp_all
    · rintro (h | h)
      · rcases a3 h with ⟨p, q⟩ | q | ⟨p, q⟩ <;> simp_all
      · rcases b3 h with ⟨p, q⟩ | q | ⟨p, q⟩ <;> simp_all
    · rintro h0 (h | h)
      · rcases a4 h0 h with q | q | ⟨p, q⟩ <;> simp_all
      · rcases b4 h0 h with q | q | ⟨p, q⟩ <;> simp_all

theorem glyph_of_quad (lt : Nat) (hlt : lt = 1 ∨ lt = 2 ∨ lt = 3) (t r b l : Bool)
    (h2 : 2 ≤ t.toNat + r.toNat + b.toNat + l.toNat) :
    ∃ c, getBoxChar ⟨if t then lt else 0, if r then lt else 0, if b then lt else 0, if l then lt else 0⟩ = some c ∧
      glyphArms c = some ⟨if t then lt else 0, if r then lt else 0, if b then lt else 0, if l then lt else 0⟩ := by
  have h : ∀ lt ∈ [1, 2, 3], ∀ t r b l : Bool, 2 ≤ t.toNat + r.toNat + b.toNat + l.toNat →
      ((getBoxChar ⟨if t then lt else 0, if r then lt else 0, if b then lt else 0, if l then lt else 0⟩).bind
        glyphArms) = some ⟨if t then lt else 0, if r then lt else 0, if b then lt else 0, if l then lt else 0⟩ := by
    decide +kernel
  have := h lt (by simp; omega) t r b l h2
  rw [Option.bind_eq_some_iff] at this
  exact this

/-- C41: after any sequence of proper boxes and tables in a line type 1, 2 or 3, rendering draws in every
cell touched by a line a glyph with exactly the arms of the lines there, and nothing in other cells. -/
theorem drawn_glyph_partial (w h lt : Nat) (hlt : lt = 1 ∨ lt = 2 ∨ lt = 3) (ops : List Op)
    (hops : ∀ o ∈ ops, o.Proper) (x y : Nat) (hx : x < w) (hy : y < h) :
    ((allLines ops).quad lt x y = ⟨0, 0, 0, 0⟩ ∧ (ops.foldl Op.run (KCanvas.new w h lt)).drawn x y = none) ∨
    ((allLines ops).quad lt x y ≠ ⟨0, 0, 0, 0⟩ ∧ ∃ c, (ops.foldl Op.run (KCanvas.new w h lt)).drawn x y = some c ∧
      glyphArms c = some ((allLines ops).quad lt x y)) := by
  unfold KCanvas.drawn
  rw [keylines_exact_partial w h lt ops hops x y hx hy]
  simp only [Option.bind_some]
  by_cases hq : (allLines ops).quad lt x y = ⟨0, 0, 0, 0⟩
  · exact Or.inl ⟨hq, by rw [if_pos hq]⟩
  · right
    refine ⟨hq, ?_⟩
    rw [if_neg hq]
    have hn := noEnds_all ops hops x y
    obtain ⟨n1, n2, n3, n4⟩ := hn
    let t : Bool := decide (0 < y ∧ (allLines ops).v x (y - 1) = true)
    let r : Bool := (allLines ops).h x y
    let b : Bool := (allLines ops).v x y
    let l : Bool := decide (0 < x ∧ (allLines ops).h (x - 1) y = true)
    have e : (allLines ops).quad lt x y =
        ⟨if t then lt else 0, if r then lt else 0, if b then lt else 0, if l then lt else 0⟩ := by
      simp [Lines.quad, t, r, b, l]
    rw [e] at hq ⊢
    apply glyph_of_quad lt hlt
    have m1 : r = true → l = true ∨ b = true ∨ t = true := by simpa [t, r, b, l] using n1
    have m2 : l = true → r = true ∨ b = true ∨ t = true := by simpa [t, r, b, l] using n2
    have m3 : b = true → t = true ∨ r = true ∨ l = true := by simpa [t, r, b, l] using n3
    have m4 : t = true → b = true ∨ r = true ∨ l = true := by simpa [t, r, b, l] using n4
    have m0 : ¬ (t = false ∧ r = false ∧ b = false ∧ l = false) := by
      rintro ⟨h1, h2, h3, h4⟩
      exact hq (by simp [h1, h2, h3, h4])
    revert m0 m1 m2 m3 m4
    generalize t = t
    generalize r = r
    generalize b = b
    generalize l = l
    clear e hq
    revert t r b l
    decide

example : (exOps.foldl Op.run (KCanvas.new 9 5 1)).drawn 3 2 = some '┬' := by decide +kernel

end Textual.Keyline
