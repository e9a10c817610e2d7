import Mathlib.Tactic.Common
import Verif.Spec.Keyline

/-! Helper lemmas for keylines. -/

namespace Textual.Keyline

/-- Combining is idempotent, commutative, associative. -/
theorem Quad.ext' {a b : Quad} (h1 : a.top = b.top) (h2 : a.right = b.right) (h3 : a.bottom = b.bottom)
    (h4 : a.left = b.left) : a = b := by
  cases a; cases b; simp_all

theorem KCanvas.set_width (k : KCanvas) (x y : Nat) (q : Quad) : (k.set x y q).width = k.width := by
  unfold KCanvas.set; split <;> rfl

theorem KCanvas.set_height (k : KCanvas) (x y : Nat) (q : Quad) : (k.set x y q).height = k.height := by
  unfold KCanvas.set; split <;> rfl

theorem KCanvas.set_lineType (k : KCanvas) (x y : Nat) (q : Quad) : (k.set x y q).lineType = k.lineType := by
  unfold KCanvas.set; split <;> rfl

theorem KCanvas.set_length (k : KCanvas) (x y : Nat) (q : Quad) : (k.set x y q).quads.length = k.quads.length := by
  unfold KCanvas.set; split <;> simp

theorem KCanvas.setAll_shape (k : KCanvas) (cmds : List Cmd) :
    (k.setAll cmds).width = k.width ∧ (k.setAll cmds).height = k.height ∧
    (k.setAll cmds).lineType = k.lineType ∧ (k.setAll cmds).quads.length = k.quads.length := by
  unfold KCanvas.setAll
  induction cmds generalizing k with
  | nil => simp
  | cons c cs ih =>
    rw [List.foldl_cons]
    have := ih (k.set c.1 c.2.1 c.2.2)
    simp only [KCanvas.set_width, KCanvas.set_height, KCanvas.set_lineType, KCanvas.set_length] at this
    exact this

theorem cell_index_inj {w x y x' y' : Nat} (hx : x < w) (hx' : x' < w) (h : y * w + x = y' * w + x') :
    x = x' ∧ y = y' := by
  have h1 : (y * w + x) % w = x := by
    rw [Nat.add_comm, Nat.add_mul_mod_self_right]; exact Nat.mod_eq_of_lt hx
  have h2 : (y' * w + x') % w = x' := by
    rw [Nat.add_comm, Nat.add_mul_mod_self_right]; exact Nat.mod_eq_of_lt hx'
  have hxx : x = x' := by rw [← h1, ← h2, h]
  subst hxx
  have : y * w = y' * w := by omega
  exact ⟨rfl, Nat.eq_of_mul_eq_mul_right (by omega) this⟩

theorem KCanvas.get_set (k : KCanvas) (x y a b : Nat) (q : Quad) :
    (k.set x y q).get a b =
      (k.get a b).map (fun old => if x = a ∧ y = b then combineQuads old q else old) := by
  unfold KCanvas.get
  rw [KCanvas.set_width, KCanvas.set_height]
  by_cases hab : a < k.width ∧ b < k.height
  · rw [if_pos hab, if_pos hab]
    unfold KCanvas.set
    by_cases hxy : x < k.width ∧ y < k.height
    · rw [if_pos hxy]
      simp only [List.getElem?_modify]
      by_cases he : x = a ∧ y = b
      · obtain ⟨rfl, rfl⟩ := he
        simp
      · have hne : y * k.width + x ≠ b * k.width + a := fun h => he (cell_index_inj hxy.1 hab.1 h)
        simp [hne, he]
    · rw [if_neg hxy]
      have he : ¬ (x = a ∧ y = b) := by rintro ⟨rfl, rfl⟩; exact hxy hab
      simp [he]
  · rw [if_neg hab, if_neg hab]; rfl

/-- Everything a list of calls puts into cell `(a, b)`. -/
def contrib (cmds : List Cmd) (a b : Nat) : Quad :=
  cmds.foldl (fun q c => if c.1 = a ∧ c.2.1 = b then combineQuads q c.2.2 else q) ⟨0, 0, 0, 0⟩

theorem foldl_contrib (cmds : List Cmd) (a b : Nat) (q : Quad) :
    cmds.foldl (fun q c => if c.1 = a ∧ c.2.1 = b then combineQuads q c.2.2 else q) q =
      combineQuads q (contrib cmds a b) := by
  induction cmds generalizing q with
  | nil => cases q; simp [contrib, combineQuads]
  | cons c cs ih =>
    rw [List.foldl_cons, ih]
    conv_rhs => unfold contrib
    rw [List.foldl_cons, ih]
    split <;> simp [combineQuads, Nat.max_assoc]

theorem KCanvas.get_setAll (k : KCanvas) (cmds : List Cmd) (a b : Nat) :
    (k.setAll cmds).get a b = (k.get a b).map (fun q => combineQuads q (contrib cmds a b)) := by
  have : ∀ (k : KCanvas), (cmds.foldl (fun k c => k.set c.1 c.2.1 c.2.2) k).get a b =
      (k.get a b).map (fun q =>
        cmds.foldl (fun q c => if c.1 = a ∧ c.2.1 = b then combineQuads q c.2.2 else q) q) := by
    induction cmds with
    | nil => intro k; simp
    | cons c cs ih =>
      intro k
      rw [List.foldl_cons, ih, KCanvas.get_set, Option.map_map]
      rfl
  unfold KCanvas.setAll
  rw [this]
  simp only [foldl_contrib]

/-! ### Membership -/

/-- Some call puts at least `k` on an arm of cell `(a, b)`. -/
def At (cmds : List Cmd) (arm : Quad → Nat) (k a b : Nat) : Prop :=
  ∃ c ∈ cmds, c.1 = a ∧ c.2.1 = b ∧ k ≤ arm c.2.2

theorem At_nil (arm : Quad → Nat) (k a b : Nat) : At [] arm k a b ↔ False := by simp [At]

theorem At_cons (c : Cmd) (cs : List Cmd) (arm : Quad → Nat) (k a b : Nat) :
    At (c :: cs) arm k a b ↔ (c.1 = a ∧ c.2.1 = b ∧ k ≤ arm c.2.2) ∨ At cs arm k a b := by simp [At]

theorem At_append (l m : List Cmd) (arm : Quad → Nat) (k a b : Nat) :
    At (l ++ m) arm k a b ↔ At l arm k a b ∨ At m arm k a b := by
  simp [At, or_and_right, exists_or]

theorem At_ite (p : Prop) [Decidable p] (l m : List Cmd) (arm : Quad → Nat) (k a b : Nat) :
    At (if p then l else m) arm k a b ↔ (p ∧ At l arm k a b) ∨ (¬ p ∧ At m arm k a b) := by
  split <;> simp_all

theorem At_flatMap {α : Type} (l : List α) (f : α → List Cmd) (arm : Quad → Nat) (k a b : Nat) :
    At (l.flatMap f) arm k a b ↔ ∃ i ∈ l, At (f i) arm k a b := by
  simp only [At, List.mem_flatMap]
  constructor
  · rintro ⟨c, ⟨i, hi, hc⟩, h⟩; exact ⟨i, hi, c, hc, h⟩
  · rintro ⟨i, hi, c, hc, h⟩; exact ⟨c, ⟨i, hi, hc⟩, h⟩

theorem mem_span {s e i : Nat} : i ∈ span s e ↔ s ≤ i ∧ i < e := by
  simp only [span, List.mem_range'_1]; omega

theorem At_map_h (s e x y : Nat) (q : Quad) (arm : Quad → Nat) (k a b : Nat) :
    At ((span s e).map (fun i => (x + i, y, q))) arm k a b ↔
      (x + s ≤ a ∧ a < x + e) ∧ y = b ∧ k ≤ arm q := by
  simp only [At, List.mem_map, mem_span]
  constructor
  · rintro ⟨c, ⟨i, hi, rfl⟩, h1, h2, h3⟩; exact ⟨by simp only at h1; omega, h2, h3⟩
  · rintro ⟨h1, h2, h3⟩; exact ⟨_, ⟨a - x, by omega, rfl⟩, by simp only; omega, h2, h3⟩

theorem At_map_v (s e x y : Nat) (q : Quad) (arm : Quad → Nat) (k a b : Nat) :
    At ((span s e).map (fun i => (x, y + i, q))) arm k a b ↔
      (y + s ≤ b ∧ b < y + e) ∧ x = a ∧ k ≤ arm q := by
  simp only [At, List.mem_map, mem_span]
  constructor
  · rintro ⟨c, ⟨i, hi, rfl⟩, h1, h2, h3⟩; exact ⟨by simp only at h2; omega, h1, h3⟩
  · rintro ⟨h1, h2, h3⟩; exact ⟨_, ⟨b - y, by omega, rfl⟩, h2, by simp only; omega, h3⟩

theorem At_map_h0 (s e y : Nat) (q : Nat → Quad) (arm : Quad → Nat) (k a b : Nat) :
    At ((span s e).map (fun i => (i, y, q i))) arm k a b ↔ (s ≤ a ∧ a < e) ∧ y = b ∧ k ≤ arm (q a) := by
  simp only [At, List.mem_map, mem_span]
  constructor
  · rintro ⟨c, ⟨i, hi, rfl⟩, h1, h2, h3⟩; simp only at h1 h3; subst h1; exact ⟨hi, h2, h3⟩
  · rintro ⟨h1, h2, h3⟩; exact ⟨_, ⟨a, h1, rfl⟩, rfl, h2, h3⟩

theorem At_map_v0 (s e x : Nat) (q : Nat → Quad) (arm : Quad → Nat) (k a b : Nat) :
    At ((span s e).map (fun i => (x, i, q i))) arm k a b ↔ (s ≤ b ∧ b < e) ∧ x = a ∧ k ≤ arm (q b) := by
  simp only [At, List.mem_map, mem_span]
  constructor
  · rintro ⟨c, ⟨i, hi, rfl⟩, h1, h2, h3⟩; simp only at h2 h3; subst h2; exact ⟨hi, h1, h3⟩
  · rintro ⟨h1, h2, h3⟩; exact ⟨_, ⟨b, h1, rfl⟩, h2, rfl, h3⟩

theorem At_hline (cw lt s e y : Nat) (arm : Quad → Nat) (k a b : Nat) :
    At (hline cw lt s e y) arm k a b ↔ (s ≤ a ∧ a < min (e + 1) cw) ∧ y = b ∧
      k ≤ arm ⟨0, if a < e then lt else 0, 0, if a > s then lt else 0⟩ :=
  At_map_h0 _ _ _ _ _ _ _ _

theorem At_vline (ch lt s e x : Nat) (arm : Quad → Nat) (k a b : Nat) :
    At (vline ch lt s e x) arm k a b ↔ (s ≤ b ∧ b < min (e + 1) ch) ∧ x = a ∧
      k ≤ arm ⟨if b > s then lt else 0, 0, if b < e then lt else 0, 0⟩ :=
  At_map_v0 _ _ _ _ _ _ _ _

theorem contrib_arm (cmds : List Cmd) (arm : Quad → Nat) (h0 : arm ⟨0, 0, 0, 0⟩ = 0)
    (hmax : ∀ p q, arm (combineQuads p q) = max (arm p) (arm q)) (k a b : Nat) (hk : 0 < k) :
    k ≤ arm (contrib cmds a b) ↔ At cmds arm k a b := by
  induction cmds with
  | nil => simp [contrib, At, h0]; omega
  | cons c cs ih =>
    have : contrib (c :: cs) a b = combineQuads (if c.1 = a ∧ c.2.1 = b then c.2.2 else ⟨0, 0, 0, 0⟩) (contrib cs a b) := by
      conv_lhs => unfold contrib
      rw [List.foldl_cons, foldl_contrib]
      split <;> simp [combineQuads]
    rw [this, hmax, At_cons, ← ih, show ∀ m n : Nat, (k ≤ max m n ↔ k ≤ m ∨ k ≤ n) by omega]
    split
    · rename_i h; simp [h]
    · rename_i h
      rw [h0]
      constructor
      · rintro (h' | h')
        · omega
        · exact Or.inr h'
      · rintro (h' | h')
        · exact absurd ⟨h'.1, h'.2.1⟩ h
        · exact Or.inr h'

theorem arm_eq_of {v lt : Nat} {P : Prop} [Decidable P] (h : ∀ k, 0 < k → (k ≤ v ↔ P ∧ k ≤ lt)) :
    v = if P then lt else 0 := by
  split
  · rename_i hp
    rcases Nat.eq_zero_or_pos v with hv | hv
    · rcases Nat.eq_zero_or_pos lt with hl | hl
      · omega
      · have := (h lt hl).2 ⟨hp, Nat.le_refl _⟩; omega
    · have h1 := ((h v hv).1 (Nat.le_refl _)).2
      have h2 := (h lt (by omega)).2 ⟨hp, Nat.le_refl _⟩
      omega
  · rename_i hp
    rcases Nat.eq_zero_or_pos v with hv | hv
    · exact hv
    · exact absurd ((h v hv).1 (Nat.le_refl _)).1 hp

/-- To show that calls draw given lines it is enough to look at which arms they reach. -/
theorem contrib_eq_quad (cmds : List Cmd) (L : Lines) (lt a b : Nat)
    (ht : ∀ k, 0 < k → (At cmds Quad.top k a b ↔ (0 < b ∧ L.v a (b - 1) = true) ∧ k ≤ lt))
    (hr : ∀ k, 0 < k → (At cmds Quad.right k a b ↔ L.h a b = true ∧ k ≤ lt))
    (hb : ∀ k, 0 < k → (At cmds Quad.bottom k a b ↔ L.v a b = true ∧ k ≤ lt))
    (hl : ∀ k, 0 < k → (At cmds Quad.left k a b ↔ (0 < a ∧ L.h (a - 1) b = true) ∧ k ≤ lt)) :
    contrib cmds a b = L.quad lt a b := by
  apply Quad.ext'
  · exact arm_eq_of fun k hk => (contrib_arm cmds Quad.top rfl (fun _ _ => rfl) k a b hk).trans (ht k hk)
  · exact arm_eq_of fun k hk => (contrib_arm cmds Quad.right rfl (fun _ _ => rfl) k a b hk).trans (hr k hk)
  · exact arm_eq_of fun k hk => (contrib_arm cmds Quad.bottom rfl (fun _ _ => rfl) k a b hk).trans (hb k hk)
  · exact arm_eq_of fun k hk => (contrib_arm cmds Quad.left rfl (fun _ _ => rfl) k a b hk).trans (hl k hk)

/-! ### Boxes -/

theorem contrib_box (lt x y w h a b : Nat) (hw : 2 ≤ w) (hh : 2 ≤ h) :
    contrib (boxCmds lt x y w h) a b = (boxLines x y w h).quad lt a b := by
  apply contrib_eq_quad <;> intro k hk <;>
    have hk0 : (k ≤ 0) = False := by simp; omega
  all_goals
    simp only [boxCmds, if_neg (show ¬ (w = 0 ∨ h = 0) by omega), if_pos (show w > 1 by omega),
      if_pos (show h > 1 by omega), if_pos (show w > 1 ∧ h > 1 by omega), At_append, At_cons, At_nil, At_map_h,
      At_map_v, boxLines, decide_eq_true_eq, hk0, and_false, or_false, false_or]
  · by_cases hl : k ≤ lt <;> simp only [hl, and_true, and_false, or_false] <;> omega
  · by_cases hl : k ≤ lt <;> simp only [hl, and_true, and_false, or_false] <;> omega
  · by_cases hl : k ≤ lt <;> simp only [hl, and_true, and_false, or_false] <;> omega
  · by_cases hl : k ≤ lt <;> simp only [hl, and_true, and_false, or_false] <;> omega

/-! ### Tables -/

theorem getD_of_lt {l : List Nat} {i : Nat} (h : i < l.length) : l[i]? = some (l[i]?.getD 0) := by
  simp [h]

/-- Between the first and the last position every point lies in some interval. -/
theorem locate (l : List Nat) (a : Nat) : ∀ n, l[0]?.getD 0 ≤ a → a < l[n]?.getD 0 →
    ∃ i, i < n ∧ l[i]?.getD 0 ≤ a ∧ a < l[i + 1]?.getD 0 := by
  intro n
  induction n with
  | zero => intro h1 h2; omega
  | succ n ih =>
    intro h1 h2
    by_cases h : a < l[n]?.getD 0
    · obtain ⟨i, hi, h3⟩ := ih h1 h
      exact ⟨i, by omega, h3⟩
    · exact ⟨n, by omega, by omega, h2⟩

theorem Increasing.le {l : List Nat} (h : Increasing l) {i j : Nat} (hij : i ≤ j) (hj : j < l.length) :
    l[i]?.getD 0 ≤ l[j]?.getD 0 := by
  rcases Nat.lt_or_eq_of_le hij with h' | rfl
  · exact Nat.le_of_lt (h.2 i j h' hj)
  · exact Nat.le_refl _

theorem merged_h_iff (cols rows : List Nat) (occ : List (List (Option Nat))) (a b : Nat) :
    (mergedLines cols rows occ).h a b = true ↔ ∃ r c : Nat, r < rows.length ∧ c < cols.length - 1 ∧
      rows[r]?.getD 0 = b ∧ (cols[c]?.getD 0 ≤ a ∧ a < cols[c + 1]?.getD 0) ∧
      ((r = 0 ∨ r = rows.length - 1) ∨ differ occ (r - 1) c r c = true) := by
  simp only [mergedLines, List.any_eq_true, List.mem_range, Bool.and_eq_true, Bool.or_eq_true, decide_eq_true_eq]
  constructor
  · rintro ⟨r, hr, c, hc, ⟨h1, h2⟩, h3⟩
    exact ⟨r, c, hr, hc, by simp [h1], h2, h3⟩
  · rintro ⟨r, c, hr, hc, h1, h2, h3⟩
    exact ⟨r, hr, c, hc, ⟨by rw [getD_of_lt hr, h1], h2⟩, h3⟩

theorem merged_v_iff (cols rows : List Nat) (occ : List (List (Option Nat))) (a b : Nat) :
    (mergedLines cols rows occ).v a b = true ↔ ∃ r c : Nat, r < rows.length - 1 ∧ c < cols.length ∧
      cols[c]?.getD 0 = a ∧ (rows[r]?.getD 0 ≤ b ∧ b < rows[r + 1]?.getD 0) ∧
      ((c = 0 ∨ c = cols.length - 1) ∨ differ occ r (c - 1) r c = true) := by
  simp only [mergedLines, List.any_eq_true, List.mem_range, Bool.and_eq_true, Bool.or_eq_true, decide_eq_true_eq]
  constructor
  · rintro ⟨c, hc, r, hr, ⟨h1, h2⟩, h3⟩
    exact ⟨r, c, hr, hc, by simp [h1], h2, h3⟩
  · rintro ⟨r, c, hr, hc, h1, h2, h3⟩
    exact ⟨c, hc, r, hr, ⟨by rw [getD_of_lt hc, h1], h2⟩, h3⟩

theorem le_ite_iff {k lt : Nat} (hk : 0 < k) (P : Prop) [Decidable P] :
    (k ≤ if P then lt else 0) ↔ P ∧ k ≤ lt := by
  split <;> simp_all; omega

theorem le_ite_iff' {k lt : Nat} (hk : 0 < k) (P : Prop) [Decidable P] :
    (k ≤ if P then 0 else lt) ↔ ¬ P ∧ k ≤ lt := by
  split <;> simp_all; omega

theorem ite_false_iff (P : Prop) [Decidable P] (x : Bool) :
    (if P then false else x) = true ↔ ¬ P ∧ x = true := by split <;> simp_all

theorem ite_true_iff (P : Prop) [Decidable P] (x : Bool) :
    (if P then true else x) = true ↔ P ∨ x = true := by split <;> simp_all

set_option maxHeartbeats 1000000 in
theorem contrib_merged (cw ch lt : Nat) (cols rows : List Nat) (occ : List (List (Option Nat)))
    (hc : Increasing cols) (hr : Increasing rows) (a b : Nat) (ha : a < cw) (hb : b < ch) :
    contrib (occCmds cw ch lt cols rows occ) a b = (mergedLines cols rows occ).quad lt a b := by
  have hc2 := hc.1
  have hr2 := hr.1
  apply contrib_eq_quad <;> intro k hk <;>
    have hk0 : (k ≤ 0) = False := by simp; omega
  all_goals
    simp only [occCmds, if_neg (show ¬ (cols.length < 2 ∨ rows.length < 2) by omega), At_append, At_ite, At_nil,
      and_false, or_false, At_hline, At_vline, At_flatMap, At_cons, mem_span, merged_h_iff, merged_v_iff, hk0,
      junction, le_ite_iff hk, ite_false_iff, ite_true_iff, false_or, exists_false]
  · constructor
    · rintro (((⟨_, ⟨h1, h2⟩, h3, h4, h5⟩ | ⟨_, ⟨h1, h2⟩, h3, h4, h5⟩) | ⟨ri, hri, _, ci, hci, hd, ⟨h1, h2⟩, h3, h4, h5⟩) | ⟨i, hi, _, j, hj, _, h1, h2, ⟨h3, h4⟩, h5⟩)
      · obtain ⟨c, hcl, h6, h7⟩ := locate rows (b - 1) (rows.length - 1) (by omega) (by omega)
        exact ⟨⟨by omega, ⟨c, 0, hcl, by omega, h3, ⟨h6, h7⟩, Or.inl (Or.inl rfl)⟩⟩, h5⟩
      · obtain ⟨c, hcl, h6, h7⟩ := locate rows (b - 1) (rows.length - 1) (by omega) (by omega)
        exact ⟨⟨by omega, ⟨c, cols.length - 1, hcl, by omega, h3, ⟨h6, h7⟩, Or.inl (Or.inr rfl)⟩⟩, h5⟩
      · exact ⟨⟨by omega, ⟨ci, ri, hci.2, by omega, h3, ⟨by omega, by omega⟩, Or.inr hd⟩⟩, h5⟩
      · have hlt := hr.2 (i - 1) i (by omega) (by omega)
        have he : i - 1 + 1 = i := by omega
        exact ⟨⟨by omega, ⟨i - 1, j, by omega, by omega, h1, ⟨by omega, by rw [he]; omega⟩, h4⟩⟩, h5⟩
    · rintro ⟨⟨hpos, c, r, hc1, hr1, h1, ⟨h2, h3⟩, h4⟩, h5⟩
      have g1 := hr.le (show 0 ≤ c by omega) (by omega)
      have g2 := hr.le (show c + 1 ≤ rows.length - 1 by omega) (by omega)
      by_cases hr0 : r = 0
      · subst hr0; exact Or.inl (Or.inl (Or.inl ⟨by omega, ⟨by omega, by omega⟩, h1, by omega, h5⟩))
      · by_cases hrn : r = cols.length - 1
        · subst hrn; exact Or.inl (Or.inl (Or.inr ⟨by omega, ⟨by omega, by omega⟩, h1, by omega, h5⟩))
        · have hd := h4.resolve_left (by omega)
          exact Or.inl (Or.inr ⟨r, ⟨by omega, by omega⟩, by omega, c, ⟨by omega, hc1⟩, hd, ⟨by omega, by omega⟩, h1, by omega, h5⟩)
  · constructor
    · rintro (((⟨_, ⟨h1, h2⟩, h3, h4, h5⟩ | ⟨_, ⟨h1, h2⟩, h3, h4, h5⟩) | ⟨ri, hri, _, ci, hci, hd, ⟨h1, h2⟩, h3, h4, h5⟩) | ⟨i, hi, _, j, hj, _, h1, h2, ⟨h3, h4⟩, h5⟩)
      · obtain ⟨c, hcl, h6, h7⟩ := locate cols (a) (cols.length - 1) (by omega) (by omega)
        exact ⟨⟨0, c, by omega, hcl, h3, ⟨h6, h7⟩, Or.inl (Or.inl rfl)⟩, h5⟩
      · obtain ⟨c, hcl, h6, h7⟩ := locate cols (a) (cols.length - 1) (by omega) (by omega)
        exact ⟨⟨rows.length - 1, c, by omega, hcl, h3, ⟨h6, h7⟩, Or.inl (Or.inr rfl)⟩, h5⟩
      · exact ⟨⟨ri, ci, by omega, hci.2, h3, ⟨by omega, by omega⟩, Or.inr hd⟩, h5⟩
      · have hlt := hc.2 j (j + 1) (by omega) (by omega)
        exact ⟨⟨i, j, by omega, by omega, h2, ⟨by omega, by omega⟩, h4⟩, h5⟩
    · rintro ⟨⟨r, c, hr1, hc1, h1, ⟨h2, h3⟩, h4⟩, h5⟩
      have g1 := hc.le (show 0 ≤ c by omega) (by omega)
      have g2 := hc.le (show c + 1 ≤ cols.length - 1 by omega) (by omega)
      by_cases hr0 : r = 0
      · subst hr0; exact Or.inl (Or.inl (Or.inl ⟨by omega, ⟨by omega, by omega⟩, h1, by omega, h5⟩))
      · by_cases hrn : r = rows.length - 1
        · subst hrn; exact Or.inl (Or.inl (Or.inr ⟨by omega, ⟨by omega, by omega⟩, h1, by omega, h5⟩))
        · have hd := h4.resolve_left (by omega)
          exact Or.inl (Or.inr ⟨r, ⟨by omega, by omega⟩, by omega, c, ⟨by omega, hc1⟩, hd, ⟨by omega, by omega⟩, h1, by omega, h5⟩)
  · constructor
    · rintro (((⟨_, ⟨h1, h2⟩, h3, h4, h5⟩ | ⟨_, ⟨h1, h2⟩, h3, h4, h5⟩) | ⟨ri, hri, _, ci, hci, hd, ⟨h1, h2⟩, h3, h4, h5⟩) | ⟨i, hi, _, j, hj, _, h1, h2, ⟨h3, h4⟩, h5⟩)
      · obtain ⟨c, hcl, h6, h7⟩ := locate rows (b) (rows.length - 1) (by omega) (by omega)
        exact ⟨⟨c, 0, hcl, by omega, h3, ⟨h6, h7⟩, Or.inl (Or.inl rfl)⟩, h5⟩
      · obtain ⟨c, hcl, h6, h7⟩ := locate rows (b) (rows.length - 1) (by omega) (by omega)
        exact ⟨⟨c, cols.length - 1, hcl, by omega, h3, ⟨h6, h7⟩, Or.inl (Or.inr rfl)⟩, h5⟩
      · exact ⟨⟨ci, ri, hci.2, by omega, h3, ⟨by omega, by omega⟩, Or.inr hd⟩, h5⟩
      · have hlt := hr.2 i (i + 1) (by omega) (by omega)
        exact ⟨⟨i, j, by omega, by omega, h1, ⟨by omega, by omega⟩, h4⟩, h5⟩
    · rintro ⟨⟨c, r, hc1, hr1, h1, ⟨h2, h3⟩, h4⟩, h5⟩
      have g1 := hr.le (show 0 ≤ c by omega) (by omega)
      have g2 := hr.le (show c + 1 ≤ rows.length - 1 by omega) (by omega)
      by_cases hr0 : r = 0
      · subst hr0; exact Or.inl (Or.inl (Or.inl ⟨by omega, ⟨by omega, by omega⟩, h1, by omega, h5⟩))
      · by_cases hrn : r = cols.length - 1
        · subst hrn; exact Or.inl (Or.inl (Or.inr ⟨by omega, ⟨by omega, by omega⟩, h1, by omega, h5⟩))
        · have hd := h4.resolve_left (by omega)
          exact Or.inl (Or.inr ⟨r, ⟨by omega, by omega⟩, by omega, c, ⟨by omega, hc1⟩, hd, ⟨by omega, by omega⟩, h1, by omega, h5⟩)
  · constructor
    · rintro (((⟨_, ⟨h1, h2⟩, h3, h4, h5⟩ | ⟨_, ⟨h1, h2⟩, h3, h4, h5⟩) | ⟨ri, hri, _, ci, hci, hd, ⟨h1, h2⟩, h3, h4, h5⟩) | ⟨i, hi, _, j, hj, _, h1, h2, ⟨h3, h4⟩, h5⟩)
      · obtain ⟨c, hcl, h6, h7⟩ := locate cols (a - 1) (cols.length - 1) (by omega) (by omega)
        exact ⟨⟨by omega, ⟨0, c, by omega, hcl, h3, ⟨h6, h7⟩, Or.inl (Or.inl rfl)⟩⟩, h5⟩
      · obtain ⟨c, hcl, h6, h7⟩ := locate cols (a - 1) (cols.length - 1) (by omega) (by omega)
        exact ⟨⟨by omega, ⟨rows.length - 1, c, by omega, hcl, h3, ⟨h6, h7⟩, Or.inl (Or.inr rfl)⟩⟩, h5⟩
      · exact ⟨⟨by omega, ⟨ri, ci, by omega, hci.2, h3, ⟨by omega, by omega⟩, Or.inr hd⟩⟩, h5⟩
      · have hlt := hc.2 (j - 1) j (by omega) (by omega)
        have he : j - 1 + 1 = j := by omega
        exact ⟨⟨by omega, ⟨i, j - 1, by omega, by omega, h2, ⟨by omega, by rw [he]; omega⟩, h4⟩⟩, h5⟩
    · rintro ⟨⟨hpos, r, c, hr1, hc1, h1, ⟨h2, h3⟩, h4⟩, h5⟩
      have g1 := hc.le (show 0 ≤ c by omega) (by omega)
      have g2 := hc.le (show c + 1 ≤ cols.length - 1 by omega) (by omega)
      by_cases hr0 : r = 0
      · subst hr0; exact Or.inl (Or.inl (Or.inl ⟨by omega, ⟨by omega, by omega⟩, h1, by omega, h5⟩))
      · by_cases hrn : r = rows.length - 1
        · subst hrn; exact Or.inl (Or.inl (Or.inr ⟨by omega, ⟨by omega, by omega⟩, h1, by omega, h5⟩))
        · have hd := h4.resolve_left (by omega)
          exact Or.inl (Or.inr ⟨r, ⟨by omega, by omega⟩, by omega, c, ⟨by omega, hc1⟩, hd, ⟨by omega, by omega⟩, h1, by omega, h5⟩)

theorem mem_iff_getD (l : List Nat) (b : Nat) : b ∈ l ↔ ∃ r : Nat, r < l.length ∧ l[r]?.getD 0 = b := by
  rw [List.mem_iff_getElem]
  constructor
  · rintro ⟨r, hr, h⟩; exact ⟨r, hr, by simp [hr, h]⟩
  · rintro ⟨r, hr, h⟩; exact ⟨r, hr, by simpa [hr] using h⟩

theorem Increasing.inside {l : List Nat} (h : Increasing l) (a : Nat) :
    ((∃ c ∈ l, c ≤ a) ∧ ∃ c ∈ l, a < c) ↔ l[0]?.getD 0 ≤ a ∧ a < l[l.length - 1]?.getD 0 := by
  have h2 := h.1
  simp only [mem_iff_getD]
  constructor
  · rintro ⟨⟨c, ⟨i, hi, rfl⟩, h3⟩, d, ⟨j, hj, rfl⟩, h4⟩
    have g1 := h.le (Nat.zero_le i) hi
    have g2 := h.le (show j ≤ l.length - 1 by omega) (by omega)
    omega
  · rintro ⟨h3, h4⟩
    exact ⟨⟨_, ⟨0, by omega, rfl⟩, h3⟩, _, ⟨l.length - 1, by omega, rfl⟩, h4⟩

theorem table_h_iff {cols rows : List Nat} (hc : Increasing cols) (a b : Nat) :
    (tableLines cols rows).h a b = true ↔ (∃ r : Nat, r < rows.length ∧ rows[r]?.getD 0 = b) ∧
      cols[0]?.getD 0 ≤ a ∧ a < cols[cols.length - 1]?.getD 0 := by
  simp only [tableLines, decide_eq_true_eq, hc.inside, mem_iff_getD rows]

theorem table_v_iff {cols rows : List Nat} (hr : Increasing rows) (a b : Nat) :
    (tableLines cols rows).v a b = true ↔ (∃ c : Nat, c < cols.length ∧ cols[c]?.getD 0 = a) ∧
      rows[0]?.getD 0 ≤ b ∧ b < rows[rows.length - 1]?.getD 0 := by
  simp only [tableLines, decide_eq_true_eq, hr.inside, mem_iff_getD cols]

theorem At_map_h1 (s e y : Nat) (q : Quad) (arm : Quad → Nat) (k a b : Nat) :
    At ((span s e).map (fun i => (i, y, q))) arm k a b ↔ (s ≤ a ∧ a < e) ∧ y = b ∧ k ≤ arm q :=
  At_map_h0 s e y (fun _ => q) arm k a b

theorem At_map_v1 (s e x : Nat) (q : Quad) (arm : Quad → Nat) (k a b : Nat) :
    At ((span s e).map (fun i => (x, i, q))) arm k a b ↔ (s ≤ b ∧ b < e) ∧ x = a ∧ k ≤ arm q :=
  At_map_v0 s e x (fun _ => q) arm k a b

theorem exists_zipIdx (l : List Nat) (P : Nat × Nat → Prop) :
    (∃ i ∈ l.zipIdx, P i) ↔ ∃ r : Nat, r < l.length ∧ P (l[r]?.getD 0, r) := by
  constructor
  · rintro ⟨⟨y, r⟩, h, hp⟩
    rw [List.mem_zipIdx_iff_getElem?] at h
    have hr : r < l.length := (List.getElem?_eq_some_iff.1 h).1
    exact ⟨r, hr, by simp only at h; rw [h]; exact hp⟩
  · rintro ⟨r, hr, hp⟩
    exact ⟨_, by rw [List.mem_zipIdx_iff_getElem?]; exact getD_of_lt hr, hp⟩

theorem exists_mem_getD (l : List Nat) (P : Nat → Prop) :
    (∃ i ∈ l, P i) ↔ ∃ r : Nat, r < l.length ∧ P (l[r]?.getD 0) := by
  simp only [mem_iff_getD]
  constructor
  · rintro ⟨i, ⟨r, hr, rfl⟩, hp⟩; exact ⟨r, hr, hp⟩
  · rintro ⟨r, hr, hp⟩; exact ⟨_, ⟨r, hr, rfl⟩, hp⟩

set_option maxHeartbeats 1000000 in
theorem contrib_table (cw ch lt : Nat) (cols rows : List Nat)
    (hc : Increasing cols) (hr : Increasing rows) (a b : Nat) (ha : a < cw) (hb : b < ch) :
    contrib (gridCmds cw ch lt cols rows) a b = (tableLines cols rows).quad lt a b := by
  have hc2 := hc.1
  have hr2 := hr.1
  apply contrib_eq_quad <;> intro k hk <;>
    have hk0 : (k ≤ 0) = False := by simp; omega
  all_goals
    simp only [gridCmds, if_neg (show ¬ (cols.length < 2 ∨ rows.length < 2) by omega), At_append, At_ite, At_nil,
      and_false, or_false, At_map_h1, At_map_v1, At_flatMap, At_cons, exists_zipIdx, exists_mem_getD,
      table_h_iff hc, table_v_iff hr, hk0, le_ite_iff' hk, false_or, exists_false]
  · constructor
    · rintro (⟨r, hr1, _, c, hc1, _, h1, h2, h3, h4⟩ | ⟨c, hc1, _, r, hr1, _, h1, ⟨h2, h3⟩, h4, h5⟩)
      · have g1 := hr.2 0 r (by omega) hr1
        have g2 := hr.le (show r ≤ rows.length - 1 by omega) (by omega)
        exact ⟨⟨by omega, ⟨c, hc1, h1⟩, by omega, by omega⟩, h4⟩
      · have g1 := hr.le (Nat.zero_le r) hr1
        have g2 := hr.le (show r + 1 ≤ rows.length - 1 by omega) (by omega)
        exact ⟨⟨by omega, ⟨c, hc1, h4⟩, by omega, by omega⟩, h5⟩
    · rintro ⟨⟨h0, ⟨c, hc1, h1⟩, h2, h3⟩, h4⟩
      obtain ⟨r, hrl, h6, h7⟩ := locate rows (b - 1) (rows.length - 1) h2 h3
      by_cases he : rows[r + 1]?.getD 0 = b
      · exact Or.inl ⟨r + 1, by omega, by omega, c, hc1, by omega, h1, he, by omega, h4⟩
      · exact Or.inr ⟨c, hc1, by omega, r, by omega, by omega, hrl, ⟨by omega, by omega⟩, h1, h4⟩
  · constructor
    · rintro ⟨r, hr1, _, c, hc1, _, (⟨h1, h2, h3, h4⟩ | ⟨h1, ⟨h2, h3⟩, h4, h5⟩)⟩
      · have g1 := hc.le (Nat.zero_le c) hc1
        have g2 := hc.2 c (cols.length - 1) (by omega) (by omega)
        exact ⟨⟨⟨r, hr1, h2⟩, by omega, by omega⟩, h4⟩
      · have g1 := hc.le (Nat.zero_le c) hc1
        have g2 := hc.le (show c + 1 ≤ cols.length - 1 by omega) (by omega)
        exact ⟨⟨⟨r, hr1, h4⟩, by omega, by omega⟩, h5⟩
    · rintro ⟨⟨⟨r, hr1, h1⟩, h2, h3⟩, h4⟩
      obtain ⟨c, hcl, h6, h7⟩ := locate cols a (cols.length - 1) h2 h3
      by_cases he : cols[c]?.getD 0 = a
      · exact ⟨r, hr1, by omega, c, by omega, by omega, Or.inl ⟨he, h1, by omega, h4⟩⟩
      · exact ⟨r, hr1, by omega, c, by omega, by omega, Or.inr ⟨hcl, ⟨by omega, by omega⟩, h1, h4⟩⟩
  · constructor
    · rintro (⟨r, hr1, _, c, hc1, _, h1, h2, h3, h4⟩ | ⟨c, hc1, _, r, hr1, _, h1, ⟨h2, h3⟩, h4, h5⟩)
      · have g1 := hr.le (Nat.zero_le r) hr1
        have g2 := hr.2 r (rows.length - 1) (by omega) (by omega)
        exact ⟨⟨⟨c, hc1, h1⟩, by omega, by omega⟩, h4⟩
      · have g1 := hr.le (Nat.zero_le r) hr1
        have g2 := hr.le (show r + 1 ≤ rows.length - 1 by omega) (by omega)
        exact ⟨⟨⟨c, hc1, h4⟩, by omega, by omega⟩, h5⟩
    · rintro ⟨⟨⟨c, hc1, h1⟩, h2, h3⟩, h4⟩
      obtain ⟨r, hrl, h6, h7⟩ := locate rows b (rows.length - 1) h2 h3
      by_cases he : rows[r]?.getD 0 = b
      · exact Or.inl ⟨r, by omega, by omega, c, hc1, by omega, h1, he, by omega, h4⟩
      · exact Or.inr ⟨c, hc1, by omega, r, by omega, by omega, hrl, ⟨by omega, by omega⟩, h1, h4⟩
  · constructor
    · rintro ⟨r, hr1, _, c, hc1, _, (⟨h1, h2, h3, h4⟩ | ⟨h1, ⟨h2, h3⟩, h4, h5⟩)⟩
      · have g1 := hc.2 0 c (by omega) hc1
        have g2 := hc.le (show c ≤ cols.length - 1 by omega) (by omega)
        exact ⟨⟨by omega, ⟨r, hr1, h2⟩, by omega, by omega⟩, h4⟩
      · have g1 := hc.le (Nat.zero_le c) hc1
        have g2 := hc.le (show c + 1 ≤ cols.length - 1 by omega) (by omega)
        exact ⟨⟨by omega, ⟨r, hr1, h4⟩, by omega, by omega⟩, h5⟩
    · rintro ⟨⟨h0, ⟨r, hr1, h1⟩, h2, h3⟩, h4⟩
      obtain ⟨c, hcl, h6, h7⟩ := locate cols (a - 1) (cols.length - 1) h2 h3
      by_cases he : cols[c + 1]?.getD 0 = a
      · exact ⟨r, hr1, by omega, c + 1, by omega, by omega, Or.inl ⟨he, h1, by omega, h4⟩⟩
      · exact ⟨r, hr1, by omega, c, by omega, by omega, Or.inr ⟨hcl, ⟨by omega, by omega⟩, h1, h4⟩⟩

end Textual.Keyline
