import Verif.Model.Small
import Verif.Lemmas.Placeholder
import Mathlib.Data.List.Induction

/-! C143: rulers, spinners and scrollbar corners. -/

namespace Textual.Small

open Canvas Placeholder

/-! ### Rulers -/

theorem tick_width (i : Nat) : (tick i).width = 1 := by unfold tick; split <;> rfl

theorem ticks_width : ∀ l : List Nat, widthOf (l.map tick) = l.length
  | [] => rfl
  | i :: l => by
    have := ticks_width l
    simp only [widthOf, List.map_cons, List.sum_cons, tick_width, List.length_cons] at this ⊢
    omega

/-- The strips of a list of one-line texts, one below the other. -/
def rows (l : Look) (x y : Int) : List (List Grapheme) → List Draw
  | [] => []
  | t :: ts => .strip x y (strip l t) :: rows l x (y + 1) ts

theorem draw_strip (c : Canvas) (l : Look) (x y : Int) (t : List Grapheme) :
    c.draw (.strip x y (strip l t)) = putStr c x y t l.fg l.bg l.attrs := by
  simp only [Canvas.draw, strip, renderStrip]
  cases putStr c x y t l.fg l.bg l.attrs <;> rfl

theorem rows_only (l : Look) (x : Int) (W : Nat) : ∀ (lines : List (List Grapheme)) (y : Int) (c : Canvas),
    c.cells.length = c.w * c.h → (∀ t ∈ lines, widthOf t ≤ W ∧ ∀ g ∈ t, 1 ≤ g.width) →
    ∃ c', drawAll c (rows l x y lines) = some c' ∧
      OnlyCells (fun X Y => y ≤ Y ∧ (Y : Int) < y + lines.length ∧ x ≤ X ∧ (X : Int) < x + W) c c'
  | [], y, c, _, _ => ⟨c, rfl, .refl c⟩
  | t :: ts, y, c, hl, h => by
    obtain ⟨c1, h1, o1⟩ := putStr_range c hl x y t l.fg l.bg l.attrs (h t (by simp)).2
    obtain ⟨c2, h2, o2⟩ := rows_only l x W ts (y + 1) c1 (by rw [o1.len, o1.w, o1.h, hl]) (fun t ht => h t (by simp [ht]))
    have hw := (h t (by simp)).1
    refine ⟨c2, by simp [rows, drawAll, draw_strip, h1, h2], (o1.weaken ?_).trans (o2.weaken ?_)⟩
    · intro X Y hh
      simp only [List.length_cons]
      omega
    · intro X Y hh
      simp only [List.length_cons]
      omega

theorem rows_shows (l : Look) (x : Int) (clip : Region) : ∀ (lines : List (List Grapheme)) (y : Int) (c c' : Canvas),
    c.cells.length = c.w * c.h → c.currentClip = clip →
    (∀ t ∈ lines, ∀ g ∈ t, 1 ≤ g.width) →
    drawAll c (rows l x y lines) = some c' →
    ∀ (i : Nat) (line pre post : List Grapheme) (g : Grapheme) (X Y : Nat),
      lines[i]? = some line → line = pre ++ g :: post → (X : Int) = x + widthOf pre → (Y : Int) = y + i →
      Y < c.h → X + g.width ≤ c.w → Within clip X Y → ((X + g.width : Nat) : Int) ≤ clip.x + clip.width →
      ∃ old, c'.cells[Y * c.w + X]? = some (leadCell g (l.fg.map toCrosstermColor) l.bg l.attrs old)
  | [], y, c, c', _, _, _, _, i, line, pre, post, g, X, Y, hi, _, _, _, _, _, _, _ => by simp at hi
  | t :: ts, y, c, c', hl, hclip, h, hd, i, line, pre, post, g, X, Y, hi, he, hX, hY, hYh, hXw, hw, hw2 => by
    have hl1 := h t (by simp)
    obtain ⟨c1, h1, o1⟩ := putStr_range c hl x y t l.fg l.bg l.attrs hl1
    have hlen1 : c1.cells.length = c1.w * c1.h := by rw [o1.len, o1.w, o1.h, hl]
    simp only [rows, drawAll, draw_strip, h1, Option.bind_some] at hd
    cases i with
    | zero =>
      simp only [List.getElem?_cons_zero, Option.some.injEq] at hi
      subst hi he
      have hg1 := hl1 g (by simp)
      unfold putStr at h1
      have hw' := hw
      unfold Within at hw'
      simp only [hclip] at h1
      rw [if_neg (by omega), if_neg (by omega)] at h1
      obtain ⟨w1, -⟩ := putGraphemes_writes c hl x y _ l.bg l.attrs clip pre post g X Y
        (fun p hp => hl1 p (by simp [hp])) hX (by omega) hg1 hYh hXw hw hw2 c1 h1
      have hidx : Y * c.w + X < c.cells.length := by rw [hl]; exact index_lt (by omega) hYh
      rw [List.getElem?_eq_getElem hidx, Option.map_some] at w1
      obtain ⟨W, hW⟩ : ∃ W, ∀ t ∈ ts, widthOf t ≤ W :=
        ⟨(ts.map widthOf).sum, fun t ht => List.le_sum_of_mem (List.mem_map_of_mem ht)⟩
      obtain ⟨c2, h2, o2⟩ := rows_only l x W ts (y + 1) c1 hlen1 (fun t ht => ⟨hW t ht, h t (by simp [ht])⟩)
      rw [hd] at h2
      cases h2
      have := o2.same X Y (by rw [o1.w]; omega) (by omega)
      rw [o1.w] at this
      exact ⟨_, by rw [this, w1]⟩
    | succ i =>
      simp only [List.getElem?_cons_succ] at hi
      have := rows_shows l x clip ts (y + 1) c1 c' hlen1 (by rw [o1.currentClip, hclip])
        (fun t ht => h t (by simp [ht])) hd i line pre post g X Y hi he hX (by omega) (by rw [o1.h]; exact hYh)
        (by rw [o1.w]; exact hXw) hw hw2
      rw [o1.w] at this
      exact this

/-- The texts of a ruler, line by line. -/
def lines (vertical : Bool) (r : Region) : List (List Grapheme) :=
  if vertical then (List.range r.height.toNat).map fun y => [tick y] else [(List.range r.width.toNat).map tick]

theorem rows_map (l : Look) (x : Int) (f : Nat → List Grapheme) : ∀ (n k : Nat) (y : Int),
    rows l x (y + k) ((List.range' k n).map f) =
      (List.range' k n).map fun (i : Nat) => Draw.strip x (y + i) (strip l (f i))
  | 0, k, y => rfl
  | n + 1, k, y => by
    rw [List.range'_succ, List.map_cons, List.map_cons, rows, ← rows_map l x f n (k + 1) y]
    congr 2
    push_cast
    omega

theorem ruler_rows (vertical : Bool) (l : Look) (r : Region) (hh : l.hidden = false) (hw : 0 < r.width)
    (hht : 0 < r.height) : ruler vertical l r = rows l r.x r.y (lines vertical r) := by
  unfold ruler lines
  rw [if_neg (by simp [hh]), if_neg (by omega)]
  cases vertical with
  | true =>
    have := rows_map l r.x (fun y => [tick y]) r.height.toNat 0 r.y
    simp only [Nat.cast_zero, add_zero, ← List.range_eq_range'] at this
    exact this.symm
  | false => rfl

instance (r : Region) (X Y : Nat) : Decidable (Within r X Y) := by unfold Within; infer_instance

/-- The distance of a cell from the start of the ruler, along it, if the ruler is drawn there. -/
def along (vertical : Bool) (r : Region) (X Y : Nat) : Option Nat :=
  if ¬ Within r X Y then none
  else if vertical then (if (X : Int) = r.x then some (Y - r.y.toNat) else none)
  else (if (Y : Int) = r.y then some (X - r.x.toNat) else none)

/-- C143: a ruler changes only the first column (row) of its area, and every visible cell of that line shows a tick:
a large one in every fifth cell from its start, small ones in the others. For every area with its start on the canvas,
canvas and clip. -/
theorem ruler_ticks (vertical : Bool) (l : Look) (r : Region) (c : Canvas) (hl : c.cells.length = c.w * c.h)
    (hh : l.hidden = false) (hx : 0 ≤ r.x) (hy : 0 ≤ r.y) :
    ∃ c', drawAll c (ruler vertical l r) = some c' ∧ OnlyCells (fun X Y => along vertical r X Y ≠ none) c c' ∧
      ∀ X Y i : Nat, along vertical r X Y = some i → X < c.w → Y < c.h → Within c.currentClip X Y →
        ∃ cell, c'.cells[Y * c.w + X]? = some cell ∧ cell.symbol = (if 5 ∣ i + 1 then "•" else "·") ∧
          cell.width = 1 ∧ cell.continuation = false := by
  by_cases hsize : 0 < r.width ∧ 0 < r.height
  swap
  · refine ⟨c, ?_, .refl c, ?_⟩
    · unfold ruler
      rw [if_neg (by simp [hh]), if_pos (by omega)]
      rfl
    · intro X Y i hi
      have hn : ¬ Within r X Y := by unfold Within; omega
      rw [along, if_pos hn] at hi
      cases hi
  have hmem : ∀ t ∈ lines vertical r, ∀ g ∈ t, 1 ≤ g.width := by
    intro t ht g hg
    unfold lines at ht
    cases vertical with
    | true =>
      simp only [if_true, List.mem_map] at ht
      obtain ⟨i, -, rfl⟩ := ht
      simp only [List.mem_singleton] at hg
      subst hg
      rw [tick_width]
    | false =>
      simp only [Bool.false_eq_true, if_false, List.mem_singleton] at ht
      subst ht
      obtain ⟨i, -, rfl⟩ := List.mem_map.1 hg
      rw [tick_width]
  have hlen : ∀ t ∈ lines vertical r, widthOf t ≤ (if vertical then 1 else r.width.toNat) := by
    intro t ht
    unfold lines at ht
    cases vertical with
    | true =>
      simp only [if_true, List.mem_map] at ht
      obtain ⟨i, -, rfl⟩ := ht
      simp [widthOf, tick_width]
    | false =>
      simp only [Bool.false_eq_true, if_false, List.mem_singleton] at ht
      subst ht
      rw [ticks_width, List.length_range]
      exact Nat.le_refl _
  obtain ⟨c', h1, o1⟩ := rows_only l r.x _ (lines vertical r) r.y c hl (fun t ht => ⟨hlen t ht, hmem t ht⟩)
  refine ⟨c', by rw [ruler_rows vertical l r hh hsize.1 hsize.2]; exact h1, o1.weaken ?_, ?_⟩
  · intro X Y hin
    unfold along Within
    cases vertical with
    | true =>
      have : (lines true r).length = r.height.toNat := by simp [lines]
      rw [this] at hin
      simp only [if_true] at hin ⊢
      rw [if_neg (by omega), if_pos (by omega)]
      simp
    | false =>
      have : (lines false r).length = 1 := by simp [lines]
      rw [this] at hin
      simp only [Bool.false_eq_true, if_false] at hin ⊢
      rw [if_neg (by omega), if_pos (by omega)]
      simp
  · intro X Y i hi hX hY hc
    have hc' := hc
    unfold Within at hc'
    have hdvd : (5 ∣ i + 1) ↔ (i + 1) % 5 = 0 := Nat.dvd_iff_mod_eq_zero
    have fin : (∃ old, c'.cells[Y * c.w + X]? =
        some (leadCell (tick i) (l.fg.map toCrosstermColor) l.bg l.attrs old)) →
        ∃ cell, c'.cells[Y * c.w + X]? = some cell ∧ cell.symbol = (if 5 ∣ i + 1 then "•" else "·") ∧
          cell.width = 1 ∧ cell.continuation = false := by
      rintro ⟨old, ho⟩
      refine ⟨_, ho, ?_⟩
      have hp : preserveText (tick i) (l.fg.map toCrosstermColor) l.bg l.attrs = false := by
        have ht : (tick i).text ≠ " " := by unfold tick; split <;> decide
        unfold preserveText
        split <;> simp [ht]
      simp only [leadCell, hp, Bool.false_eq_true, if_false, hdvd]
      refine ⟨?_, tick_width i, trivial⟩
      unfold tick
      split <;> simp [*]
    apply fin
    unfold along at hi
    split at hi
    · cases hi
    rename_i hw
    have hw : Within r X Y := not_not.1 hw
    unfold Within at hw
    cases vertical with
    | true =>
      simp only [if_true] at hi
      split at hi
      · rename_i hxx
        simp only [Option.some.injEq] at hi
        refine rows_shows l r.x c.currentClip _ r.y c c' hl rfl hmem h1 i [tick i] [] [] (tick i) X Y ?_ rfl
          (by simp [widthOf, hxx]) (by omega) hY (by rw [tick_width]; omega) hc (by rw [tick_width]; push_cast; omega)
        have hir : i < r.height.toNat := by omega
        simp [lines, List.getElem?_map, List.getElem?_range hir]
      · cases hi
    | false =>
      simp only [Bool.false_eq_true, if_false] at hi
      split at hi
      · rename_i hyy
        simp only [Option.some.injEq] at hi
        have hir : i < r.width.toNat := by omega
        have hsplit : (List.range r.width.toNat).map tick = (List.range i).map tick ++ tick i ::
            ((List.range' (i + 1) (r.width.toNat - i - 1)).map tick) := by
          have : List.range r.width.toNat = List.range i ++ i :: List.range' (i + 1) (r.width.toNat - i - 1) := by
            rw [List.range_eq_range', List.range_eq_range',
              show r.width.toNat = i + (r.width.toNat - i - 1 + 1) by omega, ← List.range'_append_1, List.range'_succ]
            congr 3 <;> omega
          rw [this, List.map_append, List.map_cons]
        refine rows_shows l r.x c.currentClip _ r.y c c' hl rfl hmem h1 0 ((List.range r.width.toNat).map tick)
          ((List.range i).map tick) _ (tick i) X Y (by simp [lines]) hsplit
          (by rw [ticks_width, List.length_range]; omega) (by omega) hY (by rw [tick_width]; omega) hc
          (by rw [tick_width]; push_cast; omega)
      · cases hi

/-- A 12-wide ruler on an empty canvas: large ticks in the fifth and tenth cells. -/
example : ((Canvas.new 14 2).bind (drawAll · (ruler false {} ⟨1, 1, 12, 1⟩))).map (fun c => (c.cells.drop 14).map (·.symbol)) =
    some [" ", "·", "·", "·", "·", "•", "·", "·", "·", "·", "•", "·", "·", " "] := by decide +kernel

example : ∀ X Y i : Nat, along false ⟨1, 1, 12, 1⟩ X Y = some i → Y = 1 ∧ X = i + 1 := by
  intro X Y i h
  simp only [along, Within] at h
  split at h
  · cases h
  · simp only [Bool.false_eq_true, if_false] at h
    split at h <;> simp at h
    omega

/-! ### Spinners -/

/-- How often a list of calls advances the spinner. -/
def ticks (ops : List SpinnerOp) : Nat := ops.count .tick

/-- The visibility last asked for. -/
def lastVisible : List SpinnerOp → Bool := fun ops =>
  ((ops.filterMap fun | .setVisible v => some v | _ => none).getLast?).getD true

theorem spinner_state (ops : List SpinnerOp) :
    (Spinner.run ops).frame = ticks ops % 10 ∧ (Spinner.run ops).visible = lastVisible ops := by
  unfold Spinner.run
  induction ops using List.reverseRecOn with
  | nil => exact ⟨rfl, rfl⟩
  | append_singleton ops op ih =>
    obtain ⟨h1, h2⟩ := ih
    rw [List.foldl_append]
    cases op with
    | tick =>
      refine ⟨?_, ?_⟩
      · simp only [List.foldl_cons, List.foldl_nil, Spinner.step, Spinner.tick, h1, ticks, List.count_append,
          show frames.length = 10 from rfl]
        simp
      · simpa [Spinner.step, Spinner.tick, lastVisible] using h2
    | setVisible v =>
      refine ⟨?_, ?_⟩
      · have : ticks (ops ++ [.setVisible v]) = ticks ops := by simp [ticks, List.count_append, List.count_cons]
        rw [this, ← h1]
        simp only [List.foldl_cons, List.foldl_nil, Spinner.step, Spinner.setVisible]
        split <;> rfl
      · have : lastVisible (ops ++ [.setVisible v]) = v := by simp [lastVisible]
        rw [this]
        simp only [List.foldl_cons, List.foldl_nil, Spinner.step, Spinner.setVisible]
        split
        · rfl
        · rename_i h
          exact not_not.1 h
    | clean =>
      refine ⟨?_, ?_⟩
      · have : ticks (ops ++ [.clean]) = ticks ops := by simp [ticks, List.count_append, List.count_cons]
        rw [this, ← h1]
        rfl
      · simpa [Spinner.step, lastVisible] using h2

/-- C143: after every list of calls a shown spinner draws without a crash, changes at most one cell, the first of its
area, and that cell, where visible, shows the frame of the number of ticks so far, modulo ten; a hidden one draws
nothing. Missing: the area has to be non-empty for the cell to be in it, see `spinner_counterexample`. -/
theorem spinner_partial (ops : List SpinnerOp) (l : Look) (r : Region) (c : Canvas) (hl : c.cells.length = c.w * c.h) :
    ∃ ds c', (Spinner.run ops).render l r = some ds ∧ drawAll c ds = some c' ∧
      OnlyCells (fun X Y => (X : Int) = r.x ∧ (Y : Int) = r.y ∧ lastVisible ops = true ∧ l.hidden = false) c c' ∧
      (lastVisible ops = true → l.hidden = false → ∀ X Y : Nat, (X : Int) = r.x → (Y : Int) = r.y → X < c.w → Y < c.h →
        Within c.currentClip X Y → ∃ cell, c'.cells[Y * c.w + X]? = some cell ∧
          some cell.symbol = frames[ticks ops % 10]?) := by
  obtain ⟨hf, hv⟩ := spinner_state ops
  unfold Spinner.render
  rw [hf, hv]
  by_cases h : lastVisible ops = true ∧ l.hidden = false
  · obtain ⟨h1, h2⟩ := h
    rw [if_neg (by simp [h1, h2])]
    have hlt : ticks ops % 10 < frames.length := Nat.mod_lt _ (by decide)
    rw [List.getElem?_eq_getElem hlt, Option.map_some]
    obtain ⟨c', hp, ho⟩ := putGrapheme_spec c hl r.x r.y ⟨frames[ticks ops % 10], 1⟩ (l.fg.map toCrosstermColor) l.bg {}
      c.currentClip
    refine ⟨_, c', rfl, ?_, ho.weaken ?_, ?_⟩
    · simp only [drawAll, Canvas.draw, putChar, hp, Option.bind_some]
    · intro X Y hh
      simp only [Nat.max_self, Nat.cast_one] at hh
      exact ⟨by omega, by omega, h1, h2⟩
    · intro _ _ X Y hX hY hXw hYh hc
      have hc' := hc
      unfold Within at hc'
      have hp' := hp
      rw [← hX, ← hY] at hp'
      obtain ⟨w1, -⟩ := putGrapheme_writes c hl X Y ⟨frames[ticks ops % 10], 1⟩ _ l.bg {} c.currentClip
        (Nat.le_refl 1) hYh (show X + 1 ≤ c.w from hXw) hc (by push_cast; omega) c' hp'
      have hidx : Y * c.w + X < c.cells.length := by rw [hl]; exact index_lt hXw hYh
      rw [List.getElem?_eq_getElem hidx, Option.map_some] at w1
      refine ⟨_, w1, ?_⟩
      have hne : frames[ticks ops % 10] ≠ " " := by
        have : ∀ f ∈ frames, f ≠ " " := by decide
        exact this _ (List.getElem_mem hlt)
      have hp : preserveText ⟨frames[ticks ops % 10], 1⟩ (l.fg.map toCrosstermColor) l.bg {} = false := by
        unfold preserveText
        split <;> simp [hne]
      simp only [leadCell, hp, Bool.false_eq_true, if_false]
  · rw [if_pos (by revert h; cases lastVisible ops <;> cases l.hidden <;> simp)]
    exact ⟨[], c, rfl, rfl, .refl c, fun a b => absurd ⟨a, b⟩ h⟩

/-- Twelve ticks: the spinner is at its third frame again. -/
example : (Spinner.run (List.replicate 12 .tick)).frame = 2 ∧ lastVisible (List.replicate 12 .tick) = true ∧
    frames[ticks (List.replicate 12 .tick) % 10]? = some "⠹" := by decide +kernel

/-- C143: a spinner given no room still draws, in a cell of whoever is there. -/
theorem spinner_counterexample : ∃ (r : Region) (c : Canvas) (ds : List Draw), Canvas.new 1 1 = some c ∧
    r.width = 0 ∧ r.height = 0 ∧ (Spinner.run []).render {} r = some ds ∧
    (drawAll c ds).map (·.cells.map (·.symbol)) = some ["⠋"] ∧ c.cells.map (·.symbol) = [" "] :=
  ⟨⟨0, 0, 0, 0⟩, _, _, rfl, rfl, rfl, rfl, by decide +kernel, by decide +kernel⟩

/-- C143: a hidden ruler draws nothing. -/
theorem hidden_ruler (vertical : Bool) (l : Look) (r : Region) (c : Canvas) (h : l.hidden = true) :
    drawAll c (ruler vertical l r) = some c := by
  unfold ruler
  rw [if_pos h]
  rfl

/-- C143: a spinner that does not ask to be drawn again looks as it did when drawn last. -/
theorem spinner_redrawn (ops : List SpinnerOp) (h : (Spinner.run ops).dirty = false) :
    ∃ before after, ops = before ++ .clean :: after ∧ (Spinner.run ops).frame = (Spinner.run before).frame ∧
      (Spinner.run ops).visible = (Spinner.run before).visible := by
  induction ops using List.reverseRecOn with
  | nil => simp [Spinner.run] at h
  | append_singleton ops op ih =>
    have e : Spinner.run (ops ++ [op]) = (Spinner.run ops).step op := by simp [Spinner.run]
    rw [e] at h ⊢
    cases op with
    | tick => simp [Spinner.step, Spinner.tick] at h
    | clean => exact ⟨ops, [], rfl, rfl, rfl⟩
    | setVisible v =>
      simp only [Spinner.step, Spinner.setVisible] at h ⊢
      split at h
      · simp at h
      · rename_i hv
        rw [if_neg hv]
        obtain ⟨b, a, rfl, h1, h2⟩ := ih h
        exact ⟨b, a ++ [.setVisible v], by simp, h1, h2⟩

example : (Spinner.run [.tick, .clean, .setVisible true]).dirty = false := by decide

/-! ### Scrollbar corners -/

/-- C143: a scrollbar corner changes only cells of its area and of its own size, and every visible one of them gets its
(opaque) colour; hidden, it changes nothing. -/
theorem corner_fills (w h : Nat) (hidden : Bool) (color : RgbaColor) (r : Region) (c : Canvas)
    (hl : c.cells.length = c.w * c.h) :
    ∃ c', drawAll c (corner w h hidden color r) = some c' ∧
      OnlyCells (fun X Y => Within r X Y ∧ (X : Int) < r.x + w ∧ (Y : Int) < r.y + h ∧ hidden = false) c c' ∧
      (hidden = false → 1 ≤ color.a → ∀ X Y : Nat, Within r X Y → (X : Int) < r.x + w → (Y : Int) < r.y + h →
        X < c.w → Y < c.h → Within c.currentClip X Y →
        ∃ cell, c'.cells[Y * c.w + X]? = some cell ∧ cell.bg = some (toCrosstermRgb color)) := by
  unfold corner
  cases hidden with
  | true => exact ⟨c, rfl, .refl c, fun h => nomatch h⟩
  | false =>
    simp only [Bool.false_eq_true, if_false]
    obtain ⟨c', h1, h2⟩ := fill_only ⟨r.x, r.y, min r.width w, min r.height h⟩ color c hl
    refine ⟨c', h1, h2.weaken ?_, ?_⟩
    · intro X Y hh
      unfold Within at hh ⊢
      simp only at hh
      refine ⟨?_, ?_, ?_, trivial⟩ <;> omega
    · intro _ ha X Y hr hX hY hXw hYh hc
      refine fill_bg ha hl h1 ?_ hXw hYh hc
      unfold Within at hr ⊢
      simp only
      omega

/-- A 2×1 corner in a larger area fills just the two cells. -/
example : ((Canvas.new 4 2).bind (drawAll · (corner 2 1 false ⟨1, 2, 3, 1, none, false, none⟩ ⟨1, 0, 3, 2⟩))).map
    (fun c => c.cells.map (·.bg.isSome)) = some [false, true, true, false, false, false, false, false] := by
  decide +kernel

end Textual.Small
