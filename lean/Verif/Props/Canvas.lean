import Verif.Lemmas.Canvas

/-! C04 (drawing stays inside every pushed clip), C05 (no out-of-bounds access), C07 (balanced
clips). -/

namespace Textual.Canvas

/-- Calls a program can make on a canvas. -/
inductive Op where
  | push (r : Region)
  | pop
  | draw (d : Draw)
  | clear
  | invalidate
  | flush

/-- One call; `none` is a panic. -/
def step (c : Canvas) : Op → Option Canvas
  | .push r => some (c.pushClip r)
  | .pop => some c.popClip
  | .draw d => c.draw d
  | .clear => some c.clear
  | .invalidate => some c.invalidate
  | .flush => some c.flush.2

/-- A history of calls. -/
def run (c : Canvas) : List Op → Option Canvas
  | [] => some c
  | op :: ops => (c.step op).bind (run · ops)

/-- Specification of the regions pushed and not yet popped after a history that starts with the
stack `s` (`clear` empties the stack). -/
def pushed (s : List Region) : List Op → List Region
  | [] => s
  | .push r :: ops => pushed (r :: s) ops
  | .pop :: ops => pushed s.tail ops
  | .clear :: ops => pushed [] ops
  | .draw _ :: ops | .invalidate :: ops | .flush :: ops => pushed s ops

/-- The effective clip of a stack of pushed regions. -/
def clipOf (w h : Nat) : List Region → Region
  | [] => ⟨0, 0, w, h⟩
  | r :: rest => r.intersection (clipOf w h rest)

/-- The stack the canvas keeps for a stack of pushed regions. -/
def clipsOf (w h : Nat) : List Region → List Region
  | [] => []
  | r :: rest => clipOf w h (r :: rest) :: clipsOf w h rest

/-- Invariant of every reachable canvas. -/
structure Inv (w h : Nat) (raw : List Region) (c : Canvas) : Prop where
  weq : c.w = w
  heq : c.h = h
  len : c.cells.length = w * h
  plen : c.prev.length = w * h
  clips : c.clips = clipsOf w h raw

theorem Inv.currentClip {w h raw c} (i : Inv w h raw c) : c.currentClip = clipOf w h raw := by
  unfold Canvas.currentClip
  rw [i.clips]
  cases raw with
  | nil => simp [clipsOf, clipOf, i.weq, i.heq]
  | cons r rest => simp [clipsOf]

theorem Inv.step {w h raw c} (i : Inv w h raw c) (op : Op) :
    ∃ c', c.step op = some c' ∧ Inv w h (Canvas.pushed raw [op]) c' := by
  cases op with
  | push r =>
    refine ⟨_, rfl, i.weq, i.heq, i.len, i.plen, ?_⟩
    simp only [pushClip, pushed, clipsOf, clipOf, i.clips, i.currentClip]
  | pop =>
    refine ⟨_, rfl, i.weq, i.heq, i.len, i.plen, ?_⟩
    simp only [popClip, pushed, i.clips]
    cases raw <;> simp [clipsOf]
  | draw d =>
    obtain ⟨c', h1, h2⟩ := draw_spec c (by rw [i.len, i.weq, i.heq]) d
    exact ⟨c', h1, by rw [h2.w, i.weq], by rw [h2.h, i.heq], by rw [h2.len, i.len],
      by rw [h2.prev, i.plen], by rw [h2.clips, i.clips]; rfl⟩
  | clear => exact ⟨_, rfl, i.weq, i.heq, by simp [clear, i.len], i.plen, rfl⟩
  | invalidate => exact ⟨_, rfl, i.weq, i.heq, i.len, i.plen, i.clips⟩
  | flush => exact ⟨_, rfl, i.weq, i.heq, i.plen, i.len, i.clips⟩

theorem pushed_cons (s : List Region) (op : Op) (ops : List Op) :
    pushed s (op :: ops) = pushed (pushed s [op]) ops := by
  cases op <;> rfl

theorem Inv.run {w h raw c} (i : Inv w h raw c) (ops : List Op) :
    ∃ c', c.run ops = some c' ∧ Inv w h (pushed raw ops) c' := by
  induction ops generalizing raw c with
  | nil => exact ⟨c, rfl, i⟩
  | cons op ops ih =>
    obtain ⟨c1, h1, i1⟩ := i.step op
    obtain ⟨c2, h2, i2⟩ := ih i1
    refine ⟨c2, by simp [Canvas.run, h1, h2], by rw [pushed_cons]; exact i2⟩

theorem Inv.new {w h c} (hc : Canvas.new w h = some c) : Inv w h [] c := by
  unfold Canvas.new at hc
  split at hc
  · cases hc; exact ⟨rfl, rfl, by simp, by simp, rfl⟩
  · cases hc

/-- C05: for every canvas that can be created, no history of calls panics, and the buffers keep
exactly `w * h` cells. -/
theorem run_never_panics_partial {w h : Nat} {c : Canvas} (hc : Canvas.new w h = some c)
    (ops : List Op) :
    ∃ c', c.run ops = some c' ∧ c'.w = w ∧ c'.h = h ∧
      c'.cells.length = w * h ∧ c'.prev.length = w * h := by
  obtain ⟨c', h1, i⟩ := (Inv.new hc).run ops
  exact ⟨c', h1, i.weq, i.heq, i.len, i.plen⟩

/-- C05: a canvas can be created exactly up to 65535 cells. -/
theorem new_isSome_iff_partial (w h : Nat) : (Canvas.new w h).isSome ↔ w * h < 65536 := by
  unfold Canvas.new; split <;> simp [*]

/-- C05 fails for big terminals: 256 x 256 overflows the `u16` product (a panic with overflow
checks) ... -/
theorem new_overflow_counterexample : Canvas.new 256 256 = none := by
  simp [Canvas.new]

/-- ... and without overflow checks the buffer is empty and the first visible character panics. -/
theorem newRelease_draw_counterexample :
    (Canvas.newRelease 256 256).putChar 0 0 ⟨"a", 1⟩ none none {} = none := by
  decide

/-- C04: after any history of calls, a drawing call changes a cell `(x, y)` of the canvas only if
the point lies inside every region pushed and not yet popped. -/
theorem draw_inside_every_clip {w h : Nat} {c0 c c' : Canvas} (h0 : Canvas.new w h = some c0)
    (ops : List Op) (hc : c0.run ops = some c) (d : Draw) (hd : c.draw d = some c')
    (x y : Nat) (hx : x < w) (hchg : c'.cells[y * w + x]? ≠ c.cells[y * w + x]?) :
    y < h ∧ ∀ r ∈ pushed [] ops, r.containsPoint x y = true := by
  obtain ⟨c1, h1, i⟩ := (Inv.new h0).run ops
  rw [hc] at h1
  cases h1
  obtain ⟨c2, h2, o⟩ := draw_spec c (by rw [i.len, i.weq, i.heq]) d
  rw [hd] at h2
  cases h2
  have hw : Within c.currentClip x y := by
    apply Classical.byContradiction
    intro hn
    apply hchg
    have := o.same x y (by rw [i.weq]; exact hx) hn
    rw [i.weq] at this
    exact this
  constructor
  · apply Classical.byContradiction
    intro hy
    have hge : w * h ≤ y * w + x := by
      have : h * w ≤ y * w := Nat.mul_le_mul_right w (by omega)
      rw [Nat.mul_comm w h]; omega
    apply hchg
    rw [List.getElem?_eq_none (by rw [o.len, i.len]; exact hge),
      List.getElem?_eq_none (by rw [i.len]; exact hge)]
  · rw [i.currentClip] at hw
    generalize pushed [] ops = raw at *
    have key : ∀ raw : List Region, (clipOf w h raw).containsPoint x y = true →
        ∀ r ∈ raw, r.containsPoint x y = true := by
      intro raw
      induction raw with
      | nil => simp
      | cons r rest ih =>
        intro hcp
        rw [clipOf, Region.mem_intersection, Bool.and_eq_true] at hcp
        intro r' hr'
        rcases List.mem_cons.1 hr' with rfl | hr'
        · exact hcp.1
        · exact ih hcp.2 r' hr'
    cases raw with
    | nil => simp
    | cons r rest =>
      obtain ⟨h3, h4⟩ := within_intersection (a := r) (b := clipOf w h rest) hw
      intro r' hr'
      rcases List.mem_cons.1 hr' with rfl | hr'
      · exact h3
      · exact key rest h4 r' hr'

/-- C04: a drawing call changes nothing else: size, clip stack and the previous frame stay. -/
theorem draw_frame {w h : Nat} {c0 c c' : Canvas} (h0 : Canvas.new w h = some c0)
    (ops : List Op) (hc : c0.run ops = some c) (d : Draw) (hd : c.draw d = some c') :
    c'.w = c.w ∧ c'.h = c.h ∧ c'.clips = c.clips ∧ c'.prev = c.prev ∧ c'.firstFlush = c.firstFlush := by
  obtain ⟨c1, h1, i⟩ := (Inv.new h0).run ops
  rw [hc] at h1
  cases h1
  obtain ⟨c2, h2, o⟩ := draw_spec c (by rw [i.len, i.weq, i.heq]) d
  rw [hd] at h2
  cases h2
  exact ⟨o.w, o.h, o.clips, o.prev, o.ff⟩

/-- Well-bracketed call sequences (no `clear`, which empties the stack). -/
inductive Balanced : List Op → Prop
  | nil : Balanced []
  | draw (d : Draw) : Balanced [.draw d]
  | invalidate : Balanced [.invalidate]
  | flush : Balanced [.flush]
  | append {a b : List Op} : Balanced a → Balanced b → Balanced (a ++ b)
  | bracket (r : Region) {a : List Op} : Balanced a → Balanced (.push r :: a ++ [.pop])

theorem pushed_append (s : List Region) (a b : List Op) :
    pushed s (a ++ b) = pushed (pushed s a) b := by
  induction a generalizing s with
  | nil => rfl
  | cons op ops ih => rw [List.cons_append, pushed_cons, ih, ← pushed_cons]

/-- Balanced sequences leave the specification stack as it is. -/
theorem Balanced.pushed_eq {ops : List Op} (hb : Balanced ops) (s : List Region) : pushed s ops = s := by
  induction hb generalizing s with
  | nil | draw | invalidate | flush => rfl
  | append _ _ ih1 ih2 => rw [pushed_append, ih1, ih2]
  | bracket r _ ih =>
    rw [List.cons_append, pushed_cons, pushed_append, ih]
    rfl

/-- C07: after any history, a balanced block of calls leaves the clip stack (and so the effective
clip) exactly as it found it. -/
theorem balanced_restores_clip {w h : Nat} {c0 c c' : Canvas} (h0 : Canvas.new w h = some c0)
    (ops block : List Op) (hc : c0.run ops = some c) (hb : Balanced block)
    (hblock : c.run block = some c') :
    c'.clips = c.clips ∧ c'.currentClip = c.currentClip := by
  obtain ⟨c1, h1, i⟩ := (Inv.new h0).run ops
  rw [hc] at h1
  cases h1
  obtain ⟨c2, h2, i2⟩ := i.run block
  rw [hblock] at h2
  cases h2
  rw [hb.pushed_eq] at i2
  exact ⟨by rw [i2.clips, i.clips], by rw [i2.currentClip, i.currentClip]⟩

/-! Concrete cases. -/

/-- A history with nested clips in which a drawing call does change a cell. -/
example : ∃ c0 c c', Canvas.new 6 3 = some c0 ∧
    c0.run [.push (Region.new 1 0 4 2), .push (Region.new (-2) 1 5 9)] = some c ∧
    c.draw (.str 0 1 [⟨"a", 1⟩, ⟨"日", 2⟩, ⟨"b", 1⟩] none (some (RgbaColor.rgba 9 8 7 1)) {}) = some c' ∧
    c'.cells[1 * 6 + 1]? ≠ c.cells[1 * 6 + 1]? := by
  refine ⟨_, _, _, rfl, rfl, rfl, ?_⟩
  decide +kernel

example : Balanced [.push (Region.new 0 0 4 4), .push (Region.new 1 1 2 2), .flush, .pop, .pop] :=
  .bracket (a := [.push (Region.new 1 1 2 2), .flush, .pop]) _ (.bracket (a := [.flush]) _ .flush)

end Textual.Canvas
