import Verif.Model.Terminal
import Verif.Lemmas.Canvas

/-! Simulation of the flush loop by the terminal. -/

namespace Textual.Canvas
open Term

/-- Specification: what a cell should look like on the screen. -/
def shown (c : Cell) : TCell :=
  if c.continuation then .cont ⟨c.fg, c.bg, c.attrs⟩ else .glyph c.symbol c.width ⟨c.fg, c.bg, c.attrs⟩

/-- Specification: a frame in which every glyph is complete: a lead cell of width `n` fits in its row,
has the width the terminal gives its text and is followed by `n - 1` continuation cells of the same
style, and there are no stray continuation cells. -/
structure FrameOk (env : TermEnv) (w h : Nat) (cells : List Cell) : Prop where
  len : cells.length = w * h
  lead : ∀ (i : Nat) (c : Cell), cells[i]? = some c → c.continuation = false →
    1 ≤ c.width ∧ i % w + c.width ≤ w ∧ env.width c.symbol = c.width ∧
    ∀ k, 1 ≤ k → k < c.width → ∃ d, cells[i + k]? = some d ∧ d.continuation = true ∧
      d.fg = c.fg ∧ d.bg = c.bg ∧ d.attrs = c.attrs
  cont : ∀ (i : Nat) (c : Cell), cells[i]? = some c → c.continuation = true →
    ∃ (l : Nat) (d : Cell), l < i ∧ cells[l]? = some d ∧ d.continuation = false ∧ i < l + d.width

/-- The two loops as one, with an explicit skip flag. -/
def genLoop (w : Nat) : Nat → List (Cell × Bool) → FlushState → List Cmd
  | _, [], _ => []
  | i, (cell, skip) :: rest, st =>
    if skip then genLoop w (i + 1) rest st
    else if cell.continuation then genLoop w (i + 1) rest st
    else
      let (cmds, st) := flushCell w i cell st
      cmds ++ genLoop w (i + 1) rest st

theorem fullLoop_eq (w i : Nat) (cells : List Cell) (st : FlushState) :
    fullLoop w i cells st = genLoop w i (cells.map (·, false)) st := by
  induction cells generalizing i st with
  | nil => rfl
  | cons c rest ih =>
    simp only [fullLoop, List.map_cons, genLoop, ih]
    rfl

theorem diffLoop_eq (w i : Nat) (cells : List (Cell × Cell)) (st : FlushState) :
    diffLoop w i cells st = genLoop w i (cells.map fun p => (p.1, decide (p.1 = p.2))) st := by
  induction cells generalizing i st with
  | nil => rfl
  | cons c rest ih =>
    obtain ⟨a, b⟩ := c
    simp only [diffLoop, List.map_cons, genLoop, ih, decide_eq_true_eq]

theorem run_append (env : TermEnv) (t : Term) (a b : List Cmd) :
    t.run env (a ++ b) = (t.run env a).run env b := by
  simp [Term.run, List.foldl_append]

theorem run_attrCmds (env : TermEnv) (t : Term) (a : Attrs) (h : t.st.attrs = {}) :
    t.run env (attrCmds a) = { t with st := { t.st with attrs := a } } := by
  obtain ⟨w, hh, scr, cx, cy, p, st⟩ := t
  obtain ⟨fg, bg, at'⟩ := st
  obtain ⟨b1, b2, b3, b4, b5, b6⟩ := a
  simp only at h
  subst h
  cases b1 <;> cases b2 <;> cases b3 <;> cases b4 <;> cases b5 <;> cases b6 <;> rfl

theorem run_emitAttrs (env : TermEnv) (t : Term) (cell : Cell) (last : Last)
    (h : t.st = ⟨last.fg, last.bg, last.attrs⟩) :
    (emitAttrs cell last).2.attrs = cell.attrs ∧
    t.run env (emitAttrs cell last).1 =
      { t with st := ⟨(emitAttrs cell last).2.fg, (emitAttrs cell last).2.bg, cell.attrs⟩ } := by
  unfold emitAttrs
  split
  · refine ⟨rfl, ?_⟩
    simp only
    rw [show (Cmd.attrReset :: attrCmds cell.attrs) = [Cmd.attrReset] ++ attrCmds cell.attrs from rfl, run_append]
    rw [run_attrCmds]
    · rfl
    · rfl
  · rename_i hn
    have : cell.attrs = last.attrs := Classical.byContradiction hn
    refine ⟨this.symm, ?_⟩
    simp only [Term.run, List.foldl_nil, this, ← h]

theorem run_emitCell (env : TermEnv) (t : Term) (cell : Cell) (last : Last)
    (h : t.st = ⟨last.fg, last.bg, last.attrs⟩) :
    (emitCell cell last).2 = ⟨cell.fg, cell.bg, cell.attrs⟩ ∧
    t.run env (emitCell cell last).1 =
      ({ t with st := ⟨cell.fg, cell.bg, cell.attrs⟩ } : Term).print env cell.symbol := by
  obtain ⟨h1, h2⟩ := run_emitAttrs env t cell last h
  unfold emitCell
  generalize emitAttrs cell last = ea at *
  obtain ⟨c1, l1⟩ := ea
  obtain ⟨f1, b1, a1⟩ := l1
  simp only at h1 h2
  subst h1
  simp only
  constructor
  · unfold emitFg emitBg
    split <;> split <;> simp_all
  · rw [run_append, run_append, run_append, h2]
    unfold emitFg
    split
    · unfold emitBg
      split
      · rfl
      · simp_all [Term.run, Term.exec]
    · unfold emitBg
      split
      · simp_all [Term.run, Term.exec]
      · simp_all [Term.run, Term.exec]

/-- The tracked cursor and style agree with the terminal: printing at the tracked position needs no
cursor movement. -/
structure Sync (t : Term) (st : FlushState) : Prop where
  style : t.st = ⟨st.last.fg, st.last.bg, st.last.attrs⟩
  pos : ∀ x y : Nat, x < t.w → y < t.h → st.cx = x → st.cy = y →
    (t.pending = false ∧ t.cx = x ∧ t.cy = y) ∨ (t.pending = true ∧ x = 0 ∧ t.cy + 1 = y)

/-- One written cell. -/
theorem run_flushCell (env : TermEnv) (t : Term) (i : Nat) (cell : Cell) (st : FlushState)
    (hs : Sync t st) (hi : i < t.w * t.h) (hw : 1 ≤ cell.width) (hfit : i % t.w + cell.width ≤ t.w)
    (henv : env.width cell.symbol = cell.width) :
    (t.run env (flushCell t.w i cell st).1).w = t.w ∧
    (t.run env (flushCell t.w i cell st).1).h = t.h ∧
    (t.run env (flushCell t.w i cell st).1).screen =
      place env t.screen i cell.width cell.symbol ⟨cell.fg, cell.bg, cell.attrs⟩ ∧
    Sync (t.run env (flushCell t.w i cell st).1) (flushCell t.w i cell st).2 := by
  have hw0 : 0 < t.w := by
    rcases Nat.eq_zero_or_pos t.w with h | h
    · rw [h, Nat.zero_mul] at hi; omega
    · exact h
  have hx : i % t.w < t.w := Nat.mod_lt _ hw0
  have hy : i / t.w < t.h := Nat.div_lt_of_lt_mul hi
  have hxy : i / t.w * t.w + i % t.w = i := Nat.div_add_mod' i t.w
  -- state after the optional cursor movement
  have key : ∃ (t1 : Term) (last1 : Last), 
      t.run env (flushCell t.w i cell st).1 = t1.run env (emitCell cell last1).1 ∧
      (flushCell t.w i cell st).2.last = (emitCell cell last1).2 ∧
      t1.w = t.w ∧ t1.h = t.h ∧ t1.screen = t.screen ∧
      t1.st = ⟨last1.fg, last1.bg, last1.attrs⟩ ∧
      ((t1.pending = false ∧ t1.cx = i % t.w ∧ t1.cy = i / t.w) ∨
        (t1.pending = true ∧ i % t.w = 0 ∧ t1.cy + 1 = i / t.w)) := by
    unfold flushCell
    simp only
    by_cases hc : st.cx ≠ ((i % t.w : Nat) : Int) ∨ st.cy ≠ ((i / t.w : Nat) : Int)
    · simp only [if_pos hc]
      refine ⟨t.run env (.moveTo (i % t.w) (i / t.w) :: resetCmds), {}, ?_, ?_, ?_, ?_, ?_, ?_, ?_⟩
      · rw [run_append]
      · split <;> rfl
      · rfl
      · rfl
      · rfl
      · rfl
      · refine .inl ⟨rfl, ?_, ?_⟩
        · show min (i % t.w) (t.w - 1) = i % t.w
          omega
        · show min (i / t.w) (t.h - 1) = i / t.w
          omega
    · simp only [if_neg hc]
      refine ⟨t, st.last, ?_, ?_, rfl, rfl, rfl, hs.style, ?_⟩
      · rw [List.nil_append]
      · split <;> rfl
      · exact hs.pos _ _ hx hy (by omega) (by omega)
  obtain ⟨t1, last1, e1, e2, hw1, hh1, hscr, hst, hpos⟩ := key
  obtain ⟨hl, hr⟩ := run_emitCell env t1 cell last1 hst
  rw [e1, hr]
  -- print
  have hprint : ∀ t2 : Term, t2.w = t.w → t2.h = t.h → t2.screen = t.screen →
      t2.pending = false → t2.cx = i % t.w → t2.cy = i / t.w →
      let scr := place env t.screen i cell.width cell.symbol t2.st
      (if t2.cx + cell.width > t2.w then t2.newline else t2) = t2 ∧
      place env t2.screen (t2.cy * t2.w + t2.cx) cell.width cell.symbol t2.st = scr := by
    intro t2 a1 a2 a3 a4 a5 a6
    refine ⟨if_neg (by rw [a1, a5]; omega), ?_⟩
    rw [a3, a1, a5, a6, hxy]
  have hnl : ∀ t2 : Term, t2.cy + 1 < t2.h → t2.newline = { t2 with cx := 0, cy := t2.cy + 1, pending := false } := by
    intro t2 h; unfold newline; rw [if_pos h]
  let t0 : Term := { t1 with st := ⟨cell.fg, cell.bg, cell.attrs⟩ }
  obtain ⟨t2, ht2, b1, b2, b3, b4, b5, b6, b7⟩ : ∃ t2 : Term, (if t0.pending then t0.newline else t0) = t2 ∧
      t2.w = t.w ∧ t2.h = t.h ∧ t2.screen = t.screen ∧ t2.pending = false ∧ t2.cx = i % t.w ∧
      t2.cy = i / t.w ∧ t2.st = ⟨cell.fg, cell.bg, cell.attrs⟩ := by
    rcases hpos with ⟨p1, p2, p3⟩ | ⟨p1, p2, p3⟩
    · exact ⟨t0, by rw [if_neg]; show ¬ t1.pending = true; simp [p1], hw1, hh1, hscr, p1, p2, p3, rfl⟩
    · refine ⟨_, rfl, ?_⟩
      rw [if_pos (show t0.pending = true from p1), hnl t0 (show t1.cy + 1 < t1.h by rw [p3, hh1]; exact hy)]
      exact ⟨hw1, hh1, hscr, rfl, p2.symm, p3, rfl⟩
  obtain ⟨q1, q2⟩ := hprint t2 b1 b2 b3 b4 b5 b6
  have hfin : t0.print env cell.symbol =
      if i % t.w + cell.width ≥ t.w then
        { t2 with screen := place env t.screen i cell.width cell.symbol t2.st, cx := t.w - 1, pending := true }
      else { t2 with screen := place env t.screen i cell.width cell.symbol t2.st, cx := i % t.w + cell.width } := by
    unfold Term.print
    simp only [ht2, henv, q1, q2]
    simp only [b1, b5]
  show (t0.print env cell.symbol).w = t.w ∧ (t0.print env cell.symbol).h = t.h ∧
    (t0.print env cell.symbol).screen = _ ∧ Sync (t0.print env cell.symbol) _
  rw [hfin]
  refine ⟨by split <;> exact b1, by split <;> exact b2, by split <;> simp only [b7], ?_, ?_⟩
  · rw [e2, hl]
    split <;> exact b7
  · unfold flushCell
    simp only
    have hcast : ((i % t.w : Nat) : Int) + (cell.width : Int) ≥ (t.w : Int) ↔ i % t.w + cell.width ≥ t.w := by omega
    intro x y hx' hy' hcx hcy
    by_cases hge : i % t.w + cell.width ≥ t.w
    · simp only [if_pos hge, if_pos (hcast.2 hge)] at *
      right
      refine ⟨trivial, by omega, by omega⟩
    · simp only [if_neg hge, if_neg (mt hcast.1 hge)] at *
      left
      refine ⟨b4, by omega, by omega⟩

/-- Position `j` belongs to the glyph whose lead is at `l`. -/
def Covers (cells : List Cell) (l j : Nat) : Prop :=
  ∃ c, cells[l]? = some c ∧ c.continuation = false ∧ l ≤ j ∧ j < l + c.width

theorem Covers.unique {env w h cells} (ok : FrameOk env w h cells) {l l' j : Nat}
    (h1 : Covers cells l j) (h2 : Covers cells l' j) : l = l' := by
  have aux : ∀ {a b : Nat}, Covers cells a j → Covers cells b j → ¬ a < b := by
    intro a b ⟨c, hc, hcc, ha1, ha2⟩ ⟨d, hd, hdc, hb1, hb2⟩ hab
    obtain ⟨-, -, -, hk⟩ := ok.lead a c hc hcc
    obtain ⟨e, he, hec, -⟩ := hk (b - a) (by omega) (by omega)
    rw [show a + (b - a) = b by omega, hd] at he
    cases he
    rw [hdc] at hec
    cases hec
  have := aux h1 h2
  have := aux h2 h1
  omega

theorem Covers.exists {env w h cells} (ok : FrameOk env w h cells) {j : Nat} (hj : j < w * h) :
    ∃ l, Covers cells l j := by
  have hj' : j < cells.length := by rw [ok.len]; exact hj
  cases hc : (cells[j]).continuation with
  | false =>
    have := ok.lead j _ (List.getElem?_eq_getElem hj') hc
    exact ⟨j, _, List.getElem?_eq_getElem hj', hc, by omega, by omega⟩
  | true =>
    obtain ⟨l, d, h1, h2, h3, h4⟩ := ok.cont j _ (List.getElem?_eq_getElem hj') hc
    exact ⟨l, d, h2, h3, by omega, h4⟩

/-- All positions of a glyph are shown with the lead's style. -/
theorem Covers.shown {env w h cells} (ok : FrameOk env w h cells) {l j : Nat} {c : Cell}
    (hc : cells[l]? = some c) (hcc : c.continuation = false) (h1 : l ≤ j) (h2 : j < l + c.width) :
    ∃ d, cells[j]? = some d ∧
      shown d = if j = l then .glyph c.symbol c.width ⟨c.fg, c.bg, c.attrs⟩ else .cont ⟨c.fg, c.bg, c.attrs⟩ := by
  by_cases hjl : j = l
  · subst hjl
    exact ⟨c, hc, by simp [Canvas.shown, hcc]⟩
  · obtain ⟨-, -, -, hk⟩ := ok.lead l c hc hcc
    obtain ⟨e, he, hec, f1, f2, f3⟩ := hk (j - l) (by omega) (by omega)
    rw [show l + (j - l) = j by omega] at he
    exact ⟨e, he, by simp [Canvas.shown, hec, f1, f2, f3, hjl]⟩

/-- Loop invariant at index `i`: `skip l` tells that the glyph at `l` is not rewritten. -/
structure LoopInv (cells : List Cell) (skip : Nat → Bool) (i : Nat) (scr : Nat → TCell) : Prop where
  good : ∀ l j, Covers cells l j → (l < i ∨ skip l = true) → ∃ d, cells[j]? = some d ∧ scr j = shown d
  wide : ∀ l q k, Covers cells l k → skip l = true → q ≤ k → k < q + (scr q).extent →
    ∃ l', Covers cells l' q ∧ (l' < i ∨ skip l' = true)

theorem LoopInv.skipStep {cells skip i scr} (inv : LoopInv cells skip i scr)
    (h : skip i = true ∨ ∀ c, cells[i]? = some c → c.continuation = true) :
    LoopInv cells skip (i + 1) scr := by
  refine ⟨?_, ?_⟩
  · intro l j hc hl
    apply inv.good l j hc
    rcases hl with hl | hl
    · by_cases hli : l = i
      · subst hli
        rcases h with h | h
        · exact .inr h
        · obtain ⟨c, hc1, hc2, -⟩ := hc
          rw [h c hc1] at hc2; cases hc2
      · exact .inl (by omega)
    · exact .inr hl
  · intro l q k hc hs hq hk
    obtain ⟨l', h1, h2⟩ := inv.wide l q k hc hs hq hk
    exact ⟨l', h1, h2.imp (by omega) id⟩

theorem clobbered_iff (scr : Nat → TCell) (p n k : Nat) :
    clobbered scr p n k = true ↔
      ∃ q, q ≤ k ∧ k < q + (scr q).extent ∧ q < p + n ∧ p < q + (scr q).extent := by
  unfold clobbered
  simp only [List.any_eq_true, List.mem_range, Bool.and_eq_true, decide_eq_true_eq]
  constructor
  · rintro ⟨q, h1, ⟨h2, h3⟩, h4⟩; exact ⟨q, by omega, h2, h3, h4⟩
  · rintro ⟨q, h1, h2, h3, h4⟩; exact ⟨q, by omega, ⟨h2, h3⟩, h4⟩

theorem LoopInv.placeStep {env : TermEnv} {w h : Nat} {cells : List Cell} {skip i scr}
    (ok : FrameOk env w h cells) (hj : env.Ok)
    (inv : LoopInv cells skip i scr) {c : Cell} (hc : cells[i]? = some c)
    (hcc : c.continuation = false) (hskip : skip i = false) :
    LoopInv cells skip (i + 1) (place env scr i c.width c.symbol ⟨c.fg, c.bg, c.attrs⟩) := by
  have hlead := ok.lead i c hc hcc
  have lt_of_cov : ∀ {l j}, Covers cells l j → j < w * h := by
    rintro l j ⟨d, hd, hdc, h1, h2⟩
    obtain ⟨e, he, -⟩ := Covers.shown ok hd hdc h1 h2
    have := (List.getElem?_eq_some_iff.1 he).1
    rw [ok.len] at this; exact this
  -- positions of finished or unchanged glyphs are not clobbered
  have notClob : ∀ l j, Covers cells l j → l ≠ i → (l < i ∨ skip l = true) →
      clobbered scr i c.width j = false := by
    intro l j hcov hli hl
    rw [Bool.eq_false_iff]
    intro hclob
    rw [clobbered_iff] at hclob
    obtain ⟨q, hq1, hq2, hq3, hq4⟩ := hclob
    have hjlt := lt_of_cov hcov
    -- q belongs to a finished or unchanged glyph
    have hqgood : ∃ l', Covers cells l' q ∧ (l' < i ∨ skip l' = true) := by
      rcases hl with hl | hl
      · by_cases hqi : q < i
        · obtain ⟨l', hl'⟩ := Covers.exists ok (show q < w * h by omega)
          refine ⟨l', hl', .inl ?_⟩
          obtain ⟨_, _, _, h3, _⟩ := hl'
          omega
        · exfalso
          apply hli
          obtain ⟨d, hd, hdc, h1, h2⟩ := hcov
          exact Covers.unique ok (j := i) ⟨d, hd, hdc, by omega, by omega⟩ ⟨c, hc, hcc, by omega, by omega⟩
      · exact inv.wide l q j hcov hl hq1 hq2
    obtain ⟨l', hl', hor⟩ := hqgood
    obtain ⟨d, hd, hscr⟩ := inv.good l' q hl' hor
    cases hdc : d.continuation with
    | true =>
      rw [hscr] at hq2
      simp [Canvas.shown, hdc, TCell.extent] at hq2
      omega
    | false =>
      have hext : (scr q).extent = d.width := by rw [hscr]; simp [Canvas.shown, hdc, TCell.extent]
      rw [hext] at hq2 hq4
      -- the two glyphs overlap, so they are the same
      have hdw := ok.lead q d hd hdc
      have hqi : q = i := by
        exact Covers.unique ok (j := max q i) ⟨d, hd, hdc, by omega, by omega⟩ ⟨c, hc, hcc, by omega, by omega⟩
      subst hqi
      have : l' = q := Covers.unique ok hl' ⟨d, hd, hdc, by omega, by omega⟩
      subst this
      rcases hor with h | h
      · omega
      · rw [hskip] at h; cases h
  refine ⟨?_, ?_⟩
  · intro l j hcov hl
    by_cases hli : l = i
    · subst hli
      obtain ⟨d, hd, hdc, h1, h2⟩ := hcov
      rw [hc] at hd
      cases hd
      obtain ⟨e, he, hsh⟩ := Covers.shown ok hc hcc h1 h2
      refine ⟨e, he, ?_⟩
      rw [hsh]
      unfold place
      rw [if_pos ⟨h1, h2⟩]
    · have hor : l < i ∨ skip l = true := hl.imp (by omega) id
      obtain ⟨d, hd, hscr⟩ := inv.good l j hcov hor
      refine ⟨d, hd, ?_⟩
      unfold place
      rw [if_neg, if_neg, hscr]
      · rw [notClob l j hcov hli hor]; simp
      · rintro ⟨h1, h2⟩
        exact hli (Covers.unique ok hcov ⟨c, hc, hcc, h1, h2⟩)
  · intro l q k hcov hs hq hk
    unfold place at hk
    split at hk
    · rename_i hin
      exact ⟨i, ⟨c, hc, hcc, hin.1, hin.2⟩, .inl (by omega)⟩
    · split at hk
      · have := hj ⟨c.fg, c.bg, c.attrs⟩ q
        have hkq : k = q := by omega
        subst hkq
        exact ⟨l, hcov, .inr hs⟩
      · obtain ⟨l', h1, h2⟩ := inv.wide l q k hcov hs hq hk
        exact ⟨l', h1, h2.imp (by omega) id⟩

/-- The whole loop. -/
theorem genLoop_correct {env : TermEnv} {cells : List Cell} (flags : List Bool)
    (hj : env.Ok) (i : Nat) (t : Term) (st : FlushState)
    (ok : FrameOk env t.w t.h cells) (hflen : flags.length = cells.length) (hi : i ≤ cells.length)
    (hs : Sync t st) (inv : LoopInv cells (fun l => flags[l]?.getD false) i t.screen) :
    let t' := t.run env (genLoop t.w i ((cells.zip flags).drop i) st)
    t'.w = t.w ∧ t'.h = t.h ∧
      LoopInv cells (fun l => flags[l]?.getD false) cells.length t'.screen := by
  have hdone : i = cells.length ∨ i < cells.length := by omega
  generalize hn : cells.length - i = n
  induction n generalizing i t st with
  | zero =>
    have hi' : i = cells.length := by omega
    subst hi'
    rw [List.drop_eq_nil_of_le (by simp [hflen])]
    exact ⟨rfl, rfl, inv⟩
  | succ n ih =>
    have hlt : i < cells.length := by omega
    have hlt2 : i < flags.length := by omega
    have hz : (cells.zip flags).drop i = (cells[i], flags[i]) :: (cells.zip flags).drop (i + 1) := by
      rw [List.drop_eq_getElem_cons (by simp; omega)]
      simp
    have hfl : flags[i]?.getD false = flags[i] := by simp [List.getElem?_eq_getElem hlt2]
    have hcell : cells[i]? = some cells[i] := List.getElem?_eq_getElem hlt
    rw [hz]
    unfold genLoop
    cases hfi : flags[i] with
    | true =>
      rw [if_pos rfl]
      exact ih (i + 1) t st ok (by omega) hs (inv.skipStep (.inl (by simp [hfl, hfi]))) (by omega) (by omega)
    | false =>
      rw [if_neg (by simp)]
      cases hcc : (cells[i]).continuation with
      | true =>
        rw [if_pos rfl]
        refine ih (i + 1) t st ok (by omega) hs (inv.skipStep (.inr ?_)) (by omega) (by omega)
        intro c hc
        rw [hcell] at hc; cases hc; exact hcc
      | false =>
        rw [if_neg (by simp)]
        obtain ⟨l1, l2, l3, -⟩ := ok.lead i _ hcell hcc
        obtain ⟨r1, r2, r3, r4⟩ := run_flushCell env t i cells[i] st hs (by rw [← ok.len]; exact hlt) l1 l2 l3
        simp only [run_append]
        have step := inv.placeStep ok hj hcell hcc (by simp [hfl, hfi])
        rw [← r3] at step
        generalize ht1 : t.run env (flushCell t.w i cells[i] st).1 = t1 at *
        have ihh := ih (i + 1) t1 (flushCell t.w i cells[i] st).2 (by rw [r1, r2]; exact ok) (by omega) r4 step
          (by omega) (by omega)
        simp only [r1, r2] at ihh
        exact ihh

theorem LoopInv.final {env : TermEnv} {w h : Nat} {cells : List Cell} {skip scr}
    (ok : FrameOk env w h cells) (inv : LoopInv cells skip cells.length scr) (j : Nat) (c : Cell)
    (hc : cells[j]? = some c) : scr j = shown c := by
  have hj := (List.getElem?_eq_some_iff.1 hc).1
  obtain ⟨l, hl⟩ := Covers.exists ok (j := j) (by rw [← ok.len]; exact hj)
  have : l < cells.length := by
    obtain ⟨_, _, _, h, _⟩ := hl; omega
  obtain ⟨d, hd, hs⟩ := inv.good l j hl (.inl this)
  rw [hc] at hd
  cases hd
  exact hs

end Textual.Canvas
