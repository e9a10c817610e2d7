import Verif.Lemmas.Flush
import Verif.Props.Canvas

/-! C06: after a flush the terminal shows exactly the frame. -/

namespace Textual.Canvas
open Term

/-- C06, full redraw: whatever the terminal showed before, it shows the frame afterwards. -/
theorem flushFull_shows_partial {env : TermEnv} (hj : env.Ok) (c : Canvas) (t : Term)
    (hw : t.w = c.w) (hh : t.h = c.h) (ok : FrameOk env c.w c.h c.cells)
    (j : Nat) (cell : Cell) (hc : c.cells[j]? = some cell) :
    (t.run env c.flushFull).screen j = shown cell ∧
      (t.run env c.flushFull).w = t.w ∧ (t.run env c.flushFull).h = t.h := by
  rw [show c.flushFull = (.moveTo 0 0 :: resetCmds) ++ fullLoop c.w 0 c.cells { cx := 0, cy := 0, last := {} } from rfl,
    run_append, fullLoop_eq]
  have hz : c.cells.map (·, false) = (c.cells.zip (List.replicate c.cells.length false)).drop 0 := by
    rw [List.drop_zero]
    apply List.ext_getElem <;> simp
  rw [hz, ← hw]
  have hskip : (fun l : Nat => (List.replicate c.cells.length false)[l]?.getD false) = fun _ => false := by
    funext l
    rw [List.getElem?_replicate]
    split <;> rfl
  have hjlt := (List.getElem?_eq_some_iff.1 hc).1
  have main := genLoop_correct (cells := c.cells) (List.replicate c.cells.length false) hj 0
    (t.run env (.moveTo 0 0 :: resetCmds)) { cx := 0, cy := 0, last := {} }
    (by show FrameOk env t.w t.h c.cells; rw [hw, hh]; exact ok) (by simp) (by omega)
    ⟨rfl, by
      intro x y hx hy h1 h2
      left
      refine ⟨rfl, ?_, ?_⟩
      · show min 0 _ = x
        simp only at h1; omega
      · show min 0 _ = y
        simp only at h2; omega⟩
    (by
      rw [hskip]
      exact ⟨fun l j _ h => by simp at h, fun l q k _ h => by simp at h⟩)
  obtain ⟨m1, m2, m3⟩ := main
  rw [hskip] at m3
  exact ⟨m3.final ok j cell hc, m1, m2⟩

/-- C06, differential redraw: if the terminal shows the previous frame, it shows the new frame
afterwards. -/
theorem flushDiff_shows_partial {env : TermEnv} (hj : env.Ok) (c : Canvas) (t : Term)
    (hw : t.w = c.w) (hh : t.h = c.h) (ok : FrameOk env c.w c.h c.cells)
    (okp : FrameOk env c.w c.h c.prev)
    (hprev : ∀ (j : Nat) (cell : Cell), c.prev[j]? = some cell → t.screen j = shown cell)
    (j : Nat) (cell : Cell) (hc : c.cells[j]? = some cell) :
    (t.run env c.flushDiff).screen j = shown cell ∧
      (t.run env c.flushDiff).w = t.w ∧ (t.run env c.flushDiff).h = t.h := by
  have hlen : c.cells.length = c.prev.length := by rw [ok.len, okp.len]
  rw [show c.flushDiff = resetCmds ++ diffLoop c.w 0 (c.cells.zip c.prev) { cx := -1, cy := -1, last := {} } from rfl,
    run_append, diffLoop_eq]
  generalize hfl : List.zipWith (fun a b : Cell => decide (a = b)) c.cells c.prev = flags
  have hflen : flags.length = c.cells.length := by rw [← hfl]; simp; omega
  have hz : ((c.cells.zip c.prev).map fun p => (p.1, decide (p.1 = p.2))) = (c.cells.zip flags).drop 0 := by
    rw [List.drop_zero, ← hfl]
    apply List.ext_getElem <;> simp
  rw [hz, ← hw]
  have hskip : ∀ l : Nat, flags[l]?.getD false = true →
      ∃ d, c.cells[l]? = some d ∧ c.prev[l]? = some d := by
    intro l hl
    rw [← hfl, List.getElem?_zipWith] at hl
    cases h1 : c.cells[l]? with
    | none => simp [h1] at hl
    | some a =>
      cases h2 : c.prev[l]? with
      | none => simp [h1, h2] at hl
      | some b =>
        simp [h1, h2] at hl
        exact ⟨a, rfl, by rw [hl]⟩
  have main := genLoop_correct (cells := c.cells) flags hj 0
    (t.run env resetCmds) { cx := -1, cy := -1, last := {} }
    (by show FrameOk env t.w t.h c.cells; rw [hw, hh]; exact ok) hflen (by omega)
    ⟨rfl, by
      intro x y hx hy h1 h2
      simp only at h1; omega⟩
    (by
      refine ⟨?_, ?_⟩
      · intro l k hcov hor
        rcases hor with h | h
        · omega
        obtain ⟨d, hd1, hd2⟩ := hskip l h
        obtain ⟨e, he, hec, h1, h2⟩ := hcov
        rw [hd1] at he
        cases he
        obtain ⟨f, hf1, hf2⟩ := Covers.shown ok hd1 hec h1 h2
        obtain ⟨g, hg1, hg2⟩ := Covers.shown okp hd2 hec h1 h2
        refine ⟨f, hf1, ?_⟩
        show t.screen k = shown f
        rw [hprev k g hg1, hf2, hg2]
      · intro l q k hcov hs hq hk
        replace hk : k < q + (t.screen q).extent := hk
        obtain ⟨d, hd1, hd2⟩ := hskip l hs
        obtain ⟨e, he, hec, h1, h2⟩ := hcov
        rw [hd1] at he
        cases he
        have hklt : k < c.prev.length := by
          obtain ⟨g, hg1, -⟩ := Covers.shown okp hd2 hec h1 h2
          exact (List.getElem?_eq_some_iff.1 hg1).1
        have hqlt : q < c.prev.length := by omega
        have hqp : c.prev[q]? = some c.prev[q] := List.getElem?_eq_getElem hqlt
        rw [hprev q _ hqp] at hk
        cases hqc : (c.prev[q]).continuation with
        | true =>
          simp [shown, hqc, TCell.extent] at hk
          omega
        | false =>
          simp [shown, hqc, TCell.extent] at hk
          have hlq : l = q := Covers.unique okp (j := k) ⟨d, hd2, hec, h1, h2⟩ ⟨_, hqp, hqc, hq, hk⟩
          subst hlq
          exact ⟨l, ⟨d, hd1, hec, by omega, by omega⟩, .inr hs⟩)
  obtain ⟨m1, m2, m3⟩ := main
  exact ⟨m3.final ok j cell hc, m1, m2⟩

/-- A program driving a canvas whose flushes go to a terminal. `none` is a panic. -/
def session (env : TermEnv) (c : Canvas) (t : Term) : List Op → Option (Canvas × Term)
  | [] => some (c, t)
  | .flush :: ops => session env c.flush.2 (t.run env c.flush.1) ops
  | op :: ops => (c.step op).bind fun c => session env c t ops

/-- Every frame handed to `flush` in the history satisfies `P`. -/
def EveryFlush (P : Canvas → Prop) (c : Canvas) : List Op → Prop
  | [] => True
  | .flush :: ops => P c ∧ EveryFlush P c.flush.2 ops
  | op :: ops => ∀ c', c.step op = some c' → EveryFlush P c' ops

/-- What holds between flushes: the next flush is a full redraw or the terminal shows `prev`. -/
structure SessionInv (env : TermEnv) (w h : Nat) (c : Canvas) (t : Term) : Prop where
  cw : c.w = w
  ch : c.h = h
  tw : t.w = w
  th : t.h = h
  clen : c.cells.length = w * h
  plen : c.prev.length = w * h
  shows : c.firstFlush = true ∨
    (FrameOk env w h c.prev ∧ ∀ (j : Nat) (cell : Cell), c.prev[j]? = some cell → t.screen j = shown cell)

/-- One flush: the terminal shows the frame, and the invariant is kept. -/
theorem SessionInv.flush {env : TermEnv} (hj : env.Ok) {w h c t} (i : SessionInv env w h c t)
    (ok : FrameOk env w h c.cells) :
    (∀ (j : Nat) (cell : Cell), c.cells[j]? = some cell →
      (t.run env c.flush.1).screen j = shown cell) ∧
    SessionInv env w h c.flush.2 (t.run env c.flush.1) := by
  have ok' : FrameOk env c.w c.h c.cells := by rw [i.cw, i.ch]; exact ok
  have hw : t.w = c.w := by rw [i.tw, i.cw]
  have hh : t.h = c.h := by rw [i.th, i.ch]
  have step : ∀ (j : Nat) (cell : Cell), c.cells[j]? = some cell →
      (t.run env c.flush.1).screen j = shown cell ∧ (t.run env c.flush.1).w = t.w ∧
      (t.run env c.flush.1).h = t.h := by
    intro j cell hc
    unfold Canvas.flush
    simp only
    cases hff : c.firstFlush with
    | true => exact flushFull_shows_partial hj c t hw hh ok' j cell hc
    | false =>
      have := i.shows.resolve_left (by simp [hff])
      exact flushDiff_shows_partial hj c t hw hh ok' (by rw [i.cw, i.ch]; exact this.1) this.2 j cell hc
  have hsize : (t.run env c.flush.1).w = t.w ∧ (t.run env c.flush.1).h = t.h := by
    have gen : ∀ (cmds : List Cmd) (t : Term), (t.run env cmds).w = t.w ∧ (t.run env cmds).h = t.h := by
      intro cmds
      induction cmds with
      | nil => intro t; exact ⟨rfl, rfl⟩
      | cons cmd cmds ih =>
        intro t
        have e : (t.exec env cmd).w = t.w ∧ (t.exec env cmd).h = t.h := by
          have nl : ∀ t : Term, t.newline.w = t.w ∧ t.newline.h = t.h := by
            intro t; unfold newline; split <;> exact ⟨rfl, rfl⟩
          cases cmd <;> try exact ⟨rfl, rfl⟩
          rename_i s
          simp only [Term.exec, Term.print]
          have h1 : (if t.pending = true then t.newline else t).w = t.w ∧
              (if t.pending = true then t.newline else t).h = t.h := by
            split
            · exact nl t
            · exact ⟨rfl, rfl⟩
          generalize (if t.pending = true then t.newline else t) = t1 at *
          have h2 : (if t1.cx + env.width s > t1.w then t1.newline else t1).w = t1.w ∧
              (if t1.cx + env.width s > t1.w then t1.newline else t1).h = t1.h := by
            split
            · exact nl t1
            · exact ⟨rfl, rfl⟩
          generalize (if t1.cx + env.width s > t1.w then t1.newline else t1) = t2 at *
          split <;> exact ⟨h2.1.trans h1.1, h2.2.trans h1.2⟩
        have := ih (t.exec env cmd)
        exact ⟨this.1.trans e.1, this.2.trans e.2⟩
    exact gen _ _
  refine ⟨fun j cell hc => (step j cell hc).1, i.cw, i.ch, by rw [hsize.1, i.tw], by rw [hsize.2, i.th],
    i.plen, i.clen, .inr ⟨ok, fun j cell hc => (step j cell hc).1⟩⟩

theorem SessionInv.op {env : TermEnv} {w h c t} (i : SessionInv env w h c t) (op : Op)
    (hne : op ≠ .flush) (c' : Canvas) (hs : c.step op = some c') : SessionInv env w h c' t := by
  cases op with
  | push r => cases hs; exact ⟨i.cw, i.ch, i.tw, i.th, i.clen, i.plen, i.shows⟩
  | pop => cases hs; exact ⟨i.cw, i.ch, i.tw, i.th, i.clen, i.plen, i.shows⟩
  | draw d =>
    obtain ⟨c1, h1, o⟩ := draw_spec c (by rw [i.clen, i.cw, i.ch]) d
    rw [show c.step (.draw d) = c.draw d from rfl, h1] at hs
    cases hs
    exact ⟨by rw [o.w, i.cw], by rw [o.h, i.ch], i.tw, i.th, by rw [o.len, i.clen], by rw [o.prev, i.plen],
      by rw [o.ff, o.prev]; exact i.shows⟩
  | clear => cases hs; exact ⟨i.cw, i.ch, i.tw, i.th, by simp [clear, i.clen], i.plen, i.shows⟩
  | invalidate => cases hs; exact ⟨i.cw, i.ch, i.tw, i.th, i.clen, i.plen, .inl rfl⟩
  | flush => exact absurd rfl hne

theorem SessionInv.session {env : TermEnv} (hj : env.Ok) {w h c t} (i : SessionInv env w h c t)
    (ops : List Op) (hok : EveryFlush (fun c => FrameOk env w h c.cells) c ops)
    {c' : Canvas} {t' : Term} (hs : session env c t ops = some (c', t')) : SessionInv env w h c' t' := by
  induction ops generalizing c t with
  | nil => cases hs; exact i
  | cons op ops ih =>
    by_cases hf : op = .flush
    · subst hf
      exact ih (i.flush hj hok.1).2 hok.2 hs
    · obtain ⟨c1, h1⟩ : ∃ c1, c.step op = some c1 := by
        cases op with
        | draw d => obtain ⟨c1, h1, -⟩ := draw_spec c (by rw [i.clen, i.cw, i.ch]) d; exact ⟨c1, h1⟩
        | _ => exact ⟨_, rfl⟩
      have hs' : Canvas.session env c1 t ops = some (c', t') := by
        cases op <;> first
          | exact absurd rfl hf
          | (simp only [Canvas.session, h1, Option.bind_some] at hs; exact hs)
      have hok' : EveryFlush (fun c => FrameOk env w h c.cells) c1 ops := by
        cases op <;> first
          | exact absurd rfl hf
          | exact hok c1 h1
      exact ih (i.op op hf c1 h1) hok' hs'

/-- C06: start from a new canvas and a terminal of the same size showing anything. After any history
of calls in which the flushed frames are complete (`FrameOk`), a flush of a complete frame makes every
position of the terminal show exactly the canvas cell. (Missing from the property: frames in which a
wide glyph is partly overwritten, see `flush_halfGlyph_counterexample`.) -/
theorem session_flush_shows_partial {env : TermEnv} (hj : env.Ok) {w h : Nat} {c0 c : Canvas} {t0 t : Term}
    (h0 : Canvas.new w h = some c0) (hw : t0.w = w) (hh : t0.h = h) (ops : List Op)
    (hs : session env c0 t0 ops = some (c, t))
    (hok : EveryFlush (fun c => FrameOk env w h c.cells) c0 (ops))
    (ok : FrameOk env w h c.cells) (x y : Nat) (cell : Cell)
    (hc : c.cells[y * w + x]? = some cell) :
    (t.run env c.flush.1).screen (y * w + x) = shown cell := by
  have hinv : SessionInv env w h c0 t0 := by
    have i := Inv.new h0
    refine ⟨i.weq, i.heq, hw, hh, i.len, i.plen, .inl ?_⟩
    unfold Canvas.new at h0
    split at h0
    · cases h0; rfl
    · cases h0
  exact ((hinv.session hj ops hok hs).flush hj ok).1 _ _ hc

/-- C06, recovery: after `invalidate`, a flush repairs a terminal in any state. -/
theorem invalidate_flush_repairs_partial {env : TermEnv} (hj : env.Ok) (c : Canvas) (t : Term)
    (hw : t.w = c.w) (hh : t.h = c.h) (ok : FrameOk env c.w c.h c.cells)
    (j : Nat) (cell : Cell) (hc : c.cells[j]? = some cell) :
    (t.run env c.invalidate.flush.1).screen j = shown cell :=
  (flushFull_shows_partial hj c.invalidate t hw hh ok j cell hc).1

/-! ### Programs drawing only narrow text -/

/-- A grapheme one column wide, for the code and for the terminal. -/
def Narrow (env : TermEnv) (g : Grapheme) : Prop := g.width = 1 ∧ env.width g.text = 1

/-- A drawing call with narrow text only. -/
def Draw.Narrow (env : TermEnv) : Draw → Prop
  | .char _ _ g _ _ _ => Canvas.Narrow env g
  | .str _ _ s _ _ _ => ∀ g ∈ s, Canvas.Narrow env g
  | .strip _ _ s => ∀ seg ∈ s, ∀ g ∈ seg.text, Canvas.Narrow env g
  | .strips _ _ s => ∀ l ∈ s, ∀ seg ∈ l, ∀ g ∈ seg.text, Canvas.Narrow env g

/-- A call that, if it draws, draws narrow text. -/
def Op.Narrow (env : TermEnv) : Op → Prop
  | .draw d => d.Narrow env
  | _ => True

/-- All cells one column wide. -/
def NarrowCells (env : TermEnv) (cells : List Cell) : Prop :=
  ∀ c ∈ cells, c.continuation = false ∧ c.width = 1 ∧ env.width c.symbol = 1

theorem NarrowCells.frameOk {env : TermEnv} {w h : Nat} {cells : List Cell} (hn : NarrowCells env cells)
    (hl : cells.length = w * h) : FrameOk env w h cells := by
  refine ⟨hl, ?_, ?_⟩
  · intro i c hc hcc
    obtain ⟨h1, h2, h3⟩ := hn c (List.mem_of_getElem? hc)
    have hi := (List.getElem?_eq_some_iff.1 hc).1
    have hw : 0 < w := by
      rcases Nat.eq_zero_or_pos w with h | h
      · rw [hl, h, Nat.zero_mul] at hi; omega
      · exact h
    have := Nat.mod_lt i hw
    exact ⟨by omega, by omega, by omega, fun k h1 h2 => by omega⟩
  · intro i c hc hcc
    have := (hn c (List.mem_of_getElem? hc)).1
    rw [hcc] at this; cases this

theorem putGrapheme_narrow {env : TermEnv} {c c' : Canvas} {x y g fg bg attrs clip}
    (hn : NarrowCells env c.cells) (hg : Narrow env g)
    (hp : putGrapheme c x y g fg bg attrs clip = some c') : NarrowCells env c'.cells := by
  unfold putGrapheme at hp
  repeat (split at hp; · cases hp; exact hn)
  unfold updateCell at hp
  split at hp
  · cases hp
  · rename_i cells' hu
    split at hu
    · cases hu
    · rename_i old ho
      cases hu
      rw [show g.width - 1 = 0 by have := hg.1; omega] at hp
      simp only [List.range'_zero, putConts] at hp
      cases hp
      intro d hd
      rcases List.mem_or_eq_of_mem_set hd with h | h
      · exact hn d h
      · subst h
        have hold := hn old (List.mem_of_getElem? ho)
        unfold leadCell
        simp only
        split
        · split
          · exact hold
          · exact hold
        · exact ⟨rfl, hg.1, hg.2⟩

theorem putGraphemes_narrow {env : TermEnv} {c c' : Canvas} {x y fg bg attrs clip} {s : List Grapheme}
    (hn : NarrowCells env c.cells) (hg : ∀ g ∈ s, Narrow env g)
    (hp : putGraphemes c x y fg bg attrs clip s = some c') : NarrowCells env c'.cells := by
  induction s generalizing c x with
  | nil => cases hp; exact hn
  | cons g gs ih =>
    unfold putGraphemes at hp
    split at hp
    · cases hp; exact hn
    · split at hp
      · cases hp
      · rename_i c1 h1
        exact ih (putGrapheme_narrow hn (hg g List.mem_cons_self) h1)
          (fun q hq => hg q (List.mem_cons_of_mem _ hq)) hp

theorem putStr_narrow {env : TermEnv} {c c' : Canvas} {x y fg bg attrs} {s : List Grapheme}
    (hn : NarrowCells env c.cells) (hg : ∀ g ∈ s, Narrow env g)
    (hp : putStr c x y s fg bg attrs = some c') : NarrowCells env c'.cells := by
  unfold putStr at hp
  simp only at hp
  split at hp
  · cases hp; exact hn
  split at hp
  · cases hp; exact hn
  exact putGraphemes_narrow hn hg hp

theorem renderStrip_narrow {env : TermEnv} {c c' : Canvas} {x y} {s : List DrawSeg}
    (hn : NarrowCells env c.cells) (hg : ∀ seg ∈ s, ∀ g ∈ seg.text, Narrow env g)
    (hp : renderStrip c x y s = some c') : NarrowCells env c'.cells := by
  induction s generalizing c x with
  | nil => cases hp; exact hn
  | cons g gs ih =>
    unfold renderStrip at hp
    split at hp
    · cases hp
    · rename_i c1 h1
      exact ih (putStr_narrow hn (hg g List.mem_cons_self) h1)
        (fun q hq => hg q (List.mem_cons_of_mem _ hq)) hp

theorem draw_narrow {env : TermEnv} {c c' : Canvas} {d : Draw}
    (hn : NarrowCells env c.cells) (hg : d.Narrow env)
    (hp : c.draw d = some c') : NarrowCells env c'.cells := by
  cases d with
  | char x y g fg bg a => exact putGrapheme_narrow hn hg hp
  | str x y s fg bg a => exact putStr_narrow hn hg hp
  | strip x y s => exact renderStrip_narrow hn hg hp
  | strips x y s =>
    simp only [draw] at hp
    simp only [Draw.Narrow] at hg
    induction s generalizing c y with
    | nil => cases hp; exact hn
    | cons g gs ih =>
      unfold renderStrips at hp
      split at hp
      · cases hp
      · rename_i c1 h1
        exact ih (renderStrip_narrow hn (hg g List.mem_cons_self) h1) (y + 1)
          (fun q hq => hg q (List.mem_cons_of_mem _ hq)) hp

theorem step_narrow {env : TermEnv} (hsp : env.width " " = 1) {c c' : Canvas} {op : Op}
    (hn : NarrowCells env c.cells) (hnp : NarrowCells env c.prev)
    (hl : c.cells.length = c.w * c.h) (hop : op.Narrow env)
    (hp : c.step op = some c') : NarrowCells env c'.cells ∧ NarrowCells env c'.prev := by
  cases op with
  | push r => cases hp; exact ⟨hn, hnp⟩
  | pop => cases hp; exact ⟨hn, hnp⟩
  | draw d =>
    refine ⟨draw_narrow hn hop hp, ?_⟩
    obtain ⟨c1, h1, o⟩ := draw_spec c hl d
    rw [show c.step (.draw d) = c.draw d from rfl, h1] at hp
    cases hp
    rw [o.prev]; exact hnp
  | clear =>
    cases hp
    refine ⟨?_, hnp⟩
    intro d hd
    simp only [clear, List.mem_map] at hd
    obtain ⟨_, _, rfl⟩ := hd
    exact ⟨rfl, rfl, hsp⟩
  | invalidate => cases hp; exact ⟨hn, hnp⟩
  | flush => cases hp; exact ⟨hnp, hn⟩

/-- C06 for programs that draw one-column text only, with no condition on frames: from a new canvas
and a terminal showing anything, after any history of calls a flush makes the terminal show exactly
the canvas. -/
theorem narrow_session_flush_shows {env : TermEnv} (hj : env.Ok) (hsp : env.width " " = 1)
    {w h : Nat} {c0 c : Canvas} {t0 t : Term}
    (h0 : Canvas.new w h = some c0) (hw : t0.w = w) (hh : t0.h = h) (ops : List Op)
    (hops : ∀ op ∈ ops, op.Narrow env)
    (hs : session env c0 t0 ops = some (c, t)) (x y : Nat) (cell : Cell)
    (hc : c.cells[y * w + x]? = some cell) :
    (t.run env c.flush.1).screen (y * w + x) = shown cell := by
  have hblank : NarrowCells env (List.replicate (w * h) Cell.blank) := by
    intro d hd
    rw [List.eq_of_mem_replicate hd]
    exact ⟨rfl, rfl, hsp⟩
  have hn0 : NarrowCells env c0.cells ∧ NarrowCells env c0.prev := by
    unfold Canvas.new at h0
    split at h0
    · cases h0; exact ⟨hblank, hblank⟩
    · cases h0
  have gen : ∀ (ops : List Op) (c1 : Canvas) (t1 : Term) (raw : List Region), Inv w h raw c1 →
      NarrowCells env c1.cells → NarrowCells env c1.prev → (∀ op ∈ ops, op.Narrow env) →
      session env c1 t1 ops = some (c, t) →
      EveryFlush (fun c => FrameOk env w h c.cells) c1 ops ∧ NarrowCells env c.cells ∧ c.cells.length = w * h := by
    intro ops
    induction ops with
    | nil =>
      intro c1 t1 raw i hn hp _ hs
      cases hs
      exact ⟨trivial, hn, i.len⟩
    | cons op ops ih =>
      intro c1 t1 raw i hn hp hops hs
      obtain ⟨c2, hstep, i2⟩ := i.step op
      obtain ⟨n1, n2⟩ := step_narrow hsp hn hp (by rw [i.len, i.weq, i.heq]) (hops op List.mem_cons_self) hstep
      have hops' := fun q hq => hops q (List.mem_cons_of_mem _ hq)
      by_cases hf : op = .flush
      · subst hf
        cases hstep
        obtain ⟨a, b⟩ := ih _ _ _ i2 n1 n2 hops' hs
        exact ⟨⟨hn.frameOk i.len, a⟩, b⟩
      · have hs' : session env c2 t1 ops = some (c, t) := by
          cases op <;> first
            | exact absurd rfl hf
            | (simp only [Canvas.session, hstep, Option.bind_some] at hs; exact hs)
        obtain ⟨a, b⟩ := ih _ _ _ i2 n1 n2 hops' hs'
        refine ⟨?_, b⟩
        cases op <;> first
          | exact absurd rfl hf
          | (intro c3 hc3; rw [hstep] at hc3; cases hc3; exact a)
  obtain ⟨a, b, hl⟩ := gen ops c0 t0 [] (Inv.new h0) hn0.1 hn0.2 hops hs
  exact session_flush_shows_partial hj h0 hw hh ops hs a (b.frameOk hl) x y cell hc

/-! ### Witnesses -/

/-- A terminal that shows one wide character and blanks the other half of a broken glyph. -/
def sampleEnv : TermEnv where
  width := fun s => if s = "日" then 2 else 1
  junk := fun st _ => .glyph " " 1 st

def sampleTerm (w h : Nat) : Term := ⟨w, h, fun _ => .glyph "?" 1 ⟨none, none, {}⟩, 0, 0, false, ⟨none, none, {}⟩⟩

example : sampleEnv.Ok := by intro st k; simp [sampleEnv, TCell.extent]

/-- A history with two flushes of narrow text, meeting the hypotheses of `narrow_session_flush_shows`. -/
example : ∃ c0 c t, Canvas.new 3 2 = some c0 ∧
    session sampleEnv c0 (sampleTerm 3 2)
      [.draw (.str 0 0 [⟨"a", 1⟩, ⟨"b", 1⟩] none none {}), .flush, .clear,
       .draw (.str 1 1 [⟨"c", 1⟩] none (some (RgbaColor.rgb 1 2 3)) { bold := true }), .flush] = some (c, t) ∧
    c.cells ≠ c.prev := by
  refine ⟨_, _, _, rfl, rfl, ?_⟩
  decide +kernel

/-- C06 fails for frames with a broken wide glyph: draw a wide character at column 0 and then a
letter over its second column. The canvas still claims the wide character, the terminal has lost it. -/
theorem flush_halfGlyph_counterexample : ∃ c0 c t, Canvas.new 3 1 = some c0 ∧
    session sampleEnv c0 (sampleTerm 3 1)
      [.draw (.str 0 0 [⟨"日", 2⟩] none none {}), .draw (.str 1 0 [⟨"a", 1⟩] none none {})] = some (c, t) ∧
    c.cells[0]? = some ⟨"日", 2, false, none, none, {}⟩ ∧
    (t.run sampleEnv c.flush.1).screen 0 = .glyph " " 1 ⟨none, none, {}⟩ := by
  refine ⟨_, _, _, rfl, rfl, ?_, ?_⟩
  · decide +kernel
  · decide +kernel

end Textual.Canvas
