import Verif.Props.FlushWide
import Mathlib.Tactic.Common

/-!
C198: what a drawing call leaves on the canvas, for characters of any width, and who wins where several
calls draw on the same cell.
-/

namespace Textual.Canvas

/-! ### Specification -/

/-- A plain blank in a translucent background: it tints the cell and leaves the text there. -/
def Put.Glass (p : Put) : Prop :=
  p.g.text = " " ∧ p.g.width = 1 ∧ p.fg = none ∧ p.attrs = {} ∧ ∃ b, p.bg = some b ∧ 0 < b.a ∧ b.a < 1

/-- What column `k` of the grapheme leaves in a cell: the glyph in the first column, nothing of its own in
the others, the colours and attributes in all. -/
def Put.leaves (p : Put) (k : Nat) (old : Cell) : Cell where
  symbol := if k = 0 then p.g.text else " "
  width := if k = 0 then p.g.width else 0
  continuation := k ≠ 0
  fg := p.fg
  bg := resolveBackground p.bg old.bg
  attrs := p.attrs

/-- The call takes cell `i` of canvas `c` with none of its characters (`clear` and `flush` end the frame). -/
def Op.Misses (c : Canvas) (i : Nat) : Op → Prop
  | .draw d => d.Measured ∧ (∀ p ∈ d.puts, 1 ≤ p.g.width) ∧ ¬ Covered c d.puts i
  | .clear | .flush => False
  | _ => True

/-! ### One grapheme -/

theorem Put.glass_iff (p : Put) : p.Glass ↔ p.Tints := by
  unfold Put.Glass Put.Tints preserveText RgbaColor.isTransparent
  constructor
  · rintro ⟨a, b, c, d, x, e, f, g⟩
    rw [a, b, c, d, e]
    simp only [Bool.and_eq_true, decide_eq_true_eq, Bool.not_eq_true', decide_eq_false_iff_not, beq_self_eq_true,
      Option.isNone_none, and_true]
    exact ⟨g, by grind⟩
  · intro h
    simp only [Bool.and_eq_true, beq_iff_eq, Option.isNone_iff_eq_none] at h
    obtain ⟨⟨⟨⟨h1, a⟩, b⟩, c⟩, d⟩ := h
    refine ⟨a, b, c, d, ?_⟩
    cases e : p.bg with
    | none => rw [e] at h1; cases h1
    | some x =>
      rw [e] at h1
      simp only [Bool.and_eq_true, decide_eq_true_eq, Bool.not_eq_true', decide_eq_false_iff_not] at h1
      exact ⟨x, rfl, by grind, h1.1⟩

/-- The cell column `k` of a grapheme makes of a cell. -/
def Put.made (p : Put) (k : Nat) : Cell → Cell :=
  if k = 0 then leadCell p.g p.fg p.bg p.attrs else contCell p.g p.fg p.bg p.attrs

theorem Put.made_leaves (p : Put) (h : ¬ p.Glass) (k : Nat) (old : Cell) : p.made k old = p.leaves k old := by
  rw [p.glass_iff] at h
  unfold Put.Tints at h
  unfold Put.made Put.leaves
  by_cases hk : k = 0
  · subst hk
    simp only [if_true, leadCell, if_neg h, ne_eq, not_true_eq_false, decide_false]
  · simp only [if_neg hk, contCell, if_neg h, ne_eq, decide_eq_true hk]

theorem Put.made_glass (p : Put) (h : p.Glass) (k : Nat) (old : Cell) :
    p.made k old = { old with bg := resolveBackground p.bg old.bg } := by
  have ht := (p.glass_iff).1 h
  unfold Put.Tints at ht
  obtain ⟨_, _, _, _, b, e, h0, _⟩ := h
  have hb : ∃ x, resolveBackground p.bg old.bg = some x := by
    have hn : b.isTransparent = false := by
      unfold RgbaColor.isTransparent
      simp only [decide_eq_false_iff_not]
      grind
    rw [e]
    unfold resolveBackground
    simp only [hn]
    exact ⟨_, rfl⟩
  obtain ⟨x, hx⟩ := hb
  unfold Put.made
  split <;> simp only [leadCell, contCell, if_pos ht, hx]

theorem Put.visible_congr {c c' : Canvas} (p : Put) (h1 : c'.w = c.w) (h2 : c'.h = c.h)
    (h3 : c'.currentClip = c.currentClip) : p.Visible c' ↔ p.Visible c := by
  unfold Put.Visible; rw [h1, h2, h3]

theorem Put.covers_congr {c c' : Canvas} (p : Put) (h1 : c'.w = c.w) (h2 : c'.h = c.h)
    (h3 : c'.currentClip = c.currentClip) (i : Nat) : p.Covers c' i ↔ p.Covers c i := by
  unfold Put.Covers Put.start; rw [p.visible_congr h1 h2 h3, h1]

/-! ### The graphemes of a call -/

theorem putAll_exact (c0 : Canvas) : ∀ (ps : List Put) (c : Canvas), c.cells.length = c.w * c.h → c.w = c0.w → c.h = c0.h →
    c.currentClip = c0.currentClip → (∀ p ∈ ps, 1 ≤ p.g.width) → ps.Pairwise Apart →
    ∃ cells', putAll c0.currentClip c ps = some { c with cells := cells' } ∧ cells'.length = c.cells.length ∧
      (∀ p ∈ ps, ∀ i, p.Covers c0 i → cells'[i]? = (c.cells[i]?).map (p.made (i - p.start c0))) ∧
      ∀ i, ¬ Covered c0 ps i → cells'[i]? = c.cells[i]?
  | [], c, _, _, _, _, _, _ => ⟨c.cells, rfl, rfl, fun p hp => (by cases hp), fun _ _ => rfl⟩
  | p :: ps, c, hl, hw, hh, hc, h1, ha => by
    obtain ⟨a1, a2⟩ := List.pairwise_cons.1 ha
    have hp1 := h1 p List.mem_cons_self
    have rest : ∀ q ∈ ps, 1 ≤ q.g.width := fun q hq => h1 q (List.mem_cons_of_mem _ hq)
    have apart : ∀ i, p.Covers c0 i → ¬ Covered c0 ps i := by
      rintro i hp ⟨q, hq, hqc⟩
      exact (a1 q hq).disjoint hp1 (rest q hq) hp hqc
    have key : ∃ cs, p.run c0.currentClip c = some { c with cells := cs } ∧ cs.length = c.cells.length ∧
        (∀ i, p.Covers c0 i → cs[i]? = (c.cells[i]?).map (p.made (i - p.start c0))) ∧
        ∀ i, ¬ p.Covers c0 i → cs[i]? = c.cells[i]? := by
      by_cases hv : p.Visible c0
      · have hv' := (p.visible_congr hw hh hc).2 hv
        have hs : p.start c = p.start c0 := by unfold Put.start; rw [hw]
        obtain ⟨cs, b1, b2, b3, b4, b5⟩ := Put.run_visible hl hp1 hv'
        rw [hc] at b1
        rw [hs] at b3 b4 b5
        refine ⟨cs, b1, b2, ?_, ?_⟩
        · rintro i ⟨_, g1, g2⟩
          by_cases hk : i = p.start c0
          · subst hk
            rw [b3, Nat.sub_self]
            rfl
          · have := b4 (i - p.start c0) (by omega) (by omega)
            rw [show p.start c0 + (i - p.start c0) = i by omega] at this
            rw [this]
            unfold Put.made
            rw [if_neg (by omega)]
        · intro i hi
          exact b5 i fun hh => hi ⟨hv, hh⟩
      · have hv' := fun h => hv ((p.visible_congr hw hh hc).1 h)
        have := Put.run_hidden hp1 hv'
        rw [hc] at this
        exact ⟨c.cells, this, rfl, fun i hi => absurd hi.1 hv, fun _ _ => rfl⟩
    obtain ⟨cs, b1, b2, b3, b4⟩ := key
    obtain ⟨cs', d1, d2, d3, d4⟩ := putAll_exact c0 ps { c with cells := cs } (b2.trans hl) hw hh hc rest a2
    refine ⟨cs', by simp only [putAll, b1, Option.bind_some, d1], d2.trans b2, ?_, ?_⟩
    · intro q hq i hi
      rcases List.mem_cons.1 hq with rfl | hq
      · rw [d4 i (apart i hi)]
        exact b3 i hi
      · rw [d3 q hq i hi]
        show (cs[i]?).map _ = _
        rw [b4 i fun hp => apart i hp ⟨q, hq, hi⟩]
    · intro i hi
      rw [d4 i fun ⟨q, hq, h⟩ => hi ⟨q, List.mem_cons_of_mem _ hq, h⟩]
      exact b4 i fun h => hi ⟨p, List.mem_cons_self, h⟩

/-- **C198** (partial: characters of no width excluded): a drawing call shows each of its characters that lies wholly inside
canvas and clip, the glyph in its first column, its colours and attributes in all its columns; a blank in a translucent
background only tints; all other cells are as before. -/
theorem draw_exact_partial (c : Canvas) (hl : c.cells.length = c.w * c.h) (d : Draw) (hm : d.Measured)
    (h1 : ∀ p ∈ d.puts, 1 ≤ p.g.width) :
    ∃ cells', c.draw d = some { c with cells := cells' } ∧ cells'.length = c.cells.length ∧
      (∀ p ∈ d.puts, ¬ p.Glass → ∀ i, p.Covers c i → cells'[i]? = (c.cells[i]?).map (p.leaves (i - p.start c))) ∧
      (∀ p ∈ d.puts, p.Glass → ∀ i, p.Covers c i →
        cells'[i]? = (c.cells[i]?).map fun old => { old with bg := resolveBackground p.bg old.bg }) ∧
      ∀ i, ¬ Covered c d.puts i → cells'[i]? = c.cells[i]? := by
  rw [draw_puts c hl d hm]
  obtain ⟨cs, a1, a2, a3, a4⟩ := putAll_exact c d.puts c hl rfl rfl rfl h1 (puts_apart d)
  refine ⟨cs, a1, a2, ?_, ?_, a4⟩
  · intro p hp hg i hi
    rw [a3 p hp i hi, funext (p.made_leaves hg _)]
  · intro p hp hg i hi
    rw [a3 p hp i hi, funext (p.made_glass hg _)]

/-! ### Several calls -/

theorem run_append_some : ∀ (a b : List Op) (c : Canvas), c.run (a ++ b) = (c.run a).bind (·.run b)
  | [], b, c => rfl
  | op :: a, b, c => by
    show (c.step op).bind (run · (a ++ b)) = ((c.step op).bind (run · a)).bind _
    cases h : c.step op with
    | none => rfl
    | some c1 => exact run_append_some a b c1

/-- Calls that take no column of a cell leave it alone. -/
theorem missed {w h : Nat} (i : Nat) : ∀ (ops : List Op) (raw : List Region) (c c' : Canvas), Inv w h raw c →
    c.run ops = some c' →
    (∀ (pre post : List Op) (op : Op) (m : Canvas), ops = pre ++ op :: post → c.run pre = some m → op.Misses m i) →
    c'.cells[i]? = c.cells[i]?
  | [], _, c, c', _, h, _ => by cases h; rfl
  | op :: ops, raw, c, c', inv, h, hmiss => by
    obtain ⟨c1, h1, h2⟩ := Option.bind_eq_some_iff.1 h
    have hl : c.cells.length = c.w * c.h := by rw [inv.len, inv.weq, inv.heq]
    obtain ⟨_, e1, inv1⟩ := inv.step op
    rw [h1] at e1
    cases e1
    have hop : op.Misses c i := hmiss [] ops op c rfl rfl
    have ih := missed i ops _ c1 c' inv1 h2 fun pre post op' m e hm =>
      hmiss (op :: pre) post op' m (by rw [e]; rfl) (by show (c.step op).bind _ = _; rw [h1]; exact hm)
    rw [ih]
    cases op with
    | draw d =>
      obtain ⟨g1, g2, g3⟩ := hop
      obtain ⟨cs, a1, _, _, _, a5⟩ := draw_exact_partial c hl d g1 g2
      rw [show c.step (.draw d) = c.draw d from rfl, a1] at h1
      cases h1
      exact a5 i g3
    | clear => exact hop.elim
    | push r => cases h1; rfl
    | pop => cases h1; rfl
    | invalidate => cases h1; rfl
    | flush => exact hop.elim

/-- **C198** (partial: characters of no width excluded): the last character drawn on a cell is the one it shows. Whatever
was called before, if call `d` puts a character with an opaque background on cell `i` and no later call takes the cell, then
at the end it holds this column of the character, in its colour, on its background, with its attributes. -/
theorem last_wins_partial {w h : Nat} {c : Canvas} (hc : Canvas.new w h = some c) (before after : List Op) (d : Draw)
    (m e : Canvas)
    (hb : c.run before = some m) (he : c.run (before ++ .draw d :: after) = some e) (hm : d.Measured)
    (h1 : ∀ p ∈ d.puts, 1 ≤ p.g.width) (p : Put) (hp : p ∈ d.puts) (i : Nat) (hi : p.Covers m i) (b : RgbaColor)
    (hbg : p.bg = some b) (ho : 1 ≤ b.a)
    (later : ∀ (pre post : List Op) (op : Op) (m' : Canvas), after = pre ++ op :: post →
      c.run (before ++ .draw d :: pre) = some m' → op.Misses m' i) :
    e.cells[i]? = some ⟨if i = p.start m then p.g.text else " ", if i = p.start m then p.g.width else 0,
      i ≠ p.start m, p.fg, some (toCrosstermRgb b), p.attrs⟩ := by
  obtain ⟨_, e1, inv⟩ := (Inv.new hc).run before
  rw [hb] at e1
  cases e1
  have hlm : m.cells.length = m.w * m.h := by rw [inv.len, inv.weq, inv.heq]
  obtain ⟨cs, a1, a2, a3, _, _⟩ := draw_exact_partial m hlm d hm h1
  have inv1 : Inv w h (pushed [] before) { m with cells := cs } :=
    ⟨inv.weq, inv.heq, a2.trans inv.len, inv.plen, inv.clips⟩
  have split : ∀ pre, c.run (before ++ .draw d :: pre) = ({ m with cells := cs } : Canvas).run pre := by
    intro pre
    rw [run_append_some, hb]
    show (m.draw d).bind _ = _
    rw [a1]
    rfl
  rw [split] at he
  rw [missed i after _ _ e inv1 he fun pre post op m' x y => later pre post op m' x (by rw [split]; exact y)]
  have hg : ¬ p.Glass := by
    rintro ⟨_, _, _, _, x, x1, _, x3⟩
    rw [hbg] at x1
    cases x1
    grind
  have hlt : i < m.cells.length := by
    rw [hlm]
    obtain ⟨⟨_, _, v3, v4, _, _, v7, v8⟩, g1, g2⟩ := hi
    unfold Put.start at g1 g2
    have := index_lt (w := m.w) (h := m.h) (x := p.x.toNat + (i - (p.y.toNat * m.w + p.x.toNat))) (y := p.y.toNat)
      (by omega) (by omega)
    omega
  show cs[i]? = _
  rw [a3 p hp hg i hi, List.getElem?_eq_getElem hlt, Option.map_some]
  have hge := hi.2.1
  have hz : (i - p.start m = 0) = (i = p.start m) := propext (by omega)
  have hres : ∀ x, resolveBackground p.bg x = some (toCrosstermRgb b) := by
    intro x
    have ht : b.isTransparent = false := by
      unfold RgbaColor.isTransparent
      simp only [decide_eq_false_iff_not]
      grind
    have hlt : ¬ b.a < 1 := by grind
    rw [hbg]
    simp [resolveBackground, ht, hlt]
  unfold Put.leaves
  simp only [hz, ne_eq, hres]

/-- A wide character between narrow ones, one of its columns drawn over by nothing, and a call to the right of it later. -/
example : ∃ c0 e, Canvas.new 5 1 = some c0 ∧
    c0.run ([] ++ .draw (.str 0 0 [⟨"a", 1⟩, ⟨"日", 2⟩] none (some (RgbaColor.rgb 1 2 3)) {}) ::
      [.draw (.str 3 0 [⟨"b", 1⟩] none none {}), .push ⟨0, 0, 1, 1⟩]) = some e ∧
    (∀ (pre post : List Op) (op : Op) (m' : Canvas),
      [Op.draw (.str 3 0 [⟨"b", 1⟩] none none {}), .push ⟨0, 0, 1, 1⟩] = pre ++ op :: post →
      c0.run ([] ++ .draw (.str 0 0 [⟨"a", 1⟩, ⟨"日", 2⟩] none (some (RgbaColor.rgb 1 2 3)) {}) :: pre) = some m' →
      op.Misses m' 2) ∧
    e.cells[1]? = some ⟨"日", 2, false, none, some ⟨1, 2, 3⟩, {}⟩ ∧
    e.cells[2]? = some ⟨" ", 0, true, none, some ⟨1, 2, 3⟩, {}⟩ := by
  refine ⟨_, _, rfl, rfl, ?_, by decide +kernel, by decide +kernel⟩
  intro pre post op m' e hm
  rcases pre with _ | ⟨a, pre⟩
  · cases e
    cases hm
    refine ⟨trivial, ?_, ?_⟩
    · intro p hp
      simp only [Draw.puts, strPuts, List.mem_cons, List.not_mem_nil, or_false] at hp
      rw [hp]
      decide
    · rintro ⟨p, hp, _, h, _⟩
      simp only [Draw.puts, strPuts, List.mem_cons, List.not_mem_nil, or_false] at hp
      rw [hp] at h
      revert h
      decide
  · rcases pre with _ | ⟨a', pre⟩
    · cases e
      trivial
    · cases pre <;> cases e

/-- C198 fails for a character of no width: drawn behind `a`, it erases the `y` in the next cell, where no column of the text
drawn is. -/
theorem draw_exact_counterexample : ∃ c0 c1 c2, Canvas.new 3 1 = some c0 ∧
    c0.draw (.str 0 0 [⟨"x", 1⟩, ⟨"y", 1⟩, ⟨"z", 1⟩] none none {}) = some c1 ∧
    c1.draw (.str 0 0 [⟨"a", 1⟩, ⟨"​", 0⟩] none none {}) = some c2 ∧
    ¬ Covered c1 (Draw.str 0 0 [⟨"a", 1⟩, ⟨"​", 0⟩] none none {}).puts 1 ∧
    c2.cells.map (·.symbol) = ["a", "​", "z"] := by
  refine ⟨_, _, _, rfl, rfl, rfl, ?_, by decide +kernel⟩
  rintro ⟨p, hp, _, h1, h2⟩
  simp only [Draw.puts, strPuts, List.mem_cons, List.not_mem_nil, or_false] at hp
  rcases hp with rfl | rfl
  · revert h2; decide
  · revert h1 h2; decide

end Textual.Canvas
