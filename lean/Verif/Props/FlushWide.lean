import Verif.Model.Strip
import Verif.Props.Flush
import Mathlib.Tactic.Common

/-!
C06 for programs that draw wide text: a condition on the drawing calls, instead of one on the frames,
that is enough for every flush to show the canvas.
-/

namespace Textual.Canvas
open Term

/-! ### Specification: what a drawing call puts where -/

/-- One grapheme put at a column and row. -/
structure Put where
  x : Int
  y : Int
  g : Grapheme
  fg : Option Rgb
  bg : Option RgbaColor
  attrs : Attrs

/-- The graphemes of a text, one after the other. -/
def strPuts (x y : Int) (fg : Option Rgb) (bg : Option RgbaColor) (a : Attrs) : List Grapheme → List Put
  | [] => []
  | g :: gs => ⟨x, y, g, fg, bg, a⟩ :: strPuts (x + g.width) y fg bg a gs

/-- The graphemes of a line of styled pieces, each piece behind the one before. -/
def stripPuts (x y : Int) : List DrawSeg → List Put
  | [] => []
  | s :: rest =>
    strPuts x y (s.fg.map toCrosstermColor) s.bg s.attrs s.text ++ stripPuts (x + widthOf s.text) y rest

/-- Lines below each other. -/
def stripsPuts (x y : Int) : List (List DrawSeg) → List Put
  | [] => []
  | s :: rest => stripPuts x y s ++ stripsPuts x (y + 1) rest

/-- The graphemes of a drawing call with their places. -/
def Draw.puts : Draw → List Put
  | .char x y g fg bg a => [⟨x, y, g, fg.map toCrosstermColor, bg, a⟩]
  | .str x y s fg bg a => strPuts x y (fg.map toCrosstermColor) bg a s
  | .strip x y s => stripPuts x y s
  | .strips x y s => stripsPuts x y s

/-- The cell lengths of the pieces are the widths of their texts. -/
def Draw.Measured : Draw → Prop
  | .char .. => True
  | .str .. => True
  | .strip _ _ s => ∀ seg ∈ s, seg.cellLength = widthOf seg.text
  | .strips _ _ s => ∀ l ∈ s, ∀ seg ∈ l, seg.cellLength = widthOf seg.text

/-- The whole grapheme lies inside the clip and the canvas. -/
def Put.Visible (c : Canvas) (p : Put) : Prop :=
  c.currentClip.y ≤ p.y ∧ p.y < c.currentClip.y + c.currentClip.height ∧ 0 ≤ p.y ∧ p.y < c.h ∧
  c.currentClip.x ≤ p.x ∧ p.x + p.g.width ≤ c.currentClip.x + c.currentClip.width ∧
  0 ≤ p.x ∧ p.x + p.g.width ≤ c.w

/-- The cell the grapheme starts in. -/
def Put.start (c : Canvas) (p : Put) : Nat := p.y.toNat * c.w + p.x.toNat

/-- The grapheme is visible and takes cell `i`. -/
def Put.Covers (c : Canvas) (p : Put) (i : Nat) : Prop :=
  p.Visible c ∧ p.start c ≤ i ∧ i < p.start c + p.g.width

/-- Some grapheme of the list takes cell `i`. -/
def Covered (c : Canvas) (ps : List Put) (i : Nat) : Prop := ∃ p ∈ ps, p.Covers c i

/-- A blank in a translucent background: it only tints what is there. -/
def Put.Tints (p : Put) : Prop := preserveText p.g p.fg p.bg p.attrs = true

/-- A drawing call that cuts no glyph in two on canvas `c`. -/
structure Draw.Whole (env : TermEnv) (c : Canvas) (d : Draw) : Prop where
  /-- code and terminal agree on the widths of the graphemes drawn -/
  width : ∀ p ∈ d.puts, 1 ≤ p.g.width ∧ env.width p.g.text = p.g.width
  /-- the cached cell lengths are right -/
  measured : d.Measured
  /-- a glyph on the canvas is covered in all its columns or in none -/
  whole : ∀ (i : Nat) (e : Cell), c.cells[i]? = some e → e.continuation = false →
    ∀ k < e.width, (Covered c d.puts i ↔ Covered c d.puts (i + k))
  /-- only narrow glyphs are tinted -/
  tint : ∀ p ∈ d.puts, p.Visible c → p.Tints →
    ∃ e, c.cells[p.start c]? = some e ∧ e.continuation = false ∧ e.width = 1
  /-- a wide grapheme has an opaque background or one background under all its columns -/
  flat : ∀ p ∈ d.puts, p.Visible c → 2 ≤ p.g.width →
    (∃ b, p.bg = some b ∧ 1 ≤ b.a) ∨
    ∀ k < p.g.width, (c.cells[p.start c + k]?).map (·.bg) = (c.cells[p.start c]?).map (·.bg)

/-! ### One grapheme -/

theorem putConts_exact {w h : Nat} {x y : Int} {g fg bg attrs} {clip : Region} (hx : 0 ≤ x)
    (n a : Nat) (cells : List Cell) (hc0 : clip.x ≤ x)
    (hc : x + ((a + n : Nat) : Int) ≤ clip.x + clip.width) (hw : x + ((a + n : Nat) : Int) ≤ w)
    (hin : y.toNat * w + x.toNat + (a + n) ≤ cells.length) :
    ∃ cells', putConts w h x y g fg bg attrs clip (List.range' a n) cells = some cells' ∧
      cells'.length = cells.length ∧
      (∀ k : Nat, a ≤ k → k < a + n → cells'[y.toNat * w + x.toNat + k]? =
        (cells[y.toNat * w + x.toNat + k]?).map (contCell g fg bg attrs)) ∧
      ∀ j : Nat, (∀ k : Nat, a ≤ k → k < a + n → j ≠ y.toNat * w + x.toNat + k) → cells'[j]? = cells[j]? := by
  induction n generalizing a cells with
  | zero => exact ⟨cells, rfl, rfl, fun k h1 h2 => by omega, fun _ _ => rfl⟩
  | succ n ih =>
    rw [List.range'_succ]
    simp only [putConts]
    have e1 : y.toNat * w + (x + (a : Int)).toNat = y.toNat * w + x.toNat + a := by omega
    rw [if_neg (by omega), if_neg (by omega), e1]
    obtain ⟨cs, h1, h2, h3, h4⟩ := updateCell_spec (cells := cells) (i := y.toNat * w + x.toNat + a)
      (f := contCell g fg bg attrs) (by omega)
    rw [h1]
    simp only
    obtain ⟨cs', g1, g2, g3, g4⟩ := ih (a + 1) cs (by omega) (by omega) (by omega)
    refine ⟨cs', g1, g2.trans h2, ?_, ?_⟩
    · intro k k1 k2
      by_cases hk : k = a
      · subst hk
        rw [g4 _ (by intro k' _ _; omega), h3, List.getElem?_eq_getElem (by omega)]
        rfl
      · rw [g3 k (by omega) (by omega), h4 _ (by omega)]
    · intro j hj
      rw [g4 j (fun k k1 k2 => hj k (by omega) (by omega)), h4 j (hj a (by omega) (by omega))]

/-- Put one grapheme. -/
def Put.run (clip : Region) (c : Canvas) (p : Put) : Option Canvas :=
  putGrapheme c p.x p.y p.g p.fg p.bg p.attrs clip

theorem Put.run_hidden {c : Canvas} {p : Put} (h1 : 1 ≤ p.g.width) (hv : ¬ p.Visible c) :
    p.run c.currentClip c = some c := by
  unfold Put.run putGrapheme
  repeat (split; · rfl)
  exfalso
  apply hv
  unfold Put.Visible
  omega

theorem Put.run_visible {c : Canvas} {p : Put} (hl : c.cells.length = c.w * c.h) (h1 : 1 ≤ p.g.width)
    (hv : p.Visible c) :
    ∃ cells', p.run c.currentClip c = some { c with cells := cells' } ∧
      cells'.length = c.cells.length ∧
      cells'[p.start c]? = (c.cells[p.start c]?).map (leadCell p.g p.fg p.bg p.attrs) ∧
      (∀ k : Nat, 1 ≤ k → k < p.g.width → cells'[p.start c + k]? =
        (c.cells[p.start c + k]?).map (contCell p.g p.fg p.bg p.attrs)) ∧
      ∀ j : Nat, ¬ (p.start c ≤ j ∧ j < p.start c + p.g.width) → cells'[j]? = c.cells[j]? := by
  obtain ⟨v1, v2, v3, v4, v5, v6, v7, v8⟩ := hv
  have hlast : p.start c + (p.g.width - 1) < c.w * c.h := by
    have := index_lt (w := c.w) (h := c.h) (x := p.x.toNat + (p.g.width - 1)) (y := p.y.toNat) (by omega) (by omega)
    unfold Put.start
    omega
  unfold Put.run putGrapheme
  rw [if_neg (by omega), if_neg (by omega), if_neg (by omega), if_neg (by omega), if_neg (by omega),
    if_neg (by omega)]
  obtain ⟨cs, a1, a2, a3, a4⟩ := updateCell_spec (cells := c.cells) (i := p.start c)
    (f := leadCell p.g p.fg p.bg p.attrs) (by omega)
  rw [show p.y.toNat * c.w + p.x.toNat = p.start c from rfl, a1]
  simp only
  obtain ⟨cs', b1, b2, b3, b4⟩ := putConts_exact (w := c.w) (h := c.h) (x := p.x) (y := p.y) (g := p.g) (fg := p.fg)
    (bg := p.bg) (attrs := p.attrs) (clip := c.currentClip) v7 (p.g.width - 1) 1 cs v5 (by omega) (by omega)
    (by rw [show p.y.toNat * c.w + p.x.toNat = p.start c from rfl]; omega)
  rw [show p.y.toNat * c.w + p.x.toNat = p.start c from rfl] at b3 b4
  rw [b1]
  refine ⟨cs', rfl, b2.trans a2, ?_, ?_, ?_⟩
  · rw [b4 _ (fun k k1 k2 => by omega), a3, List.getElem?_eq_getElem (by omega)]
    rfl
  · intro k k1 k2
    rw [b3 k k1 (by omega), a4 _ (by omega)]
  · intro j hj
    rw [b4 j (fun k k1 k2 => by omega), a4 j (by omega)]

/-! ### A drawing call is its puts -/

def putAll (clip : Region) (c : Canvas) : List Put → Option Canvas
  | [] => some c
  | p :: ps => (p.run clip c).bind fun c => putAll clip c ps

theorem putAll_append (clip : Region) (c : Canvas) (a b : List Put) :
    putAll clip c (a ++ b) = (putAll clip c a).bind fun c => putAll clip c b := by
  induction a generalizing c with
  | nil => rfl
  | cons p a ih =>
    simp only [List.cons_append, putAll]
    cases p.run clip c with
    | none => rfl
    | some c1 => simp only [Option.bind_some]; exact ih c1

theorem putAll_right {clip : Region} {c : Canvas} {x y fg bg a} (s : List Grapheme)
    (hx : x ≥ clip.x + clip.width) : putAll clip c (strPuts x y fg bg a s) = some c := by
  induction s generalizing x with
  | nil => rfl
  | cons g gs ih =>
    simp only [strPuts, putAll, Put.run]
    have : putGrapheme c x y g fg bg a clip = some c := by
      unfold putGrapheme
      repeat (split; · rfl)
      omega
    rw [this]
    exact ih (by omega)

theorem putAll_row {clip : Region} {c : Canvas} {x y fg bg a} (s : List Grapheme)
    (hy : (y < clip.y ∨ y ≥ clip.y + clip.height) ∨ y < 0 ∨ y ≥ c.h) :
    putAll clip c (strPuts x y fg bg a s) = some c := by
  induction s generalizing x with
  | nil => rfl
  | cons g gs ih =>
    simp only [strPuts, putAll, Put.run]
    have : putGrapheme c x y g fg bg a clip = some c := by
      unfold putGrapheme
      repeat (split; · rfl)
      omega
    rw [this]
    exact ih

theorem putGraphemes_puts (c : Canvas) (x y : Int) (fg : Option Rgb) (bg : Option RgbaColor) (a : Attrs)
    (clip : Region) (s : List Grapheme) :
    putGraphemes c x y fg bg a clip s = putAll clip c (strPuts x y fg bg a s) := by
  induction s generalizing c x with
  | nil => rfl
  | cons g gs ih =>
    unfold putGraphemes
    split
    · rename_i h
      exact (putAll_right (g :: gs) h).symm
    · simp only [strPuts, putAll, Put.run]
      cases putGrapheme c x y g fg bg a clip with
      | none => rfl
      | some c1 => simp only [Option.bind_some]; exact ih c1 _

theorem putStr_puts (c : Canvas) (x y : Int) (s : List Grapheme) (fg bg : Option RgbaColor) (a : Attrs) :
    putStr c x y s fg bg a = putAll c.currentClip c (strPuts x y (fg.map toCrosstermColor) bg a s) := by
  unfold putStr
  simp only
  split
  · rename_i h; exact (putAll_row s (.inl h)).symm
  split
  · rename_i h; exact (putAll_row s (.inr h)).symm
  exact putGraphemes_puts ..

theorem renderStrip_puts (c : Canvas) (hl : c.cells.length = c.w * c.h) (x y : Int) (s : List DrawSeg)
    (hm : ∀ seg ∈ s, seg.cellLength = widthOf seg.text) :
    renderStrip c x y s = putAll c.currentClip c (stripPuts x y s) := by
  induction s generalizing c x with
  | nil => rfl
  | cons seg rest ih =>
    simp only [renderStrip, stripPuts, putAll_append]
    obtain ⟨c1, h1, o⟩ := putStr_spec c hl x y seg.text seg.fg seg.bg seg.attrs
    rw [h1, ← putStr_puts, h1]
    simp only [Option.bind_some]
    rw [ih c1 (by rw [o.len, hl, o.w, o.h]) _ (fun q hq => hm q (List.mem_cons_of_mem _ hq)), o.currentClip,
      hm seg List.mem_cons_self]

theorem renderStrips_puts (c : Canvas) (hl : c.cells.length = c.w * c.h) (x y : Int) (s : List (List DrawSeg))
    (hm : ∀ l ∈ s, ∀ seg ∈ l, seg.cellLength = widthOf seg.text) :
    renderStrips c x y s = putAll c.currentClip c (stripsPuts x y s) := by
  induction s generalizing c y with
  | nil => rfl
  | cons l rest ih =>
    simp only [renderStrips, stripsPuts, putAll_append]
    obtain ⟨c1, h1, o⟩ := renderStrip_spec c hl x y l
    rw [h1, ← renderStrip_puts c hl x y l (hm l List.mem_cons_self), h1]
    simp only [Option.bind_some]
    rw [ih c1 (by rw [o.len, hl, o.w, o.h]) _ (fun q hq => hm q (List.mem_cons_of_mem _ hq)), o.currentClip]

/-- A drawing call puts its graphemes one after the other. -/
theorem draw_puts (c : Canvas) (hl : c.cells.length = c.w * c.h) (d : Draw) (hm : d.Measured) :
    c.draw d = putAll c.currentClip c d.puts := by
  cases d with
  | char x y g fg bg a =>
    simp only [draw, putChar, Draw.puts, putAll, Put.run]
    cases putGrapheme c x y g (fg.map toCrosstermColor) bg a c.currentClip <;> rfl
  | str x y s fg bg a => exact putStr_puts ..
  | strip x y s => exact renderStrip_puts c hl x y s hm
  | strips x y s => exact renderStrips_puts c hl x y s hm

/-- Two puts that do not meet. -/
def Apart (p q : Put) : Prop := p.y ≠ q.y ∨ p.x + p.g.width ≤ q.x

theorem strPuts_mem {x y fg bg a} {s : List Grapheme} {p : Put} (h : p ∈ strPuts x y fg bg a s) :
    p.y = y ∧ x ≤ p.x ∧ p.x + p.g.width ≤ x + widthOf s := by
  induction s generalizing x with
  | nil => cases h
  | cons g gs ih =>
    simp only [strPuts, List.mem_cons] at h
    have e : (widthOf (g :: gs) : Int) = g.width + widthOf gs := by simp [widthOf]
    rcases h with h | h
    · subst h
      refine ⟨rfl, Int.le_refl _, ?_⟩
      show x + g.width ≤ _
      omega
    · obtain ⟨h1, h2, h3⟩ := ih h
      exact ⟨h1, by omega, by omega⟩

theorem strPuts_apart {x y fg bg a} (s : List Grapheme) : (strPuts x y fg bg a s).Pairwise Apart := by
  induction s generalizing x with
  | nil => exact List.Pairwise.nil
  | cons g gs ih =>
    refine List.Pairwise.cons (fun q hq => .inr ?_) ih
    have := (strPuts_mem hq).2.1
    exact this

theorem stripPuts_mem {x y} {s : List DrawSeg} {p : Put} (h : p ∈ stripPuts x y s) : p.y = y ∧ x ≤ p.x := by
  induction s generalizing x with
  | nil => cases h
  | cons g gs ih =>
    simp only [stripPuts, List.mem_append] at h
    rcases h with h | h
    · exact ⟨(strPuts_mem h).1, (strPuts_mem h).2.1⟩
    · have := ih h
      exact ⟨this.1, by omega⟩

theorem stripPuts_apart {x y} (s : List DrawSeg) : (stripPuts x y s).Pairwise Apart := by
  induction s generalizing x with
  | nil => exact List.Pairwise.nil
  | cons g gs ih =>
    refine List.pairwise_append.2 ⟨strPuts_apart _, ih, fun p hp q hq => .inr ?_⟩
    have h1 := (strPuts_mem hp).2.2
    have h2 := (stripPuts_mem hq).2
    omega

theorem stripsPuts_mem {x y} {s : List (List DrawSeg)} {p : Put} (h : p ∈ stripsPuts x y s) : y ≤ p.y := by
  induction s generalizing y with
  | nil => cases h
  | cons g gs ih =>
    simp only [stripsPuts, List.mem_append] at h
    rcases h with h | h
    · have := (stripPuts_mem h).1; omega
    · have := ih h; omega

theorem stripsPuts_apart {x y} (s : List (List DrawSeg)) : (stripsPuts x y s).Pairwise Apart := by
  induction s generalizing y with
  | nil => exact List.Pairwise.nil
  | cons g gs ih =>
    refine List.pairwise_append.2 ⟨stripPuts_apart _, ih, fun p hp q hq => .inl ?_⟩
    have h1 := (stripPuts_mem hp).1
    have h2 := stripsPuts_mem hq
    omega

theorem puts_apart (d : Draw) : d.puts.Pairwise Apart := by
  cases d with
  | char => exact List.pairwise_singleton ..
  | str => exact strPuts_apart _
  | strip => exact stripPuts_apart _
  | strips => exact stripsPuts_apart _

theorem Apart.disjoint {c : Canvas} {p q : Put} (h : Apart p q) (hp1 : 1 ≤ p.g.width) (hq1 : 1 ≤ q.g.width) {i : Nat}
    (hp : p.Covers c i) (hq : q.Covers c i) : False := by
  obtain ⟨⟨v1, v2, v3, v4, v5, v6, v7, v8⟩, hs1, hs2⟩ := hp
  obtain ⟨⟨u1, u2, u3, u4, u5, u6, u7, u8⟩, hr1, hr2⟩ := hq
  unfold Put.start at *
  have a1 : p.y.toNat * c.w + (p.x.toNat + (i - (p.y.toNat * c.w + p.x.toNat))) =
      q.y.toNat * c.w + (q.x.toNat + (i - (q.y.toNat * c.w + q.x.toNat))) := by omega
  obtain ⟨e1, e2⟩ := index_inj (w := c.w) (by omega) (by omega) a1
  rcases h with h | h
  · exact h (by omega)
  · rw [e2] at e1 hs1 hs2
    omega

/-! ### While the graphemes of a call are put -/

/-- Outside the cells still to be covered, the frame is whole; inside, it is as before the call. -/
structure Mid (env : TermEnv) (c0 : Canvas) (ps : List Put) (c : Canvas) : Prop where
  w : c.w = c0.w
  h : c.h = c0.h
  clips : c.clips = c0.clips
  len : c.cells.length = c0.cells.length
  todo : ∀ i : Nat, Covered c0 ps i → c.cells[i]? = c0.cells[i]?
  lead : ∀ (i : Nat) (d : Cell), ¬ Covered c0 ps i → c.cells[i]? = some d → d.continuation = false →
    1 ≤ d.width ∧ i % c0.w + d.width ≤ c0.w ∧ env.width d.symbol = d.width ∧
    ∀ k, 1 ≤ k → k < d.width → ¬ Covered c0 ps (i + k) ∧ ∃ e, c.cells[i + k]? = some e ∧ e.continuation = true ∧
      e.fg = d.fg ∧ e.bg = d.bg ∧ e.attrs = d.attrs
  cont : ∀ (i : Nat) (d : Cell), ¬ Covered c0 ps i → c.cells[i]? = some d → d.continuation = true →
    ∃ (l : Nat) (e : Cell), l < i ∧ ¬ Covered c0 ps l ∧ c.cells[l]? = some e ∧ e.continuation = false ∧ i < l + e.width

theorem Mid.init {env : TermEnv} {c : Canvas} (ok : FrameOk env c.w c.h c.cells) {ps : List Put}
    (whole : ∀ (i : Nat) (e : Cell), c.cells[i]? = some e → e.continuation = false →
      ∀ k < e.width, (Covered c ps i ↔ Covered c ps (i + k))) : Mid env c ps c where
  w := rfl
  h := rfl
  clips := rfl
  len := rfl
  todo := fun _ _ => rfl
  lead := by
    intro i d hi hd hc
    obtain ⟨h1, h2, h3, h4⟩ := ok.lead i d hd hc
    exact ⟨h1, h2, h3, fun k k1 k2 => ⟨fun hk => hi ((whole i d hd hc k k2).2 hk), h4 k k1 k2⟩⟩
  cont := by
    intro i d hi hd hc
    obtain ⟨l, e, h1, h2, h3, h4⟩ := ok.cont i d hd hc
    refine ⟨l, e, h1, fun hl => hi ?_, h2, h3, h4⟩
    have := (whole l e h2 h3 (i - l) (by omega)).1 hl
    rwa [show l + (i - l) = i by omega] at this

theorem Mid.done {env : TermEnv} {c0 c : Canvas} (hl : c0.cells.length = c0.w * c0.h) (m : Mid env c0 [] c) :
    FrameOk env c.w c.h c.cells := by
  have no : ∀ i, ¬ Covered c0 [] i := by rintro i ⟨p, hp, -⟩; cases hp
  refine ⟨by rw [m.len, hl, m.w, m.h], ?_, ?_⟩
  · intro i d hd hc
    obtain ⟨h1, h2, h3, h4⟩ := m.lead i d (no i) hd hc
    rw [m.w]
    exact ⟨h1, h2, h3, fun k k1 k2 => (h4 k k1 k2).2⟩
  · intro i d hd hc
    obtain ⟨l, e, h1, _, h3⟩ := m.cont i d (no i) hd hc
    exact ⟨l, e, h1, h3⟩

theorem resolve_opaque {b : RgbaColor} (h : 1 ≤ b.a) (x y : Option Rgb) :
    resolveBackground (some b) x = resolveBackground (some b) y := by
  have ht : b.isTransparent = false := by
    unfold RgbaColor.isTransparent
    simp only [beq_eq_false_iff_ne, ne_eq, decide_eq_false_iff_not]
    grind
  have hlt : ¬ b.a < 1 := by grind
  simp [resolveBackground, ht, hlt]

theorem Mid.step {env : TermEnv} {c0 c : Canvas} {p : Put} {ps : List Put}
    (ok : FrameOk env c0.w c0.h c0.cells) (m : Mid env c0 (p :: ps) c)
    (hw : 1 ≤ p.g.width ∧ env.width p.g.text = p.g.width)
    (apart : ∀ i, p.Covers c0 i → ¬ Covered c0 ps i)
    (tint : p.Visible c0 → p.Tints → ∃ e, c0.cells[p.start c0]? = some e ∧ e.continuation = false ∧ e.width = 1)
    (flat : p.Visible c0 → 2 ≤ p.g.width → (∃ b, p.bg = some b ∧ 1 ≤ b.a) ∨
      ∀ k < p.g.width, (c0.cells[p.start c0 + k]?).map (·.bg) = (c0.cells[p.start c0]?).map (·.bg)) :
    ∃ c', p.run c0.currentClip c = some c' ∧ Mid env c0 ps c' := by
  have hclip : c.currentClip = c0.currentClip := by
    unfold Canvas.currentClip; rw [m.clips, m.w, m.h]
  have hvis : p.Visible c ↔ p.Visible c0 := by
    unfold Put.Visible; rw [hclip, m.w, m.h]
  have hstart : p.start c = p.start c0 := by unfold Put.start; rw [m.w]
  have covcons : ∀ i, Covered c0 (p :: ps) i ↔ p.Covers c0 i ∨ Covered c0 ps i := by
    intro i
    constructor
    · rintro ⟨q, hq, h⟩
      rcases List.mem_cons.1 hq with e | e
      · subst e; exact .inl h
      · exact .inr ⟨q, e, h⟩
    · rintro (h | ⟨q, hq, h⟩)
      · exact ⟨p, List.mem_cons_self, h⟩
      · exact ⟨q, List.mem_cons_of_mem _ hq, h⟩
  by_cases hv : p.Visible c0
  · obtain ⟨cs, r1, r2, r3, r4, r5⟩ := Put.run_visible (c := c) (p := p)
      (by rw [m.len, ok.len, m.w, m.h]) hw.1 (hvis.2 hv)
    rw [hstart] at r3 r4 r5
    refine ⟨_, by rw [← hclip]; exact r1, ?_⟩
    have cov : ∀ k < p.g.width, p.Covers c0 (p.start c0 + k) := fun k hk => ⟨hv, by omega, by omega⟩
    have old : ∀ k < p.g.width, c.cells[p.start c0 + k]? = c0.cells[p.start c0 + k]? :=
      fun k hk => m.todo _ ((covcons _).2 (.inl (cov k hk)))
    have hin : p.start c0 + (p.g.width - 1) < c0.cells.length := by
      obtain ⟨v1, v2, v3, v4, v5, v6, v7, v8⟩ := hv
      have := index_lt (w := c0.w) (h := c0.h) (x := p.x.toNat + (p.g.width - 1)) (y := p.y.toNat)
        (by omega) (by omega)
      rw [ok.len]
      unfold Put.start
      omega
    have hmod : p.start c0 % c0.w = p.x.toNat := by
      obtain ⟨v1, v2, v3, v4, v5, v6, v7, v8⟩ := hv
      unfold Put.start
      rw [Nat.add_comm, Nat.add_mul_mod_self_right, Nat.mod_eq_of_lt (by omega)]
    have hfit : p.start c0 % c0.w + p.g.width ≤ c0.w := by
      rw [hmod]
      obtain ⟨v1, v2, v3, v4, v5, v6, v7, v8⟩ := hv
      omega
    have old0 := old 0 hw.1
    rw [Nat.add_zero] at old0
    -- the lead cell
    obtain ⟨d0, hd0⟩ : ∃ d0, c0.cells[p.start c0]? = some d0 :=
      ⟨_, List.getElem?_eq_getElem (by omega)⟩
    have r3' : cs[p.start c0]? = some (leadCell p.g p.fg p.bg p.attrs d0) := by
      rw [r3, old0, hd0]; rfl
    have outside : ∀ j, ¬ p.Covers c0 j → cs[j]? = c.cells[j]? := by
      intro j hj
      exact r5 j (fun h => hj ⟨hv, h⟩)
    have hlead : 1 ≤ (leadCell p.g p.fg p.bg p.attrs d0).width ∧
        (leadCell p.g p.fg p.bg p.attrs d0).continuation = false ∧
        (leadCell p.g p.fg p.bg p.attrs d0).width = p.g.width ∧
        env.width (leadCell p.g p.fg p.bg p.attrs d0).symbol = p.g.width := by
      by_cases ht : preserveText p.g p.fg p.bg p.attrs = true
      · obtain ⟨e, t1, t2, t3⟩ := tint hv ht
        rw [hd0] at t1; cases t1
        have hg1 : p.g.width = 1 := by
          unfold preserveText at ht
          simp only [Bool.and_eq_true, beq_iff_eq] at ht
          exact ht.1.1.2
        have hsym := (ok.lead _ _ hd0 t2).2.2.1
        unfold leadCell
        simp only [ht, if_true]
        split
        · exact ⟨by simp only; omega, t2, by simp only; omega, by simp only; omega⟩
        · exact ⟨by omega, t2, by omega, by omega⟩
      · unfold leadCell
        simp only [ht]
        exact ⟨hw.1, rfl, rfl, hw.2⟩
    have hconts : ∀ k, 1 ≤ k → k < p.g.width → ∃ e, cs[p.start c0 + k]? = some e ∧ e.continuation = true ∧
        e.fg = (leadCell p.g p.fg p.bg p.attrs d0).fg ∧ e.bg = (leadCell p.g p.fg p.bg p.attrs d0).bg ∧
        e.attrs = (leadCell p.g p.fg p.bg p.attrs d0).attrs := by
      intro k k1 k2
      obtain ⟨dk, hdk⟩ : ∃ dk, c0.cells[p.start c0 + k]? = some dk := ⟨_, List.getElem?_eq_getElem (by omega)⟩
      have hn : ¬ preserveText p.g p.fg p.bg p.attrs = true := by
        intro ht
        unfold preserveText at ht
        simp only [Bool.and_eq_true, beq_iff_eq] at ht
        have := ht.1.1.2
        omega
      refine ⟨contCell p.g p.fg p.bg p.attrs dk, by rw [r4 k k1 k2, old k k2, hdk]; rfl, ?_⟩
      unfold contCell leadCell
      simp only [hn]
      refine ⟨rfl, rfl, ?_, rfl⟩
      show resolveBackground p.bg dk.bg = resolveBackground p.bg d0.bg
      rcases flat hv (by omega) with ⟨b, hb, ha⟩ | h
      · rw [hb]; exact resolve_opaque ha _ _
      · have := h k k2
        rw [hdk, hd0] at this
        simp only [Option.map_some, Option.some.injEq] at this
        rw [this]
    have inside : ∀ j, p.Covers c0 j → j = p.start c0 ∨ ∃ k, 1 ≤ k ∧ k < p.g.width ∧ j = p.start c0 + k := by
      rintro j ⟨_, h1, h2⟩
      by_cases e : j = p.start c0
      · exact .inl e
      · exact .inr ⟨j - p.start c0, by omega, by omega, by omega⟩
    refine ⟨m.w, m.h, m.clips, r2.trans m.len, ?_, ?_, ?_⟩
    · intro i hi
      show cs[i]? = _
      rw [outside i (fun h => apart i h hi)]
      exact m.todo i ((covcons i).2 (.inr hi))
    · intro i d hi hd hc
      show 1 ≤ d.width ∧ i % c0.w + d.width ≤ c0.w ∧ env.width d.symbol = d.width ∧
        ∀ k, 1 ≤ k → k < d.width → ¬ Covered c0 ps (i + k) ∧ ∃ e, cs[i + k]? = some e ∧ e.continuation = true ∧
          e.fg = d.fg ∧ e.bg = d.bg ∧ e.attrs = d.attrs
      replace hd : cs[i]? = some d := hd
      by_cases hp : p.Covers c0 i
      · rcases inside i hp with e | ⟨k, k1, k2, e⟩
        · subst e
          rw [r3'] at hd
          cases hd
          obtain ⟨l1, l2, l3, l4⟩ := hlead
          refine ⟨l1, by rw [l3]; exact hfit, by rw [l4, l3], ?_⟩
          intro k k1 k2
          rw [l3] at k2
          exact ⟨apart _ (cov k k2), hconts k k1 k2⟩
        · subst e
          obtain ⟨e, he, hec, -⟩ := hconts k k1 k2
          rw [he] at hd; cases hd
          rw [hec] at hc; cases hc
      · rw [outside i hp] at hd
        have hni : ¬ Covered c0 (p :: ps) i := fun h => ((covcons i).1 h).elim hp hi
        obtain ⟨l1, l2, l3, l4⟩ := m.lead i d hni hd hc
        refine ⟨l1, l2, l3, fun k k1 k2 => ?_⟩
        obtain ⟨n, e, he⟩ := l4 k k1 k2
        refine ⟨fun h => n ((covcons _).2 (.inr h)), e, ?_⟩
        rw [outside _ (fun h => n ((covcons _).2 (.inl h)))]
        exact he
    · intro i d hi hd hc
      show ∃ (l : Nat) (e : Cell), l < i ∧ ¬ Covered c0 ps l ∧ cs[l]? = some e ∧ e.continuation = false ∧ i < l + e.width
      replace hd : cs[i]? = some d := hd
      by_cases hp : p.Covers c0 i
      · rcases inside i hp with e | ⟨k, k1, k2, e⟩
        · subst e
          rw [r3'] at hd
          cases hd
          rw [hlead.2.1] at hc; cases hc
        · subst e
          refine ⟨p.start c0, _, by omega, ?_, r3', hlead.2.1, by rw [hlead.2.2.1]; omega⟩
          have := apart _ (cov 0 hw.1)
          rwa [Nat.add_zero] at this
      · rw [outside i hp] at hd
        have hni : ¬ Covered c0 (p :: ps) i := fun h => ((covcons i).1 h).elim hp hi
        obtain ⟨l, e, h1, h2, h3, h4⟩ := m.cont i d hni hd hc
        refine ⟨l, e, h1, fun h => h2 ((covcons _).2 (.inr h)), ?_, h4⟩
        rw [outside _ (fun h => h2 ((covcons _).2 (.inl h)))]
        exact h3
  · refine ⟨c, ?_, ?_⟩
    · rw [← hclip]
      exact Put.run_hidden hw.1 (fun h => hv (hvis.1 h))
    · have hsame : ∀ i, Covered c0 (p :: ps) i ↔ Covered c0 ps i := by
        intro i
        rw [covcons]
        exact ⟨fun h => h.elim (fun h => absurd h.1 hv) id, .inr⟩
      refine ⟨m.w, m.h, m.clips, m.len, fun i hi => m.todo i ((hsame i).2 hi), ?_, ?_⟩
      · intro i d hi hd hc
        obtain ⟨l1, l2, l3, l4⟩ := m.lead i d (fun h => hi ((hsame i).1 h)) hd hc
        exact ⟨l1, l2, l3, fun k k1 k2 => ⟨fun h => (l4 k k1 k2).1 ((hsame _).2 h), (l4 k k1 k2).2⟩⟩
      · intro i d hi hd hc
        obtain ⟨l, e, h1, h2, h3⟩ := m.cont i d (fun h => hi ((hsame i).1 h)) hd hc
        exact ⟨l, e, h1, fun h => h2 ((hsame _).2 h), h3⟩

theorem Mid.run {env : TermEnv} {c0 c : Canvas} {ps : List Put}
    (ok : FrameOk env c0.w c0.h c0.cells) (m : Mid env c0 ps c)
    (hw : ∀ p ∈ ps, 1 ≤ p.g.width ∧ env.width p.g.text = p.g.width) (apart : ps.Pairwise Apart)
    (tint : ∀ p ∈ ps, p.Visible c0 → p.Tints →
      ∃ e, c0.cells[p.start c0]? = some e ∧ e.continuation = false ∧ e.width = 1)
    (flat : ∀ p ∈ ps, p.Visible c0 → 2 ≤ p.g.width → (∃ b, p.bg = some b ∧ 1 ≤ b.a) ∨
      ∀ k < p.g.width, (c0.cells[p.start c0 + k]?).map (·.bg) = (c0.cells[p.start c0]?).map (·.bg)) :
    ∃ c', putAll c0.currentClip c ps = some c' ∧ FrameOk env c'.w c'.h c'.cells := by
  induction ps generalizing c with
  | nil => exact ⟨c, rfl, m.done ok.len⟩
  | cons p ps ih =>
    obtain ⟨a1, a2⟩ := List.pairwise_cons.1 apart
    obtain ⟨c1, h1, m1⟩ := m.step ok (hw p List.mem_cons_self)
      (by
        rintro i hp ⟨q, hq, hqc⟩
        exact (a1 q hq).disjoint (hw p List.mem_cons_self).1 (hw q (List.mem_cons_of_mem _ hq)).1 hp hqc)
      (tint p List.mem_cons_self) (flat p List.mem_cons_self)
    simp only [putAll, h1, Option.bind_some]
    exact ih m1 (fun q hq => hw q (List.mem_cons_of_mem _ hq)) a2
      (fun q hq => tint q (List.mem_cons_of_mem _ hq)) (fun q hq => flat q (List.mem_cons_of_mem _ hq))

/-- A call that cuts no glyph keeps the frame whole. -/
theorem draw_whole {env : TermEnv} {c c' : Canvas} {d : Draw} (ok : FrameOk env c.w c.h c.cells)
    (hd : d.Whole env c) (hp : c.draw d = some c') : FrameOk env c'.w c'.h c'.cells := by
  obtain ⟨c1, h1, h2⟩ := (Mid.init ok hd.whole).run ok hd.width (puts_apart d) hd.tint hd.flat
  rw [draw_puts c ok.len d hd.measured, h1] at hp
  cases hp
  exact h2

/-! ### Histories -/

/-- Every drawing call of the history satisfies `P` on the canvas it is made on. -/
def EveryDraw (P : Canvas → Draw → Prop) (c : Canvas) : List Op → Prop
  | [] => True
  | .draw d :: ops => P c d ∧ ∀ c', c.draw d = some c' → EveryDraw P c' ops
  | op :: ops => ∀ c', c.step op = some c' → EveryDraw P c' ops

theorem blank_frameOk {env : TermEnv} (hsp : env.width " " = 1) {w h : Nat} {cells : List Cell}
    (hl : cells.length = w * h) (hb : ∀ d ∈ cells, d = Cell.blank) : FrameOk env w h cells :=
  NarrowCells.frameOk (fun d hd => by rw [hb d hd]; exact ⟨rfl, rfl, hsp⟩) hl

theorem step_whole {env : TermEnv} (hsp : env.width " " = 1) {c c' : Canvas} {op : Op}
    (hn : FrameOk env c.w c.h c.cells) (hnp : FrameOk env c.w c.h c.prev)
    (hop : ∀ d, op = .draw d → d.Whole env c) (hp : c.step op = some c') :
    FrameOk env c'.w c'.h c'.cells ∧ FrameOk env c'.w c'.h c'.prev := by
  cases op with
  | push r => cases hp; exact ⟨hn, hnp⟩
  | pop => cases hp; exact ⟨hn, hnp⟩
  | draw d =>
    refine ⟨draw_whole hn (hop d rfl) hp, ?_⟩
    obtain ⟨c1, h1, o⟩ := draw_spec c hn.len d
    rw [show c.step (.draw d) = c.draw d from rfl, h1] at hp
    cases hp
    rw [o.prev, o.w, o.h]; exact hnp
  | clear =>
    cases hp
    refine ⟨blank_frameOk hsp (by simp [clear]; exact hn.len) ?_, hnp⟩
    intro d hd
    simp only [clear, List.mem_map] at hd
    obtain ⟨_, _, rfl⟩ := hd
    rfl
  | invalidate => cases hp; exact ⟨hn, hnp⟩
  | flush => cases hp; exact ⟨hnp, hn⟩

/-- C06 for programs whose drawing calls cut no glyph in two, with no condition on frames: from a new
canvas and a terminal showing anything, after any history of calls a flush makes the terminal show
exactly the canvas, wide glyphs included. -/
theorem whole_session_flush_shows {env : TermEnv} (hj : env.Ok) (hsp : env.width " " = 1)
    {w h : Nat} {c0 c : Canvas} {t0 t : Term}
    (h0 : Canvas.new w h = some c0) (hw : t0.w = w) (hh : t0.h = h) (ops : List Op)
    (hops : EveryDraw (fun c d => d.Whole env c) c0 ops)
    (hs : session env c0 t0 ops = some (c, t)) (x y : Nat) (cell : Cell)
    (hc : c.cells[y * w + x]? = some cell) :
    (t.run env c.flush.1).screen (y * w + x) = shown cell := by
  have hn0 : FrameOk env c0.w c0.h c0.cells ∧ FrameOk env c0.w c0.h c0.prev := by
    unfold Canvas.new at h0
    split at h0
    · cases h0
      exact ⟨blank_frameOk hsp (by simp) (fun d hd => List.eq_of_mem_replicate hd),
        blank_frameOk hsp (by simp) (fun d hd => List.eq_of_mem_replicate hd)⟩
    · cases h0
  have gen : ∀ (ops : List Op) (c1 : Canvas) (t1 : Term) (raw : List Region), Inv w h raw c1 →
      FrameOk env c1.w c1.h c1.cells → FrameOk env c1.w c1.h c1.prev →
      EveryDraw (fun c d => d.Whole env c) c1 ops →
      session env c1 t1 ops = some (c, t) →
      EveryFlush (fun c => FrameOk env w h c.cells) c1 ops ∧ FrameOk env w h c.cells := by
    intro ops
    induction ops with
    | nil =>
      intro c1 t1 raw i hn hp _ hs
      cases hs
      rw [i.weq, i.heq] at hn
      exact ⟨trivial, hn⟩
    | cons op ops ih =>
      intro c1 t1 raw i hn hp hops hs
      obtain ⟨c2, hstep, i2⟩ := i.step op
      have hop : ∀ d, op = .draw d → d.Whole env c1 := by
        rintro d rfl; exact hops.1
      have hops' : EveryDraw (fun c d => d.Whole env c) c2 ops := by
        cases op with
        | draw d => exact hops.2 c2 hstep
        | _ => exact hops c2 hstep
      obtain ⟨n1, n2⟩ := step_whole hsp hn hp hop hstep
      by_cases hf : op = .flush
      · subst hf
        cases hstep
        obtain ⟨a, b⟩ := ih _ _ _ i2 n1 n2 hops' hs
        rw [i.weq, i.heq] at hn
        exact ⟨⟨hn, a⟩, b⟩
      · have hs' : session env c2 t1 ops = some (c, t) := by
          cases op <;> first
            | exact absurd rfl hf
            | (simp only [Canvas.session, hstep, Option.bind_some] at hs; exact hs)
        obtain ⟨a, b⟩ := ih _ _ _ i2 n1 n2 hops' hs'
        refine ⟨?_, b⟩
        cases op <;> first
          | exact absurd rfl hf
          | (intro c3 hc3; rw [hstep] at hc3; cases hc3; exact a)
  obtain ⟨a, b⟩ := gen ops c0 t0 [] (Inv.new h0) hn0.1 hn0.2 hops hs
  exact session_flush_shows_partial hj h0 hw hh ops hs a b x y cell hc

/-! ### Witnesses -/

instance (c : Canvas) (p : Put) : Decidable (p.Visible c) := by unfold Put.Visible; infer_instance
instance (c : Canvas) (p : Put) (i : Nat) : Decidable (p.Covers c i) := by unfold Put.Covers; infer_instance
instance (c : Canvas) (ps : List Put) (i : Nat) : Decidable (Covered c ps i) := by unfold Covered; infer_instance
instance (p : Put) : Decidable p.Tints := by unfold Put.Tints; infer_instance

/-- A canvas showing a wide glyph and a letter. -/
def wideCanvas : Canvas :=
  { w := 4, h := 1,
    cells := [⟨"日", 2, false, none, none, {}⟩, ⟨" ", 0, true, none, none, {}⟩,
      ⟨"c", 1, false, none, none, {}⟩, Cell.blank],
    prev := List.replicate 4 Cell.blank, firstFlush := true, clips := [] }

/-- Two letters over both columns of a wide glyph, then a wide glyph over a letter and a blank: a call
that cuts no glyph in two. -/
def wideDraw : Draw := .str 0 0 [⟨"a", 1⟩, ⟨"b", 1⟩, ⟨"日", 2⟩] none none {}

theorem wideDraw_whole : wideDraw.Whole sampleEnv wideCanvas := by
  refine ⟨?_, trivial, ?_, ?_, ?_⟩
  · intro p hp
    simp only [wideDraw, Draw.puts, strPuts, List.mem_cons, List.not_mem_nil, or_false] at hp
    rcases hp with rfl | rfl | rfl <;> decide
  · intro i e he hc k hk
    have hi := (List.getElem?_eq_some_iff.1 he).1
    have : i < 4 := hi
    have h4 : i = 0 ∨ i = 1 ∨ i = 2 ∨ i = 3 := by omega
    rcases h4 with rfl | rfl | rfl | rfl <;> cases he
    · have : k = 0 ∨ k = 1 := by simp only at hk; omega
      rcases this with rfl | rfl <;> decide
    · cases hc
    · have : k = 0 := by simp only at hk; omega
      subst this; rfl
    · have : k = 0 := by simp only [Cell.blank] at hk; omega
      subst this; rfl
  · intro p hp hv ht
    exfalso
    revert ht
    simp only [wideDraw, Draw.puts, strPuts, List.mem_cons, List.not_mem_nil, or_false] at hp
    rcases hp with rfl | rfl | rfl <;> decide
  · intro p hp hv h2
    simp only [wideDraw, Draw.puts, strPuts, List.mem_cons, List.not_mem_nil, or_false] at hp
    rcases hp with rfl | rfl | rfl
    · exact absurd h2 (by decide)
    · exact absurd h2 (by decide)
    · right
      intro k hk
      have : k = 0 ∨ k = 1 := by simp only at hk; omega
      rcases this with rfl | rfl <;> decide

/-- The hypotheses of `whole_session_flush_shows` are met by a history that draws a wide glyph, flushes
it, draws over it and flushes again. -/
example : ∃ c0 c t, Canvas.new 4 1 = some c0 ∧
    session sampleEnv c0 (sampleTerm 4 1)
      [.draw (.char 0 0 ⟨"日", 2⟩ none none {}), .flush, .clear] = some (c, t) ∧
    EveryDraw (fun c d => d.Whole sampleEnv c) c0
      [.draw (.char 0 0 ⟨"日", 2⟩ none none {}), .flush, .clear] ∧
    (t.run sampleEnv c.flush.1).screen 0 = .glyph " " 1 ⟨none, none, {}⟩ := by
  refine ⟨_, _, _, rfl, rfl, ⟨⟨?_, trivial, ?_, ?_, ?_⟩, ?_⟩, by decide +kernel⟩
  · intro p hp
    simp only [Draw.puts, List.mem_cons, List.not_mem_nil, or_false] at hp
    subst hp
    decide
  · intro i e he hc k hk
    have : e = Cell.blank := List.eq_of_mem_replicate (n := 4) (List.mem_of_getElem? he)
    subst this
    have : k = 0 := by simp only [Cell.blank] at hk; omega
    subst this
    rfl
  · intro p hp hv ht
    simp only [Draw.puts, List.mem_cons, List.not_mem_nil, or_false] at hp
    subst hp
    exact absurd ht (by decide)
  · intro p hp hv h2
    simp only [Draw.puts, List.mem_cons, List.not_mem_nil, or_false] at hp
    subst hp
    right
    intro k hk
    have : k = 0 ∨ k = 1 := by simp only at hk; omega
    rcases this with rfl | rfl <;> decide
  · intro c1 _ c2 _ c3 _
    trivial

/-- C06 fails for a wide glyph without background over two backgrounds: the canvas gives each column its
own background, the terminal shows the first one under the whole glyph. -/
theorem flush_patched_counterexample : ∃ c0 c t, Canvas.new 2 1 = some c0 ∧
    session sampleEnv c0 (sampleTerm 2 1)
      [.draw (.str 0 0 [⟨" ", 1⟩] none (some (RgbaColor.rgb 1 1 1)) {}),
       .draw (.str 1 0 [⟨" ", 1⟩] none (some (RgbaColor.rgb 2 2 2)) {}),
       .draw (.str 0 0 [⟨"日", 2⟩] none none {})] = some (c, t) ∧
    (c.cells[1]?).map (·.bg) = some (some ⟨2, 2, 2⟩) ∧
    (t.run sampleEnv c.flush.1).screen 1 = .cont ⟨none, some ⟨1, 1, 1⟩, {}⟩ := by
  refine ⟨_, _, _, rfl, rfl, ?_, ?_⟩ <;> decide +kernel

/-- C06 fails when only the second column of a wide glyph is tinted: the canvas has a tinted column, the
terminal shows none. -/
theorem flush_tint_counterexample : ∃ c0 c t, Canvas.new 2 1 = some c0 ∧
    session sampleEnv c0 (sampleTerm 2 1)
      [.draw (.str 0 0 [⟨"日", 2⟩] none (some (RgbaColor.rgb 0 0 0)) {}),
       .draw (.str 1 0 [⟨" ", 1⟩] none (some { RgbaColor.rgb 200 200 200 with a := 1 / 2 }) {})] = some (c, t) ∧
    (c.cells[1]?).map (·.bg) = some (some ⟨100, 100, 100⟩) ∧
    (t.run sampleEnv c.flush.1).screen 1 = .cont ⟨none, some ⟨0, 0, 0⟩, {}⟩ := by
  refine ⟨_, _, _, rfl, rfl, ?_, ?_⟩ <;> decide +kernel

end Textual.Canvas
