import Verif.Props.Color
import Verif.Lemmas.CanvasDraw
import Verif.Props.Canvas

/-! C39: visible text is drawn. -/

namespace Textual.Canvas

/-- C39: in any reachable canvas, `put_str` of a text made of graphemes of width at least one puts
each grapheme whose columns lie inside the effective clip and the canvas at its column
(start + width of the text before it), with the given colours and attributes; the further columns of
a wide grapheme are its continuation. (`put_str` of a blank with only a translucent background is
the documented exception, excluded by `preserveText … = false`.) -/
theorem putStr_draws {w h : Nat} {c0 c c' : Canvas} (h0 : Canvas.new w h = some c0)
    (ops : List Op) (hc : c0.run ops = some c)
    (x y : Int) (pre post : List Grapheme) (g : Grapheme) (fg bg : Option RgbaColor) (attrs : Attrs)
    (X Y : Nat) (hpre : ∀ p ∈ pre, 1 ≤ p.width) (hX : (X : Int) = x + textWidth pre) (hY : (Y : Int) = y)
    (hg : 1 ≤ g.width) (hy : Y < h) (hx : X + g.width ≤ w)
    (hw : Within (clipOf w h (pushed [] ops)) X Y)
    (hw2 : ((X + g.width : Nat) : Int) ≤ (clipOf w h (pushed [] ops)).x + (clipOf w h (pushed [] ops)).width)
    (hpt : preserveText g (fg.map toCrosstermColor) bg attrs = false)
    (hd : c.putStr x y (pre ++ g :: post) fg bg attrs = some c') :
    ∃ lead, c'.cells[Y * w + X]? = some lead ∧ lead.symbol = g.text ∧ lead.width = g.width ∧
      lead.continuation = false ∧ lead.fg = fg.map toCrosstermColor ∧ lead.attrs = attrs ∧
      ∀ k, 1 ≤ k → k < g.width → ∃ cont, c'.cells[Y * w + (X + k)]? = some cont ∧
        cont.continuation = true ∧ cont.symbol = " " ∧ cont.fg = lead.fg ∧ cont.attrs = attrs := by
  obtain ⟨c1, h1, i⟩ := (Inv.new h0).run ops
  rw [hc] at h1
  cases h1
  have hl : c.cells.length = c.w * c.h := by rw [i.len, i.weq, i.heq]
  unfold putStr at hd
  simp only [i.currentClip] at hd
  generalize clipOf w h (pushed [] ops) = clip at *
  have hw' := hw
  unfold Within at hw'
  rw [if_neg (by omega), if_neg (by have := i.heq; omega)] at hd
  obtain ⟨w1, w2⟩ := putGraphemes_writes c hl x y _ bg attrs clip pre post g X Y hpre hX hY hg
    (by rw [i.heq]; exact hy) (by rw [i.weq]; exact hx) hw hw2 c' hd
  rw [i.weq] at w1 w2
  have hidx : Y * w + X < c.cells.length := by rw [i.len]; exact index_lt (by omega) hy
  rw [List.getElem?_eq_getElem hidx, Option.map_some] at w1
  refine ⟨_, w1, ?_⟩
  simp only [leadCell, hpt]
  refine ⟨rfl, rfl, rfl, rfl, rfl, ?_⟩
  intro k hk1 hk2
  have hidx2 : Y * w + (X + k) < c.cells.length := by rw [i.len]; exact index_lt (by omega) hy
  have := w2 k hk1 hk2
  rw [List.getElem?_eq_getElem hidx2, Option.map_some] at this
  exact ⟨_, this, by simp [contCell, hpt], by simp [contCell, hpt], by simp [contCell, hpt], by simp [contCell, hpt]⟩

/-- C39: an opaque background replaces the old one; no background keeps it. -/
theorem resolveBackground_spec (e : Option Rgb) :
    resolveBackground none e = e ∧
    (∀ b : RgbaColor, b.a ≥ 1 → resolveBackground (some b) e = some ⟨b.r, b.g, b.b⟩) ∧
    (∀ b : RgbaColor, b.a ≤ 0 → resolveBackground (some b) e = e) := by
  refine ⟨rfl, ?_, ?_⟩
  · intro b hb
    have h1 : b.isTransparent = false := by
      simp only [RgbaColor.isTransparent, decide_eq_false_iff_not]; grind
    have h2 : ¬ b.a < 1 := by grind
    simp [resolveBackground, h1, h2, toCrosstermRgb]
  · intro b hb
    have h1 : b.isTransparent = true := by simpa [RgbaColor.isTransparent] using hb
    simp [resolveBackground, h1]

/-- A channel that is the mix of an old and a new one with the given weight of the new one, up to
rounding down. -/
def MixOf (c old new : Nat) (weight : Rat) : Prop :=
  (c : Rat) ≤ (1 - weight) * old + weight * new ∧ (1 - weight) * old + weight * new < (c : Rat) + 1

/-- C39: a translucent background is mixed with the colour already there (black if there is none)
in proportion to its opacity. -/
theorem resolveBackground_mix (b : RgbaColor) (hb : b.Valid) (h0 : 0 < b.a) (h1 : b.a < 1)
    (e : Rgb) (he : e.r < 256 ∧ e.g < 256 ∧ e.b < 256) :
    (∃ c, resolveBackground (some b) (some e) = some c ∧
      MixOf c.r e.r b.r b.a ∧ MixOf c.g e.g b.g b.a ∧ MixOf c.b e.b b.b b.a) ∧
    (∃ c, resolveBackground (some b) none = some c ∧
      MixOf c.r 0 b.r b.a ∧ MixOf c.g 0 b.g b.a ∧ MixOf c.b 0 b.b b.a) := by
  have ht : b.isTransparent = false := by
    simp only [RgbaColor.isTransparent, decide_eq_false_iff_not]; grind
  have hn : ¬ b.a ≥ 1 := by grind
  have g0 : (0 : Rat) ≤ b.a := by grind
  have g1 : b.a ≤ 1 := by grind
  constructor
  · refine ⟨toCrosstermRgb ((RgbaColor.rgb e.r e.g e.b).tint b),
      by simp [resolveBackground, ht, h1, RgbaColor.blendOver, hn], ?_, ?_, ?_⟩
    · exact RgbaColor.lerpU8_exact he.1 hb.1 g0 g1
    · exact RgbaColor.lerpU8_exact he.2.1 hb.2.1 g0 g1
    · exact RgbaColor.lerpU8_exact he.2.2 hb.2.2 g0 g1
  · refine ⟨toCrosstermRgb (RgbaColor.black.tint b),
      by simp [resolveBackground, ht, h1, RgbaColor.blendOver, hn], ?_, ?_, ?_⟩
    · exact RgbaColor.lerpU8_exact (x := 0) (by decide) hb.1 g0 g1
    · exact RgbaColor.lerpU8_exact (x := 0) (by decide) hb.2.1 g0 g1
    · exact RgbaColor.lerpU8_exact (x := 0) (by decide) hb.2.2 g0 g1

example : ∃ c, resolveBackground (some (RgbaColor.rgba 200 0 100 (1/2))) (some ⟨0, 100, 100⟩) = some c ∧
    MixOf c.r 0 200 (1/2) ∧ MixOf c.g 100 0 (1/2) ∧ MixOf c.b 100 100 (1/2) :=
  (resolveBackground_mix (RgbaColor.rgba 200 0 100 (1/2)) ⟨by decide, by decide, by decide⟩
    (by decide +kernel) (by decide +kernel) ⟨0, 100, 100⟩ (by decide)).1

/-- C39: `put_str` leaves under every visible grapheme the given background laid over the one that
was there. A blank with only a translucent background keeps the text below it. -/
theorem putStr_background {w h : Nat} {c0 c c' : Canvas} (h0 : Canvas.new w h = some c0)
    (ops : List Op) (hc : c0.run ops = some c)
    (x y : Int) (pre post : List Grapheme) (g : Grapheme) (fg bg : Option RgbaColor) (attrs : Attrs)
    (X Y : Nat) (hpre : ∀ p ∈ pre, 1 ≤ p.width) (hX : (X : Int) = x + textWidth pre) (hY : (Y : Int) = y)
    (hg : 1 ≤ g.width) (hy : Y < h) (hx : X + g.width ≤ w)
    (hw : Within (clipOf w h (pushed [] ops)) X Y)
    (hw2 : ((X + g.width : Nat) : Int) ≤ (clipOf w h (pushed [] ops)).x + (clipOf w h (pushed [] ops)).width)
    (hd : c.putStr x y (pre ++ g :: post) fg bg attrs = some c') :
    ∃ old lead, c.cells[Y * w + X]? = some old ∧ c'.cells[Y * w + X]? = some lead ∧
      lead.bg = resolveBackground bg old.bg ∧
      (preserveText g (fg.map toCrosstermColor) bg attrs = true →
        lead.symbol = old.symbol ∧ lead.fg = old.fg ∧ lead.attrs = old.attrs) ∧
      ∀ k, 1 ≤ k → k < g.width → ∃ old cont, c.cells[Y * w + (X + k)]? = some old ∧
        c'.cells[Y * w + (X + k)]? = some cont ∧ cont.bg = resolveBackground bg old.bg := by
  obtain ⟨c1, h1, i⟩ := (Inv.new h0).run ops
  rw [hc] at h1
  cases h1
  have hl : c.cells.length = c.w * c.h := by rw [i.len, i.weq, i.heq]
  unfold putStr at hd
  simp only [i.currentClip] at hd
  generalize clipOf w h (pushed [] ops) = clip at *
  have hw' := hw
  unfold Within at hw'
  rw [if_neg (by omega), if_neg (by have := i.heq; omega)] at hd
  obtain ⟨w1, w2⟩ := putGraphemes_writes c hl x y _ bg attrs clip pre post g X Y hpre hX hY hg
    (by rw [i.heq]; exact hy) (by rw [i.weq]; exact hx) hw hw2 c' hd
  rw [i.weq] at w1 w2
  have hres : ∀ old : Option Rgb, preserveText g (fg.map toCrosstermColor) bg attrs = true →
      ∃ b, resolveBackground bg old = some b := by
    intro old hp
    simp only [preserveText, Bool.and_eq_true] at hp
    cases bg with
    | none => simp at hp
    | some b =>
      have hq := hp.1.1.1.1
      simp only [Bool.and_eq_true] at hq
      have ht : b.isTransparent = false := by simpa using hq.2
      exact ⟨_, by simp [resolveBackground, ht]; rfl⟩
  have hidx : Y * w + X < c.cells.length := by rw [i.len]; exact index_lt (by omega) hy
  rw [List.getElem?_eq_getElem hidx, Option.map_some] at w1
  refine ⟨_, _, List.getElem?_eq_getElem hidx, w1, ?_, ?_, ?_⟩
  · simp only [leadCell]
    split
    · rename_i hp
      obtain ⟨b, hb⟩ := hres (c.cells[Y * w + X].bg) hp
      rw [hb]
    · rfl
  · intro hp
    obtain ⟨b, hb⟩ := hres (c.cells[Y * w + X].bg) hp
    simp [leadCell, hp, hb]
  · intro k hk1 hk2
    have hidx2 : Y * w + (X + k) < c.cells.length := by rw [i.len]; exact index_lt (by omega) hy
    have := w2 k hk1 hk2
    rw [List.getElem?_eq_getElem hidx2, Option.map_some] at this
    refine ⟨_, _, List.getElem?_eq_getElem hidx2, this, ?_⟩
    simp only [contCell]
    split
    · rename_i hp
      obtain ⟨b, hb⟩ := hres (c.cells[Y * w + (X + k)].bg) hp
      rw [hb]
    · rfl

/-- The hypotheses hold for a wide grapheme after a narrow one inside a clip. -/
example : ∃ c0 c, Canvas.new 6 3 = some c0 ∧
    c0.run [.push (Region.new 1 0 4 2)] = some c ∧
    Within (clipOf 6 3 (pushed [] [.push (Region.new 1 0 4 2)])) 3 1 ∧
    ((3 + 2 : Nat) : Int) ≤ (clipOf 6 3 (pushed [] [.push (Region.new 1 0 4 2)])).x +
      (clipOf 6 3 (pushed [] [.push (Region.new 1 0 4 2)])).width ∧
    ((3 : Nat) : Int) = 2 + textWidth [⟨"a", 1⟩] := by
  refine ⟨_, _, rfl, rfl, ?_⟩
  unfold Within
  decide

end Textual.Canvas
