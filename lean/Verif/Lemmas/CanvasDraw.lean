import Verif.Lemmas.Canvas

/-! What a drawing call writes. -/

namespace Textual.Canvas

theorem putConts_writes {w h : Nat} {x y : Int} {g fg bg attrs} {clip : Region}
    (hx0 : 0 ≤ x) (hy0 : 0 ≤ y) (hy1 : y < h) (offs : List Nat) (cells : List Cell) (hl : cells.length = w * h)
    (hnd : offs.Nodup) (off : Nat) (ho : off ∈ offs)
    (hc1 : clip.x ≤ x + off) (hc2 : x + off < clip.x + clip.width) (hc3 : x + off < w)
    (cells' : List Cell) (hp : putConts w h x y g fg bg attrs clip offs cells = some cells') :
    cells'[y.toNat * w + (x.toNat + off)]? =
      (cells[y.toNat * w + (x.toNat + off)]?).map (contCell g fg bg attrs) := by
  induction offs generalizing cells with
  | nil => simp at ho
  | cons o rest ih =>
    rw [List.nodup_cons] at hnd
    have hnat : x.toNat + off = (x + (off : Int)).toNat := by omega
    by_cases hoo : off = o
    · subst hoo
      unfold putConts at hp
      simp only at hp
      rw [if_neg (by omega), if_neg (by omega)] at hp
      have hxw : (x + (off : Int)).toNat < w := by omega
      have hyh : y.toNat < h := by omega
      have hidx : y.toNat * w + (x + (off : Int)).toNat < cells.length := by
        rw [hl]; exact index_lt hxw hyh
      obtain ⟨cells1, hu, hlen, hat, hoth⟩ := updateCell_spec (f := contCell g fg bg attrs) hidx
      rw [hu] at hp
      simp only at hp
      obtain ⟨cs, h1, h2, h3⟩ := putConts_spec (w := w) (h := h) (x := x) (y := y) (g := g) (fg := fg)
        (bg := bg) (attrs := attrs) (clip := clip) hy0 hy1 rest cells1 (by rw [hlen, hl])
      rw [hp] at h1
      cases h1
      rw [hnat, h3 _ _ hxw, hat, List.getElem?_eq_getElem hidx]
      · rfl
      · rintro ⟨-, ⟨o, ho2, he⟩, -⟩
        have : o = off := by omega
        subst this
        exact hnd.1 ho2
    · have ho' : off ∈ rest := by
        rcases List.mem_cons.1 ho with h | h
        · exact absurd h hoo
        · exact h
      unfold putConts at hp
      simp only at hp
      split at hp
      · exact ih cells hl hnd.2 ho' hp
      · split at hp
        · exact ih cells hl hnd.2 ho' hp
        · rename_i hd1 hd2
          have hxw : (x + (o : Int)).toNat < w := by omega
          have hyh : y.toNat < h := by omega
          have hidx : y.toNat * w + (x + (o : Int)).toNat < cells.length := by
            rw [hl]; exact index_lt hxw hyh
          obtain ⟨cells1, hu, hlen, hat, hoth⟩ := updateCell_spec (f := contCell g fg bg attrs) hidx
          rw [hu] at hp
          simp only at hp
          rw [ih cells1 (by rw [hlen, hl]) hnd.2 ho' hp, hoth]
          intro he
          obtain ⟨e1, e2⟩ := index_inj (by omega) hxw he
          omega

/-- `put_grapheme` of a grapheme that fits inside the clip and the canvas writes its cells. -/
theorem putGrapheme_writes (c : Canvas) (hl : c.cells.length = c.w * c.h) (x y : Nat) (g : Grapheme)
    (fg : Option Rgb) (bg : Option RgbaColor) (attrs : Attrs) (clip : Region)
    (hg : 1 ≤ g.width) (hy : y < c.h) (hx : x + g.width ≤ c.w)
    (hw : Within clip x y) (hw2 : ((x + g.width : Nat) : Int) ≤ clip.x + clip.width)
    (c' : Canvas) (hp : putGrapheme c x y g fg bg attrs clip = some c') :
    c'.cells[y * c.w + x]? = (c.cells[y * c.w + x]?).map (leadCell g fg bg attrs) ∧
    ∀ k, 1 ≤ k → k < g.width →
      c'.cells[y * c.w + (x + k)]? = (c.cells[y * c.w + (x + k)]?).map (contCell g fg bg attrs) := by
  unfold Within at hw
  unfold putGrapheme at hp
  rw [if_neg (by omega), if_neg (by omega), if_neg (by omega), if_neg (by omega), if_neg (by omega),
    if_neg (by omega)] at hp
  simp only [Int.toNat_natCast] at hp
  have hidx : y * c.w + x < c.cells.length := by
    rw [hl]; exact index_lt (by omega) hy
  obtain ⟨cells1, hu, hlen, hat, hoth⟩ := updateCell_spec (f := leadCell g fg bg attrs) hidx
  rw [hu] at hp
  simp only at hp
  obtain ⟨cs, h1, h2, h3⟩ := putConts_spec (w := c.w) (h := c.h) (x := x) (y := y) (g := g)
    (fg := fg) (bg := bg) (attrs := attrs) (clip := clip) (by omega) (by omega)
    (List.range' 1 (g.width - 1)) cells1 (by rw [hlen, hl])
  rw [h1] at hp
  simp only [Option.some.injEq] at hp
  subst hp
  simp only
  constructor
  · rw [h3 x y (by omega), hat, List.getElem?_eq_getElem hidx]
    · rfl
    · rintro ⟨-, ⟨o, ho, he⟩, -⟩
      rw [List.mem_range'] at ho
      obtain ⟨k, hk, rfl⟩ := ho
      omega
  · intro k hk1 hk2
    have := putConts_writes (w := c.w) (h := c.h) (x := x) (y := y) (g := g)
      (fg := fg) (bg := bg) (attrs := attrs) (clip := clip) (by omega) (by omega) (by omega)
      (List.range' 1 (g.width - 1)) cells1 (by rw [hlen, hl]) List.nodup_range' k
      (by rw [List.mem_range']; exact ⟨k - 1, by omega, by omega⟩) (by omega) (by omega) (by omega) cs h1
    simp only [Int.toNat_natCast] at this
    rw [this, hoth]
    omega

/-- The grapheme loop only touches columns from its start on. -/
theorem putGraphemes_right (c : Canvas) (hl : c.cells.length = c.w * c.h) (x y : Int)
    (fg : Option Rgb) (bg : Option RgbaColor) (attrs : Attrs) (clip : Region) (s : List Grapheme) :
    ∃ c', putGraphemes c x y fg bg attrs clip s = some c' ∧
      OnlyCells (fun x' y' => Within clip x' y' ∧ (y' : Int) = y ∧ x ≤ x') c c' := by
  induction s generalizing c x with
  | nil => exact ⟨c, rfl, .refl c⟩
  | cons g gs ih =>
    unfold putGraphemes
    split
    · exact ⟨c, rfl, .refl c⟩
    · obtain ⟨c1, h1, h2⟩ := putGrapheme_spec c hl x y g fg bg attrs clip
      rw [h1]
      obtain ⟨c2, h3, h4⟩ := ih c1 (by rw [h2.len, h2.w, h2.h, hl]) (x + g.width)
      exact ⟨c2, h3, (h2.weaken fun _ _ h => ⟨h.1, h.2.1, h.2.2.1⟩).trans
        (h4.weaken fun _ _ h => ⟨h.1, h.2.1, by omega⟩)⟩

/-- Display width of a text. -/
def textWidth (s : List Grapheme) : Nat := (s.map (·.width)).sum

theorem putGraphemes_writes (c : Canvas) (hl : c.cells.length = c.w * c.h) (x y : Int)
    (fg : Option Rgb) (bg : Option RgbaColor) (attrs : Attrs) (clip : Region)
    (pre post : List Grapheme) (g : Grapheme) (X Y : Nat)
    (hpre : ∀ p ∈ pre, 1 ≤ p.width) (hX : (X : Int) = x + textWidth pre) (hY : (Y : Int) = y)
    (hg : 1 ≤ g.width) (hy : Y < c.h) (hx : X + g.width ≤ c.w)
    (hw : Within clip X Y) (hw2 : ((X + g.width : Nat) : Int) ≤ clip.x + clip.width)
    (c' : Canvas) (hp : putGraphemes c x y fg bg attrs clip (pre ++ g :: post) = some c') :
    c'.cells[Y * c.w + X]? = (c.cells[Y * c.w + X]?).map (leadCell g fg bg attrs) ∧
    ∀ k, 1 ≤ k → k < g.width →
      c'.cells[Y * c.w + (X + k)]? = (c.cells[Y * c.w + (X + k)]?).map (contCell g fg bg attrs) := by
  induction pre generalizing c x with
  | nil =>
    simp only [textWidth, List.map_nil, List.sum_nil, Int.natCast_zero, Int.add_zero] at hX
    subst hX hY
    rw [List.nil_append] at hp
    unfold putGraphemes at hp
    rw [if_neg (by unfold Within at hw; omega)] at hp
    obtain ⟨c1, h1, h2⟩ := putGrapheme_spec c hl X Y g fg bg attrs clip
    rw [h1] at hp
    simp only at hp
    obtain ⟨c2, h3, h4⟩ := putGraphemes_right c1 (by rw [h2.len, h2.w, h2.h, hl]) (X + g.width) Y fg bg attrs clip post
    rw [hp] at h3
    cases h3
    obtain ⟨w1, w2⟩ := putGrapheme_writes c hl X Y g fg bg attrs clip hg hy hx hw hw2 c1 h1
    have same := h4.same
    rw [h2.w] at same
    constructor
    · rw [same X Y (by omega) (by omega), w1]
    · intro k hk1 hk2
      rw [same (X + k) Y (by omega) (by omega), w2 k hk1 hk2]
  | cons p pre ih =>
    have hp1 := hpre p List.mem_cons_self
    simp only [textWidth, List.map_cons, List.sum_cons] at hX
    rw [List.cons_append] at hp
    unfold putGraphemes at hp
    rw [if_neg (by unfold Within at hw; omega)] at hp
    obtain ⟨c1, h1, h2⟩ := putGrapheme_spec c hl x y p fg bg attrs clip
    rw [h1] at hp
    simp only at hp
    have same := h2.same
    have := ih c1 (by rw [h2.len, h2.w, h2.h, hl]) (x + p.width)
      (fun q hq => hpre q (List.mem_cons_of_mem _ hq)) (by simp only [textWidth]; omega) (by rw [h2.h]; exact hy)
      (by rw [h2.w]; exact hx) hp
    rw [h2.w] at this
    constructor
    · rw [this.1, same X Y (by omega) (by omega)]
    · intro k hk1 hk2
      rw [this.2 k hk1 hk2, same (X + k) Y (by omega) (by omega)]

end Textual.Canvas
