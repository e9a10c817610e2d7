import Verif.Model.Terminal
import Verif.Props.Region

/-! Helper lemmas about drawing. -/

namespace Textual.Canvas

/-- Column `x`, row `y` lie inside a region (plain arithmetic, as `put_grapheme` compares). -/
def Within (r : Region) (x y : Nat) : Prop :=
  r.x ≤ x ∧ (x : Int) < r.x + r.width ∧ r.y ≤ y ∧ (y : Int) < r.y + r.height

/-- `c'` differs from `c` only in cells satisfying `P` (column, row). -/
structure OnlyCells (P : Nat → Nat → Prop) (c c' : Canvas) : Prop where
  w : c'.w = c.w
  h : c'.h = c.h
  prev : c'.prev = c.prev
  ff : c'.firstFlush = c.firstFlush
  clips : c'.clips = c.clips
  len : c'.cells.length = c.cells.length
  same : ∀ x y, x < c.w → ¬ P x y → c'.cells[y * c.w + x]? = c.cells[y * c.w + x]?

theorem OnlyCells.refl {P} (c : Canvas) : OnlyCells P c c := ⟨rfl, rfl, rfl, rfl, rfl, rfl, fun _ _ _ _ => rfl⟩

theorem OnlyCells.trans {P} {a b c : Canvas} (h1 : OnlyCells P a b) (h2 : OnlyCells P b c) :
    OnlyCells P a c where
  w := h2.w.trans h1.w
  h := h2.h.trans h1.h
  prev := h2.prev.trans h1.prev
  ff := h2.ff.trans h1.ff
  clips := h2.clips.trans h1.clips
  len := h2.len.trans h1.len
  same x y hx hp := by
    have := h2.same x y (by rw [h1.w]; exact hx) hp
    rw [h1.w] at this
    rw [this, h1.same x y hx hp]

theorem updateCell_spec {cells : List Cell} {i : Nat} {f : Cell → Cell} (h : i < cells.length) :
    ∃ cells', updateCell cells i f = some cells' ∧ cells'.length = cells.length ∧
      cells'[i]? = some (f cells[i]) ∧ ∀ j, j ≠ i → cells'[j]? = cells[j]? := by
  unfold updateCell
  rw [List.getElem?_eq_getElem h]
  refine ⟨_, rfl, by simp, by simp [h], ?_⟩
  intro j hj
  simp [List.getElem?_set, Ne.symm hj]

theorem index_lt {w h x y : Nat} (hx : x < w) (hy : y < h) : y * w + x < w * h := by
  have : (y + 1) * w ≤ h * w := Nat.mul_le_mul_right w hy
  rw [Nat.add_mul] at this
  rw [Nat.mul_comm w h]
  omega

theorem index_inj {w x y x' y' : Nat} (hx : x < w) (hx' : x' < w)
    (h : y * w + x = y' * w + x') : x = x' ∧ y = y' := by
  have h1 : (y * w + x) % w = x := by
    rw [Nat.add_comm, Nat.add_mul_mod_self_right, Nat.mod_eq_of_lt hx]
  have h2 : (y' * w + x') % w = x' := by
    rw [Nat.add_comm, Nat.add_mul_mod_self_right, Nat.mod_eq_of_lt hx']
  have e : x = x' := by rw [← h1, ← h2, h]
  subst e
  refine ⟨rfl, ?_⟩
  have h3 : y * w = y' * w := by omega
  exact Nat.eq_of_mul_eq_mul_right (by omega) h3

/-- The continuation loop never panics and only touches the offsets' columns of row `y`. -/
theorem putConts_spec {w h : Nat} {x y : Int} {g fg bg attrs} {clip : Region}
    (hy0 : 0 ≤ y) (hy1 : y < h) (offs : List Nat) (cells : List Cell) (hl : cells.length = w * h) :
    ∃ cells', putConts w h x y g fg bg attrs clip offs cells = some cells' ∧
      cells'.length = cells.length ∧
      ∀ x' y' : Nat, x' < w →
        ¬ ((y' : Int) = y ∧ (∃ off ∈ offs, (x' : Int) = x + off) ∧ clip.x ≤ x' ∧ (x' : Int) < clip.x + clip.width) →
        cells'[y' * w + x']? = cells[y' * w + x']? := by
  induction offs generalizing cells with
  | nil => exact ⟨cells, rfl, rfl, fun _ _ _ _ => rfl⟩
  | cons off rest ih =>
    unfold putConts
    simp only
    have weaken : ∀ (cs cs' : List Cell),
        (∀ x' y' : Nat, x' < w →
        ¬ ((y' : Int) = y ∧ (∃ o ∈ rest, (x' : Int) = x + o) ∧ clip.x ≤ x' ∧ (x' : Int) < clip.x + clip.width) →
        cs'[y' * w + x']? = cs[y' * w + x']?) →
        (∀ x' y' : Nat, x' < w →
        ¬ ((y' : Int) = y ∧ (∃ o ∈ off :: rest, (x' : Int) = x + o) ∧ clip.x ≤ x' ∧ (x' : Int) < clip.x + clip.width) →
        cs'[y' * w + x']? = cs[y' * w + x']?) := by
      intro cs cs' hs x' y' hx' hn
      apply hs x' y' hx'
      rintro ⟨h1, ⟨o, ho, h2⟩, h3⟩
      exact hn ⟨h1, ⟨o, List.mem_cons_of_mem _ ho, h2⟩, h3⟩
    split
    · obtain ⟨cs, h1, h2, h3⟩ := ih cells hl
      exact ⟨cs, h1, h2, weaken _ _ h3⟩
    · split
      · obtain ⟨cs, h1, h2, h3⟩ := ih cells hl
        exact ⟨cs, h1, h2, weaken _ _ h3⟩
      · rename_i hc1 hc2
        have hxw : (x + (off : Int)).toNat < w := by omega
        have hyh : y.toNat < h := by omega
        have hidx : y.toNat * w + (x + (off : Int)).toNat < cells.length := by
          rw [hl]; exact index_lt hxw hyh
        obtain ⟨cells1, hu, hlen, -, hoth⟩ := updateCell_spec (f := contCell g fg bg attrs) hidx
        rw [hu]
        obtain ⟨cs, h1, h2, h3⟩ := ih cells1 (by rw [hlen, hl])
        refine ⟨cs, h1, by rw [h2, hlen], ?_⟩
        intro x' y' hx' hn
        rw [weaken _ _ h3 x' y' hx' hn]
        apply hoth
        intro heq
        obtain ⟨e1, e2⟩ := index_inj hx' hxw heq
        apply hn
        refine ⟨by omega, ⟨off, List.mem_cons_self, by omega⟩, by omega, by omega⟩

/-- `put_grapheme` never panics on a full-size buffer and changes only cells of the written columns
inside the clip. -/
theorem putGrapheme_spec (c : Canvas) (hl : c.cells.length = c.w * c.h) (x y : Int) (g : Grapheme)
    (fg : Option Rgb) (bg : Option RgbaColor) (attrs : Attrs) (clip : Region) :
    ∃ c', putGrapheme c x y g fg bg attrs clip = some c' ∧
      OnlyCells (fun x' y' => Within clip x' y' ∧ (y' : Int) = y ∧ x ≤ x' ∧ (x' : Int) < x + max 1 g.width) c c' := by
  unfold putGrapheme
  split
  · exact ⟨c, rfl, .refl c⟩
  split
  · exact ⟨c, rfl, .refl c⟩
  split
  · exact ⟨c, rfl, .refl c⟩
  split
  · exact ⟨c, rfl, .refl c⟩
  split
  · exact ⟨c, rfl, .refl c⟩
  split
  · exact ⟨c, rfl, .refl c⟩
  rename_i h1 h2 h3 h4 h5 h6
  have hxw : x.toNat < c.w := by omega
  have hyh : y.toNat < c.h := by omega
  have hidx : y.toNat * c.w + x.toNat < c.cells.length := by
    rw [hl]; exact index_lt hxw hyh
  obtain ⟨cells1, hu, hlen, -, hoth⟩ := updateCell_spec (f := leadCell g fg bg attrs) hidx
  rw [hu]
  obtain ⟨cs, hp, hl2, hoth2⟩ := putConts_spec (w := c.w) (h := c.h) (x := x) (y := y) (g := g)
    (fg := fg) (bg := bg) (attrs := attrs) (clip := clip) (by omega) (by omega)
    (List.range' 1 (g.width - 1)) cells1 (by rw [hlen, hl])
  simp only [hp]
  refine ⟨_, rfl, rfl, rfl, rfl, rfl, rfl, by simp only [hl2, hlen], ?_⟩
  intro x' y' hx' hn
  simp only
  rw [hoth2 x' y' hx' ?_, hoth _ ?_]
  · intro heq
    obtain ⟨e1, e2⟩ := index_inj hx' hxw heq
    apply hn
    unfold Within
    omega
  · rintro ⟨a1, ⟨off, ho, a2⟩, a3, a4⟩
    rw [List.mem_range'] at ho
    obtain ⟨k, hk, rfl⟩ := ho
    apply hn
    unfold Within
    omega

theorem OnlyCells.weaken {P Q : Nat → Nat → Prop} {c c' : Canvas} (h : OnlyCells P c c')
    (hpq : ∀ x y, P x y → Q x y) : OnlyCells Q c c' :=
  { h with same := fun x y hx hq => h.same x y hx (fun hp => hq (hpq x y hp)) }

theorem putGraphemes_spec (c : Canvas) (hl : c.cells.length = c.w * c.h) (x y : Int)
    (fg : Option Rgb) (bg : Option RgbaColor) (attrs : Attrs) (clip : Region) (s : List Grapheme) :
    ∃ c', putGraphemes c x y fg bg attrs clip s = some c' ∧
      OnlyCells (Within clip) c c' := by
  induction s generalizing c x with
  | nil => exact ⟨c, rfl, .refl c⟩
  | cons g gs ih =>
    unfold putGraphemes
    split
    · exact ⟨c, rfl, .refl c⟩
    · obtain ⟨c1, h1, h2⟩ := putGrapheme_spec c hl x y g fg bg attrs clip
      rw [h1]
      obtain ⟨c2, h3, h4⟩ := ih c1 (by rw [h2.len, h2.w, h2.h, hl]) (x + g.width)
      exact ⟨c2, h3, (h2.weaken fun _ _ h => h.1).trans h4⟩

theorem putStr_spec (c : Canvas) (hl : c.cells.length = c.w * c.h) (x y : Int)
    (s : List Grapheme) (fg bg : Option RgbaColor) (attrs : Attrs) :
    ∃ c', putStr c x y s fg bg attrs = some c' ∧ OnlyCells (Within c.currentClip) c c' := by
  unfold putStr
  simp only
  split
  · exact ⟨c, rfl, .refl c⟩
  split
  · exact ⟨c, rfl, .refl c⟩
  exact putGraphemes_spec c hl x y _ bg attrs _ s

theorem OnlyCells.currentClip {P} {c c' : Canvas} (h : OnlyCells P c c') :
    c'.currentClip = c.currentClip := by
  unfold Canvas.currentClip; rw [h.clips, h.w, h.h]

theorem renderStrip_spec (c : Canvas) (hl : c.cells.length = c.w * c.h) (x y : Int)
    (s : List DrawSeg) :
    ∃ c', renderStrip c x y s = some c' ∧ OnlyCells (Within c.currentClip) c c' := by
  induction s generalizing c x with
  | nil => exact ⟨c, rfl, .refl c⟩
  | cons g gs ih =>
    unfold renderStrip
    obtain ⟨c1, h1, h2⟩ := putStr_spec c hl x y g.text g.fg g.bg g.attrs
    rw [h1]
    obtain ⟨c2, h3, h4⟩ := ih c1 (by rw [h2.len, h2.w, h2.h, hl]) (x + g.cellLength)
    rw [h2.currentClip] at h4
    exact ⟨c2, h3, h2.trans h4⟩

theorem renderStrips_spec (c : Canvas) (hl : c.cells.length = c.w * c.h) (x y : Int)
    (s : List (List DrawSeg)) :
    ∃ c', renderStrips c x y s = some c' ∧ OnlyCells (Within c.currentClip) c c' := by
  induction s generalizing c y with
  | nil => exact ⟨c, rfl, .refl c⟩
  | cons g gs ih =>
    unfold renderStrips
    obtain ⟨c1, h1, h2⟩ := renderStrip_spec c hl x y g
    rw [h1]
    obtain ⟨c2, h3, h4⟩ := ih c1 (by rw [h2.len, h2.w, h2.h, hl]) (y + 1)
    rw [h2.currentClip] at h4
    exact ⟨c2, h3, h2.trans h4⟩

theorem draw_spec (c : Canvas) (hl : c.cells.length = c.w * c.h) (d : Draw) :
    ∃ c', c.draw d = some c' ∧ OnlyCells (Within c.currentClip) c c' := by
  cases d with
  | char x y g fg bg a =>
    obtain ⟨c1, h1, h2⟩ := putGrapheme_spec c hl x y g (fg.map toCrosstermColor) bg a c.currentClip
    exact ⟨c1, h1, h2.weaken fun _ _ h => h.1⟩
  | str x y s fg bg a => exact putStr_spec c hl x y s fg bg a
  | strip x y s => exact renderStrip_spec c hl x y s
  | strips x y s => exact renderStrips_spec c hl x y s

/-- A point inside an intersection (plain arithmetic) is in both regions. -/
theorem within_intersection {a b : Region} {x y : Nat} (h : Within (a.intersection b) x y) :
    a.containsPoint x y = true ∧ b.containsPoint x y = true := by
  have h' : (a.intersection b).containsPoint x y = true := by
    have key : ∀ p q : Int, -2147483648 ≤ satAdd p q ∧ satAdd p q ≤ 2147483647 := by
      intro p q; unfold satAdd; omega
    have h1 := key a.x a.width; have h2 := key b.x b.width
    have h3 := key a.y a.height; have h4 := key b.y b.height
    revert h
    unfold Within Region.intersection Region.containsPoint
    simp only
    generalize satAdd a.x a.width = ax at *
    generalize satAdd b.x b.width = bx at *
    generalize satAdd a.y a.height = ay at *
    generalize satAdd b.y b.height = byy at *
    split <;> simp only [Bool.and_eq_true, decide_eq_true_eq] <;> simp only [satAdd] <;> omega
  rw [Region.mem_intersection, Bool.and_eq_true] at h'
  exact h'

end Textual.Canvas
