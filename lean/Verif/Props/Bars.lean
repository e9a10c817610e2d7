import Verif.Model.Bars
import Verif.Lemmas.Placeholder
import Verif.Lemmas.CanvasDraw
import Verif.Props.Scrollbar

/-!
# Scrollbars on the screen (C183)
-/

namespace Textual.Bars

open Canvas Placeholder
open Scrollbar (thumbEighths body Ink renderCell)

/-! ### Opaque cells -/

/-- A drawing call that puts one character on an opaque ground. -/
inductive Solid : Draw → Int → Int → Cell → Prop
  | mk (x y : Int) (g : Grapheme) (fg : Option RgbaColor) (bg : RgbaColor) (hg : g.width = 1) (hb : 1 ≤ bg.a) :
    Solid (.char x y g fg (some bg) {}) x y ⟨g.text, 1, false, fg.map toCrosstermColor, some (toCrosstermRgb bg), {}⟩

theorem lead_solid {g : Grapheme} {fg : Option Rgb} {bg : RgbaColor} (hg : g.width = 1) (hb : 1 ≤ bg.a) (old : Cell) :
    leadCell g fg (some bg) {} old = ⟨g.text, 1, false, fg, some (toCrosstermRgb bg), {}⟩ := by
  have hp : preserveText g fg (some bg) {} = false := by
    unfold preserveText
    have : ¬bg.a < 1 := not_lt.2 hb
    simp [this]
  unfold leadCell
  simp only [resolve_opaque hb, hp, Bool.false_eq_true, if_false, hg]

theorem draw_solid (d : Draw) (x y : Int) (k : Cell) (hs : Solid d x y k) (c : Canvas) (hl : c.cells.length = c.w * c.h) :
    ∃ c', c.draw d = some c' ∧ OnlyCells (fun X Y => (X : Int) = x ∧ (Y : Int) = y) c c' ∧
      ∀ X Y : Nat, (X : Int) = x → (Y : Int) = y → X < c.w → Y < c.h → Within c.currentClip X Y →
        c'.cells[Y * c.w + X]? = some k := by
  cases hs with
  | mk _ _ g fg bg hg hb =>
    obtain ⟨c', h1, h2⟩ := putGrapheme_spec c hl x y g (fg.map toCrosstermColor) (some bg) {} c.currentClip
    refine ⟨c', h1, h2.weaken fun X Y hh => ?_, fun X Y hX hY hXw hYh hc => ?_⟩
    · rw [hg] at hh
      omega
    · subst hX hY
      have hc' := hc
      unfold Within at hc'
      obtain ⟨w1, -⟩ := putGrapheme_writes c hl X Y g _ (some bg) {} c.currentClip (by omega) hYh
        (by omega) hc (by rw [hg]; push_cast; omega) c' h1
      have hidx : Y * c.w + X < c.cells.length := by rw [hl]; exact index_lt hXw hYh
      rw [w1, List.getElem?_eq_getElem hidx, Option.map_some, lead_solid hg hb]

/-- All of a run of opaque characters that fall on a cell look the same: the cell looks so if there is one. -/
theorem run_solid (ds : List Draw) (P : Nat → Nat → Prop) (K : Nat → Nat → Cell)
    (hs : ∀ d ∈ ds, ∃ x y k, Solid d x y k ∧ ∀ X Y : Nat, (X : Int) = x → (Y : Int) = y → P X Y ∧ k = K X Y)
    (hp : ∀ X Y, P X Y → ∃ d ∈ ds, ∃ k, Solid d X Y k) (c : Canvas) (hl : c.cells.length = c.w * c.h) :
    ∃ c', drawAll c ds = some c' ∧ OnlyCells P c c' ∧
      ∀ X Y : Nat, P X Y → X < c.w → Y < c.h → Within c.currentClip X Y → c'.cells[Y * c.w + X]? = some (K X Y) := by
  have key : ∀ (ds : List Draw) (c : Canvas), c.cells.length = c.w * c.h →
      (∀ d ∈ ds, ∃ x y k, Solid d x y k ∧ ∀ X Y : Nat, (X : Int) = x → (Y : Int) = y → P X Y ∧ k = K X Y) →
      ∃ c', drawAll c ds = some c' ∧ OnlyCells P c c' ∧
        ∀ X Y : Nat, ((∃ d ∈ ds, ∃ k, Solid d X Y k) ∨ c.cells[Y * c.w + X]? = some (K X Y)) → X < c.w → Y < c.h →
          Within c.currentClip X Y → c'.cells[Y * c.w + X]? = some (K X Y) := by
    intro ds
    induction ds with
    | nil =>
      intro c _ _
      refine ⟨c, rfl, .refl c, fun X Y h _ _ _ => ?_⟩
      rcases h with ⟨d, hd, -⟩ | h
      · cases hd
      · exact h
    | cons d ds ih =>
      intro c hl hs
      obtain ⟨x, y, k, s1, s2⟩ := hs d (List.mem_cons_self ..)
      obtain ⟨c1, h1, o1, w1⟩ := draw_solid d x y k s1 c hl
      obtain ⟨c2, h2, o2, w2⟩ := ih c1 (by rw [o1.len, o1.w, o1.h, hl]) (fun d' h => hs d' (List.mem_cons_of_mem _ h))
      refine ⟨c2, by simp [drawAll, h1, h2], (o1.weaken fun X Y h => (s2 X Y h.1 h.2).1).trans o2, fun X Y h hX hY hc => ?_⟩
      rw [o1.w, o1.h, o1.currentClip] at w2
      refine w2 X Y ?_ hX hY hc
      by_cases hat : (X : Int) = x ∧ (Y : Int) = y
      · right
        rw [w1 X Y hat.1 hat.2 hX hY hc, (s2 X Y hat.1 hat.2).2]
      · rcases h with ⟨d', hd', k', hk'⟩ | h
        · rcases List.mem_cons.1 hd' with rfl | hd'
          · cases s1
            cases hk'
            exact absurd ⟨rfl, rfl⟩ hat
          · exact .inl ⟨d', hd', k', hk'⟩
        · right
          rw [o1.same X Y hX hat, h]
  obtain ⟨c', h1, h2, h3⟩ := key ds c hl hs
  exact ⟨c', h1, h2, fun X Y hP hX hY hc => h3 X Y (.inl (hp X Y hP)) hX hY hc⟩

/-! ### The parts of a bar -/

/-- How far along the bar a place is. -/
def along (vertical : Bool) (r : Region) (X Y : Nat) : Int := if vertical then Y - r.y else X - r.x

/-- The length of the bar. -/
def length (vertical : Bool) (r : Region) : Int := if vertical then r.height else r.width

theorem within_along {vertical : Bool} {r : Region} {X Y : Nat} (h : Within r X Y) :
    0 ≤ along vertical r X Y ∧ along vertical r X Y < length vertical r := by
  unfold Within at h
  unfold along length
  cases vertical <;> simp only [Bool.false_eq_true, if_false, if_true] <;> omega

theorem fill_shows (r : Region) (bg : RgbaColor) (hb : 1 ≤ bg.a) (c : Canvas) (hl : c.cells.length = c.w * c.h) :
    ∃ c', drawAll c (fill r bg) = some c' ∧ OnlyCells (Within r) c c' ∧
      ∀ X Y : Nat, Within r X Y → X < c.w → Y < c.h → Within c.currentClip X Y →
        c'.cells[Y * c.w + X]? = some ⟨" ", 1, false, none, some (toCrosstermRgb bg), {}⟩ := by
  refine run_solid _ (Within r) (fun _ _ => _) (fun d hd => ?_) (fun X Y h => ?_) c hl
  · unfold fill at hd
    simp only [List.mem_flatMap, List.mem_range, List.mem_map] at hd
    obtain ⟨j, hj, i, hi, rfl⟩ := hd
    refine ⟨_, _, _, .mk _ _ Grapheme.space none bg rfl hb, fun X Y hX hY => ⟨?_, rfl⟩⟩
    unfold Within
    omega
  · unfold Within at h
    refine ⟨.char X Y Grapheme.space none (some bg) {}, ?_, _, .mk _ _ Grapheme.space none bg rfl hb⟩
    unfold fill
    simp only [List.mem_flatMap, List.mem_range, List.mem_map]
    refine ⟨(Y - r.y).toNat, by omega, (X - r.x).toNat, by omega, ?_⟩
    congr 1 <;> omega

theorem across_mem (vertical : Bool) (r : Region) (off : Int) (g : Grapheme) (fg bg : RgbaColor) (d : Draw) :
    d ∈ across vertical r off g fg bg ↔ ∃ x y : Int, d = .char x y g (some fg) (some bg) {} ∧
      (if vertical then y = r.y + off ∧ r.x ≤ x ∧ x < r.x + r.width else x = r.x + off ∧ r.y ≤ y ∧ y < r.y + r.height) := by
  unfold across
  cases vertical <;> simp only [Bool.false_eq_true, if_false, if_true, List.mem_map, List.mem_range] <;> constructor
  · rintro ⟨k, hk, rfl⟩
    exact ⟨_, _, rfl, rfl, by omega, by omega⟩
  · rintro ⟨x, y, rfl, rfl, h1, h2⟩
    exact ⟨(y - r.y).toNat, by omega, by congr 1; omega⟩
  · rintro ⟨k, hk, rfl⟩
    exact ⟨_, _, rfl, rfl, by omega, by omega⟩
  · rintro ⟨x, y, rfl, rfl, h1, h2⟩
    exact ⟨(x - r.x).toNat, by omega, by congr 1; omega⟩

/-- A run of whole lines across the bar. -/
theorem lines_show (vertical : Bool) (r : Region) (ds : List Draw) (S : Int → Prop) (g : Grapheme) (fg bg : RgbaColor)
    (hg : g.width = 1) (hb : 1 ≤ bg.a) (hds : ∀ d, d ∈ ds ↔ ∃ off, S off ∧ d ∈ across vertical r off g fg bg)
    (hS : ∀ off, S off → 0 ≤ off ∧ off < length vertical r) (c : Canvas) (hl : c.cells.length = c.w * c.h) :
    ∃ c', drawAll c ds = some c' ∧ OnlyCells (fun X Y => Within r X Y ∧ S (along vertical r X Y)) c c' ∧
      ∀ X Y : Nat, (Within r X Y ∧ S (along vertical r X Y)) → X < c.w → Y < c.h → Within c.currentClip X Y →
        c'.cells[Y * c.w + X]? = some ⟨g.text, 1, false, some (toCrosstermColor fg), some (toCrosstermRgb bg), {}⟩ := by
  refine run_solid ds (fun X Y => Within r X Y ∧ S (along vertical r X Y)) (fun _ _ => _) (fun d hd => ?_) (fun X Y h => ?_) c hl
  · obtain ⟨off, h1, h2⟩ := (hds d).1 hd
    obtain ⟨x, y, rfl, h3⟩ := (across_mem ..).1 h2
    refine ⟨x, y, _, .mk _ _ g (some fg) bg hg hb, fun X Y hX hY => ⟨?_, rfl⟩⟩
    have := hS off h1
    unfold length at this
    unfold Within along
    cases vertical <;> simp only [Bool.false_eq_true, if_false, if_true] at h3 this ⊢
    · refine ⟨by omega, ?_⟩
      rwa [show (X : Int) - r.x = off by omega]
    · refine ⟨by omega, ?_⟩
      rwa [show (Y : Int) - r.y = off by omega]
  · refine ⟨.char X Y g (some fg) (some bg) {}, (hds _).2 ⟨_, h.2, (across_mem ..).2 ⟨X, Y, rfl, ?_⟩⟩, _,
      .mk _ _ g (some fg) bg hg hb⟩
    have := h.1
    unfold Within at this
    unfold along
    cases vertical <;> simp only [Bool.false_eq_true, if_false, if_true] <;> omega

/-- What a cell of the bar looks like. -/
def look (vertical : Bool) (thumb track : RgbaColor) (k : Scrollbar.Cell) : Cell :=
  let ink : Ink → RgbaColor := fun | .thumb => thumb | .track => track
  ⟨(glyph vertical k.glyph).text, 1, false, k.fg.map fun i => toCrosstermColor (ink i), some (toCrosstermRgb (ink k.bg)), {}⟩

theorem glyph_body (vertical : Bool) : (glyph vertical body).text = " " := by cases vertical <;> rfl

theorem glyph_space (vertical : Bool) (k : Nat) : (glyph vertical (7 - k)).text ≠ " " ↔ 7 - k ≠ body := by
  have : ∀ (v : Bool) (j : Fin 8), (glyph v j.val).text ≠ " " ↔ j.val ≠ body := by decide
  exact this vertical ⟨7 - k, by omega⟩

/-- **C183** (opaque colours, see `compose_opaque`). A scrollbar drawn on the canvas changes only cells of its region, and each of them
that is visible looks, whatever was there before and all across the bar, as `renderCell` says for its place along the bar
(C18). -/
theorem bar_shows (vertical : Bool) (r : Region) (virt window position : Rat) (thumb track : RgbaColor) (drawThumb : Bool)
    (ht : 1 ≤ thumb.a) (hk : 1 ≤ track.a) (c : Canvas) (hl : c.cells.length = c.w * c.h) :
    ∃ c', drawAll c (bar vertical r virt window position thumb track drawThumb) = some c' ∧ OnlyCells (Within r) c c' ∧
      ∀ X Y : Nat, Within r X Y → X < c.w → Y < c.h → Within c.currentClip X Y →
        c'.cells[Y * c.w + X]? =
          ((if vertical then Scrollbar.renderVertical else Scrollbar.renderHorizontal) (length vertical r) virt window position
            drawThumb (along vertical r X Y)).map (look vertical thumb track) := by
  unfold bar
  by_cases hr : r.height ≤ 0 ∨ r.width ≤ 0
  · rw [if_pos hr]
    refine ⟨c, rfl, .refl c, fun X Y h => ?_⟩
    unfold Within at h
    omega
  rw [if_neg hr]
  obtain ⟨c1, h1, o1, w1⟩ := fill_shows r track hk c hl
  have hl1 : c1.cells.length = c1.w * c1.h := by rw [o1.len, o1.w, o1.h, hl]
  rw [show (if vertical then r.height else r.width) = length vertical r from rfl]
  have hcell : ∀ off, (if vertical then Scrollbar.renderVertical else Scrollbar.renderHorizontal) (length vertical r) virt window
      position drawThumb off = renderCell (if vertical then .thumb else .track) (if vertical then .track else .thumb)
        (length vertical r) virt window position drawThumb off := by
    intro off
    cases vertical <;> rfl
  have hsize : 0 < length vertical r := by
    unfold length
    split <;> omega
  simp only [hcell]
  generalize hn : length vertical r = n at *
  by_cases hno : (!drawThumb || decide (window ≤ 0) || decide (virt ≤ 0) || decide (virt = (n : Rat))) = true
  · rw [if_pos hno, List.append_nil]
    refine ⟨c1, h1, o1, fun X Y hw hX hY hc => ?_⟩
    rw [w1 X Y hw hX hY hc]
    have := within_along (vertical := vertical) hw
    unfold renderCell
    rw [if_neg (by omega), if_pos hno]
    simp only [Option.map_some, look, glyph_body, Option.map_none]
  rw [if_neg hno]
  obtain ⟨start, hstart⟩ : ∃ s, (thumbEighths n virt window position).1 = s := ⟨_, rfl⟩
  obtain ⟨stop, hstop⟩ : ∃ s, (thumbEighths n virt window position).2 = s := ⟨_, rfl⟩
  rw [hstart, hstop]
  obtain ⟨bs, hbs⟩ : ∃ b, min (max (start / 8) 0) n = b := ⟨_, rfl⟩
  obtain ⟨be, hbe⟩ : ∃ b, min (max (stop / 8) 0) n = b := ⟨_, rfl⟩
  rw [hbs, hbe, glyph_body]
  obtain ⟨c2, h2, o2, w2⟩ := lines_show vertical r ((List.range (be - bs).toNat).flatMap fun (k : Nat) =>
      across vertical r (bs + k) (glyph vertical body) thumb thumb) (fun off => bs ≤ off ∧ off < be) (glyph vertical body)
      thumb thumb rfl ht (by
        intro d
        simp only [List.mem_flatMap, List.mem_range]
        constructor
        · rintro ⟨k, hk, hd⟩
          exact ⟨_, by omega, hd⟩
        · rintro ⟨off, ho, hd⟩
          refine ⟨(off - bs).toNat, by omega, ?_⟩
          rwa [show bs + ((off - bs).toNat : Int) = off by omega])
      (by intro off ho; omega) c1 hl1
  have hl2 : c2.cells.length = c2.w * c2.h := by rw [o2.len, o2.w, o2.h, hl1]
  have edge : ∀ (e : Int) (j : Nat) (a b : RgbaColor) (c : Canvas), 1 ≤ a.a → 1 ≤ b.a → c.cells.length = c.w * c.h →
      ∃ c', drawAll c (if 0 ≤ e / 8 ∧ e / 8 < n ∧ (glyph vertical (7 - j)).text ≠ " " then
          across vertical r (e / 8) (glyph vertical (7 - j)) a b else []) = some c' ∧
        OnlyCells (fun X Y => Within r X Y ∧ along vertical r X Y = e / 8 ∧ 7 - j ≠ body) c c' ∧
        ∀ X Y : Nat, (Within r X Y ∧ along vertical r X Y = e / 8 ∧ 7 - j ≠ body) → X < c.w → Y < c.h →
          Within c.currentClip X Y → c'.cells[Y * c.w + X]? =
            some ⟨(glyph vertical (7 - j)).text, 1, false, some (toCrosstermColor a), some (toCrosstermRgb b), {}⟩ := by
    intro e j a b c ha hb hl
    have hj := glyph_space vertical j
    by_cases he : 0 ≤ e / 8 ∧ e / 8 < n ∧ (glyph vertical (7 - j)).text ≠ " "
    · rw [if_pos he]
      obtain ⟨c', g1, g2, g3⟩ := lines_show vertical r (across vertical r (e / 8) (glyph vertical (7 - j)) a b) (fun off => off = e / 8 ∧ 7 - j ≠ body) (glyph vertical (7 - j)) a b rfl hb
        (fun d => by simp [hj.1 he.2.2]) (by intro off ho; rw [ho.1]; omega) c hl
      exact ⟨c', g1, g2, g3⟩
    · rw [if_neg he]
      refine ⟨c, rfl, .refl c, fun X Y h => absurd ?_ he⟩
      have := within_along (vertical := vertical) h.1
      rw [hn, h.2.1] at this
      exact ⟨this.1, this.2, hj.2 h.2.2⟩
  have pick : ∀ (e : Int) (j : Nat) (a b : RgbaColor), (if 0 ≤ e / 8 ∧ e / 8 < n ∧ (glyph vertical (7 - j)).text ≠ " " then
      (if vertical then across vertical r (e / 8) (glyph vertical (7 - j)) a b
        else across vertical r (e / 8) (glyph vertical (7 - j)) b a) else []) =
      (if 0 ≤ e / 8 ∧ e / 8 < n ∧ (glyph vertical (7 - j)).text ≠ " " then
        across vertical r (e / 8) (glyph vertical (7 - j)) (if vertical then a else b) (if vertical then b else a) else []) := by
    intro e j a b
    cases vertical <;> rfl
  rw [pick, pick]
  have op : ∀ a b : RgbaColor, 1 ≤ a.a → 1 ≤ b.a → 1 ≤ (if vertical then a else b).a := by
    intro a b _ _
    split <;> assumption
  obtain ⟨c3, h3, o3, w3⟩ := edge start (start % 8).toNat _ _ c2 (op thumb track ht hk) (op track thumb hk ht) hl2
  have hl3 : c3.cells.length = c3.w * c3.h := by rw [o3.len, o3.w, o3.h, hl2]
  obtain ⟨c4, h4, o4, w4⟩ := edge stop (stop % 8).toNat _ _ c3 (op track thumb hk ht) (op thumb track ht hk) hl3
  refine ⟨c4, ?_, ?_, fun X Y hw hX hY hc => ?_⟩
  · rw [drawAll_append, h1, Option.bind_some, drawAll_append, drawAll_append, h2, Option.bind_some, h3, Option.bind_some, h4]
  · exact o1.trans ((o2.weaken fun _ _ h => h.1).trans ((o3.weaken fun _ _ h => h.1).trans (o4.weaken fun _ _ h => h.1)))
  have ha := within_along (vertical := vertical) hw
  have s1 := w1 X Y hw hX hY hc
  have d2 := fun h => w2 X Y ⟨hw, h⟩ (by rw [o1.w]; exact hX) (by rw [o1.h]; exact hY) (by rw [o1.currentClip]; exact hc)
  have e2 := fun (h : ¬(bs ≤ along vertical r X Y ∧ along vertical r X Y < be)) => o2.same X Y (by rw [o1.w]; exact hX) (fun q => h q.2)
  have d3 := fun h => w3 X Y ⟨hw, h⟩ (by rw [o2.w, o1.w]; exact hX) (by rw [o2.h, o1.h]; exact hY)
    (by rw [o2.currentClip, o1.currentClip]; exact hc)
  have e3 := fun (h : ¬(along vertical r X Y = start / 8 ∧ 7 - (start % 8).toNat ≠ body)) => o3.same X Y (by rw [o2.w, o1.w]; exact hX) (fun q => h q.2)
  have d4 := fun h => w4 X Y ⟨hw, h⟩ (by rw [o3.w, o2.w, o1.w]; exact hX) (by rw [o3.h, o2.h, o1.h]; exact hY)
    (by rw [o3.currentClip, o2.currentClip, o1.currentClip]; exact hc)
  have e4 := fun (h : ¬(along vertical r X Y = stop / 8 ∧ 7 - (stop % 8).toNat ≠ body)) => o4.same X Y (by rw [o3.w, o2.w, o1.w]; exact hX) (fun q => h q.2)
  rw [o1.w] at d2 e2
  rw [o2.w, o1.w] at d3 e3
  rw [o3.w, o2.w, o1.w] at d4 e4
  unfold renderCell
  rw [if_neg (by omega), if_neg hno]
  simp only [hstart, hstop, hbs, hbe]
  generalize along vertical r X Y = off at *
  simp only [Option.map_some]
  by_cases q4 : off = stop / 8 ∧ 7 - (stop % 8).toNat ≠ body
  · rw [d4 q4, if_pos q4]
    cases vertical <;> rfl
  rw [e4 q4, if_neg q4]
  by_cases q3 : off = start / 8 ∧ 7 - (start % 8).toNat ≠ body
  · rw [d3 q3, if_pos q3]
    cases vertical <;> rfl
  rw [e3 q3, if_neg q3]
  by_cases q2 : bs ≤ off ∧ off < be
  · rw [d2 q2, if_pos q2]
    cases vertical <;> rfl
  rw [e2 q2, if_neg q2, s1]
  cases vertical <;> rfl

/-! ### What is seen -/

/-- How many eighths of a cell a block character fills with the foreground colour (Unicode, Block Elements): U+2581 to
U+2587 from below, U+2589 to U+258F from the left. -/
def filled : String → Nat
  | "▁" => 1 | "▂" => 2 | "▃" => 3 | "▄" => 4 | "▅" => 5 | "▆" => 6 | "▇" => 7
  | "▉" => 7 | "▊" => 6 | "▋" => 5 | "▌" => 4 | "▍" => 3 | "▎" => 2 | "▏" => 1
  | _ => 0

/-- The colour of the `k`-th eighth of a cell: from the top in a vertical bar, from the left in a horizontal one. -/
def seen (vertical : Bool) (cell : Cell) (k : Nat) : Option Rgb :=
  if (if vertical then 8 - filled cell.symbol ≤ k else k < filled cell.symbol) then cell.fg else cell.bg

theorem opaque_colour {a : RgbaColor} (h : 1 ≤ a.a) : toCrosstermColor a = toCrosstermRgb a := by
  unfold toCrosstermColor
  rw [if_pos h]

theorem filled_glyph (vertical : Bool) (j : Nat) (hj : j < 8) :
    filled (glyph vertical j).text = if vertical then (if j < 7 then j + 1 else 0) else 7 - j := by
  have : ∀ (v : Bool) (j : Fin 8), filled (glyph v j.val).text = if v then (if j.val < 7 then j.val + 1 else 0) else 7 - j.val := by
    decide
  exact this vertical ⟨j, hj⟩

theorem glyph_lt {a b : Ink} {n : Int} {v w p : Rat} {d : Bool} {off : Int} {k : Scrollbar.Cell}
    (h : renderCell a b n v w p d off = some k) : k.glyph < 8 ∧ (k.glyph < 7 → k.fg.isSome = true) := by
  unfold renderCell at h
  split at h
  · cases h
  split at h
  · cases h
    exact ⟨by decide, by decide⟩
  · simp only [Option.some.injEq] at h
    subst h
    split
    · exact ⟨by dsimp only; omega, fun _ => rfl⟩
    split
    · exact ⟨by dsimp only; omega, fun _ => rfl⟩
    split
    · exact ⟨by decide, fun _ => rfl⟩
    · exact ⟨by decide, by decide⟩

/-- **C183.** On the screen the thumb of a scrollbar is one block of its colour on a track of the other: the eighths of
cells from the start to the end of the thumb, all across the bar, and nothing else. For content larger than the window
and every position in it, that block lies on the track, is at least one cell long, starts at the start of the track at the
first position and ends at its end at the last. -/
theorem thumb_on_screen (vertical : Bool) (r : Region) (virt window position : Rat) (thumb track : RgbaColor)
    (ht : 1 ≤ thumb.a) (hk : 1 ≤ track.a) (hr : 0 < r.width ∧ 0 < r.height) (hw : 0 < window) (hv : window < virt)
    (hne : virt ≠ length vertical r) (h0 : 0 ≤ position) (h1 : position ≤ virt - window) (c : Canvas)
    (hl : c.cells.length = c.w * c.h) :
    ∃ (c' : Canvas) (start stop : Int), drawAll c (bar vertical r virt window position thumb track true) = some c' ∧
      OnlyCells (Within r) c c' ∧
      (0 ≤ start ∧ start + 8 ≤ stop ∧ stop ≤ 8 * length vertical r ∧ (position = 0 → start = 0) ∧
        (position = virt - window → stop = 8 * length vertical r)) ∧
      ∀ X Y : Nat, Within r X Y → X < c.w → Y < c.h → Within c.currentClip X Y →
        ∃ cell, c'.cells[Y * c.w + X]? = some cell ∧ cell.width = 1 ∧ cell.continuation = false ∧
          ∀ k < 8, seen vertical cell k = some (toCrosstermRgb
            (if start ≤ 8 * along vertical r X Y + k ∧ 8 * along vertical r X Y + k < stop then thumb else track)) := by
  obtain ⟨c', g1, g2, g3⟩ := bar_shows vertical r virt window position thumb track true ht hk c hl
  have hlen : 1 ≤ length vertical r := by
    unfold length
    split <;> omega
  refine ⟨c', _, _, g1, g2, Scrollbar.thumbEighths_bounds (length vertical r) virt window position hlen hw hv h0 h1,
    fun X Y hW hX hY hc => ?_⟩
  rw [g3 X Y hW hX hY hc]
  have ha := within_along (vertical := vertical) hW
  have hv0 : 0 < virt := lt_trans hw hv
  cases vertical with
  | true =>
    simp only [if_true]
    cases e : Scrollbar.renderVertical (length true r) virt window position true (along true r X Y) with
    | none =>
      obtain ⟨k, hk, -⟩ := Scrollbar.renderVertical_exact (length true r) virt window position hlen hw hv0 hne _ ha 0 (by omega)
      rw [e] at hk
      cases hk
    | some cell =>
      obtain ⟨l1, l2⟩ := glyph_lt e
      refine ⟨_, rfl, rfl, rfl, fun k hk8 => ?_⟩
      obtain ⟨cell', hc', hi⟩ := Scrollbar.renderVertical_exact (length true r) virt window position hlen hw hv0 hne _ ha k hk8
      rw [e] at hc'
      cases hc'
      unfold seen
      simp only [look, filled_glyph true cell.glyph l1, if_true]
      simp only [Scrollbar.inkVertical] at hi
      by_cases hgl : cell.glyph < 7 ∧ 7 - cell.glyph ≤ k
      · rw [if_pos hgl] at hi
        rw [if_pos hgl.1, if_pos (by omega)]
        obtain ⟨i, hfi⟩ := Option.isSome_iff_exists.1 (l2 hgl.1)
        rw [hfi, Option.getD_some] at hi
        rw [hfi, Option.map_some]
        cases i
        · rw [if_pos (hi.1 rfl), opaque_colour ht]
        · rw [if_neg (fun q => by cases hi.2 q), opaque_colour hk]
      · rw [if_neg hgl] at hi
        rw [if_neg (by split <;> omega)]
        cases hb : cell.bg <;> rw [hb] at hi
        · rw [if_pos (hi.1 rfl)]
        · rw [if_neg (fun q => by cases hi.2 q)]
  | false =>
    simp only [Bool.false_eq_true, if_false]
    cases e : Scrollbar.renderHorizontal (length false r) virt window position true (along false r X Y) with
    | none =>
      obtain ⟨k, hk, -⟩ := Scrollbar.renderHorizontal_exact (length false r) virt window position hlen hw hv0 hne _ ha 0 (by omega)
      rw [e] at hk
      cases hk
    | some cell =>
      obtain ⟨l1, l2⟩ := glyph_lt e
      refine ⟨_, rfl, rfl, rfl, fun k hk8 => ?_⟩
      obtain ⟨cell', hc', hi⟩ := Scrollbar.renderHorizontal_exact (length false r) virt window position hlen hw hv0 hne _ ha k hk8
      rw [e] at hc'
      cases hc'
      unfold seen
      simp only [look, filled_glyph false cell.glyph l1, Bool.false_eq_true, if_false]
      simp only [Scrollbar.inkHorizontal] at hi
      by_cases hgl : cell.glyph < 7 ∧ k < 7 - cell.glyph
      · rw [if_pos hgl] at hi
        rw [if_pos (by omega)]
        obtain ⟨i, hfi⟩ := Option.isSome_iff_exists.1 (l2 hgl.1)
        rw [hfi, Option.getD_some] at hi
        rw [hfi, Option.map_some]
        cases i
        · rw [if_pos (hi.1 rfl), opaque_colour ht]
        · rw [if_neg (fun q => by cases hi.2 q), opaque_colour hk]
      · rw [if_neg hgl] at hi
        rw [if_neg (by omega)]
        cases hb : cell.bg <;> rw [hb] at hi
        · rw [if_pos (hi.1 rfl)]
        · rw [if_neg (fun q => by cases hi.2 q)]

/-- **C183.** Over an opaque background the colours of a bar are opaque, whatever the stylesheet says, and the thumb is
drawn unless it is wholly transparent. -/
theorem compose_opaque (thumb track base : RgbaColor) (hb : 1 ≤ base.a) :
    1 ≤ (compose thumb track (some base)).2.1.a ∧
    ((compose thumb track (some base)).2.2 = true ↔ 0 < thumb.a) ∧
    ((compose thumb track (some base)).2.2 = true → 1 ≤ (compose thumb track (some base)).1.a) := by
  have over : ∀ a b : RgbaColor, 1 ≤ b.a → 1 ≤ (a.blendOver b).a := by
    intro a b h
    unfold RgbaColor.blendOver
    split
    · assumption
    · exact h
  have htr : 1 ≤ (if track.a < 1 then track.blendOver base else track).a := by
    split
    · exact over _ _ hb
    · rename_i h
      exact not_lt.1 h
  unfold compose
  dsimp only
  split
  · rename_i h
    exact ⟨htr, by simp [h], fun _ => over _ _ htr⟩
  · rename_i h
    exact ⟨htr, by simp [h], fun h => by cases h⟩

/-! ### A case -/

/-- A bar two columns wide for 40 rows of content seen through 4: half way down, the thumb starts in the middle of
the second cell. -/
example :
    let c := (Canvas.new 3 5).bind (drawAll · (bar true ⟨1, 0, 2, 4⟩ 40 4 18 (.rgb 9 9 9) (.rgb 1 1 1) true))
    c.map (·.cells.map (·.symbol)) = some [" ", " ", " ", " ", "▄", "▄", " ", "▄", "▄", " ", " ", " ", " ", " ", " "] ∧
    c.map (·.cells.map (·.fg.map (·.r))) = some [none, none, none, none, some 9, some 9, none, some 1, some 1, none, none, none,
      none, none, none] ∧
    c.map (·.cells.map (·.bg.map (·.r))) = some [none, some 1, some 1, none, some 1, some 1, none, some 9, some 9, none, some 1,
      some 1, none, none, none] := by
  decide +kernel

example : (0 : Rat) < 4 ∧ (4 : Rat) < 40 ∧ (40 : Rat) ≠ (length true ⟨1, 0, 2, 4⟩ : Int) ∧ (0 : Rat) ≤ 18 ∧ (18 : Rat) ≤ 40 - 4 := by
  decide +kernel

end Textual.Bars
