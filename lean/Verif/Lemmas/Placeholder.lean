import Verif.Model.Placeholder
import Verif.Lemmas.ContentWrap
import Verif.Lemmas.CanvasDraw
import Verif.Props.Content
import Mathlib.Tactic.Common

/-! Lemmas about the wrapping and the drawing of placeholder labels. -/

namespace Textual.Placeholder

open Content

theorem breakLoop_flatten (width : Nat) : ∀ (gs cur : List Grapheme) (curW : Nat),
    (breakLoop width cur curW gs).flatten = cur ++ gs
  | [], cur, curW => by
    unfold breakLoop
    cases cur <;> simp
  | g :: gs, cur, curW => by
    unfold breakLoop
    split
    · rw [breakLoop_flatten]; simp
    · rw [List.flatten_cons, breakLoop_flatten]; simp

theorem breakLoop_ne (width : Nat) : ∀ (gs cur : List Grapheme) (curW : Nat),
    ∀ l ∈ breakLoop width cur curW gs, l ≠ []
  | [], cur, curW => by
    unfold breakLoop
    cases cur <;> simp
  | g :: gs, cur, curW => by
    unfold breakLoop
    split
    · exact breakLoop_ne width gs _ _
    · rename_i h
      intro l hl
      rcases List.mem_cons.1 hl with rfl | hl
      · tauto
      · exact breakLoop_ne width gs _ _ l hl

theorem breakLoop_fits (width : Nat) : ∀ (gs cur : List Grapheme) (curW : Nat),
    curW = widthOf cur → curW ≤ width → (∀ g ∈ gs, g.width ≤ width) →
    ∀ l ∈ breakLoop width cur curW gs, widthOf l ≤ width
  | [], cur, curW, h1, h2, h3 => by
    unfold breakLoop
    cases cur <;> simp
    omega
  | g :: gs, cur, curW, h1, h2, h3 => by
    unfold breakLoop
    have hg := h3 g (by simp)
    have h3' : ∀ g ∈ gs, g.width ≤ width := fun x hx => h3 x (by simp [hx])
    split
    · rename_i h
      refine breakLoop_fits width gs _ _ ?_ ?_ h3'
      · rw [widthOf_append, h1]; simp [widthOf]
      · rcases h with h | h
        · exact h
        · subst h; simp [widthOf] at h1; omega
    · intro l hl
      rcases List.mem_cons.1 hl with rfl | hl
      · omega
      · exact breakLoop_fits width gs [g] _ (by simp [widthOf]) hg h3' l hl

/-- A line started with a word. -/
theorem startLine_spec (width : Nat) {word : List Grapheme} (hne : word ≠ []) :
    (startLine width word).1.flatten ++ (startLine width word).2.1 = word ∧
    (startLine width word).2.2 = widthOf (startLine width word).2.1 ∧ (startLine width word).2.1 ≠ [] ∧
    (widthOf word ≤ width → startLine width word = ([], word, widthOf word)) ∧
    ((∀ g ∈ word, g.width ≤ width) →
      (∀ l ∈ (startLine width word).1, widthOf l ≤ width) ∧ widthOf (startLine width word).2.1 ≤ width) := by
  unfold startLine
  split
  · rename_i h
    simp [hne, h]
  · rename_i h
    have hfl := breakLoop_flatten width word [] 0
    cases hl : (breakWord width word).getLast? with
    | none =>
      rw [List.getLast?_eq_none_iff] at hl
      unfold breakWord at hl
      rw [hl] at hfl
      simp at hfl
      exact absurd hfl hne
    | some last =>
      have hmem := List.mem_of_getLast? hl
      have hdec := List.dropLast_append_getLast? last hl
      refine ⟨?_, rfl, breakLoop_ne width word [] 0 last hmem, fun h' => absurd h' h, fun hg => ?_⟩
      · have : (breakWord width word).flatten = word := by unfold breakWord; rw [hfl]; rfl
        rw [← hdec] at this
        simpa using this
      · have hf := breakLoop_fits width word [] 0 rfl (Nat.zero_le _) hg
        exact ⟨fun l hl => hf l (List.dropLast_subset _ hl), hf last hmem⟩

theorem wrapWords_inked (ws : Grapheme → Bool) (hsp : ws Grapheme.space = true) (width : Nat) :
    ∀ (wds : List (List Grapheme)) (cur : List Grapheme) (curW : Nat),
    (∀ w ∈ wds, w ≠ [] ∧ ∀ g ∈ w, ws g = false) →
    inked ws (wrapWords width cur curW wds).flatten = inked ws cur ++ wds.flatten
  | [], cur, curW, _ => by
    unfold wrapWords
    cases cur <;> simp [inked]
  | word :: rest, cur, curW, h => by
    have hw := h word (by simp)
    have hr : ∀ w ∈ rest, w ≠ [] ∧ ∀ g ∈ w, ws g = false := fun w hw => h w (by simp [hw])
    have hs := startLine_spec width hw.1
    have key : inked ws ((startLine width word).1 ++ wrapWords width (startLine width word).2.1
        (startLine width word).2.2 rest).flatten = word ++ rest.flatten := by
      rw [List.flatten_append, inked_append, wrapWords_inked ws hsp width rest _ _ hr, ← List.append_assoc,
        ← inked_append, hs.1, inked_word hw.2]
    unfold wrapWords
    split
    · rename_i hc
      have : cur = [] := by simpa using hc
      subst this
      rw [key]
      simp [inked]
    · split
      · rw [wrapWords_inked ws hsp width rest _ _ hr, inked_append]
        have : inked ws (Grapheme.space :: word) = word := by
          have := inked_word hw.2
          unfold inked at *
          simp [hsp, this]
        rw [this]
        simp
      · rw [List.flatten_cons, inked_append, key]
        simp

theorem wrapWords_fits (width : Nat) :
    ∀ (wds : List (List Grapheme)) (cur : List Grapheme) (curW : Nat), curW = widthOf cur → curW ≤ width →
    (∀ w ∈ wds, w ≠ [] ∧ ∀ g ∈ w, g.width ≤ width) →
    ∀ l ∈ wrapWords width cur curW wds, widthOf l ≤ width
  | [], cur, curW, h1, h2, _ => by
    unfold wrapWords
    cases cur <;> simp
    omega
  | word :: rest, cur, curW, h1, h2, h => by
    have hw := h word (by simp)
    have hr : ∀ w ∈ rest, w ≠ [] ∧ ∀ g ∈ w, g.width ≤ width := fun w hw => h w (by simp [hw])
    have hs := startLine_spec width hw.1
    have key : ∀ l ∈ (startLine width word).1 ++ wrapWords width (startLine width word).2.1
        (startLine width word).2.2 rest, widthOf l ≤ width := by
      intro l hl
      rcases List.mem_append.1 hl with hl | hl
      · exact (hs.2.2.2.2 hw.2).1 l hl
      · exact wrapWords_fits width rest _ _ hs.2.1 (by rw [hs.2.1]; exact (hs.2.2.2.2 hw.2).2) hr l hl
    unfold wrapWords
    split
    · exact key
    · split
      · refine wrapWords_fits width rest _ _ ?_ (by omega) hr
        rw [widthOf_append, widthOf_cons, h1]
        rfl
      · intro l hl
        rcases List.mem_cons.1 hl with rfl | hl
        · omega
        · exact key l hl

theorem wrapWords_words (ws : Grapheme → Bool) (hsp : ws Grapheme.space = true) (width : Nat) :
    ∀ (wds : List (List Grapheme)) (cur : List Grapheme) (curW : Nat),
    (∀ w ∈ wds, w ≠ [] ∧ (∀ g ∈ w, ws g = false) ∧ widthOf w ≤ width) →
    (wrapWords width cur curW wds).flatMap (words ws) = words ws cur ++ wds
  | [], cur, curW, _ => by
    unfold wrapWords
    cases cur <;> simp [words, wordsLoop]
  | word :: rest, cur, curW, h => by
    have hw := h word (by simp)
    have hr : ∀ w ∈ rest, w ≠ [] ∧ (∀ g ∈ w, ws g = false) ∧ widthOf w ≤ width := fun w hw => h w (by simp [hw])
    have hs := (startLine_spec width hw.1).2.2.2.1 hw.2.2
    unfold wrapWords
    simp only [hs, List.nil_append]
    split
    · rename_i hc
      have : cur = [] := by simpa using hc
      subst this
      rw [wrapWords_words ws hsp width rest _ _ hr, words_single hw.1 hw.2.1]
      rfl
    · split
      · rw [wrapWords_words ws hsp width rest _ _ hr, words_gap hsp, words_single hw.1 hw.2.1]
        simp
      · rw [List.flatMap_cons, wrapWords_words ws hsp width rest _ _ hr, words_single hw.1 hw.2.1]
        rfl

/-- The first line starts with the line being filled. -/
theorem wrapWords_head (ws : Grapheme → Bool) (hsp : ws Grapheme.space = true) (width : Nat) :
    ∀ (wds : List (List Grapheme)) (cur : List Grapheme) (curW : Nat), cur ≠ [] →
    ∀ w, (words ws cur).head? = some w →
    ∃ l rest, wrapWords width cur curW wds = l :: rest ∧ (words ws l).head? = some w
  | [], cur, curW, hne, w, hw => ⟨cur, [], by unfold wrapWords; simp [hne], hw⟩
  | word :: rest, cur, curW, hne, w, hw => by
    unfold wrapWords
    rw [if_neg (by simp [hne])]
    split
    · refine wrapWords_head ws hsp width rest _ _ (by simp) w ?_
      rw [words_gap hsp, List.head?_append, hw]
      rfl
    · exact ⟨cur, _, rfl, hw⟩

theorem wrapWords_tight (ws : Grapheme → Bool) (hsp : ws Grapheme.space = true) (width : Nat) :
    ∀ (wds : List (List Grapheme)) (cur : List Grapheme) (curW : Nat), curW = widthOf cur →
    (∀ w ∈ wds, w ≠ [] ∧ (∀ g ∈ w, ws g = false) ∧ widthOf w ≤ width) →
    (wrapWords width cur curW wds).IsChain fun a b =>
      ∃ w, (words ws b).head? = some w ∧ width < widthOf a + 1 + widthOf w
  | [], cur, curW, _, _ => by
    unfold wrapWords
    cases cur <;> simp
  | word :: rest, cur, curW, hcw, h => by
    have hw := h word (by simp)
    have hr : ∀ w ∈ rest, w ≠ [] ∧ (∀ g ∈ w, ws g = false) ∧ widthOf w ≤ width := fun w hw => h w (by simp [hw])
    have hs := (startLine_spec width hw.1).2.2.2.1 hw.2.2
    unfold wrapWords
    simp only [hs, List.nil_append]
    split
    · exact wrapWords_tight ws hsp width rest _ _ rfl hr
    · split
      · refine wrapWords_tight ws hsp width rest _ _ ?_ hr
        rw [widthOf_append, widthOf_cons, hcw]
        rfl
      · rename_i hfull
        obtain ⟨l, ls, e, hl⟩ := wrapWords_head ws hsp width rest word (widthOf word) hw.1 word
          (by rw [words_single hw.1 hw.2.1]; rfl)
        have ih := wrapWords_tight ws hsp width rest word (widthOf word) rfl hr
        rw [e] at ih ⊢
        exact List.IsChain.cons_cons ⟨word, hl, by omega⟩ ih

/-- Words that fit on one line stay on one line. -/
theorem wrapWords_one (width : Nat) : ∀ (wds : List (List Grapheme)) (cur : List Grapheme) (curW : Nat),
    curW = widthOf cur → cur ≠ [] → (wds ≠ [] → curW + 1 + joinedWidth wds ≤ width) →
    wrapWords width cur curW wds = [[Grapheme.space].intercalate (cur :: wds)]
  | [], cur, curW, _, hne, _ => by
    unfold wrapWords
    simp [hne, List.intercalate]
  | word :: rest, cur, curW, hcw, hne, h => by
    have h := h (by simp)
    unfold wrapWords
    rw [if_neg (by simp [hne])]
    have hj : joinedWidth (word :: rest) = widthOf word + (if rest = [] then 0 else 1 + joinedWidth rest) := by
      cases rest with
      | nil => simp [joinedWidth]
      | cons a b => simp [joinedWidth]; omega
    rw [hj] at h
    rw [if_pos (by split at h <;> omega), wrapWords_one width rest _ _ ?_ (by simp) ?_]
    · cases rest <;> simp [List.intercalate, List.intersperse]
    · rw [widthOf_append, widthOf_cons, hcw]
      rfl
    · intro hr
      rw [if_neg hr] at h
      omega

theorem joinedWidth_cons (w : List Grapheme) (X : List (List Grapheme)) :
    joinedWidth (w :: X) ≤ widthOf w + 1 + joinedWidth X := by
  cases X <;> simp [joinedWidth] <;> omega

theorem wordsLoop_joinedWidth {ws : Grapheme → Bool} : ∀ (p cur : List Grapheme), (∀ g ∈ p, 1 ≤ g.width) →
    joinedWidth (wordsLoop ws cur p) ≤ widthOf cur + widthOf p
  | [], cur, _ => by
    unfold wordsLoop
    cases cur <;> simp [joinedWidth]
  | g :: gs, cur, h => by
    have hg := h g (by simp)
    have h' : ∀ g ∈ gs, 1 ≤ g.width := fun x hx => h x (by simp [hx])
    unfold wordsLoop
    rw [widthOf_cons]
    split
    · have ih := wordsLoop_joinedWidth (ws := ws) gs [] h'
      rw [widthOf_nil] at ih
      split
      · simp only [List.nil_append]; omega
      · have := joinedWidth_cons cur (wordsLoop ws [] gs)
        simp only [List.singleton_append]
        omega
    · have ih := wordsLoop_joinedWidth (ws := ws) gs (cur ++ [g]) h'
      rw [widthOf_append, widthOf_cons, widthOf_nil] at ih
      omega

theorem joinedWidth_le {ws : Grapheme → Bool} {p : List Grapheme} (h : ∀ g ∈ p, 1 ≤ g.width) :
    joinedWidth (words ws p) ≤ widthOf p := by
  have := wordsLoop_joinedWidth (ws := ws) p [] h
  rw [widthOf_nil] at this
  unfold words
  omega

/-! ### Drawing -/

open Canvas

theorem drawAll_append (c : Canvas) (a b : List Draw) :
    drawAll c (a ++ b) = (drawAll c a).bind (drawAll · b) := by
  induction a generalizing c with
  | nil => rfl
  | cons d ds ih =>
    simp only [List.cons_append, drawAll]
    cases c.draw d with
    | none => rfl
    | some c1 => simp [ih]

/-- A run of drawing calls that each stay inside `P` stays inside `P`. -/
theorem drawAll_only {P : Nat → Nat → Prop} : ∀ (ds : List Draw) (c : Canvas), c.cells.length = c.w * c.h →
    (∀ d ∈ ds, ∀ c : Canvas, c.cells.length = c.w * c.h → ∃ c', c.draw d = some c' ∧ OnlyCells P c c') →
    ∃ c', drawAll c ds = some c' ∧ OnlyCells P c c'
  | [], c, _, _ => ⟨c, rfl, .refl c⟩
  | d :: ds, c, hl, h => by
    obtain ⟨c1, h1, o1⟩ := h d (by simp) c hl
    obtain ⟨c2, h2, o2⟩ := drawAll_only ds c1 (by rw [o1.len, o1.w, o1.h, hl]) (fun d hd => h d (by simp [hd]))
    exact ⟨c2, by simp [drawAll, h1, h2], o1.trans o2⟩

/-- `put_str` only touches the columns of its text. -/
theorem putGraphemes_range (c : Canvas) (hl : c.cells.length = c.w * c.h) (x y : Int)
    (fg : Option Rgb) (bg : Option RgbaColor) (attrs : Textual.Attrs) (clip : Region) (s : List Grapheme)
    (hs : ∀ g ∈ s, 1 ≤ g.width) :
    ∃ c', putGraphemes c x y fg bg attrs clip s = some c' ∧
      OnlyCells (fun x' y' => (y' : Int) = y ∧ x ≤ x' ∧ (x' : Int) < x + widthOf s) c c' := by
  induction s generalizing c x with
  | nil => exact ⟨c, rfl, .refl c⟩
  | cons g gs ih =>
    unfold putGraphemes
    have hg := hs g (by simp)
    rw [widthOf_cons]
    split
    · exact ⟨c, rfl, .refl c⟩
    · obtain ⟨c1, h1, h2⟩ := putGrapheme_spec c hl x y g fg bg attrs clip
      rw [h1]
      obtain ⟨c2, h3, h4⟩ := ih c1 (by rw [h2.len, h2.w, h2.h, hl]) (x + g.width) (fun g hg => hs g (by simp [hg]))
      exact ⟨c2, h3, (h2.weaken fun _ _ h => ⟨h.2.1, h.2.2.1, by omega⟩).trans
        (h4.weaken fun _ _ h => ⟨h.1, by omega, by omega⟩)⟩

theorem putStr_range (c : Canvas) (hl : c.cells.length = c.w * c.h) (x y : Int)
    (s : List Grapheme) (fg bg : Option RgbaColor) (attrs : Textual.Attrs) (hs : ∀ g ∈ s, 1 ≤ g.width) :
    ∃ c', putStr c x y s fg bg attrs = some c' ∧
      OnlyCells (fun x' y' => (y' : Int) = y ∧ x ≤ x' ∧ (x' : Int) < x + widthOf s) c c' := by
  unfold putStr
  simp only
  split
  · exact ⟨c, rfl, .refl c⟩
  split
  · exact ⟨c, rfl, .refl c⟩
  exact putGraphemes_range c hl x y _ bg attrs _ s hs

theorem fill_only (r : Region) (bg : RgbaColor) (c : Canvas) (hl : c.cells.length = c.w * c.h) :
    ∃ c', drawAll c (fill r bg) = some c' ∧ OnlyCells (Within r) c c' := by
  apply drawAll_only _ c hl
  intro d hd c hl
  unfold fill at hd
  simp only [List.mem_flatMap, List.mem_range, List.mem_map] at hd
  obtain ⟨j, hj, i, hi, rfl⟩ := hd
  obtain ⟨c1, h1, h2⟩ := putGrapheme_spec c hl (r.x + i) (r.y + j) Grapheme.space ((none : Option RgbaColor).map toCrosstermColor)
    (some bg) {} c.currentClip
  refine ⟨c1, h1, h2.weaken ?_⟩
  rintro X Y ⟨-, e, h3, h4⟩
  have : Grapheme.space.width = 1 := rfl
  rw [this] at h4
  unfold Within
  omega

theorem drawLines_only (x : Int) (fg bg : RgbaColor) (W : Nat) : ∀ (lines : List (List Grapheme)) (y : Int) (c : Canvas),
    c.cells.length = c.w * c.h →
    (∀ l ∈ lines, widthOf l ≤ W ∧ ∀ g ∈ l, 1 ≤ g.width) →
    ∃ c', drawAll c (drawLines x y fg bg lines) = some c' ∧
      OnlyCells (fun X Y => y ≤ Y ∧ (Y : Int) < y + lines.length ∧ x ≤ X ∧ (X : Int) < x + W) c c'
  | [], y, c, _, _ => ⟨c, rfl, .refl c⟩
  | l :: ls, y, c, hl, h => by
    have hl1 := h l (by simp)
    obtain ⟨c1, h1, o1⟩ := putStr_range c hl x y l (some fg) (some bg) {} hl1.2
    obtain ⟨c2, h2, o2⟩ := drawLines_only x fg bg W ls (y + 1) c1 (by rw [o1.len, o1.w, o1.h, hl])
      (fun l hl => h l (by simp [hl]))
    refine ⟨c2, ?_, (o1.weaken ?_).trans (o2.weaken ?_)⟩
    · simp only [drawLines, drawAll, Canvas.draw, h1, Option.bind_some, h2]
    · rintro X Y ⟨h3, h4, h5⟩
      simp only [List.length_cons]
      omega
    · rintro X Y ⟨h3, h4, h5⟩
      simp only [List.length_cons]
      omega

/-- Every visible character of every line is written. -/
theorem drawLines_shows (x : Int) (fg bg : RgbaColor) (clip : Region) : ∀ (lines : List (List Grapheme)) (y : Int) (c c' : Canvas),
    c.cells.length = c.w * c.h → c.currentClip = clip →
    (∀ l ∈ lines, ∀ g ∈ l, 1 ≤ g.width) →
    drawAll c (drawLines x y fg bg lines) = some c' →
    ∀ (i : Nat) (line pre post : List Grapheme) (g : Grapheme) (X Y : Nat),
      lines[i]? = some line → line = pre ++ g :: post → (X : Int) = x + widthOf pre → (Y : Int) = y + i →
      Y < c.h → X + g.width ≤ c.w → Within clip X Y → ((X + g.width : Nat) : Int) ≤ clip.x + clip.width →
      ∃ old, c'.cells[Y * c.w + X]? = some (leadCell g (some (toCrosstermColor fg)) (some bg) {} old)
  | [], y, c, c', _, _, _, _, i, line, pre, post, g, X, Y, hi, _, _, _, _, _, _, _ => by simp at hi
  | l :: ls, y, c, c', hl, hclip, h, hd, i, line, pre, post, g, X, Y, hi, he, hX, hY, hYh, hXw, hw, hw2 => by
    have hl1 := h l (by simp)
    obtain ⟨c1, h1, o1⟩ := putStr_range c hl x y l (some fg) (some bg) {} hl1
    have hlen1 : c1.cells.length = c1.w * c1.h := by rw [o1.len, o1.w, o1.h, hl]
    simp only [drawLines, drawAll, Canvas.draw, h1, Option.bind_some] at hd
    cases i with
    | zero =>
      simp only [List.getElem?_cons_zero, Option.some.injEq] at hi
      subst hi he
      have hg1 := hl1 g (by simp)
      unfold putStr at h1
      have hw' := hw
      unfold Within at hw'
      simp only [hclip] at h1
      rw [if_neg (by omega), if_neg (by omega)] at h1
      obtain ⟨w1, -⟩ := putGraphemes_writes c hl x y _ (some bg) {} clip pre post g X Y
        (fun p hp => hl1 p (by simp [hp])) hX (by omega) hg1 hYh hXw hw hw2 c1 h1
      have hidx : Y * c.w + X < c.cells.length := by rw [hl]; exact index_lt (by omega) hYh
      rw [List.getElem?_eq_getElem hidx, Option.map_some] at w1
      obtain ⟨W, hW⟩ : ∃ W, ∀ l ∈ ls, widthOf l ≤ W := by
        refine ⟨(ls.map widthOf).sum, fun l hl => ?_⟩
        exact List.le_sum_of_mem (List.mem_map_of_mem hl)
      obtain ⟨c2, h2, o2⟩ := drawLines_only x fg bg W ls (y + 1) c1 hlen1
        (fun l hl => ⟨hW l hl, h l (by simp [hl])⟩)
      rw [hd] at h2
      cases h2
      have := o2.same X Y (by rw [o1.w]; omega) (by omega)
      rw [o1.w] at this
      exact ⟨_, by rw [this, w1]; rfl⟩
    | succ i =>
      simp only [List.getElem?_cons_succ] at hi
      have := drawLines_shows x fg bg clip ls (y + 1) c1 c' hlen1 (by rw [o1.currentClip, hclip])
        (fun l hl => h l (by simp [hl])) hd i line pre post g X Y hi he hX (by omega) (by rw [o1.h]; exact hYh)
        (by rw [o1.w]; exact hXw) hw hw2
      rw [o1.w] at this
      exact this

/-! ### Backgrounds -/

/-- Every cell that had the background `B` has it still. -/
def KeepsBg (B : Rgb) (c c' : Canvas) : Prop :=
  ∀ (i : Nat) (cell : Cell), c.cells[i]? = some cell → cell.bg = some B →
    ∃ cell', c'.cells[i]? = some cell' ∧ cell'.bg = some B

theorem KeepsBg.refl (B : Rgb) (c : Canvas) : KeepsBg B c c := fun _ cell h hb => ⟨cell, h, hb⟩

theorem KeepsBg.trans {B : Rgb} {a b c : Canvas} (h1 : KeepsBg B a b) (h2 : KeepsBg B b c) : KeepsBg B a c := by
  intro i cell h hb
  obtain ⟨cell', h', hb'⟩ := h1 i cell h hb
  exact h2 i cell' h' hb'

theorem resolve_opaque {bg : RgbaColor} (h : 1 ≤ bg.a) (e : Option Rgb) :
    resolveBackground (some bg) e = some (toCrosstermRgb bg) := by
  have h1 : bg.isTransparent = false := by
    unfold RgbaColor.isTransparent
    simp only [decide_eq_false_iff_not, not_le]
    exact lt_of_lt_of_le (by decide) h
  have h2 : ¬ bg.a < 1 := not_lt.2 h
  unfold resolveBackground
  simp [h1, h2]

theorem leadCell_bg {g : Grapheme} {fg : Option Rgb} {bg : RgbaColor} {attrs : Textual.Attrs} {old : Cell}
    (h : 1 ≤ bg.a) : (leadCell g fg (some bg) attrs old).bg = some (toCrosstermRgb bg) := by
  unfold leadCell
  simp only [resolve_opaque h]
  split <;> rfl

theorem contCell_bg {g : Grapheme} {fg : Option Rgb} {bg : RgbaColor} {attrs : Textual.Attrs} {old : Cell}
    (h : 1 ≤ bg.a) : (contCell g fg (some bg) attrs old).bg = some (toCrosstermRgb bg) := by
  unfold contCell
  simp only [resolve_opaque h]
  split <;> rfl

theorem updateCell_bg {B : Rgb} {cells cells' : List Cell} {i : Nat} {f : Cell → Cell}
    (hf : ∀ old, (f old).bg = some B) (hu : updateCell cells i f = some cells') (j : Nat) (cell : Cell)
    (hc : cells[j]? = some cell) (hb : cell.bg = some B) : ∃ cell', cells'[j]? = some cell' ∧ cell'.bg = some B := by
  unfold updateCell at hu
  split at hu
  · cases hu
  · rename_i old ho
    cases hu
    by_cases hij : i = j
    · subst hij
      refine ⟨f old, ?_, hf old⟩
      have : i < cells.length := by
        rw [List.getElem?_eq_some_iff] at ho
        exact ho.1
      simp [this]
    · exact ⟨cell, by rw [List.getElem?_set_ne hij]; exact hc, hb⟩

theorem putConts_bg {bg : RgbaColor} (hb : 1 ≤ bg.a) {w h : Nat} {x y : Int} {g fg attrs} {clip : Region} :
    ∀ (offs : List Nat) (cells cells' : List Cell),
    putConts w h x y g fg (some bg) attrs clip offs cells = some cells' →
    ∀ (j : Nat) (cell : Cell), cells[j]? = some cell → cell.bg = some (toCrosstermRgb bg) →
    ∃ cell', cells'[j]? = some cell' ∧ cell'.bg = some (toCrosstermRgb bg)
  | [], cells, cells', hp, j, cell, hc, hcb => by
    simp only [putConts, Option.some.injEq] at hp
    subst hp
    exact ⟨cell, hc, hcb⟩
  | off :: rest, cells, cells', hp, j, cell, hc, hcb => by
    unfold putConts at hp
    simp only at hp
    split at hp
    · exact putConts_bg hb rest cells cells' hp j cell hc hcb
    · split at hp
      · exact putConts_bg hb rest cells cells' hp j cell hc hcb
      · split at hp
        · cases hp
        · rename_i cells1 hu
          obtain ⟨cell1, h1, hb1⟩ := updateCell_bg (fun old => contCell_bg hb) hu j cell hc hcb
          exact putConts_bg hb rest cells1 cells' hp j cell1 h1 hb1

theorem putGrapheme_bg {bg : RgbaColor} (hb : 1 ≤ bg.a) {c c' : Canvas} {x y : Int} {g fg attrs} {clip : Region}
    (hp : putGrapheme c x y g fg (some bg) attrs clip = some c') : KeepsBg (toCrosstermRgb bg) c c' := by
  unfold putGrapheme at hp
  split at hp
  · cases hp; exact .refl _ _
  split at hp
  · cases hp; exact .refl _ _
  split at hp
  · cases hp; exact .refl _ _
  split at hp
  · cases hp; exact .refl _ _
  split at hp
  · cases hp; exact .refl _ _
  split at hp
  · cases hp; exact .refl _ _
  split at hp
  · cases hp
  · rename_i cells1 hu
    split at hp
    · cases hp
    · rename_i cells2 hp2
      cases hp
      intro j cell hc hcb
      obtain ⟨cell1, h1, hb1⟩ := updateCell_bg (fun old => leadCell_bg hb) hu j cell hc hcb
      exact putConts_bg hb _ cells1 cells2 hp2 j cell1 h1 hb1

theorem putGraphemes_bg {bg : RgbaColor} (hb : 1 ≤ bg.a) {y : Int} {fg attrs} {clip : Region} :
    ∀ (s : List Grapheme) (x : Int) (c c' : Canvas), putGraphemes c x y fg (some bg) attrs clip s = some c' →
    KeepsBg (toCrosstermRgb bg) c c'
  | [], x, c, c', hp => by
    simp only [putGraphemes, Option.some.injEq] at hp
    subst hp
    exact .refl _ _
  | g :: gs, x, c, c', hp => by
    unfold putGraphemes at hp
    split at hp
    · cases hp; exact .refl _ _
    · split at hp
      · cases hp
      · rename_i c1 h1
        exact (putGrapheme_bg hb h1).trans (putGraphemes_bg hb gs _ c1 c' hp)

/-- Calls with one and the same opaque background keep it. -/
theorem drawAll_bg {bg : RgbaColor} (hb : 1 ≤ bg.a) : ∀ (ds : List Draw) (c c' : Canvas),
    (∀ d ∈ ds, (∃ x y g fg a, d = .char x y g fg (some bg) a) ∨ ∃ x y s fg a, d = .str x y s fg (some bg) a) →
    drawAll c ds = some c' → KeepsBg (toCrosstermRgb bg) c c'
  | [], c, c', _, hd => by
    simp only [drawAll, Option.some.injEq] at hd
    subst hd
    exact .refl _ _
  | d :: ds, c, c', h, hd => by
    unfold drawAll at hd
    cases h1 : c.draw d with
    | none => rw [h1] at hd; cases hd
    | some c1 =>
      rw [h1, Option.bind_some] at hd
      refine KeepsBg.trans ?_ (drawAll_bg hb ds c1 c' (fun d hd => h d (by simp [hd])) hd)
      rcases h d (by simp) with ⟨x, y, g, fg, a, rfl⟩ | ⟨x, y, s, fg, a, rfl⟩
      · exact putGrapheme_bg hb h1
      · simp only [Canvas.draw, putStr] at h1
        split at h1
        · cases h1; exact .refl _ _
        · split at h1
          · cases h1; exact .refl _ _
          · exact putGraphemes_bg hb s x c c1 h1

/-- The background calls give every visible cell of the area the background. -/
theorem fill_bg {bg : RgbaColor} (hb : 1 ≤ bg.a) {r : Region} {c c' : Canvas} (hl : c.cells.length = c.w * c.h)
    (hd : drawAll c (fill r bg) = some c') {X Y : Nat} (hr : Within r X Y) (hX : X < c.w) (hY : Y < c.h)
    (hc : Within c.currentClip X Y) : ∃ cell, c'.cells[Y * c.w + X]? = some cell ∧ cell.bg = some (toCrosstermRgb bg) := by
  have hmem : Draw.char X Y Grapheme.space none (some bg) {} ∈ fill r bg := by
    unfold fill
    unfold Within at hr
    simp only [List.mem_flatMap, List.mem_range, List.mem_map]
    refine ⟨((Y : Int) - r.y).toNat, by omega, ((X : Int) - r.x).toNat, by omega, ?_⟩
    congr 1 <;> omega
  have hall : ∀ d ∈ fill r bg, (∃ x y g fg a, d = .char x y g fg (some bg) a) ∨
      ∃ x y s fg a, d = .str x y s fg (some bg) a := by
    intro d hd
    unfold fill at hd
    simp only [List.mem_flatMap, List.mem_range, List.mem_map] at hd
    obtain ⟨j, -, i, -, rfl⟩ := hd
    exact Or.inl ⟨_, _, _, _, _, rfl⟩
  have hgood := fill_only r bg c hl
  generalize fill r bg = ds at *
  obtain ⟨pre, post, rfl⟩ := List.append_of_mem hmem
  rw [drawAll_append] at hd
  obtain ⟨c1, h1, o1⟩ := drawAll_only (P := fun _ _ => True) pre c hl (by
    intro d hd c hl
    obtain ⟨c', h, o⟩ := draw_spec c hl d
    exact ⟨c', h, o.weaken fun _ _ _ => trivial⟩)
  rw [h1, Option.bind_some] at hd
  unfold drawAll at hd
  have hl1 : c1.cells.length = c1.w * c1.h := by rw [o1.len, o1.w, o1.h, hl]
  cases h2 : c1.draw (Draw.char X Y Grapheme.space none (some bg) {}) with
  | none => rw [h2] at hd; cases hd
  | some c2 =>
    rw [h2, Option.bind_some] at hd
    have hw := hc
    unfold Within at hw
    obtain ⟨w1, -⟩ := putGrapheme_writes c1 hl1 X Y Grapheme.space _ (some bg) {} c1.currentClip (by decide)
      (by rw [o1.h]; exact hY) (by rw [o1.w]; exact hX) (by rw [o1.currentClip]; exact hc)
      (by rw [o1.currentClip]; show ((X + 1 : Nat) : Int) ≤ _; omega) c2 h2
    rw [o1.w] at w1
    have hidx : Y * c.w + X < c1.cells.length := by rw [hl1, o1.w, o1.h]; exact index_lt hX hY
    rw [List.getElem?_eq_getElem hidx, Option.map_some] at w1
    exact drawAll_bg hb post c2 c' (fun d hd => hall d (by simp [hd])) hd _ _ w1 (leadCell_bg hb)

end Textual.Placeholder
