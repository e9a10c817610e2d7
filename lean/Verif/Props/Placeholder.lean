import Verif.Lemmas.Placeholder
import Verif.Props.Color
import Mathlib.Data.List.Induction

/-! C136–C139: placeholders. -/

namespace Textual.Placeholder

open Content Canvas

/-! ### Wrapping (C136) -/

/-- White space in the examples. -/
def blank (g : Grapheme) : Bool := g.text == " " || g.text == "\n"

theorem paragraph_words {ws : Grapheme → Bool} {text p : List Grapheme} (hp : p ∈ splitLines text)
    {w : List Grapheme} (hw : w ∈ words ws p) : w ≠ [] ∧ ∀ g ∈ w, ws g = false ∧ g ∈ text :=
  ⟨(words_mem hw).1, fun g hg => ⟨((words_mem hw).2 g hg).1, splitLines_mem text p hp g ((words_mem hw).2 g hg).2⟩⟩

/-- C136: no line is wider than the area, if no character of the text is. -/
theorem wrap_fits (ws : Grapheme → Bool) (text : List Grapheme) (width : Nat) (hw : 1 ≤ width)
    (hg : ∀ g ∈ text, g.width ≤ width) : ∀ l ∈ wordWrap ws text width, widthOf l ≤ width := by
  intro l hl
  unfold wordWrap at hl
  rw [Nat.max_eq_left hw] at hl
  obtain ⟨p, hp, hl⟩ := List.mem_flatMap.1 hl
  unfold wrapParagraph at hl
  split at hl
  · simp only [List.mem_singleton] at hl
    subst hl
    exact Nat.zero_le _
  · refine wrapWords_fits width _ [] 0 rfl (Nat.zero_le _) ?_ l hl
    intro w hw
    exact ⟨(paragraph_words hp hw).1, fun g hg' => hg g ((paragraph_words hp hw).2 g hg').2⟩

theorem splitLines_inked {ws : Grapheme → Bool} (hnl : ∀ g : Grapheme, g.text = "\n" → ws g = true) :
    ∀ (n : Nat) (t : List Grapheme), t.length ≤ n → inked ws (splitLines t).flatten = inked ws t
  | 0, t, h => by
    have : t = [] := by simpa using h
    subst this
    rfl
  | n + 1, t, h => by
    rcases splitLines_decomp t with ⟨-, e⟩ | ⟨line, nl, t', e, hn, -, e2⟩
    · rw [e]; simp
    · rw [e2, e, List.flatten_cons, inked_append, inked_append,
        splitLines_inked hnl n t' (by rw [e] at h; simp at h; omega)]
      congr 1
      unfold inked
      simp [hnl nl hn]

/-- C136: no character but white space is lost, added or moved, for any text and width. -/
theorem wrap_keeps (ws : Grapheme → Bool) (hsp : ws Grapheme.space = true)
    (hnl : ∀ g : Grapheme, g.text = "\n" → ws g = true) (text : List Grapheme) (width : Nat) :
    inked ws (wordWrap ws text width).flatten = inked ws text := by
  rw [← splitLines_inked hnl _ text (Nat.le_refl _)]
  have key : ∀ ps : List (List Grapheme), (∀ p ∈ ps, p ∈ splitLines text) →
      inked ws (ps.flatMap (wrapParagraph ws (max width 1))).flatten = inked ws ps.flatten := by
    intro ps
    induction ps with
    | nil => intro _; rfl
    | cons p ps ih =>
      intro hps
      rw [List.flatMap_cons, List.flatten_append, inked_append, List.flatten_cons, inked_append,
        ih (fun q hq => hps q (by simp [hq]))]
      congr 1
      unfold wrapParagraph
      split
      · rename_i he
        have : p = [] := by simpa using he
        subst this
        rfl
      · rw [wrapWords_inked ws hsp _ _ _ _ (fun w hw =>
          ⟨(words_mem hw).1, fun g hg => ((words_mem hw).2 g hg).1⟩), words_flatten]
        rfl
  exact key _ (fun p hp => hp)

/-- C136: if every word fits, no word is divided, ... -/
theorem wrap_words (ws : Grapheme → Bool) (hsp : ws Grapheme.space = true) (p : List Grapheme)
    (hp : ∀ g ∈ p, g.text ≠ "\n") (width : Nat) (hw : ∀ w ∈ words ws p, widthOf w ≤ width) :
    (wordWrap ws p width).flatMap (words ws) = words ws p := by
  have hs : splitLines p = [p] := by
    rcases splitLines_decomp p with ⟨-, e⟩ | ⟨line, nl, t', e, hn, -, -⟩
    · exact e
    · exact absurd hn (hp nl (by rw [e]; simp))
  unfold wordWrap
  rw [hs]
  simp only [List.flatMap_cons, List.flatMap_nil, List.append_nil]
  unfold wrapParagraph
  split
  · rename_i he
    have : p = [] := by simpa using he
    subst this
    rfl
  · rw [wrapWords_words ws hsp _ _ _ _ (fun w hw' =>
      ⟨(words_mem hw').1, fun g hg => ((words_mem hw').2 g hg).1, Nat.le_trans (hw w hw') (Nat.le_max_left _ _)⟩)]
    rfl

/-- ... and a line ends only where the next word does not fit on it. -/
theorem wrap_tight (ws : Grapheme → Bool) (hsp : ws Grapheme.space = true) (p : List Grapheme)
    (hp : ∀ g ∈ p, g.text ≠ "\n") (width : Nat) (h1 : 1 ≤ width) (hw : ∀ w ∈ words ws p, widthOf w ≤ width) :
    (wordWrap ws p width).IsChain fun a b =>
      ∃ w, (words ws b).head? = some w ∧ width < widthOf a + 1 + widthOf w := by
  have hs : splitLines p = [p] := by
    rcases splitLines_decomp p with ⟨-, e⟩ | ⟨line, nl, t', e, hn, -, -⟩
    · exact e
    · exact absurd hn (hp nl (by rw [e]; simp))
  unfold wordWrap
  rw [hs, Nat.max_eq_left h1]
  simp only [List.flatMap_cons, List.flatMap_nil, List.append_nil]
  unfold wrapParagraph
  split
  · simp
  · exact wrapWords_tight ws hsp _ _ _ _ rfl (fun w hw' =>
      ⟨(words_mem hw').1, fun g hg => ((words_mem hw').2 g hg).1, hw w hw'⟩)

/-- C136: a paragraph that is not wider than the area is one line: its words with one space between two
of them. -/
theorem wrap_unbroken (ws : Grapheme → Bool) (p : List Grapheme) (width : Nat)
    (hg : ∀ g ∈ p, 1 ≤ g.width) (hfit : widthOf p ≤ width) (hne : words ws p ≠ []) :
    wrapParagraph ws width p = [[Grapheme.space].intercalate (words ws p)] := by
  have hj := joinedWidth_le (ws := ws) hg
  unfold wrapParagraph
  rw [if_neg (by intro he; simp at he; subst he; exact hne rfl)]
  cases hw : words ws p with
  | nil => exact absurd hw hne
  | cons w rest =>
    rw [hw] at hj
    have hwne := (words_mem (show w ∈ words ws p by rw [hw]; simp)).1
    have hww : widthOf w ≤ width ∧ (rest ≠ [] → widthOf w + 1 + joinedWidth rest ≤ width) := by
      cases rest with
      | nil => simp [joinedWidth] at hj; exact ⟨by omega, by simp⟩
      | cons a b => simp only [joinedWidth] at hj ⊢; exact ⟨by omega, fun _ => by omega⟩
    unfold wrapWords
    have hs := (startLine_spec width hwne).2.2.2.1 hww.1
    simp only [List.isEmpty_nil, if_true, hs, List.nil_append]
    exact wrapWords_one width rest w _ rfl hwne hww.2

/-- C136 is false for blank lines: a line of spaces between two lines vanishes (an empty line stays). -/
theorem wrap_blank_counterexample :
    wordWrap blank (ascii "a\n \nb") 5 = [ascii "a", ascii "b"] ∧
    wordWrap blank (ascii "a\n\nb") 5 = [ascii "a", [], ascii "b"] := by decide +kernel

example : wordWrap blank (ascii "red green blue") 10 = [ascii "red green", ascii "blue"] ∧
    (∀ w ∈ words blank (ascii "red green blue"), widthOf w ≤ 10) ∧
    (∀ g ∈ ascii "red green blue", g.text ≠ "\n" ∧ 1 ≤ g.width ∧ g.width ≤ 10) := by decide +kernel

example : wordWrap blank (ascii "a transparent one") 6 = [ascii "a", ascii "transp", ascii "arent", ascii "one"] := by
  decide +kernel

/-! ### Drawing (C137) -/

theorem wrapWords_mem (width : Nat) {Q : Grapheme → Prop} (hq : Q Grapheme.space) :
    ∀ (wds : List (List Grapheme)) (cur : List Grapheme) (curW : Nat), (∀ g ∈ cur, Q g) →
    (∀ w ∈ wds, w ≠ [] ∧ ∀ g ∈ w, Q g) → ∀ l ∈ wrapWords width cur curW wds, ∀ g ∈ l, Q g
  | [], cur, curW, h, _ => by
    unfold wrapWords
    cases cur with
    | nil => simp
    | cons a b => simpa using h
  | word :: rest, cur, curW, h, hw => by
    have hw1 := hw word (by simp)
    have hr : ∀ w ∈ rest, w ≠ [] ∧ ∀ g ∈ w, Q g := fun w hw' => hw w (by simp [hw'])
    have hs := startLine_spec width hw1.1
    have hin : ∀ g, g ∈ (startLine width word).1.flatten ++ (startLine width word).2.1 → Q g := by
      rw [hs.1]; exact hw1.2
    have key : ∀ l ∈ (startLine width word).1 ++ wrapWords width (startLine width word).2.1
        (startLine width word).2.2 rest, ∀ g ∈ l, Q g := by
      intro l hl g hg
      rcases List.mem_append.1 hl with hl | hl
      · exact hin g (List.mem_append_left _ (List.mem_flatten_of_mem hl hg))
      · exact wrapWords_mem width hq rest _ _ (fun g hg => hin g (List.mem_append_right _ hg)) hr l hl g hg
    unfold wrapWords
    split
    · exact key
    · split
      · refine wrapWords_mem width hq rest _ _ ?_ hr
        intro g hg
        simp only [List.mem_append, List.mem_cons] at hg
        rcases hg with hg | rfl | hg
        · exact h g hg
        · exact hq
        · exact hw1.2 g hg
      · intro l hl
        rcases List.mem_cons.1 hl with rfl | hl
        · exact h
        · exact key l hl

theorem splitLines_plain : ∀ (n : Nat) (t : List Grapheme), t.length ≤ n →
    ∀ l ∈ splitLines t, ∀ g ∈ l, g.text ≠ "\n"
  | 0, t, h => by
    have : t = [] := by simpa using h
    subst this
    simp [splitLines]
  | n + 1, t, h => by
    rcases splitLines_decomp t with ⟨hn, e⟩ | ⟨line, nl, t', e, -, hn, e2⟩
    · rw [e]; simpa using hn
    · rw [e2]
      intro l hl
      rcases List.mem_cons.1 hl with rfl | hl
      · exact hn
      · exact splitLines_plain n t' (by rw [e] at h; simp at h; omega) l hl

/-- Lines of wrapped text, whose characters all take at least one column. -/
theorem wordWrap_wide (ws : Grapheme → Bool) (width : Nat) {text : List Grapheme}
    (hg : ∀ g ∈ text, g.text ≠ "\n" → 1 ≤ g.width) :
    ∀ l ∈ wordWrap ws text width, ∀ g ∈ l, 1 ≤ g.width := by
  intro l hl
  unfold wordWrap at hl
  obtain ⟨p, hp, hl⟩ := List.mem_flatMap.1 hl
  unfold wrapParagraph at hl
  split at hl
  · simp only [List.mem_singleton] at hl
    subst hl
    simp
  · refine wrapWords_mem _ (by decide) _ [] 0 (by simp) ?_ l hl
    intro w hw
    refine ⟨(words_mem hw).1, fun g hg' => ?_⟩
    have hgp := ((words_mem hw).2 g hg').2
    exact hg g (splitLines_mem text p hp g hgp) (splitLines_plain _ text (Nat.le_refl _) p hp g hgp)

theorem wordWrap_fits (ws : Grapheme → Bool) (width : Nat) (hw : 1 ≤ width) {text : List Grapheme}
    (hg : ∀ g ∈ text, g.text ≠ "\n" → g.width ≤ width) :
    ∀ l ∈ wordWrap ws text width, widthOf l ≤ width := by
  intro l hl
  unfold wordWrap at hl
  rw [Nat.max_eq_left hw] at hl
  obtain ⟨p, hp, hl⟩ := List.mem_flatMap.1 hl
  unfold wrapParagraph at hl
  split at hl
  · simp only [List.mem_singleton] at hl
    subst hl
    exact Nat.zero_le _
  · refine wrapWords_fits width _ [] 0 rfl (Nat.zero_le _) ?_ l hl
    intro w hw
    refine ⟨(words_mem hw).1, fun g hg' => ?_⟩
    have hgp := ((words_mem hw).2 g hg').2
    exact hg g (splitLines_mem text p hp g hgp) (splitLines_plain _ text (Nat.le_refl _) p hp g hgp)

theorem le_blockWidth {lines : List (List Grapheme)} {l : List Grapheme} (h : l ∈ lines) : widthOf l ≤ blockWidth lines := by
  unfold blockWidth
  induction lines with
  | nil => simp at h
  | cons a rest ih =>
    simp only [List.map_cons, List.foldr_cons]
    rcases List.mem_cons.1 h with rfl | h
    · exact Nat.le_max_left _ _
    · exact Nat.le_trans (ih h) (Nat.le_max_right _ _)

theorem blockWidth_le {lines : List (List Grapheme)} {W : Nat} (h : ∀ l ∈ lines, widthOf l ≤ W) : blockWidth lines ≤ W := by
  unfold blockWidth
  induction lines with
  | nil => simp
  | cons a rest ih =>
    simp only [List.map_cons, List.foldr_cons]
    exact Nat.max_le.2 ⟨h a (by simp), ih (fun l hl => h l (by simp [hl]))⟩

theorem half (a : Int) (h : 0 ≤ a) : 2 * a.tdiv 2 ≤ a ∧ a ≤ 2 * a.tdiv 2 + 1 ∧ 0 ≤ a.tdiv 2 := by
  rw [Int.tdiv_eq_ediv_of_nonneg h]
  omega

/-- The content area of a placeholder: its columns and rows without the padding. -/
def areaWidth (p : Placeholder) (r : Region) : Int := r.width - p.padLeft - p.padRight

/-- See `areaWidth`. -/
def areaHeight (p : Placeholder) (r : Region) : Int := r.height - p.padTop - p.padBottom

/-- Text drawn in a block that is inside the area stays inside. -/
theorem block_only {r : Region} {x y : Int} {fg bg : RgbaColor} {lines : List (List Grapheme)} {c : Canvas}
    (hl : c.cells.length = c.w * c.h) (hone : ∀ l ∈ lines, ∀ g ∈ l, 1 ≤ g.width)
    (hx : r.x ≤ x) (hx2 : x + blockWidth lines ≤ r.x + r.width)
    (hy : r.y ≤ y) (hy2 : y + lines.length ≤ r.y + r.height) :
    ∃ c', drawAll c (drawLines x y fg bg lines) = some c' ∧ OnlyCells (Within r) c c' := by
  obtain ⟨c', h, o⟩ := drawLines_only x fg bg (blockWidth lines) lines y c hl
    (fun l hl => ⟨le_blockWidth hl, hone l hl⟩)
  refine ⟨c', h, o.weaken ?_⟩
  rintro X Y ⟨h1, h2, h3, h4⟩
  unfold Within
  omega

/-- C137: a placeholder changes no cell outside its area, if its text has room: its automatic height for
a label, a content area of 3 x 3 for the filler text, the width of the text for the size; no character is
wider than the content area. -/
theorem inside_partial (p : Placeholder) (ws : Grapheme → Bool) (lorem : List Grapheme) (r : Region) (c : Canvas)
    (hl : c.cells.length = c.w * c.h)
    (hdef : p.variant = .default → (intrinsicHeight p ws lorem r.width.toNat : Int) ≤ r.height)
    (htext : p.variant = .text → 3 ≤ areaWidth p r ∧ 3 ≤ areaHeight p r)
    (hsize : p.variant = .size → widthOf (sizeText r) ≤ areaWidth p r)
    (hone : ∀ g ∈ content p lorem r, g.text ≠ "\n" → 1 ≤ g.width)
    (hfit : ∀ g ∈ content p lorem r, g.text ≠ "\n" →
      (g.width : Int) ≤ areaWidth p r - (if p.variant = .text then 2 else 0)) :
    ∃ c', drawAll c (render p ws lorem r) = some c' ∧ OnlyCells (Within r) c c' := by
  unfold render
  split
  · exact ⟨c, rfl, .refl c⟩
  split
  · exact ⟨c, rfl, .refl c⟩
  rename_i hh hr
  obtain ⟨c1, h1, o1⟩ := fill_only r (background p) c hl
  have hl1 : c1.cells.length = c1.w * c1.h := by rw [o1.len, o1.w, o1.h, hl]
  simp only [drawAll_append, h1, Option.bind_some]
  split
  · exact ⟨c1, rfl, o1⟩
  rename_i hwh
  have harea : max (r.width - p.padLeft - p.padRight) 0 = areaWidth p r := by unfold areaWidth; omega
  have harea2 : max (r.height - p.padTop - p.padBottom) 0 = areaHeight p r := by unfold areaHeight; omega
  rw [harea, harea2] at hwh ⊢
  have hW : areaWidth p r = r.width - p.padLeft - p.padRight := rfl
  have hH : areaHeight p r = r.height - p.padTop - p.padBottom := rfl
  suffices hs : ∃ c', drawAll c1 (texts p ws lorem r (r.x + p.padLeft) (r.y + p.padTop) (areaWidth p r) (areaHeight p r)) = some c' ∧
      OnlyCells (Within r) c1 c' by
    obtain ⟨c2, h2, o2⟩ := hs
    exact ⟨c2, h2, o1.trans o2⟩
  generalize areaWidth p r = W at *
  generalize areaHeight p r = H at *
  unfold texts
  cases hv : p.variant with
  | default =>
    simp only
    have hone' := wordWrap_wide ws (max W 1).toNat hone
    have hfit' := wordWrap_fits ws (max W 1).toNat (by omega) (text := content p lorem r) (by
      intro g hg hn
      have := hfit g hg hn
      rw [hv] at this
      simp at this
      omega)
    have hb := blockWidth_le hfit'
    have hint := hdef hv
    have hcont : content p lorem ⟨0, 0, 0, 0⟩ = content p lorem r := by unfold content; rw [hv]
    have hWe : (max W 1).toNat = max (r.width.toNat - (p.padLeft + p.padRight)) 1 := by omega
    unfold intrinsicHeight at hint
    rw [hcont] at hint
    simp only [← hWe] at hint
    generalize wordWrap ws (content p lorem r) (max W 1).toNat = lines at *
    have t1 := half (((max W 1).toNat : Int) - blockWidth lines) (by omega)
    have t2 := half (H - lines.length) (by omega)
    apply block_only hl1 hone' <;> omega
  | text =>
    simp only
    obtain ⟨h3, h4⟩ := htext hv
    have hone' := wordWrap_wide ws (max (W - 2) 1).toNat hone
    have hfit' := wordWrap_fits ws (max (W - 2) 1).toNat (by omega) (text := content p lorem r) (by
      intro g hg hn
      have := hfit g hg hn
      rw [hv] at this
      simp at this
      omega)
    generalize wordWrap ws (content p lorem r) (max (W - 2) 1).toNat = lines at *
    have hb := blockWidth_le (lines := lines.take (max (H - 2) 1).toNat) (fun l hl => hfit' l (List.mem_of_mem_take hl))
    have hlen : (lines.take (max (H - 2) 1).toNat).length ≤ (max (H - 2) 1).toNat := by simp
    have hone2 : ∀ l ∈ lines.take (max (H - 2) 1).toNat, ∀ g ∈ l, 1 ≤ g.width := fun l hl => hone' l (List.mem_of_mem_take hl)
    generalize lines.take (max (H - 2) 1).toNat = shown at *
    have t1 := half (((max (W - 2) 1).toNat : Int) - blockWidth shown) (by omega)
    have t2 := half (((max (H - 2) 1).toNat : Int) - shown.length) (by omega)
    apply block_only hl1 hone2 <;> omega
  | size =>
    simp only
    have hs := hsize hv
    have hc : content p lorem r = sizeText r := by unfold content; rw [hv]
    rw [hc]
    obtain ⟨c2, h2, o2⟩ := putStr_range c1 hl1 (r.x + p.padLeft + (max (W - widthOf (sizeText r)) 0).tdiv 2)
      (r.y + p.padTop + (H - 1).tdiv 2) (sizeText r) (some (textColor p)) (some (background p)) { bold := true } (by
        intro g hg
        unfold sizeText ascii at hg
        obtain ⟨ch, -, rfl⟩ := List.mem_map.1 hg
        exact Nat.le_refl 1)
    refine ⟨c2, by simp only [drawAll, Canvas.draw, h2, Option.bind_some], o2.weaken ?_⟩
    rintro X Y ⟨h3, h4, h5⟩
    have t1 := half (max (W - widthOf (sizeText r)) 0) (by omega)
    have t2 := half (H - 1) (by omega)
    unfold Within
    omega

/-- C137: a label in a visible area of at least its automatic height is drawn whole: every character of
every line is on the screen, in the text colour, and the block of lines is in the middle of the content
area (but for an odd cell, which is right of it and below it). -/
theorem label_shown_partial (p : Placeholder) (ws : Grapheme → Bool) (lorem : List Grapheme) (r : Region) (c : Canvas)
    (hl : c.cells.length = c.w * c.h) (hv : p.variant = .default) (hh : p.style.hidden = false)
    (hx : 0 ≤ r.x) (hy : 0 ≤ r.y)
    (hvis : ∀ X Y : Nat, Within r X Y → X < c.w ∧ Y < c.h ∧ Within c.currentClip X Y)
    (hw : 1 ≤ areaWidth p r) (hht : (intrinsicHeight p ws lorem r.width.toNat : Int) ≤ r.height)
    (hone : ∀ g ∈ content p lorem r, g.text ≠ "\n" → 1 ≤ g.width)
    (hfit : ∀ g ∈ content p lorem r, g.text ≠ "\n" → (g.width : Int) ≤ areaWidth p r) :
    ∃ (c' : Canvas) (x y : Nat), drawAll c (render p ws lorem r) = some c' ∧
      (∀ i line pre g post, (wordWrap ws (content p lorem r) (areaWidth p r).toNat)[i]? = some line →
        line = pre ++ g :: post →
        ∃ cell, c'.cells[(y + i) * c.w + (x + widthOf pre)]? = some cell ∧ cell.symbol = g.text ∧
          cell.width = g.width ∧ cell.continuation = false ∧ cell.attrs = {} ∧
          cell.fg = some (toCrosstermColor (textColor p))) ∧
      (let lines := wordWrap ws (content p lorem r) (areaWidth p r).toNat
       let left := (x : Int) - (r.x + p.padLeft)
       let right := r.x + r.width - p.padRight - (x + blockWidth lines)
       let above := (y : Int) - (r.y + p.padTop)
       let below := r.y + r.height - p.padBottom - (y + lines.length)
       0 ≤ left ∧ left ≤ right ∧ right ≤ left + 1 ∧ 0 ≤ above ∧ above ≤ below ∧ below ≤ above + 1) := by
  have hW : areaWidth p r = r.width - p.padLeft - p.padRight := rfl
  have hH : areaHeight p r = r.height - p.padTop - p.padBottom := rfl
  have hcont : content p lorem ⟨0, 0, 0, 0⟩ = content p lorem r := by unfold content; rw [hv]
  have hone' := wordWrap_wide ws (areaWidth p r).toNat hone
  have hfit' := wordWrap_fits ws (areaWidth p r).toNat (by omega) (text := content p lorem r) (by
    intro g hg hn
    have := hfit g hg hn
    omega)
  have hb := blockWidth_le hfit'
  unfold intrinsicHeight at hht
  rw [hcont] at hht
  have hWe : max (r.width.toNat - (p.padLeft + p.padRight)) 1 = (areaWidth p r).toNat := by omega
  simp only [hWe] at hht
  have hmax : (max (areaWidth p r) 1).toNat = (areaWidth p r).toNat := by omega
  unfold render
  rw [if_neg (by simp [hh]), if_neg (by omega)]
  have harea : max (r.width - p.padLeft - p.padRight) 0 = areaWidth p r := by unfold areaWidth; omega
  have harea2 : max (r.height - p.padTop - p.padBottom) 0 = areaHeight p r := by unfold areaHeight; omega
  simp only [harea, harea2]
  rw [if_neg (by omega)]
  unfold texts
  rw [hv]
  simp only [hmax]
  generalize areaWidth p r = W at *
  generalize areaHeight p r = H at *
  generalize wordWrap ws (content p lorem r) W.toNat = lines at *
  have t1 := half ((W.toNat : Int) - blockWidth lines) (by omega)
  have t2 := half (H - lines.length) (by omega)
  obtain ⟨x, hxe⟩ : ∃ x : Nat, r.x + p.padLeft + max (((W.toNat : Int) - blockWidth lines).tdiv 2) 0 = x :=
    ⟨(r.x + p.padLeft + max (((W.toNat : Int) - blockWidth lines).tdiv 2) 0).toNat, by omega⟩
  obtain ⟨y, hye⟩ : ∃ y : Nat, r.y + p.padTop + max ((H - lines.length).tdiv 2) 0 = y :=
    ⟨(r.y + p.padTop + max ((H - lines.length).tdiv 2) 0).toNat, by omega⟩
  rw [hxe, hye]
  obtain ⟨c1, h1, o1⟩ := fill_only r (background p) c hl
  have hl1 : c1.cells.length = c1.w * c1.h := by rw [o1.len, o1.w, o1.h, hl]
  obtain ⟨c2, h2, o2⟩ := block_only (r := r) (x := x) (y := y) (fg := textColor p) (bg := background p) hl1 hone'
    (by omega) (by omega) (by omega) (by omega)
  refine ⟨c2, x, y, by simp only [drawAll_append, h1, Option.bind_some, h2], ?_, by omega⟩
  intro i line pre g post hi he
  have hmem : line ∈ lines := List.mem_of_getElem? hi
  have hil : i < lines.length := (List.getElem?_eq_some_iff.1 hi).1
  have hlw : widthOf line ≤ blockWidth lines := le_blockWidth hmem
  have hlw2 : widthOf line = widthOf pre + (g.width + widthOf post) := by rw [he, widthOf_append, widthOf_cons]
  have hg1 : 1 ≤ g.width := hone' line hmem g (by rw [he]; simp)
  have v1 := hvis (x + widthOf pre) (y + i) (by unfold Within; omega)
  have v2 := hvis (x + widthOf pre + g.width - 1) (y + i) (by unfold Within; omega)
  have v1' := v1.2.2
  have v2' := v2.2.2
  unfold Within at v2'
  obtain ⟨old, ho⟩ := drawLines_shows x (textColor p) (background p) c.currentClip lines y c1 c2 hl1 o1.currentClip
    hone' h2 i line pre post g (x + widthOf pre) (y + i) hi he (by omega) (by omega) (by rw [o1.h]; exact v1.2.1)
    (by rw [o1.w]; omega) v1.2.2 (by omega)
  rw [o1.w] at ho
  refine ⟨_, ho, ?_⟩
  have hp : preserveText g (some (toCrosstermColor (textColor p))) (some (background p)) {} = false := by
    simp [preserveText]
  simp [leadCell, hp]

/-- C137: at its automatic width no line of the text is broken: each is its words with one space between
two of them. -/
theorem auto_width_unbroken (p : Placeholder) (ws : Grapheme → Bool) (lorem : List Grapheme)
    (hone : ∀ g ∈ content p lorem ⟨0, 0, 0, 0⟩, g.text ≠ "\n" → 1 ≤ g.width)
    (l : List Grapheme) (hl : l ∈ splitLines (content p lorem ⟨0, 0, 0, 0⟩)) (hne : words ws l ≠ []) :
    wrapParagraph ws (max ((desiredSize p lorem).1 - (p.padLeft + p.padRight)) 1) l =
      [[Grapheme.space].intercalate (words ws l)] := by
  apply wrap_unbroken
  · intro g hg
    exact hone g (splitLines_mem _ l hl g hg) (splitLines_plain _ _ (Nat.le_refl _) l hl g hg)
  · have hmem : l ∈ desiredLines (content p lorem ⟨0, 0, 0, 0⟩) := by
      unfold desiredLines
      split
      · rename_i he
        have hdec := List.dropLast_append_getLast? [] he
        rw [← hdec] at hl
        rcases List.mem_append.1 hl with hl | hl
        · exact hl
        · simp only [List.mem_singleton] at hl
          subst hl
          exact absurd rfl hne
      · exact hl
    have := le_blockWidth hmem
    unfold desiredSize
    simp only
    omega
  · exact hne

example : desiredSize { label := some (ascii "two  words\nthree"), padLeft := 2 } [] = (12, 2) ∧
    wordWrap blank (ascii "two  words\nthree") 10 = [ascii "two words", ascii "three"] := by decide +kernel

/-- A canvas of the given size. -/
def canvas (w h : Nat) : Canvas :=
  { w, h, cells := List.replicate (w * h) Cell.blank, prev := List.replicate (w * h) Cell.blank,
    firstFlush := true, clips := [] }

/-- Rows of symbols. -/
def symbols (c : Option Canvas) : List String := (c.map fun c => c.cells.map (·.symbol)).getD []

/-- A label in an area of 7 x 3 cells with a padding of one cell. -/
def sample : Placeholder := { label := some (ascii "ab cd"), padLeft := 1, padTop := 1 }

example : areaWidth sample ⟨0, 0, 7, 3⟩ = 6 ∧ intrinsicHeight sample blank [] 7 = 2 ∧
    (∀ g ∈ content sample [] ⟨0, 0, 7, 3⟩, 1 ≤ g.width ∧ g.width ≤ 6) ∧
    symbols (drawAll (canvas 7 3) (render sample blank [] ⟨0, 0, 7, 3⟩)) =
      [" ", " ", " ", " ", " ", " ", " ", " ", "a", "b", " ", "c", "d", " ", " ", " ", " ", " ", " ", " ", " "] := by
  decide +kernel

/-- C137 is false for a label of more lines than the area has: it is drawn over the row below ... -/
theorem below_counterexample :
    let p : Placeholder := { label := some (ascii "ab cd") }
    symbols (drawAll (canvas 3 2) (render p blank [] ⟨0, 0, 3, 1⟩)) = ["a", "b", " ", "c", "d", " "] := by
  decide +kernel

/-- ... for the size, which is drawn over the columns right of a narrow area ... -/
theorem right_counterexample :
    let p : Placeholder := { variant := .size }
    symbols (drawAll (canvas 6 1) (render p blank [] ⟨0, 0, 3, 1⟩)) = ["3", " ", "x", " ", "1", " "] := by
  decide +kernel

/-- ... and for the filler text in an area of one cell, which is drawn diagonally below it. -/
theorem text_counterexample :
    let p : Placeholder := { variant := .text }
    symbols (drawAll (canvas 2 2) (render p blank (ascii "Lorem") ⟨0, 0, 1, 1⟩)) = [" ", " ", " ", "L"] := by
  decide +kernel

/-- The automatic height does not count the margin the filler text is drawn with: a text of nine
lines gets nine rows, and the last paragraph is cut off. -/
theorem text_height_counterexample :
    let p : Placeholder := { variant := .text }
    intrinsicHeight p blank (ascii "L") 3 = 9 ∧
    symbols (drawAll (canvas 3 9) (render p blank (ascii "L") ⟨0, 0, 3, 9⟩)) =
      [" ", " ", " ", " ", "L", " ", " ", " ", " ", " ", "L", " ", " ", " ", " ", " ", "L", " ", " ", " ", " ", " ", "L", " ", " ", " ", " "] := by
  decide +kernel

/-! ### Backgrounds (C138) -/

theorem drawLines_calls (x : Int) (fg bg : RgbaColor) : ∀ (lines : List (List Grapheme)) (y : Int),
    ∀ d ∈ drawLines x y fg bg lines, ∃ x y s fg a, d = Draw.str x y s fg (some bg) a
  | [], y => by simp [drawLines]
  | l :: ls, y => by
    intro d hd
    unfold drawLines at hd
    rcases List.mem_cons.1 hd with rfl | hd
    · exact ⟨_, _, _, _, _, rfl⟩
    · exact drawLines_calls x fg bg ls (y + 1) d hd

/-- C138: if the background is opaque, every visible cell of the area has it, under the text and around
it; for every variant, text, size and canvas. -/
theorem background_even_partial (p : Placeholder) (ws : Grapheme → Bool) (lorem : List Grapheme) (r : Region)
    (c : Canvas) (hl : c.cells.length = c.w * c.h) (hh : p.style.hidden = false) (hb : 1 ≤ (background p).a)
    (X Y : Nat) (hr : Within r X Y) (hX : X < c.w) (hY : Y < c.h) (hc : Within c.currentClip X Y) :
    ∃ c' cell, drawAll c (render p ws lorem r) = some c' ∧ c'.cells[Y * c.w + X]? = some cell ∧
      cell.bg = some (toCrosstermRgb (background p)) := by
  have hr' := hr
  unfold Within at hr'
  unfold render
  rw [if_neg (by simp [hh]), if_neg (by omega)]
  simp only
  obtain ⟨c1, h1, o1⟩ := fill_only r (background p) c hl
  have hl1 : c1.cells.length = c1.w * c1.h := by rw [o1.len, o1.w, o1.h, hl]
  obtain ⟨cell, hcell, hcb⟩ := fill_bg hb hl h1 hr hX hY hc
  simp only [drawAll_append, h1, Option.bind_some]
  split
  · exact ⟨c1, cell, rfl, hcell, hcb⟩
  · generalize hds : texts p ws lorem r (r.x + p.padLeft) (r.y + p.padTop) (max (r.width - p.padLeft - p.padRight) 0)
      (max (r.height - p.padTop - p.padBottom) 0) = ds
    obtain ⟨c2, h2, o2⟩ := drawAll_only (P := fun _ _ => True) ds c1 hl1 (by
      intro d hd c hl
      obtain ⟨c', h, o⟩ := draw_spec c hl d
      exact ⟨c', h, o.weaken fun _ _ _ => trivial⟩)
    have hall : ∀ d ∈ ds, (∃ x y g fg a, d = .char x y g fg (some (background p)) a) ∨
        ∃ x y s fg a, d = .str x y s fg (some (background p)) a := by
      intro d hd
      right
      rw [← hds] at hd
      unfold texts at hd
      cases hv : p.variant with
      | default => rw [hv] at hd; exact drawLines_calls _ _ _ _ _ d hd
      | text => rw [hv] at hd; exact drawLines_calls _ _ _ _ _ d hd
      | size =>
        rw [hv] at hd
        simp only [List.mem_singleton] at hd
        subst hd
        exact ⟨_, _, _, _, _, rfl⟩
    obtain ⟨cell', hc', hb'⟩ := drawAll_bg hb ds c1 c2 hall h2 _ _ hcell hcb
    exact ⟨c2, cell', h2, hc', hb'⟩

/-- The backgrounds of the cells. -/
def backgrounds (c : Option Canvas) : List (Option Rgb) := (c.map fun c => c.cells.map (·.bg)).getD []

example :
    let p : Placeholder := { label := some (ascii "a"), style := { inheritedBackground := some (RgbaColor.rgb 0 0 0) } }
    1 ≤ (background p).a ∧
    backgrounds (drawAll (canvas 3 1) (render p blank [] ⟨0, 0, 3, 1⟩)) = List.replicate 3 (some ⟨68, 8, 59⟩) := by
  decide +kernel

/-- C138 is false for translucent backgrounds, which are painted twice under the text: the palette colour
if nothing behind the widget has a background, or `background: red 50%`. -/
theorem background_counterexample :
    let p : Placeholder := { label := some (ascii "a") }
    let q : Placeholder := { p with style := { background := some (RgbaColor.rgba 255 0 0 (1 / 2)), inheritedBackground := some (RgbaColor.rgb 0 0 255) } }
    backgrounds (drawAll (canvas 3 1) (render p blank [] ⟨0, 0, 3, 1⟩)) =
      [some ⟨68, 8, 59⟩, some ⟨102, 12, 89⟩, some ⟨68, 8, 59⟩] ∧
    backgrounds (drawAll (canvas 3 1) (render q blank [] ⟨0, 0, 3, 1⟩)) =
      [some ⟨127, 0, 0⟩, some ⟨191, 0, 0⟩, some ⟨127, 0, 0⟩] := by
  decide +kernel

/-! ### Colours and clicks (C139) -/

theorem newMany_spec : ∀ (n counter : Nat), (newMany n counter).2 = counter + n ∧
    (newMany n counter).1.length = n ∧
    ∀ (i : Nat) (p : Placeholder), (newMany n counter).1[i]? = some p → p = { paletteIndex := (counter + i) % 12 }
  | 0, counter => by simp [newMany]
  | n + 1, counter => by
    obtain ⟨h1, h2, h3⟩ := newMany_spec n (counter + 1)
    simp only [newMany, new]
    refine ⟨by rw [h1]; omega, by simp [h2], ?_⟩
    intro i p hp
    cases i with
    | zero =>
      simp only [List.getElem?_cons_zero, Option.some.injEq] at hp
      exact hp.symm
    | succ i =>
      simp only [List.getElem?_cons_succ] at hp
      rw [h3 i p hp]
      congr 2
      omega

theorem palette_distinct : ∀ i < 12, ∀ j < 12,
    background { paletteIndex := i } = background { paletteIndex := j } → i = j := by decide +kernel

/-- C139: of the placeholders a program creates, two have the same colour just if their places in the
order of creation differ by a multiple of twelve. -/
theorem colors_cycle (n counter i j : Nat) (p q : Placeholder)
    (hp : (newMany n counter).1[i]? = some p) (hq : (newMany n counter).1[j]? = some q) :
    background p = background q ↔ i % 12 = j % 12 := by
  rw [(newMany_spec n counter).2.2 i p hp, (newMany_spec n counter).2.2 j q hq]
  constructor
  · intro h
    have := palette_distinct _ (Nat.mod_lt _ (by decide)) _ (Nat.mod_lt _ (by decide)) h
    omega
  · intro h
    have : (counter + i) % 12 = (counter + j) % 12 := by omega
    rw [this]

example : ((newMany 14 0).1[1]?.map background) = ((newMany 14 0).1[13]?.map background) ∧
    ((newMany 14 0).1[1]?.map background) ≠ ((newMany 14 0).1[2]?.map background) := by decide +kernel

/-- When a screen with `n` placeholders is built again, they keep their colours just if `n` is a multiple
of twelve, ... -/
theorem rebuilt_colors (n counter i : Nat) (p q : Placeholder) (hp : (newMany n counter).1[i]? = some p)
    (hq : (newMany n (newMany n counter).2).1[i]? = some q) : background p = background q ↔ 12 ∣ n := by
  rw [(newMany_spec n counter).2.2 i p hp, (newMany_spec n _).2.2 i q hq, (newMany_spec n counter).1]
  constructor
  · intro h
    have := palette_distinct _ (Nat.mod_lt _ (by decide)) _ (Nat.mod_lt _ (by decide)) h
    omega
  · intro h
    have : (counter + i) % 12 = (counter + n + i) % 12 := by omega
    rw [this]

/-- ... so C139 is false for the colours: one placeholder changes from purple to maroon. -/
theorem rebuilt_counterexample :
    (newMany 1 0).1.map background = [RgbaColor.rgba 136 17 119 (1 / 2)] ∧
    (newMany 1 (newMany 1 0).2).1.map background = [RgbaColor.rgba 170 51 85 (1 / 2)] := by decide +kernel

/-- A press inside the area. -/
def Pressed (e : Mouse × Region) : Prop :=
  e.1.down = true ∧ e.2.x ≤ e.1.column ∧ (e.1.column : Int) < e.2.x + e.2.width ∧
    e.2.y ≤ e.1.row ∧ (e.1.row : Int) < e.2.y + e.2.height

instance (e : Mouse × Region) : Decidable (Pressed e) := by unfold Pressed; infer_instance

/-- C139: after any history of mouse events the variant has moved on by one for every press inside the
area, and nothing else of what is shown has changed. -/
theorem clicks_cycle (p : Placeholder) (es : List (Mouse × Region)) :
    let q := es.foldl (fun p e => onMouse p e.1 e.2) p
    q.variant = Nat.repeat Variant.next (es.countP fun e => decide (Pressed e)) p.variant ∧
    q.label = p.label ∧ q.id = p.id ∧ q.paletteIndex = p.paletteIndex ∧ q.style = p.style ∧
    (q.variant ≠ p.variant → q.dirty = true) := by
  induction es using List.reverseRecOn with
  | nil => simp [Nat.repeat]
  | append_singleton es e ih =>
    simp only [List.foldl_append, List.foldl_cons, List.foldl_nil, List.countP_append, List.countP_cons, List.countP_nil] at ih ⊢
    obtain ⟨h1, h2, h3, h4, h5, h6⟩ := ih
    generalize es.foldl (fun p e => onMouse p e.1 e.2) p = q at *
    have he : onMouse q e.1 e.2 = if Pressed e then { q with variant := q.variant.next, dirty := true } else q := rfl
    rw [he]
    by_cases hp : Pressed e
    · rw [if_pos hp]
      simp only [hp, decide_true, if_true, Nat.zero_add, Nat.repeat, h1, h2, h3, h4, h5, true_and, implies_true]
    · rw [if_neg hp]
      simp only [hp, decide_false, Bool.false_eq_true, if_false, Nat.add_zero, Nat.zero_add]
      exact ⟨h1, h2, h3, h4, h5, h6⟩

example : Pressed (⟨true, 4, 2⟩, ⟨3, 2, 5, 1⟩) ∧ ¬ Pressed (⟨true, 4, 3⟩, ⟨3, 2, 5, 1⟩) ∧
    (onMouse {} ⟨true, 4, 2⟩ ⟨3, 2, 5, 1⟩).variant = .size := by decide

/-- C139: presses go around all three variants, beginning with the label: label, size, text. -/
theorem variants_cycle (n : Nat) :
    Nat.repeat Variant.next n .default = (if n % 3 = 0 then .default else if n % 3 = 1 then .size else .text) := by
  induction n with
  | zero => rfl
  | succ n ih =>
    rw [Nat.repeat, ih]
    have h3 : n % 3 < 3 := Nat.mod_lt _ (by omega)
    rcases (show n % 3 = 0 ∨ n % 3 = 1 ∨ n % 3 = 2 by omega) with h | h | h
    · rw [h, show (n + 1) % 3 = 1 by omega]; rfl
    · rw [h, show (n + 1) % 3 = 2 by omega]; rfl
    · rw [h, show (n + 1) % 3 = 0 by omega]; rfl

/-- C137: a hidden placeholder draws nothing. -/
theorem hidden_draws_nothing (p : Placeholder) (ws : Grapheme → Bool) (lorem : List Grapheme) (r : Region) (c : Canvas)
    (h : p.style.hidden = true) : drawAll c (render p ws lorem r) = some c := by
  unfold render
  rw [if_pos h]
  rfl

/-- C137: what the label says: the text given, else the id after a hash sign, else "Placeholder"; in the second
variant the size of the area, in the third five times the sample text, with an empty line in between. -/
theorem label_text (p : Placeholder) (lorem : List Grapheme) (r : Region) :
    (p.variant = .default → ∀ l, p.label = some l → content p lorem r = l) ∧
    (p.variant = .default → p.label = none → ∀ i, p.id = some i → content p lorem r = ascii "#" ++ i) ∧
    (p.variant = .default → p.label = none → p.id = none → content p lorem r = ascii "Placeholder") ∧
    (p.variant = .size → content p lorem r = ascii s!"{r.width} x {r.height}") ∧
    (p.variant = .text → content p lorem r =
      [⟨"\n", 0⟩, ⟨"\n", 0⟩].intercalate [lorem, lorem, lorem, lorem, lorem]) := by
  refine ⟨?_, ?_, ?_, ?_, ?_⟩
  · intro h l hl; simp [content, h, hl]
  · intro h hl i hi; simp [content, h, hl, hi, ascii]
  · intro h hl hi; simp [content, h, hl, hi]
  · intro h; simp [content, h, sizeText]; rfl
  · intro h; simp [content, h, loremText, List.intercalate, List.intersperse]

/-- C138: the text colour. Unfaded, it is the style's colour, or black or white against the placeholder's background
if the style says `auto` without a strength; wholly faded, it is the colour behind, or is transparent if there is none. -/
theorem text_color (p : Placeholder) :
    (p.style.autoColor = false → ∀ c, p.style.color = some c → p.style.opacity = 1 → textColor p = c) ∧
    (p.style.autoColor = true → p.style.color = none → p.style.opacity = 1 →
      textColor p = if (background p).perceivedBrightness < 1 / 2 then RgbaColor.white else RgbaColor.black) ∧
    (∀ b, p.style.autoColor = true ∨ p.style.color ≠ none → p.style.inheritedBackground = some b →
      p.style.opacity = 0 → textColor p = b) ∧
    (p.style.autoColor = true ∨ p.style.color ≠ none → p.style.inheritedBackground = none →
      p.style.opacity = 0 → (textColor p).a = 0) := by
  have w1 : ∀ c : RgbaColor, c.withOpacity 1 = c := fun c => by simp [RgbaColor.withOpacity]
  have w0 : ∀ c : RgbaColor, (c.withOpacity 0).a = 0 := fun c => by
    rw [RgbaColor.withOpacity, if_neg (by decide)]
    simp [RgbaColor.withAlpha]
  have b1 : ∀ c d : RgbaColor, c.blendToward d 1 = c := fun c d => by simp [RgbaColor.blendToward]
  have b0 : ∀ c d : RgbaColor, c.blendToward d 0 = d := fun c d => by
    rw [RgbaColor.blendToward, if_neg (by decide), if_pos (by decide)]
  unfold textColor foreground
  refine ⟨?_, ?_, ?_, ?_⟩
  · intro h c hc ho
    rw [h, hc, ho]
    cases p.style.inheritedBackground <;> simp [w1, b1]
  · intro h hc ho
    rw [h, hc, ho]
    cases p.style.inheritedBackground <;> simp [w1, b1, RgbaColor.getContrastingColor]
  · intro b h hb ho
    rw [hb, ho]
    cases ha : p.style.autoColor with
    | true => simp [b0]
    | false =>
      cases hc : p.style.color with
      | none => simp [ha, hc] at h
      | some c => simp [b0]
  · intro h hb ho
    rw [hb, ho]
    cases ha : p.style.autoColor with
    | true => simp [w0]
    | false =>
      cases hc : p.style.color with
      | none => simp [ha, hc] at h
      | some c => simp [w0]

example : textColor { style := { autoColor := true, opacity := 1 }, paletteIndex := 4 } = RgbaColor.black := by
  decide +kernel

/-- Half of the palette colour and half of what is behind it, the exact mean rounded down, with the opacity of what is
behind. -/
theorem background_half (p : Placeholder) (bg : RgbaColor) (hp : p.style.background = none)
    (hb : p.style.inheritedBackground = some bg) (hr : bg.r < 256 ∧ bg.g < 256 ∧ bg.b < 256) :
    ∃ r g b, palette.getD p.paletteIndex (0, 0, 0) = (r, g, b) ∧
      (background p).r = (r + bg.r) / 2 ∧ (background p).g = (g + bg.g) / 2 ∧ (background p).b = (b + bg.b) / 2 ∧
      (background p).a = bg.a := by
  have hpal : ∀ i, (palette.getD i (0, 0, 0)).1 < 256 ∧ (palette.getD i (0, 0, 0)).2.1 < 256 ∧
      (palette.getD i (0, 0, 0)).2.2 < 256 := by
    intro i
    by_cases h : i < 12
    · have : ∀ i < 12, (palette.getD i (0, 0, 0)).1 < 256 ∧ (palette.getD i (0, 0, 0)).2.1 < 256 ∧
          (palette.getD i (0, 0, 0)).2.2 < 256 := by decide
      exact this i h
    · rw [List.getD_eq_getElem?_getD, List.getElem?_eq_none (by show 12 ≤ i; omega)]
      decide
  have half : ∀ x y : Nat, x < 256 → y < 256 → RgbaColor.lerpU8 x y (1 / 2) = (y + x) / 2 := by
    intro x y hx hy
    obtain ⟨h1, h2⟩ := RgbaColor.lerpU8_exact hx hy (t := 1 / 2) (by norm_num) (by norm_num)
    have e1 : ((2 * RgbaColor.lerpU8 x y (1 / 2) : Nat) : Rat) ≤ ((x + y : Nat) : Rat) := by push_cast; linarith
    have e2 : ((x + y : Nat) : Rat) < ((2 * RgbaColor.lerpU8 x y (1 / 2) + 2 : Nat) : Rat) := by push_cast; linarith
    have e1' := Nat.cast_le.1 e1
    have e2' := Nat.cast_lt.1 e2
    omega
  obtain ⟨h1, h2, h3⟩ := hpal p.paletteIndex
  refine ⟨_, _, _, rfl, ?_, ?_, ?_, ?_⟩ <;>
    simp only [background, hp, hb, RgbaColor.blendOver] <;>
    rw [if_neg (by simp only [RgbaColor.rgba]; norm_num)] <;>
    simp only [RgbaColor.tint, RgbaColor.rgba]
  · exact half _ _ hr.1 h1
  · exact half _ _ hr.2.1 h2
  · exact half _ _ hr.2.2 h3

example : background { style := { inheritedBackground := some (RgbaColor.rgb 18 18 18) }, paletteIndex := 4 } =
    RgbaColor.rgb 128 119 9 := by decide +kernel

end Textual.Placeholder
