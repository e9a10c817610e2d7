import Verif.Spec.Content
import Verif.Lemmas.Strip
import Mathlib.Tactic.Common

/-! Lemmas about words and plain wrapping. -/

namespace Textual.Content

/-! ### Words -/

theorem wordsLoop_flatten (ws : Grapheme → Bool) : ∀ (line cur : List Grapheme),
    (wordsLoop ws cur line).flatten = cur ++ inked ws line
  | [], cur => by
    unfold wordsLoop inked
    by_cases h : cur = [] <;> simp [h]
  | g :: gs, cur => by
    unfold wordsLoop
    by_cases hw : ws g = true
    · rw [if_pos hw, List.flatten_append, wordsLoop_flatten ws gs []]
      by_cases h : cur = [] <;> simp [h, inked, hw]
    · rw [if_neg hw, wordsLoop_flatten ws gs]
      simp [inked, hw]

theorem words_flatten (ws : Grapheme → Bool) (line : List Grapheme) :
    (words ws line).flatten = inked ws line := wordsLoop_flatten ws line []

theorem wordsLoop_mem (ws : Grapheme → Bool) : ∀ (line cur : List Grapheme), (∀ g ∈ cur, ws g = false) →
    ∀ w ∈ wordsLoop ws cur line, w ≠ [] ∧ ∀ g ∈ w, ws g = false ∧ (g ∈ cur ∨ g ∈ line)
  | [], cur, hc, w, hw => by
    unfold wordsLoop at hw
    split at hw
    · simp at hw
    · rename_i h
      simp only [List.mem_singleton] at hw
      subst hw
      exact ⟨by simpa using h, fun g hg => ⟨hc g hg, Or.inl hg⟩⟩
  | g :: gs, cur, hc, w, hw => by
    unfold wordsLoop at hw
    split at hw
    · rcases List.mem_append.1 hw with hw | hw
      · split at hw
        · simp at hw
        · rename_i h
          simp only [List.mem_singleton] at hw
          subst hw
          exact ⟨by simpa using h, fun g hg => ⟨hc g hg, Or.inl hg⟩⟩
      · obtain ⟨h1, h2⟩ := wordsLoop_mem ws gs [] (by simp) w hw
        refine ⟨h1, fun x hx => ⟨(h2 x hx).1, Or.inr ?_⟩⟩
        rcases (h2 x hx).2 with h | h
        · simp at h
        · exact List.mem_cons_of_mem _ h
    · rename_i hg
      obtain ⟨h1, h2⟩ := wordsLoop_mem ws gs (cur ++ [g]) (by
        intro x hx
        rcases List.mem_append.1 hx with hx | hx
        · exact hc x hx
        · simp only [List.mem_singleton] at hx; subst hx; simpa using hg) w hw
      refine ⟨h1, fun x hx => ⟨(h2 x hx).1, ?_⟩⟩
      rcases (h2 x hx).2 with h | h
      · rcases List.mem_append.1 h with h | h
        · exact Or.inl h
        · simp only [List.mem_singleton] at h; subst h; exact Or.inr (by simp)
      · exact Or.inr (List.mem_cons_of_mem _ h)

theorem words_mem {ws : Grapheme → Bool} {line w : List Grapheme} (h : w ∈ words ws line) :
    w ≠ [] ∧ ∀ g ∈ w, ws g = false ∧ g ∈ line := by
  obtain ⟨h1, h2⟩ := wordsLoop_mem ws line [] (by simp) w h
  refine ⟨h1, fun g hg => ⟨(h2 g hg).1, ?_⟩⟩
  rcases (h2 g hg).2 with h | h
  · simp at h
  · exact h

theorem wordsLoop_word (ws : Grapheme → Bool) : ∀ (w cur rest : List Grapheme), (∀ g ∈ w, ws g = false) →
    wordsLoop ws cur (w ++ rest) = wordsLoop ws (cur ++ w) rest
  | [], cur, rest, _ => by simp
  | g :: w, cur, rest, h => by
    rw [List.cons_append, wordsLoop, if_neg (by rw [h g (by simp)]; simp),
      wordsLoop_word ws w _ rest (fun x hx => h x (by simp [hx]))]
    simp

theorem words_single {ws : Grapheme → Bool} {w : List Grapheme} (hne : w ≠ []) (h : ∀ g ∈ w, ws g = false) :
    words ws w = [w] := by
  have := wordsLoop_word ws w [] [] h
  rw [List.append_nil] at this
  unfold words
  rw [this]
  unfold wordsLoop
  simp [hne]

theorem wordsLoop_gap (ws : Grapheme → Bool) (sp : Grapheme) (hsp : ws sp = true) :
    ∀ (a cur b : List Grapheme), wordsLoop ws cur (a ++ sp :: b) = wordsLoop ws cur a ++ wordsLoop ws [] b
  | [], cur, b => by
    rw [List.nil_append]
    conv_lhs => rw [wordsLoop, if_pos hsp]
    conv_rhs => rw [wordsLoop]
  | g :: a, cur, b => by
    rw [List.cons_append, wordsLoop]
    conv_rhs => rw [wordsLoop]
    split
    · rw [wordsLoop_gap ws sp hsp a [] b, List.append_assoc]
    · rw [wordsLoop_gap ws sp hsp a _ b]

theorem words_gap {ws : Grapheme → Bool} {sp : Grapheme} (hsp : ws sp = true) (a b : List Grapheme) :
    words ws (a ++ sp :: b) = words ws a ++ words ws b := wordsLoop_gap ws sp hsp a [] b

/-! ### Breaking a long word -/

theorem breakLoop_flatten (width : Nat) : ∀ (gs cur : List Grapheme) (curW : Nat),
    (breakLoop width cur curW gs).flatten = cur ++ gs
  | [], cur, curW => by
    unfold breakLoop
    by_cases h : cur = [] <;> simp [h]
  | g :: gs, cur, curW => by
    unfold breakLoop
    split
    · rw [breakLoop_flatten width gs]; simp
    · rw [List.flatten_append, breakLoop_flatten width gs]
      by_cases h : cur = [] <;> simp [h]

theorem breakWord_flatten (width : Nat) (w : List Grapheme) : (breakWord width w).flatten = w :=
  breakLoop_flatten width w [] 0

theorem widthOf_nil : widthOf [] = 0 := rfl

theorem widthOf_cons (g : Grapheme) (gs : List Grapheme) : widthOf (g :: gs) = g.width + widthOf gs := by
  simp [widthOf]

theorem breakLoop_fits (width : Nat) : ∀ (gs cur : List Grapheme) (curW : Nat),
    curW = widthOf cur → curW ≤ width → (∀ g ∈ gs, g.width ≤ width) →
    ∀ l ∈ breakLoop width cur curW gs, l ≠ [] ∧ widthOf l ≤ width
  | [], cur, curW, h1, h2, _, l, hl => by
    unfold breakLoop at hl
    split at hl
    · simp at hl
    · rename_i h
      simp only [List.mem_singleton] at hl; subst hl
      exact ⟨by simpa using h, by omega⟩
  | g :: gs, cur, curW, h1, h2, h3, l, hl => by
    unfold breakLoop at hl
    split at hl
    · rename_i h
      exact breakLoop_fits width gs _ _ (by rw [widthOf_append, widthOf_cons, widthOf_nil]; omega) h
        (fun x hx => h3 x (by simp [hx])) l hl
    · rcases List.mem_append.1 hl with hl | hl
      · split at hl
        · simp at hl
        · rename_i h
          simp only [List.mem_singleton] at hl; subst hl
          exact ⟨by simpa using h, by omega⟩
      · exact breakLoop_fits width gs _ _ (by rw [widthOf_cons, widthOf_nil]; omega) (h3 g (by simp))
          (fun x hx => h3 x (by simp [hx])) l hl

theorem breakLoop_ne_nil (width : Nat) : ∀ (gs cur : List Grapheme) (curW : Nat),
    cur ≠ [] ∨ gs ≠ [] → breakLoop width cur curW gs ≠ []
  | [], cur, curW, h => by
    unfold breakLoop
    simp at h; simp [h]
  | g :: gs, cur, curW, h => by
    unfold breakLoop
    split
    · exact breakLoop_ne_nil width gs _ _ (Or.inl (by simp))
    · have := breakLoop_ne_nil width gs [g] g.width (Or.inl (by simp))
      simp [this]

/-! ### Wrapping words -/

theorem wrapWords_fits (width : Nat) (hw : 0 < width) : ∀ (wds : List (List Grapheme)) (cur : List Grapheme)
    (curW : Nat), curW = widthOf cur → curW ≤ width → (∀ w ∈ wds, ∀ g ∈ w, g.width ≤ width) →
    ∀ l ∈ wrapWords width cur curW wds, widthOf l ≤ width
  | [], cur, curW, h1, h2, _, l, hl => by
    unfold wrapWords at hl
    split at hl
    · simp at hl
    · simp only [List.mem_singleton] at hl; subst hl; omega
  | w :: wds, cur, curW, h1, h2, h3, l, hl => by
    have hbreak : ∀ l ∈ breakWord width w, widthOf l ≤ width := fun l hl =>
      (breakLoop_fits width w [] 0 rfl (by omega) (h3 w (by simp)) l hl).2
    have hrest : ∀ w ∈ wds, ∀ g ∈ w, g.width ≤ width := fun x hx => h3 x (by simp [hx])
    unfold wrapWords at hl
    dsimp only at hl
    split at hl
    · split at hl
      · rename_i hle
        exact wrapWords_fits width hw wds _ _ rfl hle hrest l hl
      · rcases List.mem_append.1 hl with hl | hl
        · exact hbreak l hl
        · exact wrapWords_fits width hw wds _ _ h1 h2 hrest l hl
    · split at hl
      · rename_i hle
        refine wrapWords_fits width hw wds _ _ ?_ hle hrest l hl
        rw [widthOf_append, widthOf_cons]
        show _ = widthOf cur + (1 + widthOf w)
        omega
      · rcases List.mem_cons.1 hl with hl | hl
        · subst hl; omega
        · split at hl
          · rename_i hle
            exact wrapWords_fits width hw wds _ _ rfl hle hrest l hl
          · rcases List.mem_append.1 hl with hl | hl
            · exact hbreak l hl
            · exact wrapWords_fits width hw wds _ _ rfl (Nat.zero_le _) hrest l hl

theorem inked_append (ws : Grapheme → Bool) (a b : List Grapheme) :
    inked ws (a ++ b) = inked ws a ++ inked ws b := by simp [inked]

theorem inked_word {ws : Grapheme → Bool} {w : List Grapheme} (h : ∀ g ∈ w, ws g = false) :
    inked ws w = w := by
  unfold inked
  rw [List.filter_eq_self]
  intro g hg; simp [h g hg]

theorem wrapWords_inked (ws : Grapheme → Bool) (hsp : ws Grapheme.space = true) (width : Nat) :
    ∀ (wds : List (List Grapheme)) (cur : List Grapheme) (curW : Nat), curW = widthOf cur →
    (cur ≠ [] → 0 < widthOf cur) → (∀ w ∈ wds, 0 < widthOf w ∧ ∀ g ∈ w, ws g = false) →
    inked ws (wrapWords width cur curW wds).flatten = inked ws cur ++ wds.flatten
  | [], cur, curW, _, _, _ => by
    unfold wrapWords
    by_cases h : cur = [] <;> simp [h, inked]
  | w :: wds, cur, curW, h1, h2, h3 => by
    have hw := h3 w (by simp)
    have hrest : ∀ w ∈ wds, 0 < widthOf w ∧ ∀ g ∈ w, ws g = false := fun x hx => h3 x (by simp [hx])
    have hbr : inked ws (breakWord width w).flatten = w := by
      rw [breakWord_flatten, inked_word hw.2]
    unfold wrapWords
    dsimp only
    split
    · rename_i hz
      have hcur : cur = [] := by
        by_contra hne
        have := h2 hne
        omega
      subst hcur
      split
      · rw [wrapWords_inked ws hsp width wds w _ rfl (fun _ => hw.1) hrest, inked_word hw.2]
        simp [inked]
      · rw [List.flatten_append, inked_append, hbr, wrapWords_inked ws hsp width wds _ _ h1 h2 hrest]
        simp [inked]
    · split
      · rw [wrapWords_inked ws hsp width wds _ _ ?_ ?_ hrest, inked_append]
        · have : inked ws (Grapheme.space :: w) = w := by
            have := inked_word hw.2
            unfold inked at this ⊢
            simp only [List.filter_cons, hsp]
            simpa using this
          rw [this]; simp
        · rw [widthOf_append, widthOf_cons]
          show _ = widthOf cur + (1 + widthOf w)
          omega
        · intro _
          rw [widthOf_append]
          have := widthOf_cons Grapheme.space w
          omega
      · rw [List.flatten_cons, inked_append]
        congr 1
        split
        · rw [wrapWords_inked ws hsp width wds w _ rfl (fun _ => hw.1) hrest, inked_word hw.2]; simp
        · rw [List.flatten_append, inked_append, hbr,
            wrapWords_inked ws hsp width wds [] 0 rfl (by simp) hrest]
          simp [inked]

theorem wrapWords_intact (ws : Grapheme → Bool) (hsp : ws Grapheme.space = true) (width : Nat) :
    ∀ (wds : List (List Grapheme)) (cur : List Grapheme) (curW : Nat), curW = widthOf cur →
    (cur ≠ [] → 0 < widthOf cur) →
    (∀ w ∈ wds, 0 < widthOf w ∧ widthOf w ≤ width ∧ w ≠ [] ∧ ∀ g ∈ w, ws g = false) →
    (wrapWords width cur curW wds).flatMap (words ws) = words ws cur ++ wds
  | [], cur, curW, _, _, _ => by
    unfold wrapWords
    by_cases h : cur = []
    · simp [h, words, wordsLoop]
    · simp [h]
  | w :: wds, cur, curW, h1, h2, h3 => by
    obtain ⟨hw1, hw2, hw3, hw4⟩ := h3 w (by simp)
    have hrest := fun x (hx : x ∈ wds) => h3 x (by simp [hx])
    unfold wrapWords
    dsimp only
    split
    · rename_i hz
      have hcur : cur = [] := by
        by_contra hne
        have := h2 hne
        omega
      subst hcur
      rw [wrapWords_intact ws hsp width wds w _ rfl (fun _ => hw1) hrest, words_single hw3 hw4]
      simp [words, wordsLoop]
    · split
      · rw [wrapWords_intact ws hsp width wds _ _ ?_ ?_ hrest, words_gap hsp, words_single hw3 hw4]
        · simp
        · rw [widthOf_append, widthOf_cons]
          show _ = widthOf cur + (1 + widthOf w)
          omega
        · intro _
          rw [widthOf_append]
          have := widthOf_cons Grapheme.space w
          omega
      · rw [List.flatMap_cons, wrapWords_intact ws hsp width wds w _ rfl (fun _ => hw1) hrest,
          words_single hw3 hw4]
        simp

/-- Number of lines of a greedy fill, by widths. -/
def lineCount (width : Nat) : Nat → List Nat → Nat
  | _, [] => 1
  | cur, w :: ws => if cur + 1 + w ≤ width then lineCount width (cur + 1 + w) ws else 1 + lineCount width w ws

theorem lineCount_spec (width : Nat) : ∀ (ws : List Nat),
    (∀ a b, a ≤ b → lineCount width a ws ≤ lineCount width b ws) ∧
    (∀ x w, lineCount width x ws ≤ 1 + lineCount width w ws)
  | [] => ⟨fun _ _ _ => Nat.le_refl _, fun _ _ => by simp [lineCount]⟩
  | u :: us => by
    obtain ⟨A, B⟩ := lineCount_spec width us
    constructor
    · intro a b hab
      unfold lineCount
      split <;> split
      · exact A _ _ (by omega)
      · exact B _ _
      · omega
      · exact Nat.le_refl _
    · intro x w
      unfold lineCount
      split <;> split
      · exact B _ _
      · have := B (x + 1 + u) u; omega
      · have := A u (w + 1 + u) (by omega); omega
      · omega

theorem wrapWords_count (width : Nat) : ∀ (wds : List (List Grapheme)) (cur : List Grapheme) (curW : Nat),
    0 < curW → cur ≠ [] → (∀ w ∈ wds, 0 < widthOf w ∧ widthOf w ≤ width ∧ w ≠ []) →
    (wrapWords width cur curW wds).length = lineCount width curW (wds.map widthOf)
  | [], cur, curW, _, h, _ => by simp [wrapWords, lineCount, h]
  | w :: wds, cur, curW, h1, h2, h3 => by
    obtain ⟨hw1, hw2, hw3⟩ := h3 w (by simp)
    have hrest := fun x (hx : x ∈ wds) => h3 x (by simp [hx])
    unfold wrapWords
    dsimp only
    rw [if_neg (by omega), List.map_cons, lineCount]
    split
    · exact wrapWords_count width wds _ _ (by omega) (by simp) hrest
    · rw [List.length_cons, wrapWords_count width wds w _ hw1 hw3 hrest]
      omega

theorem lineCount_group (width : Nat) : ∀ (g : List (List Grapheme)) (x : Nat) (rest : List Nat),
    (g ≠ [] → x + 1 + joinedWidth g ≤ width) →
    lineCount width x (g.map widthOf ++ rest) =
      lineCount width (if g = [] then x else x + 1 + joinedWidth g) rest
  | [], x, rest, _ => by simp
  | [w], x, rest, h => by
    have := h (by simp)
    simp only [joinedWidth] at this
    simp [lineCount, joinedWidth, this]
  | w :: v :: g, x, rest, h => by
    have := h (by simp)
    simp only [joinedWidth] at this
    rw [List.map_cons, List.cons_append, lineCount, if_pos (by omega),
      lineCount_group width (v :: g) _ rest (fun _ => by omega)]
    simp only [reduceCtorEq, if_false, joinedWidth]
    congr 1
    omega

theorem lineCount_minimal (width : Nat) : ∀ (P : List (List (List Grapheme))) (w : List Grapheme)
    (ws : List (List Grapheme)), P.flatten = w :: ws → (∀ g ∈ P, g ≠ [] ∧ joinedWidth g ≤ width) →
    lineCount width (widthOf w) (ws.map widthOf) ≤ P.length
  | [], w, ws, h, _ => by simp at h
  | [] :: P, w, ws, h, hp => absurd rfl (hp [] (by simp)).1
  | (v :: g) :: P, w, ws, h, hp => by
    simp only [List.flatten_cons, List.cons_append, List.cons.injEq] at h
    obtain ⟨rfl, rfl⟩ := h
    have hg := (hp (v :: g) (by simp)).2
    rw [List.map_append, lineCount_group width g _ _ (by
      intro hne
      cases g with
      | nil => exact absurd rfl hne
      | cons u g => simp only [joinedWidth] at hg ⊢; omega)]
    generalize (if g = [] then widthOf v else widthOf v + 1 + joinedWidth g) = x
    cases hf : P.flatten with
    | nil => simp [lineCount]
    | cons u us =>
      have ih := lineCount_minimal width P u us hf (fun g hg => hp g (by simp [hg]))
      rw [List.map_cons, List.length_cons, lineCount]
      have hB := (lineCount_spec width (us.map widthOf)).2 (x + 1 + widthOf u) (widthOf u)
      split <;> omega

/-! ### Lines -/

theorem splitLines_ne_nil : ∀ t, splitLines t ≠ []
  | [] => by simp [splitLines]
  | g :: gs => by
    unfold splitLines
    split
    · simp
    · split <;> simp

theorem splitLines_cons (g : Grapheme) (gs : List Grapheme) : ∃ l ls, splitLines gs = l :: ls ∧
    splitLines (g :: gs) = if g.text = "\n" then [] :: l :: ls else (g :: l) :: ls := by
  cases h : splitLines gs with
  | nil => exact absurd h (splitLines_ne_nil gs)
  | cons l ls => exact ⟨l, ls, rfl, by rw [splitLines, h]⟩

end Textual.Content
