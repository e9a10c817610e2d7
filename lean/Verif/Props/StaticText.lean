import Verif.Props.StaticCases

/-! C100, C101: the padding of lines and the least automatic height. -/

namespace Textual.Static

open Content (Content WrappedLine asciiWs)

/-- C101: with `line-pad`, every line of the wrapped text has that many blanks in the text's style on either side. -/
theorem line_padding (s : Sheet) (ws : Grapheme → Bool) (content : Content) (hovered : Option String) (w : Nat)
    (base lines : List WrappedLine) (hw : 0 < w)
    (hb : ({ content with style := some s.text, linkStyle := some s.link, hovered := hovered } : Content).wrapFull ws
      (max (w - 2 * s.linePad) 1) s.overflow s.wrap = some base)
    (hl : textLines s ws content hovered w = some lines) :
    lines.map (fun l => l.strip.cells) = base.map fun l =>
      List.replicate s.linePad (padCell (some s.text)) ++ l.strip.cells ++
        List.replicate s.linePad (padCell (some s.text)) := by
  simp only [textLines, if_pos hw, hb] at hl
  split at hl
  · simp only [Option.map_some, Option.some.injEq] at hl
    rw [← hl, List.map_map]
    apply List.map_congr_left
    intro l _
    show (Strip.join _).cells = _
    rw [Strip.join_cells]
    simp only [List.flatMap_cons, List.flatMap_nil, List.append_nil, (Strip.blank_good _ _).2.2]
    rw [List.append_assoc]
  · have h0 : s.linePad = 0 := by omega
    simp only [Option.some.injEq] at hl
    rw [← hl, h0]
    simp

/-- Two words with a blank on either side of each line. -/
example : ∃ base lines,
    ({ words2 with style := some card.text, linkStyle := some card.link, hovered := none } : Content).wrapFull asciiWs
      (max (7 - 2 * ({ card with linePad := 1 } : Sheet).linePad) 1) card.overflow card.wrap = some base ∧
    textLines { card with linePad := 1 } asciiWs words2 none 7 = some lines ∧ base ≠ [] := by
  refine ⟨_, _, rfl, rfl, ?_⟩
  decide +kernel

/-- C100: the automatic height has room for at least one line besides border and padding. -/
theorem auto_height_least (s : Sheet) (ws : Grapheme → Bool) (content : Content) (width n : Nat)
    (h : intrinsicHeight s ws content width = some n) :
    1 + edge s.frame.border.top.kind + edge s.frame.border.bottom.kind + s.frame.paddingTop +
      s.frame.paddingBottom ≤ n := by
  simp only [intrinsicHeight, Option.map_eq_some_iff] at h
  obtain ⟨lines, _, rfl⟩ := h
  omega

end Textual.Static
