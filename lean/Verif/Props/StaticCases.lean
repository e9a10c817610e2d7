import Verif.Props.StaticMore
import Verif.Props.RenderCacheCases
import Verif.Props.Markup

/-!
Cases for C96-C101: what the theorems apply to, and where the code departs from the properties.
-/

namespace Textual.Static

open Content (Content WrappedLine ch nl asciiWs)
open RenderCache (Kind cacheAfter all text)

/-- `"ab "` followed by a link `"go"`. -/
def linkLine : WrappedLine :=
  ⟨Strip.ofSegments [Segment.mk' [ch "a", ch "b", ch " "] none,
    { Segment.mk' [ch "g", ch "o"] none with info := [("@click", "app.go")] }], true⟩

theorem linkLine_wf : linkLine.strip.WF := ⟨by decide, by decide⟩

theorem linkLine_spaces : Strip.SpacesNarrow linkLine.strip.segments := by
  unfold Strip.SpacesNarrow; decide

theorem linkLine_fit (n : Nat) (h : 5 ≤ n) : Fit n linkLine :=
  ⟨linkLine_wf, linkLine_spaces, onBoundary_beyond linkLine_wf (by
    have : linkLine.strip.cellLength = 5 := by decide
    omega)⟩

/-- A round border, padding, and text centred in both directions. -/
def card : Sheet :=
  { frame := { border := all .round, paddingLeft := 1 }, alignH := .center, alignV := .middle }

theorem text_unlinked (t : List String) : Unlinked (some (text t)) := by
  rintro s h
  injection h with h
  subst h
  intro seg hs
  simp only [text, Strip.ofSegments, List.mem_cons, List.not_mem_nil, or_false] at hs
  rw [hs]
  rfl

/-! ### C96 -/

theorem card_inner : ((cacheAfter [] card.frame).innerSize 12 5).1 = 9 := by decide +kernel

example (x y : Nat) (row : Strip) (cell : StripCell)
    (hrow : (drawLines card (cacheAfter [] card.frame) [linkLine] (some (text ["T"])) none 12 5).rows[y]? = some row)
    (hcell : row.cells[x]? = some cell) :
    findLink (drawLines card (cacheAfter [] card.frame) [linkLine] (some (text ["T"])) none 12 5).links x y =
      linkOf cell :=
  links_exact_partial [] card [linkLine] _ _ 12 5 x y row cell (by unfold RenderCache.NoOutline; decide)
    (Or.inl (by decide)) (by
      intro line h
      simp only [List.mem_cons, List.not_mem_nil, or_false] at h
      subst h
      rw [card_inner]
      exact linkLine_fit 9 (by omega)) (text_unlinked _) (by rintro t h; cases h) hrow hcell

/-- The link is where it is seen: columns 7 and 8 of row 2. -/
example : let d := drawLines card (cacheAfter [] card.frame) [linkLine] (some (text ["T"])) none 12 5
    findLink d.links 7 2 = some "app.go" ∧ findLink d.links 8 2 = some "app.go" ∧ findLink d.links 9 2 = none ∧
    ((d.rows[2]?.bind (·.cells[7]?)).map (·.g.text)) = some "g" := by
  decide +kernel

/-- Borders at the sides only. -/
def sides : Sheet := { frame := { border := all .vkey } }

/-- C96 fails: with a title between side borders, the row of the title answers clicks for the link drawn in
the row below, which does not answer. -/
theorem links_row_counterexample :
    let d := drawLines sides (cacheAfter [] sides.frame) [linkLine] (some (text ["T"])) none 12 4
    ((d.rows[1]?.bind (·.cells[4]?)).bind linkOf) = some "app.go" ∧ findLink d.links 4 1 = none ∧
    ((d.rows[0]?.bind (·.cells[4]?)).bind linkOf) = none ∧ findLink d.links 4 0 = some "app.go" := by
  decide +kernel

/-! ### C97 -/

example : ∃ above below left right block,
    above + 1 + below = 4 ∧ SplitV card.alignV above below ∧ left + block + right = 9 ∧
    SplitH card.alignH left right := by
  obtain ⟨a, b, l, r, k, h1, h2, h3, h4, _⟩ := align_places card [linkLine] 9 4 (by omega) (by omega)
    (by
      intro line h
      simp only [List.mem_cons, List.not_mem_nil, or_false] at h
      subst h
      exact ⟨linkLine_wf, linkLine_spaces⟩)
    (by decide) (by decide)
  exact ⟨a, b, l, r, k, h1, h2, h3, h4⟩

example : (alignContent card [linkLine] 9 4).length = 4 ∧
    ∀ row ∈ alignContent card [linkLine] 9 4, row.WF ∧ row.cellLength = 9 :=
  align_fills card [linkLine] 9 4 (by omega) (by
    intro line h
    simp only [List.mem_cons, List.not_mem_nil, or_false] at h
    subst h
    exact linkLine_fit 9 (by omega))

/-- The text of the card stands in row 1, behind two blanks. -/
example : (alignContent card [linkLine] 9 4).map RenderCache.glyphs =
    [List.replicate 9 " ", [" ", " ", "a", "b", " ", "g", "o", " ", " "], List.replicate 9 " ",
      List.replicate 9 " "] := by
  decide +kernel

/-! ### C98 -/

/-- A link is drawn, clicked and hovered, and the action is taken. -/
def story : List Event :=
  [.drawn [⟨"app.go", 0, 3, 5⟩], .mouse .moved 13 2 ⟨10, 2, 8, 1⟩, .mouse .leftDown 13 2 ⟨10, 2, 8, 1⟩]

example : (run story).pending = some "app.go" :=
  (click_last story "app.go").2 ⟨[.drawn [⟨"app.go", 0, 3, 5⟩], .mouse .moved 13 2 ⟨10, 2, 8, 1⟩],
    .mouse .leftDown 13 2 ⟨10, 2, 8, 1⟩, [], rfl,
    ⟨13, 2, ⟨10, 2, 8, 1⟩, rfl, by decide, by decide⟩, by intro p e' q h; simp at h⟩

example : (run story).hovered = some "app.go" :=
  (hover_last story "app.go").2 ⟨[.drawn [⟨"app.go", 0, 3, 5⟩]], 13, 2, ⟨10, 2, 8, 1⟩,
    [.mouse .leftDown 13 2 ⟨10, 2, 8, 1⟩], rfl, ⟨by decide, by decide⟩, by
      intro e he
      simp only [List.mem_cons, List.not_mem_nil, or_false] at he
      subst he
      exact ⟨by simp, by rintro ⟨_, _, _, h, _⟩; cases h⟩⟩

example : (run (story ++ [.leave])).hovered = none ∧ (run (story ++ [.take])).pending = none := by decide

example : (step (run [.drawn [⟨"app.go", 0, 3, 5⟩]]) (.mouse .moved 13 2 ⟨10, 2, 8, 1⟩)).dirty = true :=
  change_redraws _ _ (by simp) (by simp) (Or.inl (by decide))

/-! ### C99 -/

/-- A text with a link. -/
def linked : Content :=
  { text := [ch "a", ch " ", ch "g", ch "o"], spans := some [⟨2, 4, { bold := true }, [("@click", "app.go")]⟩] }

example : (draw card (cacheAfter [] card.frame) asciiWs linked none none none 12 5).map
      (fun d => (d.rows.map Strip.plain, d.links)) =
    (draw { card with text := { bold := true }, link := {} } (cacheAfter [] card.frame) asciiWs linked
      (some "app.go") none none 12 5).map (fun d => (d.rows.map Strip.plain, d.links)) :=
  restyle_keeps_layout card _ asciiWs linked none (some "app.go") { bold := true } {} none none 12 5

/-- Something is drawn, and it does depend on the link under the pointer. -/
example : let card := { card with link := { styleHover := { underline := true } } }
    (draw card (cacheAfter [] card.frame) asciiWs linked none none none 12 5).isSome = true ∧
    draw card (cacheAfter [] card.frame) asciiWs linked none none none 12 5 ≠
      draw { card with link := { styleHover := {} } } (cacheAfter [] card.frame) asciiWs linked (some "app.go") none
        none 12 5 := by
  decide +kernel

/-! ### C100 -/

/-- `"ab cd"` in a card five columns wide takes two rows. -/
def words2 : Content := { text := [ch "a", ch "b", ch " ", ch "c", ch "d"] }

example : intrinsicHeight card asciiWs words2 6 = some 4 := by decide +kernel

example (lines : List WrappedLine)
    (h : textLines card asciiWs words2 none ((cacheAfter [] card.frame).innerSize 6 4).1 = some lines) :
    ∃ top bottom : Nat, 4 = top + lines.length + bottom := by
  obtain ⟨t, b, _, _, e, _⟩ := auto_height_partial [] card asciiWs words2 none 6 4 lines (some (text ["T"])) none
    (by unfold PlainKinds; decide) (Or.inr (by decide)) (Or.inl rfl) (by decide +kernel) (by decide +kernel) h
  exact ⟨t, b, e⟩

/-- C100 fails: a title shown between side borders takes the row of the text, of which nothing is shown. -/
theorem auto_height_counterexample :
    let s : Sheet := { frame := { border := { left := ⟨.solid, none⟩, right := ⟨.solid, none⟩ } } }
    intrinsicHeight s asciiWs { text := [ch "a", ch "b"] } 12 = some 1 ∧
    ((draw s (cacheAfter [] s.frame) asciiWs { text := [ch "a", ch "b"] } none (some (text ["T"])) none 12 1).map
      fun d => d.rows.any fun row => (RenderCache.glyphs row).contains "a") = some false := by
  decide +kernel

/-- C100 fails: a keyline above and below is given rows it does not draw in. -/
theorem auto_height_keyline_counterexample :
    let s : Sheet := { frame := { border := all .vkey } }
    intrinsicHeight s asciiWs { text := [ch "a", ch "b"] } 12 = some 3 ∧
    (cacheAfter [] s.frame).innerSize 12 3 = (10, 3) := by
  decide +kernel

/-! ### C101 -/

theorem words2_legible : ∀ line ∈ Content.splitLines words2.text, Legible asciiWs line := by
  intro line h
  have e : Content.splitLines words2.text = [words2.text] := by decide
  rw [e] at h
  simp only [List.mem_cons, List.not_mem_nil, or_false] at h
  subst h
  exact ⟨by decide, by unfold Content.VisibleWords; decide, Or.inr (by decide)⟩

example : ∃ lines, textLines card asciiWs words2 none
      ((cacheAfter [] card.frame).innerSize (autoWidth card words2.text) 3).1 = some lines ∧ lines.length = 1 :=
  (auto_width_partial [] card asciiWs words2.text none 3 (by unfold PlainKinds; decide) words2_legible
    ⟨words2.text, by decide, by decide⟩).2

/-- C101 fails for markup: of `[b]x[/b]` one column is shown, and room is made for all eight characters. -/
theorem auto_width_counterexample :
    Markup.parse Markup.asciiExt "[b]x[/b]".toList = .ok ⟨['x'], [⟨0, 1, { text := { bold := true } }, []⟩]⟩ ∧
    autoWidth {} ("[b]x[/b]".toList.map fun c => ch c.toString) = 8 := by
  refine ⟨?_, by decide +kernel⟩
  decide +kernel

end Textual.Static
