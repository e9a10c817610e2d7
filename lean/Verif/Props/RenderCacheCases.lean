import Verif.Props.RenderCacheBorder

/-!
Cases for C90-C95: what the theorems apply to, and where the code departs from the properties.
-/

namespace Textual.RenderCache

open Strip (AlignH)

/-- A line of text of one-column characters. -/
def text (t : List String) : Strip := Strip.ofSegments [Segment.mk' (t.map fun c => ⟨c, 1⟩) none]

theorem text_narrow (t : List String) : Narrow (some (text t)) := by
  rintro s h
  injection h with h
  subst h
  have hw : (text t).WF := Strip.ofSegments_wf (AllWF.cons rfl AllWF.nil)
  refine ⟨hw, ?_⟩
  have : ∀ (l : List String), ∀ x ∈ segCells [Segment.mk' (l.map fun c => ⟨c, 1⟩) none], x.g.width = 1 := by
    intro l
    rw [segCells_cons, segCells_nil, List.append_nil]
    show ∀ x ∈ textCells none [] (l.map fun c => (⟨c, 1⟩ : Grapheme)), x.g.width = 1
    induction l with
    | nil => intro x hx; cases hx
    | cons c l ih =>
      intro x hx
      rw [List.map_cons] at hx
      have e : textCells none [] ((⟨c, 1⟩ : Grapheme) :: l.map fun c => (⟨c, 1⟩ : Grapheme)) =
        ⟨⟨c, 1⟩, 0, none, []⟩ :: textCells none [] (l.map fun c => (⟨c, 1⟩ : Grapheme)) := rfl
      rw [e] at hx
      rcases List.mem_cons.1 hx with rfl | hx
      · rfl
      · exact ih x hx
  exact this t

theorem none_narrow : Narrow none := by rintro s h; cases h

/-- The characters of a line. -/
def glyphs (s : Strip) : List String := s.cells.map (·.g.text)

/-- A border of one kind on every edge. -/
def all (k : Kind) : Border := ⟨⟨k, none⟩, ⟨k, none⟩, ⟨k, none⟩, ⟨k, none⟩⟩

/-! ### C90 -/

/-- A panel with a title, padding and an outline at the sides. -/
def panel : Sheet :=
  { border := all .round, paddingLeft := 1, paddingRight := 2
    outline := { left := ⟨.heavy, none⟩, right := ⟨.heavy, none⟩ } }

example : ((cacheAfter [panel] panel).renderLine 1 3 12 (some (text ["a", "b"])) (some (text ["T"])) none).cellLength
    = 12 :=
  (line_width_partial _ _ 1 3 12 _ _ _ (by decide) (by unfold Room; decide) (text_narrow _) (text_narrow _)
    none_narrow).1

/-- C90 fails: a widget one column wide with a border is drawn two columns wide. -/
theorem narrow_widget_counterexample :
    ((cacheAfter [] { border := all .round }).renderLine 1 3 1 none none none).cellLength = 2 := by
  decide +kernel

/-- C90 fails: padding is drawn in full however narrow the widget is. -/
theorem padding_counterexample :
    ((cacheAfter [] { paddingLeft := 3, paddingRight := 3 }).renderLine 0 1 4 none none none).cellLength = 6 := by
  decide +kernel

/-- C90 fails: a label in a narrow border makes the row longer than the widget. -/
theorem narrow_label_counterexample :
    ((cacheAfter [] { border := all .round }).renderLine 0 3 4 none (some (text ["T", "i"])) none).cellLength = 6 := by
  decide +kernel

/-! ### C91 -/

example : (cacheAfter [] { border := all .hkey }).left = false ∧ (cacheAfter [] { border := all .hkey }).top = true :=
  ⟨by rw [← Bool.not_eq_true, (edges_exact _ _).2.2.1]; decide, by rw [(edges_exact _ _).1]; decide⟩

example : (cacheAfter [panel] panel).innerSize 12 5 = (7, 3) := by rw [inner_size_exact]; rfl

/-- A bordered widget with padding. -/
def padded : Sheet := { border := all .round, paddingLeft := 2, paddingRight := 1 }

theorem padded_plain : PlainRow padded 1 3 (some (text ["T"])) none := by
  refine ⟨by decide, by decide, by decide, ?_⟩
  intro _
  refine ⟨by decide, ?_⟩
  intro _ _
  rfl

example : ((cacheAfter [panel] padded).renderLine 1 3 10 (some (text ["a", "b"])) (some (text ["T"])) none).cells[4]?
    = (text ["a", "b"]).cells[1]? :=
  content_at [panel] padded 1 3 10 (text ["a", "b"]) (some (text ["T"])) none padded_plain (by decide) (by decide)
    ((text_narrow _).cutAt _) 1 (by rw [inner_size_exact]; decide) (by decide)

example : ∃ l r, ((cacheAfter [panel] padded).renderLine 1 3 10 none (some (text ["T"])) none).cells =
    only true l ++ List.replicate 2 (padCell none) ++ List.replicate 5 (padCell none) ++
      List.replicate 1 (padCell none) ++ only true r :=
  content_line [panel] padded 1 3 10 none (some (text ["T"])) none padded_plain (by decide) (by decide)
    (none_narrow.cutAt _)

/-! ### C92 -/

example : ShowsLabel ((cacheAfter [panel] { border := all .vkey }).renderLine 0 2 10 none (some (text ["T"]))
    none).cells (text ["T"]).cells .left 10 :=
  title_line [panel] { border := all .vkey } 2 10 none none (text ["T"]) (by decide) (by decide)
    (by unfold NoOutline; decide) (text_narrow _) (by decide) (by decide)

example : ShowsLabel ((cacheAfter [panel] { border := all .round }).renderLine 1 2 10 none none
    (some (text ["S"]))).cells (text ["S"]).cells .right 10 :=
  subtitle_line [panel] { border := all .round } 1 10 none none (text ["S"]) (by decide)
    (by unfold NoOutline; decide) (text_narrow _) (by decide) (by decide) (by decide)

/-- C92 fails: in a widget one row high whose only horizontal border is at the bottom the title is not
shown. -/
theorem title_counterexample :
    glyphs ((cacheAfter [] { border := { all .round with top := {} } }).renderLine 0 1 8 none (some (text ["T"]))
      none) = [" ", " ", " ", " ", " ", " ", " ", " "] := by
  decide +kernel

/-! ### C93 -/

example : ∃ a f b, ((cacheAfter [] panel).renderLine 1 3 12 none none none).cells = [a] ++ f ++ [b] ∧
    f.length = 10 ∧ (true = true → a.g = ⟨" ", 1⟩) ∧ (true = true → b.g = ⟨" ", 1⟩) ∧
    f = (((cacheAfter [] (bare panel)).renderLine 1 3 12 none none none).cells.drop 1).take 10 :=
  outline_line_partial [] panel 1 3 12 none none none (by decide) (by unfold Room; decide) none_narrow none_narrow
    none_narrow (by rintro ⟨_, h | h⟩ <;> exact h.2.2 rfl)

/-- C93 fails: a row showing a label at the side of a keyline is drawn without the outline. -/
theorem outline_counterexample :
    let s : Sheet := { border := all .vkey, outline := all .heavy }
    glyphs ((cacheAfter [] s).renderLine 0 2 8 none none none) = ["┏", "━", "━", "━", "━", "━", "━", "┓"] ∧
    glyphs ((cacheAfter [] s).renderLine 0 2 8 none (some (text ["T"])) none) =
      ["▏", " ", " ", "T", " ", " ", " ", "▕"] := by
  decide +kernel

/-! ### C94 -/

example : ((cacheAfter [panel] { border := all .double }).renderLine 0 3 4 none none none).cells.map (·.g) =
    [⟨"╔", 1⟩, ⟨"═", 1⟩, ⟨"═", 1⟩, ⟨"╗", 1⟩] :=
  border_glyphs_partial [panel] { border := all .double } 0 3 4 none (by decide) (by unfold Room; decide)
    none_narrow (by unfold NoOutline; decide) (by decide) (by decide) (by decide)

/-- C94 fails: a border at the left only is drawn blank, and one at the bottom in the characters of the
top. -/
theorem border_kind_counterexample :
    glyphs ((cacheAfter [] { border := { left := ⟨.heavy, none⟩ } }).renderLine 0 1 3 (some (text ["a", "b"])) none
      none) = [" ", "a", "b"] ∧
    glyphs ((cacheAfter [] { border := { top := ⟨.round, none⟩, bottom := ⟨.heavy, none⟩ } }).renderLine 2 3 3 none
      none none) = ["─", "─", "─"] := by
  decide +kernel

/-! ### C95 -/

/-- Red with the given alpha value. -/
def red (a : Rat) : RgbaColor := { r := 255, g := 0, b := 0, a := a }

/-- A border in the given colour. -/
def colored (c : RgbaColor) : Sheet :=
  { border := ⟨⟨.round, some c⟩, ⟨.round, some c⟩, ⟨.round, some c⟩, ⟨.round, some c⟩⟩ }

theorem colored_clash : NoClash [colored (red 1), colored (red 1)] := by
  have hu : ∀ c, Uses (colored (red 1)) c → c = red 1 := by
    rintro c (h | h | h | h)
    · rw [edgeColor_opaque _ rfl] at h
      injection h with h
      exact h.symm
    · cases h
    · cases h
    · cases h
  intro s hs t ht c d hc hd _ _ _
  have e1 : s = colored (red 1) := by simpa using hs
  have e2 : t = colored (red 1) := by simpa using ht
  subst e1
  subst e2
  rw [hu c hc, hu d hd]

example : (cacheAfter [colored (red 1)] (colored (red 1))).renderLine 0 3 5 none none none =
    (cacheAfter [] (colored (red 1))).renderLine 0 3 5 none none none :=
  history_partial _ _ colored_clash 0 3 5 none none none

example (x : StripCell)
    (h : x ∈ ((cacheAfter [colored (red 1)] (colored (red 1))).renderLine 0 3 5 none none none).cells) :
    x.style = some { fg := some (red 1) } :=
  border_colors_partial [colored (red 1)] (colored (red 1)) 0 3 5 none (by decide) (by unfold Room; decide)
    none_narrow (by unfold NoOutline; decide) colored_clash rfl (by decide) x h

/-- C95 fails: a translucent border is drawn in the opaque colour if an opaque border of the same red, green
and blue was drawn before it. -/
theorem history_counterexample :
    (cacheAfter [] (colored (red (1 / 2)))).box ≠ (cacheAfter [colored (red 1)] (colored (red (1 / 2)))).box ∧
    ((cacheAfter [] (colored (red (1 / 2)))).renderLine 0 3 2 none none none).cells.map (·.style) =
      [some { fg := some (red (1 / 2)) }, some { fg := some (red (1 / 2)) }] ∧
    ((cacheAfter [colored (red 1)] (colored (red (1 / 2)))).renderLine 0 3 2 none none none).cells.map (·.style) =
      [some { fg := some (red 1) }, some { fg := some (red 1) }] := by
  decide +kernel

/-- The opacity of a widget counts twice for its border: at half opacity the border keeps a quarter of its
colour. -/
theorem border_opacity_twice :
    edgeColor { opacity := 1 / 2 } ⟨.round, some (red 1)⟩ = some (red (1 / 4)) := by
  decide +kernel

end Textual.RenderCache
