import Verif.Model.Typing
import Verif.Props.Input
import Verif.Props.FromMarkup
import Verif.Props.OnScreen

/-!
C192: what is typed into an input is seen in it, with the cursor.
-/

namespace Textual.Typing

open Input (Input SegOk Op cursorStyle placeholderStyle)
open Content (WrappedLine Solid Aligned AlignedAt glyphs splitLines words positions spanLoop asciiWs)
open FromMarkup (byChar SameLook convertSpan convertStyle)
open Static (textBox paint textLines)
open RenderCache (cacheAfter Room NoOutline)
open Canvas (Within)

/-! ### A text that fits is one line -/

theorem splitLines_one : ∀ (t : List Grapheme), (∀ g ∈ t, g.text ≠ "\n") → splitLines t = [t]
  | [], _ => rfl
  | g :: gs, h => by
    unfold splitLines
    rw [if_neg (by simpa using h g (List.mem_cons_self ..)), splitLines_one gs fun x hx => h x (List.mem_cons_of_mem _ hx)]

theorem words_one (ws : Grapheme → Bool) : ∀ (t cur : List Grapheme), (∀ g ∈ t, ws g = false) →
    Content.wordsLoop ws cur t = if cur ++ t = [] then [] else [cur ++ t]
  | [], cur, _ => by
    unfold Content.wordsLoop
    cases cur <;> simp
  | g :: gs, cur, h => by
    unfold Content.wordsLoop
    rw [if_neg (by rw [h g (List.mem_cons_self ..)]; decide), words_one ws gs _ fun x hx => h x (List.mem_cons_of_mem _ hx)]
    simp

theorem widthOf_ones : ∀ (t : List Grapheme), (∀ g ∈ t, g.width = 1) → widthOf t = t.length
  | [], _ => rfl
  | g :: gs, h => by
    rw [Content.widthOf_cons, widthOf_ones gs fun x hx => h x (List.mem_cons_of_mem _ hx), h g (List.mem_cons_self ..),
      List.length_cons]
    omega

theorem findAt_self (t : List Grapheme) : Content.findAt t t = some 0 := by
  cases t with
  | nil => rfl
  | cons g gs => simp [Content.findAt]

theorem wrapOne_row (c : Content.Content) (ws : Grapheme → Bool) (width : Nat) (o : Content.Overflow) (m : Content.Wrap)
    (hs : Solid c.text) (ha : Aligned (c.spans.getD []) c.text) (hn : ∀ g ∈ c.text, g.width = 1)
    (hf : c.text.length ≤ width) (hne : c.text ≠ []) (hm : m = .noWrap ∨ ∀ g ∈ c.text, ws g = false) :
    ∃ s, glyphs s = c.annotated ∧ s.WF ∧ s.cellLength = c.text.length ∧
      (c.wrapOne ws width o m 0 c.text = some [⟨s, true⟩] ∨ c.wrapOne ws width o m 0 c.text = some [⟨s.crop 0 width, true⟩] ∨
        c.wrapOne ws width o m 0 c.text = some [⟨s.crop 0 s.cellLength, true⟩]) := by
  have hpos : 0 < c.text.length := List.length_pos_iff.2 hne
  have len : ∀ s : Strip, s.WF → glyphs s = c.annotated → s.cellLength = c.text.length := by
    intro s hw hg
    have : Content.textOf s = c.text := by
      rw [← Content.glyphs_text, hg]; exact Content.annotate_map _ _ _ _
    rw [Content.wf_width hw, this, widthOf_ones _ hn]
  have trunc : ∀ s : Strip, s.cellLength = c.text.length → Content.truncate s width = s := by
    intro s e
    unfold Content.truncate
    rw [if_neg (by omega), if_pos (by omega)]
  cases m with
  | noWrap =>
    obtain ⟨s, l, l1, l2, l3, l4, l5⟩ := Content.wrapOne_noWrap c ws width o 0 c.text hs ha.at
    have hl := len s l4 l3
    refine ⟨s, l3, l4, hl, ?_⟩
    rw [if_neg hne] at l5
    rw [l1, l5]
    cases o with
    | clip => exact .inr (.inl rfl)
    | ellipsis => dsimp only; rw [trunc s hl]; exact .inl rfl
    | fold =>
      right; right
      dsimp only
      unfold Content.splitByWidth
      rw [if_neg (by omega), if_neg (by omega)]
      unfold Content.splitLoop
      rw [dif_pos ⟨by omega, by omega⟩]
      unfold Content.splitLoop
      rw [dif_neg (by omega), Nat.zero_add, Nat.min_eq_right (by omega)]
      rfl
  | wrap =>
    have hws := hm.resolve_left (by decide)
    have hw : words ws c.text = [c.text] := by
      unfold words
      rw [words_one ws c.text [] hws, List.nil_append, if_neg hne]
    have hwid : widthOf c.text = c.text.length := widthOf_ones _ hn
    unfold Content.Content.wrapOne
    rw [if_neg (by simpa using hne)]
    dsimp only
    cases hsp : c.spans with
    | none =>
      refine ⟨c.plainStrip c.text, ?_, Content.plainStrip_wf c _, ?_, .inl ?_⟩
      · rw [Content.plainStrip_glyphs]
        unfold Content.Content.annotated
        rw [hsp, Option.getD_none, Content.annotate_nil_spans]
      · apply len _ (Content.plainStrip_wf c _)
        rw [Content.plainStrip_glyphs]
        unfold Content.Content.annotated
        rw [hsp, Option.getD_none, Content.annotate_nil_spans]
      · dsimp only
        unfold Content.Content.wrapLine
        rw [hw]
        have : Content.wrapWords width [] 0 [c.text] = [c.text] := by
          unfold Content.wrapWords
          dsimp only
          rw [if_pos rfl, if_pos (by omega)]
          unfold Content.wrapWords
          rw [if_neg (by simpa using hne)]
        rw [this]
        have hl : (c.plainStrip c.text).cellLength = c.text.length := by
          apply len _ (Content.plainStrip_wf c _)
          rw [Content.plainStrip_glyphs]
          unfold Content.Content.annotated
          rw [hsp, Option.getD_none, Content.annotate_nil_spans]
        simp only [Option.map_some, List.map_cons, List.map_nil, trunc _ hl, ite_self]
        rfl
    | some spans =>
      have ha' : AlignedAt spans 0 c.text := by
        have := ha.at
        rw [hsp] at this
        exact this
      obtain ⟨s, s1, s2, s3⟩ := Content.renderLine_spec c hs ha'
      have hg : glyphs s = c.annotated := by
        rw [s2]; unfold Content.Content.annotated; rw [hsp]; rfl
      have hl := len s s3 hg
      refine ⟨s, hg, s3, hl, .inl ?_⟩
      dsimp only
      unfold Content.Content.wrapLineSpans
      rw [hw]
      have hpo : positions c.text 0 [c.text] = [(0, c.text.length)] := by
        unfold positions
        rw [List.drop_zero, findAt_self]
        simp [positions]
      have hlo : spanLoop c.text.length width [(0, c.text.length)] 0 0 0 [c.text] = some [(0, c.text.length)] := by
        unfold spanLoop
        dsimp only
        rw [if_pos rfl, if_pos (by omega)]
        unfold spanLoop
        rw [if_pos (by omega)]
        simp [hpos]
      rw [hpo, hlo]
      dsimp only
      unfold Content.Content.renderRanges
      rw [if_neg (by omega)]
      simp only [List.take_zero, List.take_length, List.drop_zero, Content.blen, List.map_nil, List.sum_nil, Nat.zero_add, s1,
        Content.Content.renderRanges, Option.map_some, List.map_cons, trunc _ hl, ite_self]
      rfl

/-- A text of one-column characters that fits is drawn as one line, each character in its style; with word wrapping, if it
has no blanks. -/
theorem one_row (c : Content.Content) (ws : Grapheme → Bool) (width : Nat) (o : Content.Overflow) (m : Content.Wrap)
    (h0 : 0 < width) (hs : Solid c.text) (ha : Aligned (c.spans.getD []) c.text)
    (hn : ∀ g ∈ c.text, g.width = 1 ∧ g.text ≠ "\n") (hf : c.text.length ≤ width)
    (hm : m = .noWrap ∨ ∀ g ∈ c.text, ws g = false) :
    ∃ s, c.wrapFull ws width o m = some [⟨s, true⟩] ∧ s.cellLength = c.text.length ∧
      s.cells.map (fun x => (x.g, x.style.getD {}, x.info)) = c.annotated := by
  have hfull : ∀ x, c.wrapOne ws width o m 0 c.text = some [x] → c.wrapFull ws width o m = some [x] := by
    intro x hx
    unfold Content.Content.wrapFull
    rw [if_neg (by omega), splitLines_one _ fun g hg => (hn g hg).2]
    unfold Content.Content.wrapLines
    rw [hx]
    rfl
  by_cases hne : c.text = []
  · refine ⟨Strip.new, hfull _ (by rw [hne]; rfl), by rw [hne]; rfl, ?_⟩
    unfold Content.Content.annotated
    rw [hne]
    rfl
  · obtain ⟨s, s1, s2, s3, s4⟩ := wrapOne_row c ws width o m hs ha (fun g hg => (hn g hg).1) hf hne hm
    have htext : Content.textOf s = c.text := by
      rw [← Content.glyphs_text, s1]; exact Content.annotate_map _ _ _ _
    have hnar : ∀ g ∈ Content.textOf s, g.width = 1 := by rw [htext]; exact fun g hg => (hn g hg).1
    have hcells : s.cells.map (fun x => (x.g, x.style.getD {}, x.info)) = c.annotated := by
      rw [← Content.narrow_glyphs s hnar, s1]
    have hlen : s.cells.length = s.cellLength := s2.length
    have crop : ∀ n, s.cellLength ≤ n → (s.crop 0 n).cells = s.cells ∧ (s.crop 0 n).cellLength = s.cellLength := by
      intro n hle
      have e := Strip.crop_cells_narrow s s2 (Content.narrow_cells s hnar) 0 n
      rw [List.drop_zero, List.take_of_length_le (by omega)] at e
      refine ⟨e, ?_⟩
      rw [← (Strip.crop_wf s s2 0 n).length, e, hlen]
    rcases s4 with h | h | h
    · exact ⟨s, hfull _ h, s3, hcells⟩
    · obtain ⟨e1, e2⟩ := crop width (by omega)
      exact ⟨_, hfull _ h, by rw [e2, s3], by rw [e1, hcells]⟩
    · obtain ⟨e1, e2⟩ := crop s.cellLength (Nat.le_refl _)
      exact ⟨_, hfull _ h, by rw [e2, s3], by rw [e1, hcells]⟩

/-! ### The styles of what is typed -/

/-- The look of the cursor: almost black on light grey. -/
def cursorLook : Markup.Style := { fg := some (.rgb 18 18 18), bg := some (.rgb 224 224 224) }

/-- The look of the placeholder: grey. -/
def placeholderLook : Markup.Style := { fg := some (.rgb 109 116 121) }

theorem cursor_tag : Markup.IsTag FromMarkup.ext cursorStyle cursorLook :=
  ⟨by decide, by decide, by decide +kernel, by decide⟩

theorem placeholder_tag : Markup.IsTag FromMarkup.ext placeholderStyle placeholderLook :=
  ⟨by decide, by decide, by decide +kernel, by decide⟩

/-- Without links each character has the style of the markup at its place, over the style of the widget. -/
theorem annotated_at (w : Char → Nat) (m : Markup.Parsed) (hi : ∀ sp ∈ m.spans, sp.info = []) (c : Content.Content)
    (ht : c.text = byChar w m.text) (hs : c.spans.getD [] = m.spans.map convertSpan) (pre : List Char) (ch : Char)
    (post : List Char) (he : m.text = pre ++ ch :: post) :
    c.annotated[pre.length]? = some (⟨String.singleton ch, w ch⟩,
      (c.style.getD {}).apply (convertStyle (m.styleAt (Markup.blen pre))), []) := by
  have hmeta : Content.metaAt (m.spans.map convertSpan) (Markup.blen pre) = [] := by
    unfold Content.metaAt
    rw [List.flatten_eq_nil_iff]
    intro l hl
    obtain ⟨sp, hsp, rfl⟩ := List.mem_map.1 (List.mem_reverse.1 hl)
    obtain ⟨x, hx, rfl⟩ := List.mem_map.1 (List.mem_filter.1 hsp).1
    show FromMarkup.convertMeta x.info = []
    rw [hi x hx]
    rfl
  have hstyle : c.styleAt (m.spans.map convertSpan) (Markup.blen pre) =
      (c.style.getD {}).apply (convertStyle (m.styleAt (Markup.blen pre))) := by
    unfold Content.Content.styleAt
    have hm2 : ((Content.covering (m.spans.map convertSpan) (Markup.blen pre)).map (·.info)).reverse.flatten = [] := hmeta
    rw [hm2]
    dsimp only [List.lookup]
    rw [FromMarkup.foldl_apply]
    congr 1
    exact FromMarkup.covering_style m.spans _ {}
  unfold Content.Content.annotated
  rw [hs, ht, he]
  have hb : byChar w (pre ++ ch :: post) = byChar w pre ++ (⟨String.singleton ch, w ch⟩ :: byChar w post) := by
    unfold byChar; rw [List.map_append]; rfl
  rw [hb, Content.annotate_append, List.getElem?_append_right (by rw [Content.annotate_length]; simp [byChar]),
    Content.annotate_length]
  have : pre.length - (byChar w pre).length = 0 := by simp [byChar]
  rw [this, Nat.zero_add, FromMarkup.blen_byChar]
  unfold Content.Content.annotate
  rw [List.getElem?_cons_zero, hstyle, hmeta]

/-- The characters an input is to show. -/
def shownText (seg : List Char → List (List Char)) (i : Input) : List Char :=
  (i.expected seg cursorLook placeholderLook).flatMap (·.2)

/-- The line that an input draws. -/
theorem row_exact {seg : List Char → List (List Char)} (hseg : SegOk seg) (ops : List Op) (w : Char → Nat) (s : Static.Sheet)
    (ws : Grapheme → Bool) (n : Nat) (hpad : s.linePad = 0) :
    let i := ops.foldl (Input.step seg) {}
    0 < n → (shownText seg i).length ≤ n → (∀ ch ∈ shownText seg i, w ch = 1 ∧ ch ≠ '\n') →
    (s.wrap = .noWrap ∨ ∀ ch ∈ shownText seg i, ws ⟨String.singleton ch, 1⟩ = false) →
    ∃ line, lines (byChar w) s ws i n = some [⟨line, true⟩] ∧ line.OneColumn ∧ line.cellLength = (shownText seg i).length ∧
      ∀ pre st a ch b post, i.expected seg cursorLook placeholderLook = pre ++ (st, a ++ ch :: b) :: post →
        ∃ x, line.cells[(pre.flatMap (·.2)).length + a.length]? = some x ∧ x.g = ⟨String.singleton ch, 1⟩ ∧
          x.style.getD {} = s.text.apply (convertStyle st) := by
  intro i h0 hf hw hm
  obtain ⟨m, m1, m2, m3, m4⟩ := Input.display_exact FromMarkup.ext hseg cursorLook placeholderLook cursor_tag placeholder_tag i
  have hshown : i.shown = i.buildDisplay seg := Input.display_current seg ops
  obtain ⟨sp, hc, hspans⟩ : ∃ sp : Option (List Content.Span),
      content (byChar w) i.shown = { text := byChar w m.text, spans := sp } ∧ sp.getD [] = m.spans.map convertSpan := by
    refine ⟨if (m.spans.map convertSpan).isEmpty then none else some (m.spans.map convertSpan), ?_, ?_⟩
    · unfold content FromMarkup.fromMarkup
      rw [hshown, m1]
      rfl
    · split
      · next he => simpa using (List.isEmpty_iff.mp he).symm
      · rfl
  have htext : m.text = shownText seg i := m2
  have hmem : ∀ g ∈ byChar w m.text, ∃ ch ∈ shownText seg i, g = ⟨String.singleton ch, 1⟩ := by
    intro g hg
    obtain ⟨ch, hch, rfl⟩ := List.mem_map.1 hg
    rw [htext] at hch
    exact ⟨ch, hch, by rw [(hw ch hch).1]⟩
  have hone : ∀ g ∈ byChar w m.text, g.width = 1 ∧ g.text ≠ "\n" := by
    intro g hg
    obtain ⟨ch, hch, rfl⟩ := hmem g hg
    refine ⟨rfl, fun e => (hw ch hch).2 ?_⟩
    have := congrArg String.toList e
    simpa using this
  have hws : s.wrap = .noWrap ∨ ∀ g ∈ byChar w m.text, ws g = false := by
    rcases hm with h | h
    · exact .inl h
    · right
      intro g hg
      obtain ⟨ch, hch, rfl⟩ := hmem g hg
      exact h ch hch
  obtain ⟨line, l1, l2, l3⟩ := one_row
    ({ text := byChar w m.text, spans := sp, style := some s.text, linkStyle := some s.link, hovered := none } : Content.Content)
    ws n s.overflow s.wrap h0 (FromMarkup.byChar_solid w _) (by
      dsimp only
      rw [hspans]
      exact FromMarkup.byChar_aligned w m1) hone (by
      show (byChar w m.text).length ≤ n
      rw [htext]
      simpa [byChar] using hf) hws
  have hlines : lines (byChar w) s ws i n = some [⟨line, true⟩] := by
    unfold lines textLines
    rw [hc]
    dsimp only
    rw [hpad, Nat.mul_zero, Nat.sub_zero, Nat.max_eq_left (by omega), if_pos h0, if_neg (by omega)]
    exact l1
  refine ⟨line, hlines, ?_, by rw [l2, ← htext]; simp [byChar], ?_⟩
  · exact Static.textLines_one s ws (content (byChar w) i.shown) (by rw [hc]; exact fun g hg _ => (hone g hg).1) none n _ hlines
      ⟨line, true⟩ (List.mem_singleton.2 rfl)
  · intro pre st a ch b post he
    have hsplit : m.text = (pre.flatMap (·.2) ++ a) ++ ch :: (b ++ post.flatMap (·.2)) := by
      rw [m2, he, List.flatMap_append, List.flatMap_cons]
      simp
    have hat := annotated_at w m m3
      { text := byChar w m.text, spans := sp, style := some s.text, linkStyle := some s.link, hovered := none } rfl hspans _ _ _
      hsplit
    rw [← l3, List.getElem?_map, List.length_append] at hat
    obtain ⟨x, hx, hxe⟩ := Option.map_eq_some_iff.1 hat
    have hst : m.styleAt (Markup.blen (pre.flatMap (·.2) ++ a)) = st := by
      rw [Markup.blen_append]; exact m4 pre st a ch b post he
    rw [hst] at hxe
    refine ⟨x, hx, ?_, congrArg (·.2.1) hxe⟩
    have h1 := congrArg (·.1) hxe
    dsimp only at h1
    rw [h1]
    have : ch ∈ shownText seg i := by rw [← htext, hsplit]; simp
    rw [(hw ch this).1]

/-- **C192** (partial: see the counterexamples). After any history the box of an input shows what was typed into it, or its
placeholder: each character in its place, with the focus the character at the cursor (or the blank behind the end) in the
colours of the cursor. For one-column characters that fit, texts at the left and at the top, and styles without word
wrapping (`text-wrap: nowrap`); with word wrapping, which is the default, only for texts and cursors without blanks. -/
theorem typed_seen_partial {seg : List Char → List (List Char)} (hseg : SegOk seg) (ops : List Op) (w : Char → Nat)
    (hist : List RenderCache.Sheet) (s : Static.Sheet) (ws : Grapheme → Bool) (r : Region) (c : Canvas)
    (hpad : s.linePad = 0) (hleft : s.alignH = .left) (htop : s.alignV = .top)
    (halign : s.textAlign = .start ∨ s.textAlign = .left)
    (hroom : Room s.frame r.width.toNat none none) (ho : NoOutline s.frame)
    (hbw : 0 < (textBox s.frame none none r).width) (hbh : 0 < (textBox s.frame none none r).height)
    (hc : c.cells.length = c.w * c.h) :
    let i := ops.foldl (Input.step seg) {}
    ((shownText seg i).length : Int) ≤ (textBox s.frame none none r).width →
    (∀ ch ∈ shownText seg i, w ch = 1 ∧ ch ≠ '\n') →
    (s.wrap = .noWrap ∨ ∀ ch ∈ shownText seg i, ws ⟨String.singleton ch, 1⟩ = false) →
    ∃ drawn c', lines (byChar w) s ws i ((cacheAfter hist s.frame).innerSize r.width.toNat r.height.toNat).1 = some drawn ∧
      c.run ((paint s false (cacheAfter hist s.frame) drawn none none none none r).map .draw) = some c' ∧
      ∀ (pre : List (Markup.Style × List Char)) (st : Markup.Style) (a : List Char) (ch : Char) (b : List Char)
        (post : List (Markup.Style × List Char)) (X Y : Nat),
        i.expected seg cursorLook placeholderLook = pre ++ (st, a ++ ch :: b) :: post →
        (X : Int) = (textBox s.frame none none r).x + ((pre.flatMap (·.2)).length + a.length : Nat) →
        (Y : Int) = (textBox s.frame none none r).y → X < c.w → Y < c.h → Within c.currentClip X Y →
        (∃ x : StripCell, x.g.text = String.singleton ch ∧ x.style.getD {} = s.text.apply (convertStyle st) ∧
          c'.cells[Y * c.w + X]? = (c.cells[Y * c.w + X]?).map (drawnOn x)) ∧
        (ch ≠ ' ' → (c'.cells[Y * c.w + X]?).map (·.symbol) = some (String.singleton ch)) ∧
        (st = cursorLook → (c'.cells[Y * c.w + X]?).map (fun cell => (cell.symbol, cell.fg, cell.bg)) =
          some (String.singleton ch, some ⟨18, 18, 18⟩, some ⟨224, 224, 224⟩)) := by
  intro i hf hw hm
  have hin : (((cacheAfter hist s.frame).innerSize r.width.toNat r.height.toNat).1 : Int) = (textBox s.frame none none r).width := by
    rw [RenderCache.inner_size_exact]
    have h2 : (textBox s.frame none none r).width = r.width - Static.edgeOf s.frame.border.left.kind.vertical -
      Static.edgeOf s.frame.border.right.kind.vertical - s.frame.paddingLeft - s.frame.paddingRight := rfl
    rw [h2] at hbw ⊢
    unfold Static.edgeOf at hbw ⊢
    dsimp only
    split at hbw <;> split at hbw <;> simp_all <;> omega
  generalize hn : ((cacheAfter hist s.frame).innerSize r.width.toNat r.height.toNat).1 = n at hin ⊢
  obtain ⟨line, l1, l2, l3, l4⟩ := row_exact hseg ops w s ws n hpad (by omega)
    (Int.ofNat_le.1 (by rw [hin]; exact hf)) hw hm
  obtain ⟨c', run, above, below, left, right, block, e1, e2, e3, e4, e5, e6⟩ :=
    Static.text_on_canvas_partial hist s [⟨line, true⟩] none none none none r hroom ho
      (by intro x hx; rw [List.mem_singleton.1 hx]; exact l2) (fun _ h => nomatch h) (fun _ h => nomatch h) (fun _ h => nomatch h)
      hbw hbh (by intro x hx; rw [List.mem_singleton.1 hx]; show (line.cellLength : Int) ≤ _; rw [l3]; exact hf)
      (by rw [List.length_singleton]; omega) c hc
  have habove : above = 0 := by rw [htop] at e2; exact e2
  have hl0 : left = 0 := by rw [hleft] at e4; exact e4
  subst habove hl0
  refine ⟨[⟨line, true⟩], c', l1, run, ?_⟩
  intro pre st a ch b post X Y he hX hY hXw hYh hcl
  obtain ⟨x, x1, x2, x3⟩ := l4 pre st a ch b post he
  obtain ⟨before, after, g1, g2, g3⟩ := e6 0 ⟨line, true⟩ rfl (by simp)
  have hb0 : before = 0 := by
    rcases halign with h | h <;> (rw [h] at g2; exact g2)
  subst hb0
  obtain ⟨f1, f2⟩ := g3 _ x X Y x1 (by rw [hX]; simp) (by rw [hY]; simp) hXw hYh hcl
  have f1 := f1 rfl rfl
  have hsym : x.g.text = String.singleton ch := by rw [x2]
  refine ⟨⟨x, hsym, x3, f1⟩, fun hne => ?_, fun hcur => ?_⟩
  · rw [← hsym]
    refine f2 ?_
    rw [hsym]
    intro e
    have := congrArg String.toList e
    exact hne (by simpa using this)
  · subst hcur
    have hlt : Y * c.w + X < c.cells.length := by rw [hc]; exact Canvas.index_lt hXw hYh
    rw [f1, List.getElem?_eq_getElem hlt, Option.map_some, Option.map_some]
    unfold drawnOn
    dsimp only
    rw [x3, hsym, if_neg]
    · rfl
    · rintro ⟨-, h, -⟩
      have := congrArg Style.fg h
      simp [Style.apply, convertStyle, cursorLook] at this

/-! ### Cases -/

/-- Each character is a grapheme of its own. -/
def single (t : List Char) : List (List Char) := t.map ([·])

theorem single_ok : SegOk single where
  join s := by
    unfold single
    rw [← List.flatMap_def]
    exact List.flatMap_pure_eq_map .. |>.trans (List.map_id' s)
  nonempty s g hg := by
    obtain ⟨c, _, rfl⟩ := List.mem_map.1 hg
    exact List.cons_ne_nil _ _

/-- What is on a row of `n` columns after an input has been drawn there, symbols with their backgrounds. -/
def seen (ops : List Op) (s : Static.Sheet) (n : Nat) : Option (List (String × Option Rgb)) := do
  let i := ops.foldl (Input.step single) {}
  let drawn ← lines (byChar fun _ => 1) s asciiWs i ((cacheAfter [] s.frame).innerSize n 1).1
  let c ← Canvas.new n 1
  let c' ← c.run ((paint s false (cacheAfter [] s.frame) drawn none none none none ⟨0, 0, n, 1⟩).map .draw)
  return c'.cells.map fun cell => (cell.symbol, cell.bg)

/-- The colour of the cursor's background. -/
def light : Option Rgb := some ⟨224, 224, 224⟩

/-- **C192**: with the default styles the cursor behind the end of the text, where it is while typing, is not drawn: word
wrapping ends the line with its last word. -/
theorem cursor_counterexample :
    (([Op.setFocus true, .key (.char 'h'), .key (.char 'i')].foldl (Input.step single) {}).expected single cursorLook
      placeholderLook = [({}, "hi".toList), (cursorLook, " ".toList)]) ∧
    seen [.setFocus true, .key (.char 'h'), .key (.char 'i')] {} 5 =
      some [("h", none), ("i", none), (" ", none), (" ", none), (" ", none)] := by
  constructor <;> decide +kernel

/-- **C192**: with the default styles an empty input with the focus looks as one without. -/
theorem empty_counterexample :
    (([Op.setFocus true].foldl (Input.step single) {}).expected single cursorLook placeholderLook =
      [(cursorLook, " ".toList)]) ∧
    seen [.setFocus true] {} 3 = seen [] {} 3 := by
  constructor <;> decide +kernel

/-- **C192**: with the default styles and without the focus several blanks are drawn as one, so that the text changes its
looks when the focus comes or goes. -/
theorem blanks_counterexample :
    seen [.setValue "a  b".toList] {} 5 = some [("a", none), (" ", none), ("b", none), (" ", none), (" ", none)] ∧
    seen [.setValue "a  b".toList, .setFocus true] {} 5 =
      some [("a", light), (" ", none), (" ", none), ("b", none), (" ", none)] := by
  constructor <;> decide +kernel

/-- **C192**: with the default styles a long word with the cursor in it is not broken, and its end, the cursor with it, is not
drawn. -/
theorem long_counterexample :
    (([Op.setFocus true, .setValue "abcdef".toList, .setCursor 5].foldl (Input.step single) {}).expected single cursorLook
      placeholderLook = [({}, "abcde".toList), (cursorLook, "f".toList), ({}, [])]) ∧
    seen [.setFocus true, .setValue "abcdef".toList, .setCursor 5] {} 5 =
      some [("a", none), ("b", none), ("c", none), ("d", none), ("e", none)] := by
  constructor <;> decide +kernel

/-- With `text-wrap: nowrap` the cursor behind the end is drawn. -/
example : seen [.setFocus true, .key (.char 'h'), .key (.char 'i')] { wrap := .noWrap } 5 =
    some [("h", none), ("i", none), (" ", light), (" ", none), (" ", none)] := by decide +kernel

/-- The hypotheses are met by the default styles and a word with the cursor in it, in the blank border that inputs have. -/
example : ∃ (s : Static.Sheet) (r : Region) (ops : List Op), s.linePad = 0 ∧ s.alignH = .left ∧ s.alignV = .top ∧
    s.textAlign = .start ∧ s.wrap = .wrap ∧ s.frame.border.left.kind = .blank ∧
    Room s.frame r.width.toNat none none ∧ NoOutline s.frame ∧
    0 < (textBox s.frame none none r).width ∧ 0 < (textBox s.frame none none r).height ∧
    ((shownText single (ops.foldl (Input.step single) {})).length : Int) ≤ (textBox s.frame none none r).width ∧
    (∀ ch ∈ shownText single (ops.foldl (Input.step single) {}), ch ≠ '\n' ∧ asciiWs ⟨String.singleton ch, 1⟩ = false) ∧
    shownText single (ops.foldl (Input.step single) {}) = "word".toList := by
  refine ⟨{ frame := { border := ⟨{ kind := .blank }, { kind := .blank }, { kind := .blank }, { kind := .blank }⟩ } }, ⟨0, 0, 12, 3⟩, [.setFocus true, .setValue "word".toList, .setCursor 2], rfl, rfl, rfl, rfl,
    rfl, rfl, ?_, ?_, ?_, ?_, ?_, ?_, ?_⟩
  · unfold Room; decide
  · unfold NoOutline; decide
  all_goals decide +kernel

end Textual.Typing
