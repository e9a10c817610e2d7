import Verif.Lemmas.Erase
import Verif.Props.Static
import Verif.Props.Content

/-!
C99-C101: what a static text shows does not depend on colours, and its automatic size.
-/

namespace Textual.Static

open Content (Content WrappedLine Overflow Wrap LinkStyle splitLines words wordsLoop wrapWords)
open Strip (AlignH)
open RenderCache (Cache Kind cacheAfter cacheAfter_fields one fitLine)

/-! ### Layout without styles -/

theorem rowLinks_plain (row left : Nat) : ∀ (segs : List Segment) (col : Nat),
    rowLinks row left col (segs.map Segment.plain) = rowLinks row left col segs
  | [], _ => rfl
  | seg :: rest, col => by
    rw [List.map_cons, rowLinks, rowLinks,
      show col + seg.plain.cellLength = col + seg.cellLength from rfl, rowLinks_plain row left rest]
    rfl

theorem linksFrom_plain (top left : Nat) : ∀ (l : List Strip) (row : Nat),
    linksFrom top left row (l.map Strip.plain) = linksFrom top left row l
  | [], _ => rfl
  | s :: rest, row => by
    rw [List.map_cons, linksFrom, linksFrom, linksFrom_plain top left rest,
      show s.plain.segments = s.segments.map Segment.plain from rfl, rowLinks_plain]

theorem alignLine_plain (s s' : Sheet) (ht : s'.textAlign = s.textAlign) (w lw h : Nat) {a b : WrappedLine}
    (e : a.plain = b.plain) : (alignLine s w lw h a).plain = (alignLine s' w lw h b).plain := by
  have hl : a.lineEnd = b.lineEnd := by
    have := congrArg WrappedLine.lineEnd e
    exact this
  have hs : a.strip.plain = b.strip.plain := congrArg WrappedLine.strip e
  unfold alignLine
  dsimp only
  rw [ht, hl, Strip.adjust_plain, Strip.adjust_plain]
  congr 1
  have key : (if s.textAlign = .justify ∧ b.lineEnd = false then a.strip.justify lw (padOf s.text)
      else a.strip.textAlign s.textAlign.line lw (padOf s.text)).plain =
      (if s.textAlign = .justify ∧ b.lineEnd = false then b.strip.justify lw (padOf s'.text)
      else b.strip.textAlign s.textAlign.line lw (padOf s'.text)).plain := by
    split
    · rw [Strip.justify_plain, Strip.justify_plain, hs]
    · rw [Strip.textAlign_plain, Strip.textAlign_plain, hs]
  split
  · rw [Strip.join_plain, Strip.join_plain]
    simp only [List.map_cons, List.map_nil, Strip.blank_plain, key]
  · exact key

theorem maxLength_plain (l : List WrappedLine) : maxLength (l.map WrappedLine.plain) = maxLength l := by
  unfold maxLength
  rw [List.map_map]
  rfl

theorem map_eq_of_forall {α β γ δ : Type} {p : α → γ} {f f' : α → β} {q : β → δ}
    (hf : ∀ a b, p a = p b → q (f a) = q (f' b)) : ∀ (l l' : List α), l.map p = l'.map p →
    (l.map f).map q = (l'.map f').map q
  | [], [], _ => rfl
  | [], _ :: _, h => by simp at h
  | _ :: _, [], h => by simp at h
  | a :: l, b :: l', h => by
    simp only [List.map_cons, List.cons.injEq] at h ⊢
    exact ⟨hf a b h.1, map_eq_of_forall hf l l' h.2⟩

theorem alignContent_plain (s s' : Sheet) (h1 : s'.textAlign = s.textAlign) (h2 : s'.alignH = s.alignH)
    (h3 : s'.alignV = s.alignV) {l l' : List WrappedLine} (e : l.map WrappedLine.plain = l'.map WrappedLine.plain)
    (w h : Nat) :
    (alignContent s l w h).map Strip.plain = (alignContent s' l' w h).map Strip.plain := by
  have hlen : l.length = l'.length := by
    have := congrArg List.length e
    rwa [List.length_map, List.length_map] at this
  have hmax : maxLength l = maxLength l' := by rw [← maxLength_plain l, e, maxLength_plain]
  unfold alignContent
  split
  · rfl
  · dsimp only
    rw [h2, h3, hlen, hmax]
    simp only [List.map_append, List.map_replicate, Strip.blank_plain, List.length_append, List.length_replicate,
      List.length_map, List.length_take, hlen]
    rw [map_eq_of_forall (p := WrappedLine.plain) (f' := alignLine s' w
      (if s.alignH = .left ∧ s.alignV = .top then w else min w (maxLength l'))
      (hOffset s.alignH w (min w (maxLength l')))) (fun a b => alignLine_plain s s' h1 _ _ _)
      (l.take (h - vOffset s.alignV h l'.length)) (l'.take (h - vOffset s.alignV h l'.length))
      (by rw [List.map_take, List.map_take, e])]

theorem fitLine_plain {a b : Option Strip} (h : a.map Strip.plain = b.map Strip.plain) (w : Nat)
    (st : Option Style) : (fitLine a w st).plain = (fitLine b w st).plain := by
  rcases opt_cases h with ⟨rfl, rfl⟩ | ⟨x, y, rfl, rfl, e⟩
  · rfl
  · show (x.adjustCellLength w st).plain = (y.adjustCellLength w st).plain
    rw [Strip.adjust_plain, Strip.adjust_plain, e]

theorem segs_plain {a b : Strip} (h : a.plain = b.plain) :
    a.segments.map Segment.plain = b.segments.map Segment.plain := congrArg Strip.segments h

theorem applyOutline_plain (c : Cache) {a b : Strip} (h : a.plain = b.plain) (y ht w : Nat) :
    (c.applyOutline a y ht w).plain = (c.applyOutline b y ht w).plain := by
  unfold Cache.applyOutline
  cases c.outlineBox with
  | none => exact h
  | some box =>
    dsimp only
    split
    · exact h
    · split
      · rfl
      · split
        · rfl
        · split
          · rw [Strip.ofSegments_plain, Strip.ofSegments_plain]
            simp only [List.map_append]
            rw [segs_plain (a := (a.crop _ _).adjustCellLength _ c.padStyle) (b := (b.crop _ _).adjustCellLength _ c.padStyle)
              (by rw [Strip.adjust_plain, Strip.adjust_plain, Strip.crop_plain, Strip.crop_plain, h])]
          · exact h

theorem renderLine_same (c : Cache) {a b : Option Strip} (h : a.map Strip.plain = b.map Strip.plain) (y ht w : Nat)
    (title subtitle : Option Strip) :
    (c.renderLine y ht w a title subtitle).plain = (c.renderLine y ht w b title subtitle).plain := by
  have hrow : (c.contentRow w a).plain = (c.contentRow w b).plain := by
    unfold Cache.contentRow
    dsimp only
    have := fitLine_plain h (w - (c.paddingLeft + c.paddingRight)) c.padStyle
    split
    · exact this
    · rw [Strip.ofSegments_plain, Strip.ofSegments_plain]
      simp only [List.map_append]
      rw [segs_plain this]
  have hmid : ∀ row, (c.middleRow row a w).plain = (c.middleRow row b w).plain := by
    intro row
    unfold Cache.middleRow
    dsimp only
    rw [Strip.ofSegments_plain, Strip.ofSegments_plain]
    simp only [List.map_append]
    rw [segs_plain (fitLine_plain h _ c.padStyle)]
  unfold Cache.renderLine
  split
  · rfl
  · split
    · exact applyOutline_plain c hrow y ht w
    · split
      · rfl
      · split
        · rfl
        · split
          · split
            · split
              · rfl
              · split
                · rfl
                · exact applyOutline_plain c (hmid _) y ht w
            · exact applyOutline_plain c hrow y ht w
          · rfl

theorem drawLines_plain (s s' : Sheet) (h1 : s'.textAlign = s.textAlign) (h2 : s'.alignH = s.alignH)
    (h3 : s'.alignV = s.alignV) (c : Cache) {l l' : List WrappedLine}
    (e : l.map WrappedLine.plain = l'.map WrappedLine.plain) (title subtitle : Option Strip) (w h : Nat) :
    (drawLines s c l title subtitle w h).rows.map Strip.plain =
      (drawLines s' c l' title subtitle w h).rows.map Strip.plain ∧
    (drawLines s c l title subtitle w h).links = (drawLines s' c l' title subtitle w h).links := by
  unfold drawLines
  dsimp only
  have key := alignContent_plain s s' h1 h2 h3 e (c.innerSize w h).1
    ((c.innerSize w h).2 - (reserve c.top (c.top || c.right || c.bottom || c.left) title +
      reserve c.bottom (c.top || c.right || c.bottom || c.left) subtitle))
  constructor
  · rw [List.map_map, List.map_map]
    apply List.map_congr_left
    intro y _
    refine renderLine_same c ?_ y h w _ _
    split
    · rw [← List.getElem?_map, ← List.getElem?_map, key]
    · rfl
  · unfold linkRegions
    rw [← linksFrom_plain, ← linksFrom_plain _ _ (alignContent s' l' _ _), key]

/-- C99: which link is highlighted, and in which colours text and links are shown, changes neither what is
shown in any column nor where the links are. -/
theorem restyle_keeps_layout (s : Sheet) (c : Cache) (ws : Grapheme → Bool) (content : Content)
    (hovered hovered' : Option String) (text : Style) (link : LinkStyle) (title subtitle : Option Strip)
    (w h : Nat) :
    (draw s c ws content hovered title subtitle w h).map (fun d => (d.rows.map Strip.plain, d.links)) =
    (draw { s with text := text, link := link } c ws content hovered' title subtitle w h).map
      (fun d => (d.rows.map Strip.plain, d.links)) := by
  unfold draw
  rw [Option.map_map, Option.map_map]
  have key : (textLines s ws content hovered (c.innerSize w h).1).map (List.map WrappedLine.plain) =
      (textLines { s with text := text, link := link } ws content hovered' (c.innerSize w h).1).map
        (List.map WrappedLine.plain) := by
    unfold textLines
    dsimp only
    have hw : (if (c.innerSize w h).1 > 0 then
          ({ content with style := some s.text, linkStyle := some s.link, hovered := hovered } : Content).wrapFull ws
            (max ((c.innerSize w h).1 - 2 * s.linePad) 1) s.overflow s.wrap else some []).map
          (List.map WrappedLine.plain) =
        (if (c.innerSize w h).1 > 0 then
          ({ content with style := some text, linkStyle := some link, hovered := hovered' } : Content).wrapFull ws
            (max ((c.innerSize w h).1 - 2 * s.linePad) 1) s.overflow s.wrap else some []).map
          (List.map WrappedLine.plain) := by
      split
      · exact Content.wrapFull_plain
          { content with style := some s.text, linkStyle := some s.link, hovered := hovered }
          { content with style := some text, linkStyle := some link, hovered := hovered' } rfl rfl ws _ _ _
      · rfl
    split
    · rcases opt_cases hw with ⟨e1, e2⟩ | ⟨l, l', e1, e2, e⟩
      · rw [e1, e2]; rfl
      · rw [e1, e2]
        simp only [Option.map_some]
        congr 1
        refine map_eq_of_forall ?_ l l' e
        intro a b hab
        have hl : a.lineEnd = b.lineEnd := by
          have := congrArg WrappedLine.lineEnd hab
          exact this
        have hs : a.strip.plain = b.strip.plain := congrArg WrappedLine.strip hab
        show WrappedLine.mk (Strip.plain _) a.lineEnd = WrappedLine.mk (Strip.plain _) b.lineEnd
        rw [Strip.join_plain, Strip.join_plain, hl]
        simp only [List.map_cons, List.map_nil, Strip.blank_plain, hs]
    · exact hw
  rcases opt_cases key with ⟨e1, e2⟩ | ⟨l, l', e1, e2, e⟩
  · rw [e1, e2]; rfl
  · rw [e1, e2]
    simp only [Option.map_some, Function.comp]
    obtain ⟨k1, k2⟩ := drawLines_plain s { s with text := text, link := link } rfl rfl rfl c e title subtitle w h
    rw [k1, k2]

/-! ### Automatic height -/

/-- The border kinds for which the space reserved and the space drawn agree. -/
def PlainKinds (b : RenderCache.Border) : Prop :=
  b.top.kind ≠ .vkey ∧ b.bottom.kind ≠ .vkey ∧ b.left.kind ≠ .hkey ∧ b.right.kind ≠ .hkey

theorem edge_eq {b : RenderCache.Border} (h : PlainKinds b) :
    edge b.top.kind = one b.top.kind.horizontal ∧ edge b.bottom.kind = one b.bottom.kind.horizontal ∧
    edge b.left.kind = one b.left.kind.vertical ∧ edge b.right.kind = one b.right.kind.vertical := by
  obtain ⟨h1, h2, h3, h4⟩ := h
  refine ⟨?_, ?_, ?_, ?_⟩
  · revert h1; cases b.top.kind <;> simp [edge, one, Kind.horizontal]
  · revert h2; cases b.bottom.kind <;> simp [edge, one, Kind.horizontal]
  · revert h3; cases b.left.kind <;> simp [edge, one, Kind.vertical]
  · revert h4; cases b.right.kind <;> simp [edge, one, Kind.vertical]

theorem textLines_length (s : Sheet) (ws : Grapheme → Bool) (content : Content) (hovered : Option String)
    (n : Nat) (hn : 0 < n) :
    (textLines s ws content hovered n).map List.length =
      (content.wrapFull ws (max (n - 2 * s.linePad) 1) s.overflow s.wrap).map List.length := by
  have key := Content.wrapFull_plain content
    { content with style := some s.text, linkStyle := some s.link, hovered := hovered } rfl rfl ws
    (max (n - 2 * s.linePad) 1) s.overflow s.wrap
  unfold textLines
  dsimp only
  rw [if_pos hn]
  have hlen : ∀ {l l' : List WrappedLine}, l.map WrappedLine.plain = l'.map WrappedLine.plain →
      l.length = l'.length := by
    intro l l' e
    have := congrArg List.length e
    rwa [List.length_map, List.length_map] at this
  rcases opt_cases key with ⟨e1, e2⟩ | ⟨l, l', e1, e2, e⟩
  · rw [e1, e2]; split <;> rfl
  · rw [e1, e2]
    split
    · simp only [Option.map_some, List.length_map]
      rw [hlen e]
    · simp only [Option.map_some]
      rw [hlen e]

theorem wrapFull_pos (c : Content) (ws : Grapheme → Bool) (w : Nat) (o : Overflow) (m : Wrap) (l : List WrappedLine)
    (h : c.wrapFull ws w o m = some l) : 0 < l.length := by
  unfold Content.wrapFull at h
  split at h
  · injection h with h; rw [← h]; exact Nat.one_pos
  · obtain ⟨r, _, rfl⟩ := Option.map_eq_some_iff.1 h
    split
    · exact Nat.one_pos
    · rename_i hr
      cases r
      · exact absurd rfl hr
      · exact Nat.succ_pos _

/-- C100: a text drawn at its automatic height has exactly a row for each of its lines. Missing: labels
shown in the side borders, and keyline borders (`auto_height_counterexample`). -/
theorem auto_height_partial (hist : List RenderCache.Sheet) (s : Sheet) (ws : Grapheme → Bool) (content : Content)
    (hovered : Option String) (w height : Nat) (lines : List WrappedLine) (title subtitle : Option Strip)
    (hk : PlainKinds s.frame.border)
    (ht : title = none ∨ s.frame.border.top.kind.horizontal = true)
    (hb : subtitle = none ∨ s.frame.border.bottom.kind.horizontal = true)
    (hh : intrinsicHeight s ws content w = some height)
    (hw : 0 < ((cacheAfter hist s.frame).innerSize w height).1)
    (hl : textLines s ws content hovered ((cacheAfter hist s.frame).innerSize w height).1 = some lines) :
    ∃ top bottom, top = one s.frame.border.top.kind.horizontal + s.frame.paddingTop ∧
      bottom = one s.frame.border.bottom.kind.horizontal + s.frame.paddingBottom ∧
      height = top + lines.length + bottom ∧
      (drawLines s (cacheAfter hist s.frame) lines title subtitle w height).rows =
        (List.range height).map fun y => (cacheAfter hist s.frame).renderLine y height w
          (if y ≥ top ∧ y < top + lines.length then
            (alignContent s lines ((cacheAfter hist s.frame).innerSize w height).1 lines.length)[y - top]?
          else none)
          (if (cacheAfter hist s.frame).box.isSome then title else none)
          (if (cacheAfter hist s.frame).box.isSome then subtitle else none) := by
  obtain ⟨e1, e2, e3, e4⟩ := edge_eq hk
  have hin := RenderCache.inner_size_exact hist s.frame w height
  have hS := RenderCache.cacheAfter_sound hist s.frame
  obtain ⟨f1, f2, f3, f4, f5, f6, f7, f8, _⟩ := cacheAfter_fields hist s.frame
  have hlen := textLines_length s ws content hovered _ hw
  rw [hl] at hlen
  unfold intrinsicHeight at hh
  dsimp only at hh
  rw [e1, e2, e3, e4] at hh
  obtain ⟨l, hwf, hheight⟩ := Option.map_eq_some_iff.1 hh
  have hwid : max (w - (one s.frame.border.left.kind.vertical + one s.frame.border.right.kind.vertical +
      (s.frame.paddingLeft + s.frame.paddingRight)) - 2 * s.linePad) 1 =
      max (((cacheAfter hist s.frame).innerSize w height).1 - 2 * s.linePad) 1 := by
    rw [hin]
    unfold one
    dsimp only
    congr 2
    omega
  rw [hwid] at hwf
  rw [hwf] at hlen
  simp only [Option.map_some, Option.some.injEq] at hlen
  have hpos := wrapFull_pos _ _ _ _ _ _ hwf
  have hH : height = one s.frame.border.top.kind.horizontal + s.frame.paddingTop + lines.length +
      (one s.frame.border.bottom.kind.horizontal + s.frame.paddingBottom) := by omega
  refine ⟨_, _, rfl, rfl, hH, ?_⟩
  have hrt : reserve (cacheAfter hist s.frame).top ((cacheAfter hist s.frame).top ||
      (cacheAfter hist s.frame).right || (cacheAfter hist s.frame).bottom || (cacheAfter hist s.frame).left)
      title = 0 := by
    unfold reserve
    rw [if_neg]
    rintro ⟨a, _, b⟩
    rw [f1] at a
    rcases ht with h | h
    · rw [h] at b; cases b
    · rw [h] at a; cases a
  have hrb : reserve (cacheAfter hist s.frame).bottom ((cacheAfter hist s.frame).top ||
      (cacheAfter hist s.frame).right || (cacheAfter hist s.frame).bottom || (cacheAfter hist s.frame).left)
      subtitle = 0 := by
    unfold reserve
    rw [if_neg]
    rintro ⟨a, _, b⟩
    rw [f2] at a
    rcases hb with h | h
    · rw [h] at b; cases b
    · rw [h] at a; cases a
  have hbox : (((cacheAfter hist s.frame).top || (cacheAfter hist s.frame).right ||
      (cacheAfter hist s.frame).bottom || (cacheAfter hist s.frame).left) = true) ↔
      (cacheAfter hist s.frame).box.isSome = true := by
    constructor
    · intro h
      cases hb : (cacheAfter hist s.frame).box with
      | none =>
        obtain ⟨n1, n2, n3, n4⟩ := hS.noBox hb
        rw [n1, n2, n3, n4] at h
        cases h
      | some b => rfl
    · intro h
      apply hS.hasBox
      intro h'
      rw [h'] at h
      cases h
  have hsz : ((cacheAfter hist s.frame).innerSize w height).2 = lines.length := by
    rw [hin]
    show height - ((if s.frame.border.top.kind.horizontal = true then 1 else 0) +
      (if s.frame.border.bottom.kind.horizontal = true then 1 else 0) + s.frame.paddingTop +
      s.frame.paddingBottom) = lines.length
    have o1 : (if s.frame.border.top.kind.horizontal = true then 1 else 0) =
      one s.frame.border.top.kind.horizontal := rfl
    have o2 : (if s.frame.border.bottom.kind.horizontal = true then 1 else 0) =
      one s.frame.border.bottom.kind.horizontal := rfl
    rw [o1, o2]
    omega
  unfold drawLines
  dsimp only
  rw [hrt, hrb, hsz, f1, f2, f7, f8]
  apply List.map_congr_left
  intro y _
  have hend : height - (one s.frame.border.bottom.kind.horizontal + s.frame.paddingBottom + 0) =
      one s.frame.border.top.kind.horizontal + s.frame.paddingTop + lines.length := by omega
  rw [hend]
  rw [f1, f2] at hbox
  simp only [hbox]
  rfl

/-! ### Automatic width -/

theorem wordsLoop_width (ws : Grapheme → Bool) : ∀ (rest cur : List Grapheme),
    (∀ g ∈ rest, ws g = true → 1 ≤ g.width) →
    ((wordsLoop ws cur rest).map fun w => widthOf w + 1).sum ≤ widthOf cur + widthOf rest + 1
  | [], cur, _ => by
    unfold wordsLoop
    cases cur <;> simp [Content.widthOf_nil]
  | g :: gs, cur, h => by
    unfold wordsLoop
    rw [Content.widthOf_cons]
    have hg := fun x (hx : x ∈ gs) => h x (List.mem_cons_of_mem _ hx)
    split
    · rename_i hw
      have h1 := h g List.mem_cons_self hw
      have ih := wordsLoop_width ws gs [] hg
      rw [Content.widthOf_nil] at ih
      rw [List.map_append, List.sum_append]
      cases cur with
      | nil =>
        rw [Content.widthOf_nil]
        simp only [List.isEmpty_nil, if_true, List.map_nil, List.sum_nil]
        omega
      | cons a b =>
        simp only [List.isEmpty_cons, Bool.false_eq_true, if_false, List.map_cons, List.map_nil, List.sum_cons,
          List.sum_nil]
        omega
    · have ih := wordsLoop_width ws gs (cur ++ [g]) hg
      have e : widthOf (cur ++ [g]) = widthOf cur + g.width := by simp [widthOf]
      omega

theorem wrapWords_one (width : Nat) : ∀ (wds : List (List Grapheme)) (cur : List Grapheme) (curW : Nat),
    0 < curW → cur ≠ [] → curW + (wds.map fun w => widthOf w + 1).sum ≤ width →
    (wrapWords width cur curW wds).length = 1
  | [], cur, curW, _, h, _ => by
    unfold wrapWords
    rw [if_neg (by simpa using h)]
    rfl
  | w :: wds, cur, curW, h1, h2, h3 => by
    rw [List.map_cons, List.sum_cons] at h3
    unfold wrapWords
    dsimp only
    rw [if_neg (by omega), if_pos (by omega)]
    exact wrapWords_one width wds _ _ (by omega) (by simp) (by omega)

/-- A line of text that is not blank, with words and white space one can see. -/
structure Legible (ws : Grapheme → Bool) (line : List Grapheme) : Prop where
  blanks : ∀ g ∈ line, ws g = true → 1 ≤ g.width
  visible : Content.VisibleWords ws line
  ink : line = [] ∨ words ws line ≠ []

theorem wrapOne_single (c : Content) (hp : c.spans = none) (ws : Grapheme → Bool) (width : Nat)
    (o : Overflow) (m : Wrap) (ls : Nat) (line : List Grapheme) (hl : Legible ws line)
    (hfit : widthOf line ≤ width) (hw : 0 < width) :
    ∃ r, c.wrapOne ws width o m ls line = some r ∧ r.length = 1 := by
  have hmark : ∀ l : List Strip, l.length = 1 → (Content.markLast l).length = 1 := by
    intro l h
    match l, h with
    | [x], _ => rfl
  unfold Content.wrapOne
  split
  · exact ⟨_, rfl, rfl⟩
  · rename_i hne
    have hne' : line ≠ [] := by simpa using hne
    cases m with
    | noWrap =>
      dsimp only
      unfold Content.fullLine
      rw [hp]
      dsimp only
      rw [Option.map_some]
      refine ⟨_, rfl, ?_⟩
      cases o with
      | clip => rfl
      | ellipsis => rfl
      | fold =>
        apply hmark
        unfold Content.splitByWidth
        rw [if_neg (by omega)]
        split
        · rfl
        · rename_i h0
          have hcl := Content.plainStrip_width c line
          rw [Content.splitLoop, dif_pos ⟨by omega, hw⟩, Content.splitLoop, dif_neg (by omega)]
          rfl
    | wrap =>
      dsimp only
      rw [hp]
      dsimp only
      rw [Option.map_some]
      refine ⟨_, rfl, ?_⟩
      apply hmark
      rw [List.length_map]
      unfold Content.wrapLine
      rw [List.length_map]
      have hsum := wordsLoop_width ws line [] hl.blanks
      rw [Content.widthOf_nil] at hsum
      have hv := hl.visible
      have hk := hl.ink.resolve_left hne'
      unfold Content.VisibleWords at hv
      change ((words ws line).map _).sum ≤ _ at hsum
      cases hwd : words ws line with
      | nil => exact absurd hwd hk
      | cons w wds =>
        rw [hwd, List.map_cons, List.sum_cons] at hsum
        rw [hwd] at hv
        have hwpos := hv w List.mem_cons_self
        unfold wrapWords
        dsimp only
        rw [if_pos rfl, if_pos (by omega)]
        refine wrapWords_one width wds w _ hwpos ?_ (by omega)
        intro h0
        rw [h0, Content.widthOf_nil] at hwpos
        omega

theorem wrapLines_single (c : Content) (hp : c.spans = none) (ws : Grapheme → Bool) (width : Nat) (hw : 0 < width)
    (o : Overflow) (m : Wrap) : ∀ (lines : List (List Grapheme)) (ls : Nat),
    (∀ line ∈ lines, Legible ws line ∧ widthOf line ≤ width) →
    ∃ r, c.wrapLines ws width o m ls lines = some r ∧ r.length = lines.length
  | [], _, _ => ⟨[], rfl, rfl⟩
  | line :: rest, ls, h => by
    obtain ⟨a, a1, a2⟩ := wrapOne_single c hp ws width o m ls line (h line List.mem_cons_self).1
      (h line List.mem_cons_self).2 hw
    obtain ⟨r, r1, r2⟩ := wrapLines_single c hp ws width hw o m rest (ls + Content.blen line + 1)
      (fun l hl => h l (List.mem_cons_of_mem _ hl))
    refine ⟨a ++ r, ?_, by rw [List.length_append, a2, r2, List.length_cons]; omega⟩
    rw [Content.wrapLines, a1]
    dsimp only
    rw [r1]
    rfl

/-- C101: a text without markup drawn at its automatic width is not wrapped: each line of the text takes one
row. Missing: text with markup, whose tags are counted (`auto_width_counterexample`), blank lines, which take
no row (`Content.wrap_blank_counterexample`), and keylines. -/
theorem auto_width_partial (hist : List RenderCache.Sheet) (s : Sheet) (ws : Grapheme → Bool)
    (text : List Grapheme) (hovered : Option String) (height : Nat)
    (hk : PlainKinds s.frame.border) (hl : ∀ line ∈ splitLines text, Legible ws line)
    (hne : ∃ line ∈ splitLines text, 0 < widthOf line) :
    ((cacheAfter hist s.frame).innerSize (autoWidth s text) height).1 =
      ((splitLines text).map widthOf).foldl max 0 + 2 * s.linePad ∧
    ∃ lines, textLines s ws { text := text } hovered
        ((cacheAfter hist s.frame).innerSize (autoWidth s text) height).1 = some lines ∧
      lines.length = (splitLines text).length := by
  obtain ⟨_, _, e3, e4⟩ := edge_eq hk
  have hin : ((cacheAfter hist s.frame).innerSize (autoWidth s text) height).1 =
      ((splitLines text).map widthOf).foldl max 0 + 2 * s.linePad := by
    rw [RenderCache.inner_size_exact hist s.frame]
    unfold autoWidth
    dsimp only
    rw [e3, e4]
    unfold one
    omega
  refine ⟨hin, ?_⟩
  rw [hin]
  have hmax := (foldl_max_le ((splitLines text).map widthOf) 0).2
  have hpos : 0 < ((splitLines text).map widthOf).foldl max 0 := by
    obtain ⟨line, hm, hlt⟩ := hne
    have := hmax _ (List.mem_map_of_mem hm)
    omega
  have hlen := textLines_length s ws { text := text } hovered
    (((splitLines text).map widthOf).foldl max 0 + 2 * s.linePad) (by omega)
  rw [show max (((splitLines text).map widthOf).foldl max 0 + 2 * s.linePad - 2 * s.linePad) 1 =
    ((splitLines text).map widthOf).foldl max 0 by omega] at hlen
  obtain ⟨r, r1, r2⟩ := wrapLines_single { text := text } rfl ws _ hpos s.overflow s.wrap (splitLines text) 0
    (fun line hm => ⟨hl line hm, hmax _ (List.mem_map_of_mem hm)⟩)
  have hfull : ({ text := text } : Content).wrapFull ws (((splitLines text).map widthOf).foldl max 0) s.overflow
      s.wrap = some r := by
    unfold Content.wrapFull
    rw [if_neg (by omega), r1, Option.map_some, if_neg]
    have := Content.splitLines_ne_nil text
    cases r with
    | nil =>
      rw [List.length_nil] at r2
      exact absurd (List.length_eq_zero_iff.1 r2.symm) this
    | cons a b => simp
  rw [hfull] at hlen
  cases ht : textLines s ws { text := text } hovered
      (((splitLines text).map widthOf).foldl max 0 + 2 * s.linePad) with
  | none => rw [ht] at hlen; cases hlen
  | some lines =>
    rw [ht] at hlen
    simp only [Option.map_some, Option.some.injEq] at hlen
    exact ⟨lines, rfl, by rw [hlen, r2]⟩

end Textual.Static
