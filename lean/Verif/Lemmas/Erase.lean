import Verif.Spec.Static

/-!
Forgetting styles commutes with everything that lays out text, for C99.
-/

namespace Textual

/-- A segment without its style. -/
def Segment.plain (s : Segment) : Segment := { s with style := none }

/-- A strip without its styles: what it shows, where, and with what metadata. -/
def Strip.plain (s : Strip) : Strip := ⟨s.segments.map Segment.plain, s.cellLength⟩

theorem opt_cases {α β : Type} {p : α → β} {a b : Option α} (h : a.map p = b.map p) :
    (a = none ∧ b = none) ∨ ∃ x y, a = some x ∧ b = some y ∧ p x = p y := by
  cases a <;> cases b
  · exact Or.inl ⟨rfl, rfl⟩
  · cases h
  · cases h
  · exact Or.inr ⟨_, _, rfl, rfl, by simpa using h⟩

namespace Strip

theorem splitAt_plain (s : Segment) (cut : Nat) :
    s.plain.splitAt cut = ((s.splitAt cut).1.plain, (s.splitAt cut).2.plain) := by
  unfold Segment.splitAt
  show (if cut = 0 then _ else if cut ≥ s.cellLength then _ else _) = _
  split
  · rfl
  · split
    · rfl
    · rfl

theorem cropSegment_plain (seg : Segment) (pos a b : Nat) :
    cropSegment seg.plain pos a b = (cropSegment seg pos a b).map Segment.plain := by
  unfold cropSegment
  show (if a - pos = 0 ∧ min (b - pos) seg.cellLength = seg.cellLength then _ else
    if a - pos = 0 then _ else if min (b - pos) seg.cellLength = seg.cellLength then _ else _) = _
  rw [splitAt_plain, splitAt_plain]
  dsimp only
  rw [splitAt_plain]
  dsimp only
  have hc : seg.plain.cellLength = seg.cellLength := rfl
  rw [hc]
  split
  · rfl
  · split
    · show (if ((seg.splitAt _).1.text.isEmpty = true) then _ else _) = _
      split <;> rfl
    · split
      · show (if ((seg.splitAt _).2.text.isEmpty = true) then _ else _) = _
        split <;> rfl
      · show (if (((seg.splitAt _).2.splitAt _).1.text.isEmpty = true) then _ else _) = _
        split <;> rfl

theorem cropLoop_plain (a b : Nat) : ∀ (segs : List Segment) (pos : Nat),
    cropLoop a b pos (segs.map Segment.plain) = (cropLoop a b pos segs).map Segment.plain
  | [], _ => rfl
  | seg :: rest, pos => by
    rw [List.map_cons, cropLoop, cropLoop]
    rw [show seg.plain.cellLength = seg.cellLength from rfl, cropLoop_plain a b rest]
    split
    · rfl
    · split
      · rfl
      · rw [cropSegment_plain, List.map_append]

theorem ofSegments_plain (segs : List Segment) : (ofSegments segs).plain = ofSegments (segs.map Segment.plain) := by
  unfold ofSegments plain
  rw [List.map_map]
  rfl

theorem crop_plain (s : Strip) (a b : Nat) : (s.crop a b).plain = s.plain.crop a b := by
  unfold crop
  show _ = if a ≥ b ∨ a ≥ s.cellLength then new else _
  split
  · rfl
  · rw [ofSegments_plain, ← cropLoop_plain]
    rfl

theorem join_plain (l : List Strip) : (join l).plain = join (l.map Strip.plain) := by
  unfold join
  rw [ofSegments_plain, List.map_flatMap, List.flatMap_map]
  rfl

theorem blank_plain (n : Nat) (st : Option Style) : (blank n st).plain = blank n none := by
  unfold blank
  split
  · rfl
  · rfl

theorem adjust_plain (s : Strip) (n : Nat) (st : Option Style) :
    (s.adjustCellLength n st).plain = s.plain.adjustCellLength n none := by
  unfold adjustCellLength
  show _ = if s.cellLength = n then _ else if s.cellLength > n then _ else _
  split
  · rfl
  · split
    · exact crop_plain _ _ _
    · rw [ofSegments_plain, List.map_append]
      rfl

theorem textAlign_plain (s : Strip) (a : AlignH) (n : Nat) (st : Option Style) :
    (s.textAlign a n st).plain = s.plain.textAlign a n none := by
  unfold textAlign
  show _ = if s.cellLength ≥ n then _ else _
  split
  · exact crop_plain _ _ _
  · cases a with
    | left => dsimp only; rw [ofSegments_plain, List.map_append]; rfl
    | right => dsimp only; rw [ofSegments_plain, List.map_cons]; rfl
    | center =>
      dsimp only
      rw [ofSegments_plain, List.map_append, List.map_append, apply_ite (List.map Segment.plain),
        apply_ite (List.map Segment.plain)]
      rfl

theorem gapCount_plain (segs : List Segment) : gapCount (segs.map Segment.plain) = gapCount segs := by
  unfold gapCount
  rw [List.map_map]
  rfl

theorem justifySegment_plain (ex : List Nat) (st : Option Style) (i : Meta) : ∀ (t buf : List Grapheme) (gi : Nat),
    justifySegment ex none i gi buf t =
      ((justifySegment ex st i gi buf t).1.map Segment.plain, (justifySegment ex st i gi buf t).2)
  | [], buf, gi => by
    unfold justifySegment
    cases buf <;> rfl
  | g :: gs, buf, gi => by
    rw [justifySegment, justifySegment]
    split
    · rw [justifySegment_plain ex st i gs [] (gi + 1)]
      dsimp only
      rw [List.map_append, apply_ite (List.map Segment.plain)]
      rfl
    · exact justifySegment_plain ex st i gs _ _

theorem justifyLoop_plain (ex : List Nat) : ∀ (segs : List Segment) (gi : Nat),
    justifyLoop ex gi (segs.map Segment.plain) = (justifyLoop ex gi segs).map Segment.plain
  | [], _ => rfl
  | seg :: rest, gi => by
    rw [List.map_cons, justifyLoop, justifyLoop]
    rw [show justifySegment ex seg.plain.style seg.plain.info gi [] seg.plain.text =
      justifySegment ex none seg.info gi [] seg.text from rfl, justifySegment_plain ex seg.style]
    dsimp only
    rw [List.map_append, justifyLoop_plain ex rest]

theorem justify_plain (s : Strip) (n : Nat) (st : Option Style) :
    (s.justify n st).plain = s.plain.justify n none := by
  unfold justify
  rw [show gapCount s.plain.segments = gapCount s.segments from gapCount_plain _]
  show _ = if s.cellLength ≥ n then _ else _
  split
  · exact crop_plain _ _ _
  · split
    · exact textAlign_plain _ _ _ _
    · rw [ofSegments_plain, ← justifyLoop_plain]
      rfl

end Strip

namespace Content

/-- A wrapped line without its styles. -/
def WrappedLine.plain (l : WrappedLine) : WrappedLine := { l with strip := l.strip.plain }

theorem truncate_plain (s : Strip) (n : Nat) : (truncate s n).plain = truncate s.plain n := by
  have hl : ∀ t : Strip, lastStyle t.plain = none := by
    intro t
    unfold lastStyle Strip.plain
    dsimp only
    rw [List.getLast?_map]
    cases t.segments.getLast? <;> rfl
  unfold truncate
  show _ = if n = 0 then _ else if s.cellLength ≤ n then _ else _
  split
  · rfl
  · split
    · rfl
    · split
      · rw [hl]; rfl
      · dsimp only
        rw [Strip.join_plain, ← Strip.crop_plain, hl]
        rfl

theorem splitLoop_plain (s : Strip) (w : Nat) : ∀ (n start : Nat), s.cellLength - start ≤ n →
    (splitLoop s w start).map Strip.plain = splitLoop s.plain w start := by
  intro n
  induction n with
  | zero =>
    intro start h
    rw [splitLoop, dif_neg (by omega), splitLoop, dif_neg (show ¬(start < s.plain.cellLength ∧ 0 < w) from fun h' => by
      have := h'.1; have e : s.plain.cellLength = s.cellLength := rfl; omega)]
    rfl
  | succ n ih =>
    intro start h
    by_cases hc : start < s.cellLength ∧ 0 < w
    · have e : splitLoop s w start = s.crop start (min (start + w) s.cellLength) ::
          splitLoop s w (min (start + w) s.cellLength) := by rw [splitLoop, dif_pos hc]
      have e' : splitLoop s.plain w start = s.plain.crop start (min (start + w) s.cellLength) ::
          splitLoop s.plain w (min (start + w) s.cellLength) := by
        rw [splitLoop, dif_pos (show start < s.plain.cellLength ∧ 0 < w from hc)]
        rfl
      rw [e, e', List.map_cons, Strip.crop_plain, ih _ (by omega)]
    · rw [splitLoop, dif_neg hc, splitLoop, dif_neg (show ¬(start < s.plain.cellLength ∧ 0 < w) from hc)]
      rfl

theorem splitByWidth_plain (s : Strip) (w : Nat) :
    (splitByWidth s w).map Strip.plain = splitByWidth s.plain w := by
  unfold splitByWidth
  show _ = if w = 0 then _ else if s.cellLength = 0 then _ else _
  split
  · rfl
  · split
    · rfl
    · exact splitLoop_plain s w _ 0 (Nat.le_refl _)

theorem markLast_plain : ∀ (l : List Strip), (markLast l).map WrappedLine.plain = markLast (l.map Strip.plain)
  | [] => rfl
  | [_] => rfl
  | s :: t :: rest => by
    have := markLast_plain (t :: rest)
    simp only [List.map_cons, markLast] at this ⊢
    rw [this]
    rfl

theorem mkSegment_plain (t : List Grapheme) (st st' : Style) (i : Meta) :
    (mkSegment t st i).map Segment.plain = (mkSegment t st' i).map Segment.plain := by
  unfold mkSegment
  split <;> rfl

variable (c c' : Content)

theorem renderFrom_plain (spans : List Span) (ls len : Nat) : ∀ (fuel pos : Nat) (rest : List Grapheme),
    (c.renderFrom spans ls len fuel pos rest).map (List.map Segment.plain) =
    (c'.renderFrom spans ls len fuel pos rest).map (List.map Segment.plain)
  | 0, pos, rest => rfl
  | fuel + 1, pos, rest => by
    rw [Content.renderFrom, Content.renderFrom]
    split
    · rfl
    · dsimp only
      split
      · rfl
      · rename_i a rest' _
        rw [Option.map_map, Option.map_map]
        have ih := renderFrom_plain spans ls len fuel
          (min (nextChange spans ls (ls + pos) len) len) rest'
        rcases opt_cases ih with ⟨h1, h2⟩ | ⟨x, y, h1, h2, ih⟩
        · rw [h1, h2]; rfl
        · rw [h1, h2]
          simp only [Option.map_some, Function.comp, List.map_append]
          rw [ih, mkSegment_plain]

theorem plainStrip_plain (line : List Grapheme) : (c.plainStrip line).plain = (c'.plainStrip line).plain := rfl

theorem renderLine_plain (spans : List Span) (ls : Nat) (line : List Grapheme) :
    (c.renderLine spans ls line).map Strip.plain = (c'.renderLine spans ls line).map Strip.plain := by
  unfold Content.renderLine
  split
  · rfl
  · dsimp only
    split
    · rfl
    · generalize List.filter _ spans = rel
      have := renderFrom_plain c c' rel ls (blen line) line.length 0 line
      rw [Option.map_map, Option.map_map]
      rcases opt_cases this with ⟨h1, h2⟩ | ⟨x, y, h1, h2, this⟩
      · rw [h1, h2]
      · rw [h1, h2]
        simp only [Option.map_some, Function.comp]
        rw [Strip.ofSegments_plain, Strip.ofSegments_plain, this]

theorem renderRanges_plain (spans : List Span) (ls : Nat) (line : List Grapheme) : ∀ (rs : List (Nat × Nat)),
    (c.renderRanges spans ls line rs).map (List.map Strip.plain) =
    (c'.renderRanges spans ls line rs).map (List.map Strip.plain)
  | [] => rfl
  | (a, b) :: rest => by
    rw [Content.renderRanges, Content.renderRanges]
    split
    · rfl
    · have h1 := renderLine_plain c c' spans (ls + blen (line.take a)) ((line.take b).drop a)
      have h2 := renderRanges_plain spans ls line rest
      rcases opt_cases h1 with ⟨e1, e2⟩ | ⟨x, y, e1, e2, h1⟩
      · rw [e1, e2]
      · rw [e1, e2]
        dsimp only
        rw [Option.map_map, Option.map_map]
        rcases opt_cases h2 with ⟨e3, e4⟩ | ⟨x', y', e3, e4, h2⟩
        · rw [e3, e4]; rfl
        · rw [e3, e4]
          simp only [Option.map_some, Function.comp, List.map_cons]
          rw [h1, h2]

variable (hs : c'.spans = c.spans)
include hs

theorem wrapOne_plain (ws : Grapheme → Bool) (w : Nat) (o : Overflow) (m : Wrap) (ls : Nat)
    (line : List Grapheme) :
    (c.wrapOne ws w o m ls line).map (List.map WrappedLine.plain) =
    (c'.wrapOne ws w o m ls line).map (List.map WrappedLine.plain) := by
  unfold Content.wrapOne
  split
  · rfl
  · cases m with
    | noWrap =>
      dsimp only
      have h : (c.fullLine ls line).map Strip.plain = (c'.fullLine ls line).map Strip.plain := by
        unfold Content.fullLine
        rw [hs]
        cases c.spans with
        | none => rfl
        | some sp => exact renderLine_plain c c' sp ls line
      rcases opt_cases h with ⟨e1, e2⟩ | ⟨s, s', e1, e2, h⟩
      · rw [e1, e2]
      · rw [e1, e2]
        simp only [Option.map_some]
        cases o with
        | fold => dsimp only; rw [markLast_plain, markLast_plain, splitByWidth_plain, splitByWidth_plain, h]
        | clip =>
          dsimp only
          show some [WrappedLine.mk (s.crop 0 w).plain true] = some [WrappedLine.mk (s'.crop 0 w).plain true]
          rw [Strip.crop_plain, Strip.crop_plain, h]
        | ellipsis =>
          dsimp only
          show some [WrappedLine.mk (truncate s w).plain true] = some [WrappedLine.mk (truncate s' w).plain true]
          rw [truncate_plain, truncate_plain, h]
    | wrap =>
      dsimp only
      have h : (match c.spans with
          | some spans => c.wrapLineSpans ws w spans ls line
          | none => some (c.wrapLine ws w line)).map (List.map Strip.plain) =
        (match c'.spans with
          | some spans => c'.wrapLineSpans ws w spans ls line
          | none => some (c'.wrapLine ws w line)).map (List.map Strip.plain) := by
        rw [hs]
        cases c.spans with
        | none =>
          dsimp only
          unfold Content.wrapLine
          rw [Option.map_some, Option.map_some, List.map_map, List.map_map]
          rfl
        | some sp =>
          dsimp only
          unfold Content.wrapLineSpans
          split
          · rfl
          · exact renderRanges_plain c c' sp ls line _
      have fin : ∀ a b : Option (List Strip), a.map (List.map Strip.plain) = b.map (List.map Strip.plain) →
          (a.map fun l => markLast (l.map fun s => if o = .ellipsis then truncate s w else s)).map
            (List.map WrappedLine.plain) =
          (b.map fun l => markLast (l.map fun s => if o = .ellipsis then truncate s w else s)).map
            (List.map WrappedLine.plain) := by
        intro a b h
        have key : ∀ l : List Strip, (markLast (l.map fun s => if o = .ellipsis then truncate s w else s)).map
            WrappedLine.plain =
            markLast ((l.map Strip.plain).map fun s => if o = .ellipsis then truncate s w else s) := by
          intro l
          rw [markLast_plain, List.map_map, List.map_map]
          congr 1
          apply List.map_congr_left
          intro s _
          show Strip.plain (if o = .ellipsis then truncate s w else s) =
            if o = .ellipsis then truncate s.plain w else s.plain
          split
          · exact truncate_plain _ _
          · rfl
        rcases opt_cases h with ⟨e1, e2⟩ | ⟨x, y, e1, e2, h⟩
        · rw [e1, e2]
        · rw [e1, e2]
          simp only [Option.map_some]
          rw [key, key, h]
      exact fin _ _ h

theorem wrapLines_plain (ws : Grapheme → Bool) (w : Nat) (o : Overflow) (m : Wrap) :
    ∀ (lines : List (List Grapheme)) (ls : Nat),
    (c.wrapLines ws w o m ls lines).map (List.map WrappedLine.plain) =
    (c'.wrapLines ws w o m ls lines).map (List.map WrappedLine.plain)
  | [], _ => rfl
  | line :: rest, ls => by
    rw [Content.wrapLines, Content.wrapLines]
    have h1 := wrapOne_plain c c' hs ws w o m ls line
    have h2 := wrapLines_plain ws w o m rest (ls + blen line + 1)
    rcases opt_cases h1 with ⟨e1, e2⟩ | ⟨x, y, e1, e2, h1⟩
    · rw [e1, e2]
    · rw [e1, e2]
      dsimp only
      rcases opt_cases h2 with ⟨e3, e4⟩ | ⟨x', y', e3, e4, h2⟩
      · rw [e3, e4]; rfl
      · rw [e3, e4]
        simp only [Option.map_some, List.map_append]
        rw [h1, h2]

/-- How a text is wrapped depends on the text and its spans only. -/
theorem wrapFull_plain (ht : c'.text = c.text) (ws : Grapheme → Bool) (w : Nat) (o : Overflow) (m : Wrap) :
    (c.wrapFull ws w o m).map (List.map WrappedLine.plain) =
    (c'.wrapFull ws w o m).map (List.map WrappedLine.plain) := by
  unfold Content.wrapFull
  split
  · rfl
  · rw [ht]
    have h := wrapLines_plain c c' hs ws w o m (splitLines c.text) 0
    rcases opt_cases h with ⟨e1, e2⟩ | ⟨r, r', e1, e2, h⟩
    · rw [e1, e2]
    · rw [e1, e2]
      simp only [Option.map_some]
      have hlen : r.isEmpty = r'.isEmpty := by
        have := congrArg List.length h
        rw [List.length_map, List.length_map] at this
        cases r <;> cases r' <;> simp_all
      rw [hlen]
      split
      · rfl
      · rw [h]

end Content
end Textual
