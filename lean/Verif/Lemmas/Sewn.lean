import Verif.Props.StaticMore
import Verif.Props.Content
import Mathlib.Tactic.Common

/-!
Wrapped lines are sewn from the styled characters of the text: every character of every line has the style and the links of a
place of the text where it stands; only blanks and the ellipsis may be new.
-/

namespace Textual.Content

/-- What holds for all characters of the segments, with their styles and links. -/
def Sewn (Q : Glyph → Prop) (l : List Segment) : Prop := ∀ seg ∈ l, ∀ g ∈ seg.text, Q (g, seg.style.getD {}, seg.info)

variable {Q : Glyph → Prop}

theorem sewn_glyphs {s : Strip} (h : ∀ x ∈ glyphs s, Q x) : Sewn Q s.segments := by
  intro seg hs g hg
  exact h _ (List.mem_flatMap.2 ⟨seg, hs, List.mem_map.2 ⟨g, hg, rfl⟩⟩)

theorem Sewn.glyphs {s : Strip} (h : Sewn Q s.segments) : ∀ x ∈ glyphs s, Q x := by
  intro x hx
  obtain ⟨seg, hs, hx⟩ := List.mem_flatMap.1 hx
  obtain ⟨g, hg, rfl⟩ := List.mem_map.1 hx
  exact h seg hs g hg

theorem Sewn.nil : Sewn Q [] := fun _ h => by cases h

theorem Sewn.join {l : List Strip} (h : ∀ s ∈ l, Sewn Q s.segments) : Sewn Q (Strip.join l).segments := by
  intro seg hs
  obtain ⟨t, ht, hs⟩ := List.mem_flatMap.1 hs
  exact h t ht seg hs

theorem splitAt_same (seg : Segment) (cut : Nat) : (seg.splitAt cut).1.style = seg.style ∧ (seg.splitAt cut).2.style = seg.style ∧
    (seg.splitAt cut).1.info = seg.info ∧ (seg.splitAt cut).2.info = seg.info := by
  unfold Segment.splitAt
  split
  · exact ⟨rfl, rfl, rfl, rfl⟩
  split
  · exact ⟨rfl, rfl, rfl, rfl⟩
  · exact ⟨rfl, rfl, rfl, rfl⟩

theorem cropSegment_same (seg : Segment) (pos a b : Nat) : ∀ x ∈ Strip.cropSegment seg pos a b,
    x.style = seg.style ∧ x.info = seg.info := by
  intro x hx
  unfold Strip.cropSegment at hx
  dsimp only at hx
  split at hx
  · rw [List.mem_singleton.1 hx]; exact ⟨rfl, rfl⟩
  split at hx
  · split at hx
    · cases hx
    · rw [List.mem_singleton.1 hx]
      exact ⟨(splitAt_same seg _).1, (splitAt_same seg _).2.2.1⟩
  split at hx
  · split at hx
    · cases hx
    · rw [List.mem_singleton.1 hx]
      exact ⟨(splitAt_same seg _).2.1, (splitAt_same seg _).2.2.2⟩
  · split at hx
    · cases hx
    · rw [List.mem_singleton.1 hx]
      exact ⟨(splitAt_same _ _).1.trans (splitAt_same seg _).2.1, (splitAt_same _ _).2.2.1.trans (splitAt_same seg _).2.2.2⟩

theorem cropLoop_sewn (a b : Nat) : ∀ (l : List Segment) (pos : Nat), Sewn Q l → Sewn Q (Strip.cropLoop a b pos l)
  | [], _, _ => by unfold Strip.cropLoop; exact .nil
  | seg :: l, pos, h => by
    have hl : Sewn Q l := fun s hs => h s (List.mem_cons_of_mem _ hs)
    unfold Strip.cropLoop
    dsimp only
    split
    · exact cropLoop_sewn a b l _ hl
    split
    · exact .nil
    · intro x hx g hg
      rcases List.mem_append.1 hx with hx | hx
      · obtain ⟨e1, e2⟩ := cropSegment_same seg pos a b x hx
        rw [e1, e2]
        exact h seg (List.mem_cons_self ..) g (cropSegment_mem seg pos a b x hx g hg)
      · exact cropLoop_sewn a b l _ hl x hx g hg

theorem Sewn.crop {s : Strip} (h : Sewn Q s.segments) (a b : Nat) : Sewn Q (s.crop a b).segments := by
  unfold Strip.crop
  split
  · exact .nil
  · exact cropLoop_sewn _ _ _ _ h

theorem Sewn.text {t : List Grapheme} {st : Option Style} (h : ∀ g ∈ t, Q (g, st.getD {}, [])) :
    Sewn Q (Strip.ofSegments [Segment.mk' t st]).segments := by
  intro seg hs g hg
  have : seg = Segment.mk' t st := by simpa [Strip.ofSegments] using hs
  subst this
  exact h g hg

theorem Sewn.truncate (hq : ∀ st, Q (ellipsis, st, [])) {s : Strip} (h : Sewn Q s.segments) (w : Nat) :
    Sewn Q (truncate s w).segments := by
  have el : ∀ st, Sewn Q (Strip.ofSegments [Segment.mk' [ellipsis] st]).segments := fun st => Sewn.text fun g hg => by
    rw [List.mem_singleton.1 hg]; exact hq _
  unfold Content.truncate
  split
  · exact .nil
  split
  · exact h
  split
  · exact el _
  · refine .join ?_
    intro t ht
    simp only [List.mem_cons, List.not_mem_nil, or_false] at ht
    rcases ht with rfl | rfl
    · exact h.crop _ _
    · exact el _

theorem splitLoop_sewn {s : Strip} (h : Sewn Q s.segments) (w : Nat) : ∀ (n start : Nat), s.cellLength - start ≤ n →
    ∀ t ∈ splitLoop s w start, Sewn Q t.segments
  | n, start, hn, t, ht => by
    unfold splitLoop at ht
    split at ht
    · rename_i hc
      rcases List.mem_cons.1 ht with rfl | ht
      · exact h.crop _ _
      · cases n with
        | zero => omega
        | succ n => exact splitLoop_sewn h w n _ (by omega) t ht
    · cases ht

/-! ### Words -/

theorem wordsLoop_from (ws : Grapheme → Bool) : ∀ (line cur : List Grapheme), ∀ w ∈ wordsLoop ws cur line, ∀ g ∈ w,
    g ∈ cur ∨ g ∈ line
  | [], cur, w, hw, g, hg => by
    unfold wordsLoop at hw
    split at hw
    · cases hw
    · rw [List.mem_singleton.1 hw] at hg; exact .inl hg
  | x :: gs, cur, w, hw, g, hg => by
    unfold wordsLoop at hw
    split at hw
    · rcases List.mem_append.1 hw with hw | hw
      · split at hw
        · cases hw
        · rw [List.mem_singleton.1 hw] at hg; exact .inl hg
      · rcases wordsLoop_from ws gs [] w hw g hg with h | h
        · cases h
        · exact .inr (List.mem_cons_of_mem _ h)
    · rcases wordsLoop_from ws gs _ w hw g hg with h | h
      · rcases List.mem_append.1 h with h | h
        · exact .inl h
        · rw [List.mem_singleton.1 h]; exact .inr (List.mem_cons_self ..)
      · exact .inr (List.mem_cons_of_mem _ h)

theorem breakLoop_mem (width : Nat) : ∀ (line cur : List Grapheme) (n : Nat), ∀ w ∈ breakLoop width cur n line, ∀ g ∈ w,
    g ∈ cur ∨ g ∈ line
  | [], cur, n, w, hw, g, hg => by
    unfold breakLoop at hw
    split at hw
    · cases hw
    · rw [List.mem_singleton.1 hw] at hg; exact .inl hg
  | x :: gs, cur, n, w, hw, g, hg => by
    unfold breakLoop at hw
    split at hw
    · rcases breakLoop_mem width gs _ _ w hw g hg with h | h
      · rcases List.mem_append.1 h with h | h
        · exact .inl h
        · rw [List.mem_singleton.1 h]; exact .inr (List.mem_cons_self ..)
      · exact .inr (List.mem_cons_of_mem _ h)
    · rcases List.mem_append.1 hw with hw | hw
      · split at hw
        · cases hw
        · rw [List.mem_singleton.1 hw] at hg; exact .inl hg
      · rcases breakLoop_mem width gs _ _ w hw g hg with h | h
        · rw [List.mem_singleton.1 h]; exact .inr (List.mem_cons_self ..)
        · exact .inr (List.mem_cons_of_mem _ h)

theorem wrapWords_mem (width : Nat) (P : Grapheme → Prop) (hsp : P Grapheme.space) : ∀ (wds : List (List Grapheme))
    (cur : List Grapheme) (n : Nat), (∀ g ∈ cur, P g) → (∀ w ∈ wds, ∀ g ∈ w, P g) →
    ∀ l ∈ wrapWords width cur n wds, ∀ g ∈ l, P g
  | [], cur, n, hc, _, w, hw, g, hg => by
    unfold wrapWords at hw
    split at hw
    · cases hw
    · rw [List.mem_singleton.1 hw] at hg; exact hc g hg
  | word :: rest, cur, n, hc, hl, w, hw, g, hg => by
    have hr : ∀ w ∈ rest, ∀ g ∈ w, P g := fun x hx => hl x (List.mem_cons_of_mem _ hx)
    have hword := hl word (List.mem_cons_self ..)
    have hnil : ∀ g ∈ ([] : List Grapheme), P g := fun x hx => by cases hx
    have hbreak : ∀ w ∈ breakWord width word, ∀ g ∈ w, P g := by
      intro w hw g hg
      rcases breakLoop_mem width word [] 0 w hw g hg with h | h
      · cases h
      · exact hword g h
    unfold wrapWords at hw
    dsimp only at hw
    split at hw
    · split at hw
      · exact wrapWords_mem width P hsp rest _ _ hword hr w hw g hg
      · rcases List.mem_append.1 hw with hw | hw
        · exact hbreak w hw g hg
        · exact wrapWords_mem width P hsp rest _ _ hc hr w hw g hg
    split at hw
    · refine wrapWords_mem width P hsp rest _ _ ?_ hr w hw g hg
      intro x hx
      rcases List.mem_append.1 hx with hx | hx
      · exact hc x hx
      · rcases List.mem_cons.1 hx with rfl | hx
        · exact hsp
        · exact hword x hx
    · rcases List.mem_cons.1 hw with rfl | hw
      · exact hc g hg
      · split at hw
        · exact wrapWords_mem width P hsp rest _ _ hword hr w hw g hg
        · rcases List.mem_append.1 hw with hw | hw
          · exact hbreak w hw g hg
          · exact wrapWords_mem width P hsp rest _ _ hnil hr w hw g hg

/-! ### Lines -/

theorem renderRanges_sewn (c : Content) {spans : List Span} {ls : Nat} {line : List Grapheme} (hs : Solid line)
    (ha : AlignedAt spans ls line) (hq : ∀ x ∈ c.annotate spans ls line, Q x) : ∀ (r : List (Nat × Nat)) (out : List Strip),
    c.renderRanges spans ls line r = some out → ∀ s ∈ out, Sewn Q s.segments
  | [], out, h, s, hs' => by
    simp only [Content.renderRanges, Option.some.injEq] at h
    subst h; simp at hs'
  | (a, b) :: r, out, h, s, hs' => by
    rw [Content.renderRanges] at h
    split at h
    · simp at h
    · rename_i hab
      have hab : a ≤ b ∧ b ≤ line.length := by omega
      obtain ⟨t, r1, r2, r3⟩ := renderLine_spec c (hs.sub (a := (line.take b).drop a)
        (fun g hg => List.mem_of_mem_take (List.mem_of_mem_drop hg))) (ha.slice a b hab.1)
      rw [r1] at h
      dsimp only at h
      obtain ⟨out', o1, o2⟩ := Option.map_eq_some_iff.1 h
      subst o2
      rcases List.mem_cons.1 hs' with rfl | hs'
      · refine sewn_glyphs fun x hx => hq x ?_
        rw [r2] at hx
        have e : line.take a = (line.take b).take a := by rw [List.take_take, Nat.min_eq_left hab.1]
        rw [e, annotate_drop, annotate_take] at hx
        exact List.mem_of_mem_take (List.mem_of_mem_drop hx)
      · exact renderRanges_sewn c hs ha hq r out' o1 s hs'

theorem wrapOne_sewn (c : Content) (ws : Grapheme → Bool) (width : Nat) (o : Overflow) (m : Wrap) (ls : Nat)
    (line : List Grapheme) (hs : Solid line) (ha : AlignedAt (c.spans.getD []) ls line)
    (hq : ∀ x ∈ c.annotate (c.spans.getD []) ls line, Q x) (hsp : ∀ st, Q (Grapheme.space, st, []))
    (hel : ∀ st, Q (ellipsis, st, [])) (l : List WrappedLine) (e : c.wrapOne ws width o m ls line = some l) :
    ∀ x ∈ l, Sewn Q x.strip.segments := by
  unfold Content.wrapOne at e
  split at e
  · cases e
    intro x hx
    rw [List.mem_singleton.1 hx]
    exact .nil
  cases m with
  | noWrap =>
    dsimp only at e
    obtain ⟨s, h1, rfl⟩ := Option.map_eq_some_iff.1 e
    have hs : Sewn Q s.segments := by
      obtain ⟨s', r1, r2, _⟩ := fullLine_spec c ls line hs ha
      rw [r1] at h1
      cases h1
      exact sewn_glyphs fun x hx => hq x (by rwa [r2] at hx)
    cases o with
    | fold =>
      refine markLast_all (P := fun s => Sewn Q s.segments) ?_
      unfold splitByWidth
      split
      · intro t ht; rw [List.mem_singleton.1 ht]; exact .nil
      split
      · intro t ht; rw [List.mem_singleton.1 ht]; exact .nil
      · exact splitLoop_sewn hs width _ 0 (Nat.le_refl _)
    | clip => intro x hx; rw [List.mem_singleton.1 hx]; exact hs.crop _ _
    | ellipsis => intro x hx; rw [List.mem_singleton.1 hx]; exact hs.truncate hel _
  | wrap =>
    dsimp only at e
    obtain ⟨l', h1, rfl⟩ := Option.map_eq_some_iff.1 e
    have hl : ∀ s ∈ l', Sewn Q s.segments := by
      split at h1
      · rename_i sp e2
        rw [e2] at ha hq
        unfold Content.wrapLineSpans at h1
        split at h1
        · cases h1
        · exact renderRanges_sewn c hs ha hq _ l' h1
      · rename_i e2
        rw [e2, Option.getD_none, annotate_nil_spans] at hq
        cases h1
        intro s hs
        obtain ⟨t, ht, rfl⟩ := List.mem_map.1 hs
        refine Sewn.text (wrapWords_mem width (fun g => Q (g, c.style.getD {}, [])) (hsp _) _ [] 0 (fun x hx => by cases hx) ?_ t ht)
        intro w hw g hg
        rcases wordsLoop_from ws line [] w hw g hg with h | h
        · cases h
        · exact hq _ (List.mem_map.2 ⟨g, h, rfl⟩)
    refine markLast_all (P := fun s => Sewn Q s.segments) ?_
    intro t ht
    obtain ⟨s, hs, rfl⟩ := List.mem_map.1 ht
    split
    · exact (hl s hs).truncate hel _
    · exact hl s hs

theorem wrapLines_sewn (c : Content) (ws : Grapheme → Bool) (width : Nat) (o : Overflow) (m : Wrap)
    (hsp : ∀ st, Q (Grapheme.space, st, [])) (hel : ∀ st, Q (ellipsis, st, [])) :
    ∀ (n : Nat) (t : List Grapheme) (start : Nat), t.length ≤ n → Solid t → AlignedAt (c.spans.getD []) start t →
      (∀ x ∈ c.annotate (c.spans.getD []) start t, Q x) →
      ∀ r, c.wrapLines ws width o m start (splitLines t) = some r → ∀ x ∈ r, Sewn Q x.strip.segments
  | n, t, start, hn, hs, ha, hq, r, hr, x, hx => by
    rcases splitLines_decomp t with ⟨h1, h2⟩ | ⟨line, nl, t', h1, h2, h3, h4⟩
    · rw [h2] at hr
      rw [Content.wrapLines] at hr
      cases e : c.wrapOne ws width o m start t with
      | none => rw [e] at hr; simp at hr
      | some a =>
        rw [e] at hr
        simp only [Content.wrapLines, Option.map_some, List.append_nil, Option.some.injEq] at hr
        subst hr
        exact wrapOne_sewn c ws width o m start t hs ha hq hsp hel a e x hx
    · cases n with
      | zero => rw [h1] at hn; simp at hn
      | succ n =>
        subst h1
        have hsl : Solid line := hs.sub (by simp +contextual)
        have hsr : Solid t' := hs.sub (by simp +contextual)
        have hal : AlignedAt (c.spans.getD []) start line := by
          have := AlignedAt.piece (start := start) (a := []) (b := line) (d := nl :: t') ha
          simpa [blen_nil] using this
        have har : AlignedAt (c.spans.getD []) (start + blen line + 1) t' := by
          have := AlignedAt.piece (start := start) (a := line ++ [nl]) (b := t') (d := []) (by simpa using ha)
          rw [blen_append, blen_cons, blen_nil, gbytes_newline h2] at this
          simpa [Nat.add_assoc] using this
        rw [annotate_append, Content.annotate, gbytes_newline h2] at hq
        rw [h4] at hr
        rw [Content.wrapLines] at hr
        cases e : c.wrapOne ws width o m start line with
        | none => rw [e] at hr; simp at hr
        | some a =>
          rw [e] at hr
          dsimp only at hr
          obtain ⟨b, b1, b2⟩ := Option.map_eq_some_iff.1 hr
          subst b2
          rcases List.mem_append.1 hx with hx | hx
          · exact wrapOne_sewn c ws width o m start line hsl hal (fun y hy => hq y (by simp [hy])) hsp hel a e x hx
          · exact wrapLines_sewn c ws width o m hsp hel n t' _ (by simp at hn; omega) hsr har
              (fun y hy => hq y (by simp [hy])) b b1 x hx

/-- The lines made of a text, whatever its spans and the wrapping. -/
theorem wrapFull_sewn (c : Content) (hs : Solid c.text) (ha : Aligned (c.spans.getD []) c.text)
    (hq : ∀ x ∈ c.annotated, Q x) (hsp : ∀ st, Q (Grapheme.space, st, [])) (hel : ∀ st, Q (ellipsis, st, []))
    (ws : Grapheme → Bool) (width : Nat) (o : Overflow) (m : Wrap) (l : List WrappedLine)
    (e : c.wrapFull ws width o m = some l) : ∀ x ∈ l, Sewn Q x.strip.segments := by
  have one : ∀ x ∈ [(⟨Strip.new, true⟩ : WrappedLine)], Sewn Q x.strip.segments := by
    intro x hx; rw [List.mem_singleton.1 hx]; exact .nil
  unfold Content.wrapFull at e
  split at e
  · cases e; exact one
  · obtain ⟨r, h1, rfl⟩ := Option.map_eq_some_iff.1 e
    split
    · exact one
    · exact wrapLines_sewn c ws width o m hsp hel _ c.text 0 (Nat.le_refl _) hs ha.at hq r h1

end Textual.Content

namespace Textual.Static

open Content (Sewn WrappedLine Glyph ellipsis Solid Aligned)

theorem textLines_sewn {Q : Glyph → Prop} (s : Sheet) (ws : Grapheme → Bool) (content : Content.Content) (hs : Solid content.text)
    (ha : Aligned (content.spans.getD []) content.text) (hovered : Option String)
    (hq : ∀ x ∈ ({ content with style := some s.text, linkStyle := some s.link, hovered := hovered } : Content.Content).annotated, Q x)
    (hsp : ∀ st, Q (Grapheme.space, st, [])) (hel : ∀ st, Q (ellipsis, st, [])) (w : Nat) (lines : List WrappedLine)
    (e : textLines s ws content hovered w = some lines) : ∀ line ∈ lines, Sewn Q line.strip.segments := by
  have base : ∀ l, (if w > 0 then ({ content with style := some s.text, linkStyle := some s.link, hovered := hovered } : Content.Content).wrapFull ws
      (max (w - 2 * s.linePad) 1) s.overflow s.wrap else some []) = some l → ∀ line ∈ l, Sewn Q line.strip.segments := by
    intro l e
    split at e
    · exact Content.wrapFull_sewn ({ content with style := some s.text, linkStyle := some s.link, hovered := hovered } :
        Content.Content) hs ha hq hsp hel ws _ _ _ l e
    · cases e; intro x hx; cases hx
  have blank : ∀ n st, Sewn Q (Strip.blank n st).segments := by
    intro n st
    unfold Strip.blank
    split
    · exact .nil
    · intro seg hm g hg
      rw [List.mem_singleton.1 hm] at hg ⊢
      have : g = Grapheme.space := (List.mem_replicate.1 hg).2
      rw [this]
      exact hsp _
  unfold textLines at e
  dsimp only at e
  split at e
  · obtain ⟨l, h1, rfl⟩ := Option.map_eq_some_iff.1 e
    intro line hm
    obtain ⟨x, hx, rfl⟩ := List.mem_map.1 hm
    refine .join ?_
    intro t ht
    simp only [List.mem_cons, List.not_mem_nil, or_false] at ht
    rcases ht with rfl | rfl | rfl
    · exact blank _ _
    · exact base l h1 x hx
    · exact blank _ _
  · exact base lines e

end Textual.Static
