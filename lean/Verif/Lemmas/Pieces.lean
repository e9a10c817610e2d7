import Verif.Props.Fuzzy

/-! Markup written piece by piece: escaped text, some of it inside `[tag]…[/]`. -/

namespace Textual.Markup

open Textual.Fuzzy (apply_default)

/-- A tag that sets a style: plain text that parses to it. -/
structure IsTag (ext : Ext) (t : List Char) (s : Style) : Prop where
  plain : ∀ c ∈ t, c ≠ '[' ∧ c ≠ ']' ∧ c ≠ '\\'
  noSlash : t.head? ≠ some '/'
  parses : Tag.parse ext t = .ok (.style s)
  sets : s ≠ {}

theorem IsTag.ne_nil {ext : Ext} {t : List Char} {s : Style} (h : IsTag ext t s) : t ≠ [] := by
  rintro rfl
  have := h.parses
  simp [Tag.parse, trim] at this

theorem IsTag.notEmpty {ext : Ext} {t : List Char} {s : Style} (h : IsTag ext t s) : s.isEmpty = false := by
  cases e : s.isEmpty
  · rfl
  · exfalso; apply h.sets
    have := apply_empty {} s e
    rwa [apply_default] at this

/-- A piece: its tag, if any, the style the tag sets, and its text. -/
structure Piece where
  tag : Option (List Char)
  style : Style
  text : List Char

/-- The markup of a piece. -/
def Piece.src (p : Piece) : List Char :=
  match p.tag with
  | some t => '[' :: t ++ ']' :: escape p.text ++ "[/]".toList
  | none => escape p.text

/-- The tag of a piece sets its style; a piece without a tag has none. -/
def Piece.Ok (ext : Ext) (p : Piece) : Prop :=
  match p.tag with
  | some t => IsTag ext t p.style
  | none => p.style = {}

/-- The spans of the pieces, the first starting at `start`. -/
def pieceSpans : Nat → List Piece → List Span
  | _, [] => []
  | start, p :: ps =>
    (if p.tag.isSome ∧ p.text ≠ [] then [⟨start, start + blen p.text, p.style, []⟩] else []) ++
      pieceSpans (start + blen p.text) ps

theorem pieces_run (ext : Ext) : ∀ (ps : List Piece), (∀ p ∈ ps, p.Ok ext) → ∃ ts,
    lexC ext.ws (ps.flatMap Piece.src) = .ok ts ∧
      ∀ q : Parser, q.stack = [] → q.run ext ts =
        .ok ⟨[], q.output ++ ps.flatMap (·.text), q.spans ++ pieceSpans (blen q.output) ps⟩
  | [], _ => ⟨[], by simp [lexC_nil], fun q hq => by cases q; simp at hq; simp [Parser.run, pieceSpans, hq]⟩
  | p :: ps, h => by
    obtain ⟨ts, h1, h2⟩ := pieces_run ext ps (fun x hx => h x (by simp [hx]))
    have hp := h p (by simp)
    cases p with
    | mk tag style text =>
    cases tag with
    | none =>
      obtain ⟨ta, a1, a2⟩ := lexC_escape ext (ps.flatMap Piece.src) text
      rw [h1] at a1
      refine ⟨ta ++ ts, ?_, fun q hq => ?_⟩
      · rw [List.flatMap_cons]; exact a1
      · rw [run_append, a2]
        simp only [Res.bind]
        rw [h2 { q with output := q.output ++ text } hq]
        simp [pieceSpans, blen_append]
    | some t =>
      have hp : IsTag ext t style := hp
      obtain ⟨ta, a1, a2⟩ := lexC_escape ext ('[' :: ('/' :: [] ++ ']' :: ps.flatMap Piece.src)) text
      rw [lexC_close ext (by simp), h1] at a1
      refine ⟨.open t :: (ta ++ .close none :: ts), ?_, fun q hq => ?_⟩
      · rw [List.flatMap_cons]
        have e : Piece.src ⟨some t, style, text⟩ ++ ps.flatMap Piece.src =
            '[' :: (t ++ ']' :: (escape text ++ ('[' :: ('/' :: [] ++ ']' :: ps.flatMap Piece.src)))) := by
          simp [Piece.src]
        rw [e, lexC_open ext hp.plain hp.ne_nil hp.noSlash, a1]
        rfl
      · simp only [Parser.run, Parser.step, hp.parses, Res.bind]
        rw [run_append, a2]
        simp only [Res.bind, Parser.run, Parser.step, Parser.pop, Parser.push]
        rw [hq]
        by_cases ht : text = []
        · subst ht
          have hcr : (Parser.mk [] (q.output ++ []) q.spans).createSpan ⟨style, [], blen q.output, t⟩ =
              Parser.mk [] q.output q.spans := by
            unfold Parser.createSpan
            rw [if_neg (by simp)]
            simp
          simp only [hcr]
          rw [h2 _ rfl]
          simp [pieceSpans]
        · have hlen : 0 < blen text := Nat.pos_of_ne_zero (mt blen_eq_zero.1 ht)
          have hcr : (Parser.mk [] (q.output ++ text) q.spans).createSpan ⟨style, [], blen q.output, t⟩ =
              Parser.mk [] (q.output ++ text)
                (q.spans ++ [⟨blen q.output, blen q.output + blen text, style, []⟩]) := by
            unfold Parser.createSpan
            rw [if_pos (by simp [hp.notEmpty, hlen, blen_append])]
            simp [blen_append]
          simp only [hcr]
          rw [h2 _ rfl]
          simp [pieceSpans, ht, blen_append]

theorem pieces_parse (ext : Ext) (ps : List Piece) (h : ∀ p ∈ ps, p.Ok ext) :
    parse ext (ps.flatMap Piece.src) = .ok ⟨ps.flatMap (·.text), pieceSpans 0 ps⟩ := by
  obtain ⟨ts, h1, h2⟩ := pieces_run ext ps h
  rw [parse_eq_lexC, h1]
  simp only [Res.bind]
  rw [h2 {} rfl]
  simp [Parser.closeAll, blen]

theorem pieceSpans_start {start : Nat} {ps : List Piece} : ∀ m ∈ pieceSpans start ps, start ≤ m.start := by
  induction ps generalizing start with
  | nil => intro m h; simp [pieceSpans] at h
  | cons p ps ih =>
    intro m h
    rw [pieceSpans, List.mem_append] at h
    rcases h with h | h
    · split at h
      · simp at h; subst h; exact Nat.le_refl _
      · simp at h
    · have := ih m h
      omega

/-- The style of a character is that of its piece. -/
theorem pieces_style (ext : Ext) (before : List Piece) (p : Piece) (after : List Piece)
    (h : ∀ x ∈ before ++ p :: after, x.Ok ext) (a : List Char) (c : Char) (b : List Char) (hp : p.text = a ++ c :: b) :
    Parsed.styleAt ⟨(before ++ p :: after).flatMap (·.text), pieceSpans 0 (before ++ p :: after)⟩
      (blen (before.flatMap (·.text)) + blen a) = p.style := by
  unfold Parsed.styleAt
  dsimp only
  have key : ∀ (before : List Piece) (start : Nat), (∀ x ∈ before ++ p :: after, x.Ok ext) →
      (pieceSpans start (before ++ p :: after)).foldl
        (fun acc s => if s.contains (start + blen (before.flatMap (·.text)) + blen a) then acc.apply s.style else acc) {}
        = p.style := by
    intro before
    induction before with
    | nil =>
      intro start h
      have hpos := utf8Size_pos c
      have hlen : blen p.text = blen a + (c.utf8Size + blen b) := by rw [hp, blen_append, blen_cons]
      have skip : ∀ (l : List Span) (acc : Style), (∀ m ∈ l, start + blen p.text ≤ m.start) → l.foldl
          (fun acc s => if s.contains (start + blen a) then acc.apply s.style else acc) acc = acc := by
        intro l
        induction l with
        | nil => intro acc _; rfl
        | cons m l ih =>
          intro acc hm
          rw [List.foldl_cons]
          have hc : m.contains (start + blen a) = false := by
            have := hm m (by simp)
            simp [Span.contains]; omega
          rw [hc]
          exact ih _ fun x hx => hm x (by simp [hx])
      simp only [List.nil_append, List.flatMap_nil, blen_nil, Nat.add_zero, pieceSpans, List.foldl_append]
      refine (skip _ _ (fun m hm => pieceSpans_start m hm)).trans ?_
      have hok := h p (by simp)
      cases p with
      | mk tag style text =>
      cases tag with
      | none =>
        simp only [Option.isSome_none, Bool.false_eq_true, false_and, if_false, List.foldl_nil]
        exact hok.symm
      | some t =>
        have hne : text ≠ [] := by dsimp only at hp; rw [hp]; simp
        simp only [Option.isSome_some, true_and, hne, ne_eq, not_false_eq_true, if_true, List.foldl_cons, List.foldl_nil]
        dsimp only at hlen
        rw [if_pos (by simp [Span.contains, hlen]; omega)]
        exact apply_default _
    | cons x before ih =>
      intro start h
      have hi := ih (start + blen x.text) (fun y hy => h y (by rw [List.cons_append]; exact List.mem_cons_of_mem _ hy))
      simp only [List.cons_append, pieceSpans, List.foldl_append, List.flatMap_cons, blen_append]
      rw [← hi]
      rw [show start + (blen x.text + blen (before.flatMap (·.text))) + blen a =
        start + blen x.text + blen (before.flatMap (·.text)) + blen a by omega]
      congr 1
      split
      · simp only [List.foldl_cons, List.foldl_nil]
        rw [if_neg (by simp [Span.contains]; omega)]
      · rfl
  have := key before 0 h
  simpa using this

end Textual.Markup
