import Verif.Lemmas.MarkupSpans

/-!
# Markup properties

C52 text and escaping, C53 span shape, C54 segments, C55 nested tags, C56 panics, C57 closing tags.
-/

namespace Textual.Markup

/-- A concrete environment for the examples: ASCII white space and lower-casing, three colours. -/
def asciiExt : Ext where
  ws := fun c => c == ' ' || c == '\n' || c == '\t'
  lower := fun s => s.map Char.toLower
  rgbBody := fun _ => none
  known := fun s => s == "red".toList || s == "blue".toList || s == "green".toList

/-! ### C52: what text is shown -/

/-- Escaped text is shown literally, without any style. -/
theorem escape_roundtrip (ext : Ext) (s : List Char) : parse ext (escape s) = .ok ⟨s, []⟩ := by
  have key : ∀ (s : List Char), ∃ ts, lexC ext.ws (escape s) = .ok ts ∧
      ∀ p : Parser, p.run ext ts = .ok { p with output := p.output ++ s } := by
    intro s
    induction s with
    | nil => exact ⟨[], lexC_nil _, fun p => by simp [Parser.run]⟩
    | cons c s ih =>
      obtain ⟨ts, h1, h2⟩ := ih
      obtain ⟨t, ht, h3⟩ := lexC_escapeChar ext.ws c (escape s)
      refine ⟨t :: ts, ?_, fun p => ?_⟩
      · rw [show escape (c :: s) = escapeChar c ++ escape s from rfl, h3, h1]; rfl
      · simp only [Parser.run]
        rw [step_write ext p ht]
        simp only [Res.bind]
        rw [h2]
        simp
  obtain ⟨ts, h1, h2⟩ := key s
  rw [parse_eq_lexC, h1]
  simp only [Res.bind]
  rw [h2]
  simp [Parser.closeAll]

example : parse asciiExt (escape "a[b]\\c".toList) = .ok ⟨"a[b]\\c".toList, []⟩ :=
  escape_roundtrip _ _

example : escape "a[b]\\c".toList = "a\\[b\\]\\\\c".toList := by decide

/-- The text of a parse is the source with tags removed and escapes resolved, nothing else. -/
theorem parse_shows {ext : Ext} {src : List Char} {m : Parsed} (h : parse ext src = .ok m) :
    Shows src m.text := by
  rw [parse_eq_lexC] at h
  simp only [Res.bind_eq_ok, Res.ok.injEq] at h
  obtain ⟨ts, hl, p, hr, rfl⟩ := h
  have := lexC_shows ext.ws src ts hl
  have ho := run_output ext ts hr
  unfold Parser.closeAll
  rw [foldl_createSpan_output, ho]
  simpa using this

/-- The source determines the text shown. -/
theorem shows_unique {src a b : List Char} (ha : Shows src a) (hb : Shows src b) : a = b := by
  induction ha generalizing b with
  | nil => cases hb; rfl
  | char h1 h2 h ih =>
    cases hb with
    | char _ _ h' => rw [ih h']
    | esc => exact absurd rfl h2
    | tag => exact absurd rfl h1
  | esc hc h ih =>
    cases hb with
    | char _ h' => exact absurd rfl h'
    | esc _ h' => rw [ih h']
  | @tag body src txt hbody hne h ih =>
    generalize hs : ('[' :: (body ++ ']' :: src) : List Char) = s at hb
    cases hb with
    | nil => cases hs
    | char h1 => simp only [List.cons.injEq] at hs; exact absurd hs.1.symm h1
    | esc => simp at hs
    | @tag body' src' _ hbody' _ h' =>
      simp only [List.cons.injEq, true_and] at hs
      have e1 := body_tagBody hbody src
      rw [hs, body_tagBody hbody' src'] at e1
      simp only [Option.some.injEq, Prod.mk.injEq] at e1
      obtain ⟨rfl, rfl⟩ := e1
      exact ih h'

theorem ex_nested : parse asciiExt "[red]a[blue]b[/]\\[c[/]d".toList = .ok
    ⟨"ab[cd".toList, [⟨1, 2, { fg := some (.named "blue".toList) }, []⟩,
      ⟨0, 4, { fg := some (.named "red".toList) }, []⟩]⟩ := by decide +kernel

example : Shows "[red]a[blue]b[/]\\[c[/]d".toList "ab[cd".toList := parse_shows ex_nested

/-! ### C53: spans -/

/-- Every span covers a non-empty range of whole characters of the text and sets something; any two
spans are disjoint or nested. -/
theorem spans_wellformed {ext : Ext} {src : List Char} {m : Parsed} (h : parse ext src = .ok m) :
    (∀ s ∈ m.spans, s.start < s.stop ∧ s.stop ≤ blen m.text ∧ Boundary m.text s.start ∧
      Boundary m.text s.stop ∧ (s.style ≠ {} ∨ s.info ≠ [])) ∧
    m.spans.Pairwise Laminar := by
  have hs := parse_shaped h
  refine ⟨fun s hm => ⟨(hs.range s hm).1, (hs.range s hm).2, (hs.bspan s hm).1, (hs.bspan s hm).2, ?_⟩, ?_⟩
  · rcases hs.styled s hm with h' | h'
    · refine Or.inl ?_
      intro he
      rw [he] at h'
      revert h'; decide
    · exact Or.inr h'
  · apply hs.nested.imp
    intro a b hab
    unfold Laminar
    rcases hab with h | h
    · exact Or.inl h
    · exact Or.inr (Or.inr (Or.inl h))

example : ([⟨1, 2, { fg := some (.named "blue".toList) }, []⟩,
    ⟨0, 4, { fg := some (.named "red".toList) }, []⟩] : List Span).Pairwise Laminar :=
  (spans_wellformed ex_nested).2

/-! ### C54: segments -/

/-- Segments of a parse: the iterator does not panic, the pieces are non-empty and make up the text,
and every byte offset inside a piece has that piece's style and metadata. -/
theorem segments_cover {ext : Ext} {src : List Char} {m : Parsed} (h : parse ext src = .ok m) :
    ∃ segs, m.segments = some segs ∧ segs.flatMap (·.text) = m.text ∧
      (∀ seg ∈ segs, seg.text ≠ []) ∧
      ∀ a seg b, segs = a ++ seg :: b → ∀ o, blen (a.flatMap (·.text)) ≤ o →
        o < blen (a.flatMap (·.text)) + blen seg.text →
        seg.style = m.styleAt o ∧ seg.info = m.metaAt o := by
  have hs := parse_shaped h
  have ha : Aligned m := fun s hm => ⟨Or.inl (hs.bspan s hm).1, Or.inl (hs.bspan s hm).2⟩
  obtain ⟨segs, s1, s2, s3, s4⟩ := segmentsFrom_spec ha m.text.length [] m.text rfl (Nat.le_refl _)
  refine ⟨segs, s1, s2, s3, fun a seg b he o h1 h2 => s4 a seg b he o ?_ ?_⟩
  · simpa using h1
  · simpa using h2

/-- The same for any markup value whose spans lie on character boundaries (or past the end). -/
theorem segments_cover_aligned {m : Parsed}
    (ha : ∀ s ∈ m.spans, (Boundary m.text s.start ∨ blen m.text ≤ s.start) ∧
      (Boundary m.text s.stop ∨ blen m.text ≤ s.stop)) :
    ∃ segs, m.segments = some segs ∧ segs.flatMap (·.text) = m.text ∧
      (∀ seg ∈ segs, seg.text ≠ []) ∧
      ∀ a seg b, segs = a ++ seg :: b → ∀ o, blen (a.flatMap (·.text)) ≤ o →
        o < blen (a.flatMap (·.text)) + blen seg.text →
        seg.style = m.styleAt o ∧ seg.info = m.metaAt o := by
  obtain ⟨segs, s1, s2, s3, s4⟩ := segmentsFrom_spec ha m.text.length [] m.text rfl (Nat.le_refl _)
  refine ⟨segs, s1, s2, s3, fun a seg b he o h1 h2 => s4 a seg b he o ?_ ?_⟩
  · simpa using h1
  · simpa using h2

/-- A hand-made span inside a character makes the iterator panic. -/
theorem segments_unaligned_counterexample :
    Parsed.segments ⟨"é".toList, [⟨1, 2, {}, []⟩]⟩ = none := by decide +kernel

example : (Parsed.segments ⟨"ab[cd".toList, [⟨1, 2, { fg := some (.named "blue".toList) }, []⟩,
      ⟨0, 4, { fg := some (.named "red".toList) }, []⟩]⟩).map (·.map (·.text)) =
    some ["a".toList, "b".toList, "[c".toList, "d".toList] := by decide +kernel

/-! ### C55: nested tags -/

/-- Exact style of every character of a parse: the styles of the tags open around it, applied from
the innermost to the outermost. -/
theorem styleAt_exact {ext : Ext} {src : List Char} {m : Parsed} (h : parse ext src = .ok m) :
    ∃ toks ann, lex ext.ws src = .ok toks ∧ annotate ext [] toks = .ok ann ∧
      m.text = ann.map (·.1) ∧
      ∀ pre c st post, ann = pre ++ (c, st) :: post → ∀ o, blen (pre.map (·.1)) ≤ o →
        o < blen (pre.map (·.1)) + c.utf8Size → m.styleAt o = outermostWins st := by
  obtain ⟨toks, ann, h1, h2, h3, h4⟩ := parse_tracks h
  refine ⟨toks, ann, h1, h2, h3, ?_⟩
  intro pre c st post he o ho1 ho2
  have := h4 pre c st post he o ho1 ho2
  unfold Parsed.styleAt
  rw [foldl_filter_contains (fun (acc : Style) s => acc.apply s.style)]
  unfold outermostWins
  rw [← foldl_styled, ← this, List.foldl_map]
  rfl

theorem textApply_comm (a b : TextStyle) : a.apply b = b.apply a := by
  cases a; cases b
  simp [TextStyle.apply, Bool.or_comm]

theorem textApply_assoc (a b c : TextStyle) : (a.apply b).apply c = a.apply (b.apply c) := by
  cases a; cases b; cases c
  simp [TextStyle.apply, Bool.or_assoc]

theorem foldl_text (st : List Frame) : ∀ a : Style,
    (st.foldl (fun acc f => acc.apply f.style) a).text
      = (st.foldr (fun f acc => acc.apply f.style) a).text := by
  have h1 : ∀ (st : List Frame) (a : Style), (st.foldl (fun acc f => acc.apply f.style) a).text
      = st.foldl (fun acc f => acc.apply f.style.text) a.text := by
    intro st
    induction st with
    | nil => intro a; rfl
    | cons f st ih => intro a; rw [List.foldl_cons, List.foldl_cons, ih]; rfl
  have h2 : ∀ (st : List Frame) (a : Style), (st.foldr (fun f acc => acc.apply f.style) a).text
      = st.foldr (fun f acc => acc.apply f.style.text) a.text := by
    intro st a
    induction st with
    | nil => rfl
    | cons f st ih => rw [List.foldr_cons, List.foldr_cons, ← ih]; rfl
  intro a
  rw [h1, h2]
  generalize a.text = t
  induction st generalizing t with
  | nil => rfl
  | cons f st ih =>
    rw [List.foldl_cons, List.foldr_cons, ih]
    clear ih h1 h2
    induction st with
    | nil => rfl
    | cons g st ih =>
      rw [List.foldr_cons, List.foldr_cons, ih, textApply_assoc, textApply_assoc,
        textApply_comm f.style.text]

theorem foldl_color (get : Style → Option Color)
    (hg : ∀ a b : Style, get (a.apply b) = (get b).or (get a)) : ∀ (st : List Frame) (a : Style),
    get (st.foldl (fun acc f => acc.apply f.style) a)
      = ((st.filterMap fun f => get f.style).getLast?).or (get a)
  | [], a => by simp
  | f :: st, a => by
    rw [List.foldl_cons, foldl_color get hg st, hg]
    cases hf : get f.style with
    | none => simp [hf]
    | some c =>
      simp only [List.filterMap_cons, hf]
      cases hl : st.filterMap fun f => get f.style with
      | nil => simp
      | cons x l => simp [List.getLast?_cons]

theorem foldr_color (get : Style → Option Color)
    (hg : ∀ a b : Style, get (a.apply b) = (get b).or (get a)) : ∀ (st : List Frame) (a : Style),
    get (st.foldr (fun f acc => acc.apply f.style) a)
      = ((st.filterMap fun f => get f.style).head?).or (get a)
  | [], a => by simp
  | f :: st, a => by
    rw [List.foldr_cons, hg, foldr_color get hg st]
    cases hf : get f.style with
    | none => simp [hf]
    | some c => simp [hf]

theorem head_eq_last_of_le_one {α : Type} {l : List α} (h : l.length ≤ 1) : l.head? = l.getLast? := by
  match l, h with
  | [], _ => rfl
  | [_], _ => rfl

/-- Modifiers (bold, italic, …) of all tags around a character apply to it; with at most one
foreground and at most one background colour among them the whole style is as a reader expects.
Missing from the full claim: nested tags that both set a colour (see the counterexample). -/
theorem innermost_wins_partial {ext : Ext} {src : List Char} {m : Parsed}
    (h : parse ext src = .ok m) :
    ∃ toks ann, lex ext.ws src = .ok toks ∧ annotate ext [] toks = .ok ann ∧
      m.text = ann.map (·.1) ∧
      ∀ pre c st post, ann = pre ++ (c, st) :: post → ∀ o, blen (pre.map (·.1)) ≤ o →
        o < blen (pre.map (·.1)) + c.utf8Size →
        (m.styleAt o).text = (innermostWins st).text ∧
        ((st.filterMap (·.style.fg)).length ≤ 1 → (m.styleAt o).fg = (innermostWins st).fg) ∧
        ((st.filterMap (·.style.bg)).length ≤ 1 → (m.styleAt o).bg = (innermostWins st).bg) := by
  obtain ⟨toks, ann, h1, h2, h3, h4⟩ := styleAt_exact h
  refine ⟨toks, ann, h1, h2, h3, ?_⟩
  intro pre c st post he o ho1 ho2
  rw [h4 pre c st post he o ho1 ho2]
  refine ⟨foldl_text st {}, fun hl => ?_, fun hl => ?_⟩
  · unfold outermostWins innermostWins
    rw [foldl_color (·.fg) (fun _ _ => rfl), foldr_color (·.fg) (fun _ _ => rfl),
      head_eq_last_of_le_one hl]
  · unfold outermostWins innermostWins
    rw [foldl_color (·.bg) (fun _ _ => rfl), foldr_color (·.bg) (fun _ _ => rfl),
      head_eq_last_of_le_one hl]

/-- A tag nested inside another one does not override its colour: in `[red]a[blue]b[/]…[/]` the `b`
is red. -/
theorem innermost_wins_counterexample : ∃ m, parse asciiExt "[red]a[blue]b[/][/]".toList = .ok m ∧
    m.text = "ab".toList ∧ m.styleAt 1 = { fg := some (.named "red".toList) } ∧
    annotate asciiExt [] [.open "red".toList, .text "a".toList, .open "blue".toList, .text "b".toList,
      .close none, .close none] = .ok
        [('a', [⟨{ fg := some (.named "red".toList) }, [], "red".toList⟩]),
         ('b', [⟨{ fg := some (.named "blue".toList) }, [], "blue".toList⟩,
                ⟨{ fg := some (.named "red".toList) }, [], "red".toList⟩])] := by
  refine ⟨⟨"ab".toList, [⟨1, 2, { fg := some (.named "blue".toList) }, []⟩,
      ⟨0, 2, { fg := some (.named "red".toList) }, []⟩]⟩, ?_⟩
  decide +kernel

example : ∃ m, parse asciiExt "[bold]a[red]b[/][/]".toList = .ok m ∧
    m.styleAt 1 = { fg := some (.named "red".toList), text := { bold := true } } := by
  refine ⟨⟨"ab".toList, [⟨1, 2, { fg := some (.named "red".toList) }, []⟩,
      ⟨0, 2, { text := { bold := true } }, []⟩]⟩, ?_⟩
  decide +kernel

/-! ### C57: closing tags -/

/-- A named closing tag that matches no open tag closes every open tag. -/
theorem close_unknown_counterexample : ∃ m, parse asciiExt "[bold]a[/red]b".toList = .ok m ∧
    m.text = "ab".toList ∧ (m.styleAt 0).text.bold = true ∧ (m.styleAt 1).text.bold = false := by
  refine ⟨⟨"ab".toList, [⟨0, 1, { text := { bold := true } }, []⟩]⟩, ?_⟩
  decide +kernel

/-- A named closing tag can close a tag it does not name: `re` is found inside `bold red`. -/
theorem close_prefix_counterexample : ∃ m, parse asciiExt "[bold red]a[/re]b".toList = .ok m ∧
    (m.styleAt 0).text.bold = true ∧ (m.styleAt 1).text.bold = false := by
  refine ⟨⟨"ab".toList, [⟨0, 1, { fg := some (.named "red".toList), text := { bold := true } }, []⟩]⟩, ?_⟩
  decide +kernel

/-- Lexing escaped text in front of anything. -/
theorem lexC_escape (ext : Ext) (r : List Char) : ∀ s : List Char, ∃ ts,
    lexC ext.ws (escape s ++ r) = (lexC ext.ws r).bind (fun us => .ok (ts ++ us)) ∧
      ∀ p : Parser, p.run ext ts = .ok { p with output := p.output ++ s }
  | [] => ⟨[], by cases h : lexC ext.ws r <;> simp [Res.bind, escape, h], fun p => by simp [Parser.run]⟩
  | c :: s => by
    obtain ⟨ts, h1, h2⟩ := lexC_escape ext r s
    obtain ⟨t, ht, h3⟩ := lexC_escapeChar ext.ws c (escape s ++ r)
    refine ⟨t :: ts, ?_, fun p => ?_⟩
    · rw [show escape (c :: s) ++ r = escapeChar c ++ (escape s ++ r) by simp [escape], h3, h1]
      cases lexC ext.ws r <;> simp [Res.bind]
    · simp only [Parser.run]
      rw [step_write ext p ht]
      simp only [Res.bind]
      rw [h2]
      simp

theorem lexC_open (ext : Ext) {t : List Char} (hb : ∀ c ∈ t, c ≠ '[' ∧ c ≠ ']' ∧ c ≠ '\\')
    (hne : t ≠ []) (hs : t.head? ≠ some '/') (r : List Char) :
    lexC ext.ws ('[' :: (t ++ ']' :: r)) = (lexC ext.ws r).bind fun us => .ok (.open t :: us) := by
  rw [lexC_tag ext.ws (body_tagBody (body_of_plain hb) r)]
  have : tagToken ext.ws t = .ok (.open t) := by
    match t, hne, hs with
    | c :: t, _, hs =>
      have hc : c ≠ '/' := by simpa using hs
      unfold tagToken
      split
      · cases ‹c :: t = []›
      · rename_i h; simp only [List.cons.injEq] at h; exact absurd h.1 hc
      · rfl
  rw [this]
  rfl

theorem lexC_close (ext : Ext) {t : List Char} (hb : ∀ c ∈ t, c ≠ '[' ∧ c ≠ ']' ∧ c ≠ '\\')
    (r : List Char) :
    lexC ext.ws ('[' :: ('/' :: t ++ ']' :: r)) = (lexC ext.ws r).bind fun us =>
      .ok (.close (if (trim ext.ws t).isEmpty then none else some (trim ext.ws t)) :: us) := by
  have hb' : Body 0 ('/' :: t) := .char (by decide) (by decide) (by decide) (body_of_plain hb)
  rw [lexC_tag ext.ws (body_tagBody hb' r)]
  rfl

theorem containsSub_iff (n : List Char) : ∀ s : List Char, containsSub n s = true ↔ ∃ l r, s = l ++ n ++ r
  | [] => by
    unfold containsSub
    constructor
    · intro h
      have : n = [] := by simpa using h
      exact ⟨[], [], by simp [this]⟩
    · rintro ⟨l, r, h⟩
      have : n = [] := by
        have h' := congrArg List.length h
        simp only [List.length_nil, List.length_append] at h'
        exact List.eq_nil_of_length_eq_zero (by omega)
      simp [this]
  | c :: s => by
    unfold containsSub
    rw [Bool.or_eq_true, containsSub_iff n s, List.isPrefixOf_iff_prefix]
    constructor
    · rintro (⟨r, h⟩ | ⟨l, r, h⟩)
      · exact ⟨[], r, by simp [h]⟩
      · exact ⟨c :: l, r, by simp [h]⟩
    · rintro ⟨l, r, h⟩
      cases l with
      | nil => exact Or.inl ⟨r, by simpa using h.symm⟩
      | cons x l =>
        simp only [List.cons_append, List.cons.injEq] at h
        exact Or.inr ⟨l, r, by simpa using h.2⟩

theorem tagMatches_iff (lower : List Char → List Char) (tag name : List Char) :
    tagMatches lower tag name = true ↔ Names lower tag name := by
  unfold tagMatches Names
  rw [Bool.or_eq_true, Bool.or_eq_true, containsSub_iff, List.isPrefixOf_iff_prefix, or_assoc, beq_iff_eq]
  constructor
  · rintro (h | ⟨r, h⟩ | h)
    · exact Or.inl h
    · exact Or.inr (Or.inl ⟨r, by simpa using h.symm⟩)
    · exact Or.inr (Or.inr h)
  · rintro (h | ⟨r, h⟩ | h)
    · exact Or.inl h
    · exact Or.inr (Or.inl ⟨r, by simpa using h.symm⟩)
    · exact Or.inr (Or.inr h)

/-- What `[/name]` closes (the spans created are then given by `parse_innermost` and its companions,
which use `closeNamed`). -/
theorem closeNamed_closes (lower : List Char → List Char) (name : List Char) : ∀ (st : List Frame),
    ClosesNamed lower name st (closeNamed lower name st)
  | [] => Or.inr ⟨by simp, rfl⟩
  | f :: st => by
    by_cases h : Names lower f.tag name
    · refine Or.inl ⟨[], f, ?_, by simp, h⟩
      unfold closeNamed
      rw [List.dropWhile_cons_of_neg (by rw [(tagMatches_iff ..).2 h]; simp)]
      simp
    · have e : closeNamed lower name (f :: st) = closeNamed lower name st := by
        unfold closeNamed
        rw [List.dropWhile_cons_of_pos]
        rw [← tagMatches_iff] at h
        simpa using h
      rw [e]
      rcases closeNamed_closes lower name st with ⟨a, g, h1, h2, h3⟩ | ⟨h1, h2⟩
      · refine Or.inl ⟨f :: a, g, by rw [List.cons_append, ← h1], ?_, h3⟩
        intro x hx
        rcases List.mem_cons.1 hx with rfl | hx
        · exact h
        · exact h2 x hx
      · refine Or.inr ⟨?_, h2⟩
        intro x hx
        rcases List.mem_cons.1 hx with rfl | hx
        · exact h
        · exact h1 x hx

example : Names asciiExt.lower "Bold red".toList "BOLD".toList :=
  Or.inr (Or.inl ⟨"red".toList, by decide +kernel⟩)

/-- `[t]a[/]b` and `[t]a[/t]b` style exactly `a`: for any tag text `t` that names a style, and any
texts `a` (not empty) and `b`. The closing name may be written in other case. -/
theorem tag_scope (ext : Ext) (t a b : List Char) (s : Style)
    (hb : ∀ c ∈ t, c ≠ '[' ∧ c ≠ ']' ∧ c ≠ '\\') (hne : t ≠ []) (hs : t.head? ≠ some '/')
    (htrim : trim ext.ws t = t) (hp : Tag.parse ext t = .ok (.style s)) (hsty : s.isEmpty = false)
    (ha : a ≠ []) (closing : List Char)
    (hc : closing = [] ∨ closing ≠ [] ∧ trim ext.ws closing = closing ∧ ext.lower closing = ext.lower t ∧
      ∀ c ∈ closing, c ≠ '[' ∧ c ≠ ']' ∧ c ≠ '\\') :
    parse ext ('[' :: t ++ [']'] ++ escape a ++ ('[' :: '/' :: closing ++ [']']) ++ escape b) =
      .ok ⟨a ++ b, [⟨0, blen a, s, []⟩]⟩ := by
  have hbc : ∀ c ∈ closing, c ≠ '[' ∧ c ≠ ']' ∧ c ≠ '\\' := by
    rcases hc with rfl | hc
    · simp
    · exact hc.2.2.2
  obtain ⟨tb, b1, b2⟩ := lexC_escape ext [] b
  rw [List.append_nil, lexC_nil] at b1
  obtain ⟨ta, a1, a2⟩ := lexC_escape ext ('[' :: ('/' :: closing ++ ']' :: escape b)) a
  rw [lexC_close ext hbc, b1] at a1
  have e : '[' :: t ++ [']'] ++ escape a ++ ('[' :: '/' :: closing ++ [']']) ++ escape b =
      '[' :: (t ++ ']' :: (escape a ++ ('[' :: ('/' :: closing ++ ']' :: escape b)))) := by simp
  have hlen : 0 < blen a := Nat.pos_of_ne_zero (mt blen_eq_zero.1 ha)
  rw [e, parse_eq_lexC, lexC_open ext hb hne hs, a1]
  simp only [Res.bind, Parser.run, Parser.step, hp]
  rw [run_append, a2]
  simp only [Res.bind, Parser.run, Parser.push]
  have hstep : ∀ q : Parser, q.stack = [⟨s, [], 0, t⟩] → q.output = a → q.spans = [] →
      q.step ext (.close (if (trim ext.ws closing).isEmpty then none else some (trim ext.ws closing)))
        = .ok { stack := [], output := a, spans := [⟨0, blen a, s, []⟩] } := by
    intro q h1 h2 h3
    have hcr : ({ q with stack := [] } : Parser).createSpan ⟨s, [], 0, t⟩ =
        { stack := [], output := a, spans := [⟨0, blen a, s, []⟩] } := by
      unfold Parser.createSpan
      rw [if_pos (by simp [h2, hlen, hsty])]
      simp [h2, h3]
    rcases hc with rfl | ⟨c1, c2, c3, _⟩
    · have : (trim ext.ws []).isEmpty = true := rfl
      rw [if_pos this]
      simp only [Parser.step, Parser.pop, h1]
      rw [hcr]
    · rw [c2, if_neg (by simpa using c1)]
      simp only [Parser.step, Parser.popMatching, h1, splitMatching]
      rw [if_pos (by simp [tagMatches, c3])]
      simp only [List.foldl_cons, List.foldl_nil]
      rw [hcr]
  rw [hstep _ (by simp [blen]) (by simp) rfl]
  simp only [Res.bind]
  rw [List.append_nil, b2]
  simp [Parser.closeAll]

example : parse asciiExt "[bold red]x\\[[/Bold RED]y".toList = .ok ⟨"x[y".toList,
    [⟨0, 2, { fg := some (.named "red".toList), text := { bold := true } }, []⟩]⟩ :=
  tag_scope asciiExt "bold red".toList "x[".toList "y".toList _ (by decide) (by decide) (by decide)
    (by decide) (by decide +kernel) (by decide) (by decide) "Bold RED".toList
    (Or.inr ⟨by decide, by decide, by decide +kernel, by decide⟩)

/-! ### C56: no panic -/

/-- Markup with a six-byte hex colour that is not six characters makes the parser panic. -/
theorem parse_panic_counterexample :
    parse asciiExt "[#abcdé]text[/]".toList = .panic := by decide +kernel

theorem nth_ok {s : List Char} {i : Nat} (h : i < s.length) : ∃ c, nth s i = .ok c :=
  ⟨s[i], by unfold nth; rw [List.getElem?_eq_getElem h]⟩

theorem hexDigit_ne_panic (c : Char) : hexDigit c ≠ .panic := by
  unfold hexDigit; repeat' split
  all_goals simp

theorem hexPair_ne_panic (a b : Char) : hexPair a b ≠ .panic :=
  Res.bind_ne_panic (hexDigit_ne_panic a) fun _ _ =>
    Res.bind_ne_panic (hexDigit_ne_panic b) fun _ _ h => by cases h

theorem blen_ascii : ∀ {s : List Char}, Ascii s → blen s = s.length
  | [], _ => rfl
  | c :: s, h => by
    have h1 := h c (by simp)
    have h2 := blen_ascii (s := s) fun x hx => h x (by simp [hx])
    simp [h1, h2]; omega

theorem parseHex_ne_panic {s : List Char} (h : Ascii s) : parseHex s ≠ .panic := by
  unfold parseHex
  rw [blen_ascii h]
  split
  · rename_i hl
    obtain ⟨c0, h0⟩ := nth_ok (s := s) (i := 0) (by omega)
    obtain ⟨c1, h1⟩ := nth_ok (s := s) (i := 1) (by omega)
    obtain ⟨c2, h2⟩ := nth_ok (s := s) (i := 2) (by omega)
    rw [h0, h1, h2]
    show (hexDigit c0).bind (fun _ => (hexDigit c1).bind fun _ => (hexDigit c2).bind fun _ => .ok _) ≠ _
    exact Res.bind_ne_panic (hexDigit_ne_panic _) fun _ _ =>
      Res.bind_ne_panic (hexDigit_ne_panic _) fun _ _ =>
      Res.bind_ne_panic (hexDigit_ne_panic _) fun _ _ h => by cases h
  · split
    · rename_i hl
      obtain ⟨c0, h0⟩ := nth_ok (s := s) (i := 0) (by omega)
      obtain ⟨c1, h1⟩ := nth_ok (s := s) (i := 1) (by omega)
      obtain ⟨c2, h2⟩ := nth_ok (s := s) (i := 2) (by omega)
      obtain ⟨c3, h3⟩ := nth_ok (s := s) (i := 3) (by omega)
      obtain ⟨c4, h4⟩ := nth_ok (s := s) (i := 4) (by omega)
      obtain ⟨c5, h5⟩ := nth_ok (s := s) (i := 5) (by omega)
      rw [h0, h1, h2, h3, h4, h5]
      show (hexPair c0 c1).bind (fun _ => (hexPair c2 c3).bind fun _ => (hexPair c4 c5).bind fun _ =>
        .ok _) ≠ _
      exact Res.bind_ne_panic (hexPair_ne_panic _ _) fun _ _ =>
        Res.bind_ne_panic (hexPair_ne_panic _ _) fun _ _ =>
        Res.bind_ne_panic (hexPair_ne_panic _ _) fun _ _ h => by cases h
    · simp

theorem trim_sub (ws : Char → Bool) (s : List Char) : ∀ c ∈ trim ws s, c ∈ s := by
  intro c hc
  unfold trim at hc
  rw [List.mem_reverse] at hc
  have := (List.dropWhile_sublist _).subset hc
  rw [List.mem_reverse] at this
  exact (List.dropWhile_sublist _).subset this

theorem ofOption_ne_panic {α : Type} (x : Option α) : Res.ofOption x ≠ .panic := by
  cases x <;> simp [Res.ofOption]

theorem colorParse_ne_panic {ext : Ext} {s : List Char} (h : Ascii s) :
    Color.parse ext s ≠ .panic := by
  have ht : Ascii (trim ext.ws s) := fun c hc => h c (trim_sub _ _ c hc)
  unfold Color.parse
  dsimp only
  split
  · simp
  · rename_i heq
    rw [heq] at ht
    exact parseHex_ne_panic fun c hc => ht c (by simp [hc])
  · split
    · exact ofOption_ne_panic _
    · split <;> simp

theorem styleWords_ne_panic {ext : Ext} (hl : ∀ s, Ascii s → Ascii (ext.lower s)) (st : Style)
    (ws : List (List Char)) : (∀ w ∈ ws, Ascii w) → styleWords ext st ws ≠ .panic := by
  fun_induction styleWords ext st ws <;> intro h
  · simp
  · simp
  · simp
  · simp
  · rename_i hp
    exact absurd hp (colorParse_ne_panic (hl _ (h _ (by simp))))
  · simp
  · rename_i hp
    exact absurd hp (colorParse_ne_panic (h _ (by simp)))
  · simp
  · rename_i ih
    exact Res.bind_ne_panic (colorParse_ne_panic (h _ (by simp))) fun c _ =>
      ih c fun w hw => h w (by simp [hw])
  · rename_i ih
    exact ih fun w hw => h w (List.mem_cons_of_mem _ hw)
  · rename_i ih
    exact ih fun w hw => h w (List.mem_cons_of_mem _ hw)
  · rename_i hp
    exact absurd hp (colorParse_ne_panic (hl _ (h _ (by simp))))
  · rename_i ih
    exact ih fun w hw => h w (List.mem_cons_of_mem _ hw)
  · rename_i hp
    exact absurd hp (colorParse_ne_panic (h _ (by simp)))
  · simp

theorem wordsLoop_ascii (ws : Char → Bool) : ∀ (s cur : List Char), Ascii s → Ascii cur →
    ∀ w ∈ wordsLoop ws cur s, Ascii w
  | [], cur, _, hc, w, hw => by
    unfold wordsLoop at hw
    split at hw
    · simp at hw
    · simp at hw; subst hw; exact hc
  | c :: s, cur, hs, hc, w, hw => by
    have hs' : Ascii s := fun x hx => hs x (by simp [hx])
    unfold wordsLoop at hw
    split at hw
    · rcases List.mem_append.1 hw with h | h
      · split at h
        · simp at h
        · simp at h; subst h; exact hc
      · exact wordsLoop_ascii ws s [] hs' (by simp [Ascii]) w h
    · refine wordsLoop_ascii ws s _ hs' ?_ w hw
      intro x hx
      rcases List.mem_append.1 hx with h | h
      · exact hc x h
      · simp at h; subst h; exact hs x (by simp)

theorem tagParse_ne_panic {ext : Ext} (hl : ∀ s, Ascii s → Ascii (ext.lower s)) {s : List Char}
    (h : Ascii s) : Tag.parse ext s ≠ .panic := by
  have ht : Ascii (trim ext.ws s) := fun c hc => h c (trim_sub _ _ c hc)
  unfold Tag.parse
  dsimp only
  split
  · simp
  · simp
  · simp
  · split
    · simp
    · refine Res.bind_ne_panic ?_ fun a _ h => by cases h
      have ht' : Ascii (trim ext.ws (trim ext.ws s)) := fun c hc => ht c (trim_sub _ _ c hc)
      unfold Style.parse
      dsimp only
      split
      · simp
      · exact styleWords_ne_panic hl _ _ (wordsLoop_ascii _ _ _ ht' (by simp [Ascii]))

theorem lexC_ascii (ws : Char → Bool) (src : List Char) : Ascii src → lexC ws src ≠ .panic ∧
    ∀ ts, lexC ws src = .ok ts → ∀ s, Token.open s ∈ ts → Ascii s := by
  induction hn : src.length using Nat.strongRecOn generalizing src with
  | _ n ih =>
    intro ha
    cases src with
    | nil => rw [lexC_nil]; simp
    | cons c cs =>
      have hcs : Ascii cs := fun x hx => ha x (by simp [hx])
      by_cases h1 : c = '['
      · subst h1
        cases hb : tagBody 0 cs with
        | none =>
          have : lexC ws ('[' :: cs) = .err := by
            rw [lexC.eq_def]
            dsimp only
            rw [if_pos rfl]
            split
            · rfl
            · rename_i h'; rw [hb] at h'; cases h'
          rw [this]; simp
        | some p =>
          obtain ⟨a, r⟩ := p
          have hlen := tagBody_length _ _ _ _ hb
          obtain ⟨_, b2⟩ := tagBody_body _ _ _ _ hb
          have haa : Ascii a := fun x hx => hcs x (by rw [b2]; simp [hx])
          have har : Ascii r := fun x hx => hcs x (by rw [b2]; simp [hx])
          obtain ⟨i1, i2⟩ := ih r.length (by simp at hn; omega) r rfl har
          rw [lexC_tag ws hb]
          have htt : tagToken ws a ≠ .panic ∧ ∀ t, tagToken ws a = .ok t → ∀ s, t = .open s → Ascii s := by
            unfold tagToken
            split
            · simp
            · refine ⟨by simp, ?_⟩
              intro t ht s hs
              simp only [Res.ok.injEq] at ht
              subst ht; cases hs
            · refine ⟨by simp, ?_⟩
              intro t ht s hs
              simp only [Res.ok.injEq] at ht
              subst ht; cases hs; exact haa
          refine ⟨Res.bind_ne_panic htt.1 fun t _ => Res.bind_ne_panic i1 fun us _ h => (by cases h), ?_⟩
          intro ts hts s hs
          simp only [Res.bind_eq_ok, Res.ok.injEq] at hts
          obtain ⟨t, ht, us, hu, rfl⟩ := hts
          rcases List.mem_cons.1 hs with h | h
          · exact htt.2 t ht s h.symm
          · exact i2 us hu s h
      · by_cases h2 : c = '\\'
        · subst h2
          cases cs with
          | nil =>
            have : lexC ws ['\\'] = .err := by rw [lexC.eq_def]; rfl
            rw [this]; simp
          | cons e r =>
            by_cases he : e = '[' ∨ e = ']' ∨ e = '\\'
            · have he' : e ∈ ['[', ']', '\\'] := by simpa using he
              obtain ⟨i1, i2⟩ := ih r.length (by simp at hn; omega) r rfl
                fun x hx => hcs x (by simp [hx])
              rw [lexC_esc ws he']
              refine ⟨Res.bind_ne_panic i1 fun us _ h => (by cases h), ?_⟩
              intro ts hts s hs
              simp only [Res.bind_eq_ok, Res.ok.injEq] at hts
              obtain ⟨us, hu, rfl⟩ := hts
              exact i2 us hu s (by simpa using hs)
            · have : lexC ws ('\\' :: e :: r) = .err := by
                rw [lexC.eq_def]
                dsimp only
                rw [if_neg (by decide), if_pos rfl, if_neg he]
              rw [this]; simp
        · obtain ⟨i1, i2⟩ := ih cs.length (by simp at hn; omega) cs rfl hcs
          rw [lexC_text ws h1 h2]
          refine ⟨Res.bind_ne_panic i1 fun us _ h => (by cases h), ?_⟩
          intro ts hts s hs
          simp only [Res.bind_eq_ok, Res.ok.injEq] at hts
          obtain ⟨us, hu, rfl⟩ := hts
          exact i2 us hu s (by simpa using hs)

theorem run_ne_panic {ext : Ext} (hl : ∀ s, Ascii s → Ascii (ext.lower s)) : ∀ (ts : List Token)
    (p : Parser), (∀ s, Token.open s ∈ ts → Ascii s) → p.run ext ts ≠ .panic
  | [], p, _ => by simp [Parser.run]
  | t :: ts, p, h => by
    simp only [Parser.run]
    refine Res.bind_ne_panic ?_ fun q _ => run_ne_panic hl ts q fun s hs => h s (by simp [hs])
    cases t with
    | text s => simp [Parser.step]
    | esc c => simp [Parser.step]
    | close s => cases s <;> simp [Parser.step]
    | «open» s =>
      refine Res.bind_ne_panic (tagParse_ne_panic hl (h s (by simp))) ?_
      intro t _
      cases t <;> simp

/-- Parsing ASCII markup never panics, whatever the tags (lower-casing keeps ASCII text ASCII).
Missing: other text, where a hex colour can panic (see the counterexample). -/
theorem parse_no_panic_partial (ext : Ext) (hl : ∀ s, Ascii s → Ascii (ext.lower s))
    (src : List Char) (h : Ascii src) : parse ext src ≠ .panic := by
  rw [parse_eq_lexC]
  obtain ⟨h1, h2⟩ := lexC_ascii ext.ws src h
  refine Res.bind_ne_panic h1 fun ts hts => ?_
  exact Res.bind_ne_panic (run_ne_panic hl ts _ (h2 ts hts)) fun p _ h => by cases h

example : parse { asciiExt with lower := id } "[#abcd]x[/] [[ ]".toList ≠ .panic :=
  parse_no_panic_partial _ (fun _ h => h) _ (by unfold Ascii; decide)

end Textual.Markup
