import Mathlib.Tactic.Common
import Verif.Model.Source
import Verif.Spec.Source

/-! C34, C35: comments and variables. -/

namespace Textual.Source

theorem hasPair_nil (a b : Char) : ¬ HasPair a b [] := by rintro ⟨u, v, h⟩; simp at h

theorem hasPair_cons (a b c : Char) (s : List Char) :
    HasPair a b (c :: s) ↔ (c = a ∧ s.head? = some b) ∨ HasPair a b s := by
  constructor
  · rintro ⟨u, v, h⟩
    cases u with
    | nil => simp only [List.nil_append, List.cons.injEq] at h; left; rw [h.2]; exact ⟨h.1, rfl⟩
    | cons x u => simp only [List.cons_append, List.cons.injEq] at h; exact Or.inr ⟨u, v, h.2⟩
  · rintro (⟨rfl, h⟩ | ⟨u, v, rfl⟩)
    · cases s with
      | nil => simp at h
      | cons d t => simp at h; subst h; exact ⟨[], t, rfl⟩
    · exact ⟨c :: u, v, rfl⟩

theorem hasPair_of_contains2 (a b : Char) (s : List Char) : contains2 a b s = true ↔ HasPair a b s := by
  induction s with
  | nil => simp [contains2, hasPair_nil]
  | cons c s ih =>
    rw [hasPair_cons]
    cases s with
    | nil => simp [contains2, hasPair_nil]
    | cons d t => simp [contains2, ih]

/-! ### Stripping -/

theorem strip_cons (c : Char) (cs : List Char) (h1 : ¬ (c = '/' ∧ cs.head? = some '*'))
    (h2 : ¬ (c = '/' ∧ cs.head? = some '/')) : stripComments (c :: cs) = c :: stripComments cs := by
  rw [stripComments]
  · rintro cs' rfl rfl; exact h1 ⟨rfl, rfl⟩
  · rintro cs' rfl rfl; exact h2 ⟨rfl, rfl⟩

theorem strip_block (cs : List Char) : stripComments ('/' :: '*' :: cs) =
    match skipBlock cs with | some r => ' ' :: stripComments r | none => [] := by
  rw [stripComments]; split <;> simp_all

theorem strip_line (cs : List Char) : stripComments ('/' :: '/' :: cs) =
    match skipLine cs with | some r => '\n' :: stripComments r | none => [] := by
  rw [stripComments]; split <;> simp_all

theorem head?_append_take (s r : List Char) : (s ++ r.take 1).head? = (s ++ r).head? := by
  cases s with
  | nil => cases r <;> simp
  | cons => rfl

theorem strip_code (s r : List Char) (h : NoOpener (s ++ r.take 1)) :
    stripComments (s ++ r) = s ++ stripComments r := by
  induction s with
  | nil => rfl
  | cons c s ih =>
    obtain ⟨h1, h2⟩ := h
    rw [List.cons_append, hasPair_cons, head?_append_take] at h1 h2
    rw [List.cons_append, strip_cons, ih ⟨fun h => h1 (Or.inr h), fun h => h2 (Or.inr h)⟩, List.cons_append]
    · exact fun h => h1 (Or.inl h)
    · exact fun h => h2 (Or.inl h)

theorem skipBlock_cons (c : Char) (cs : List Char) (h : ¬ (c = '*' ∧ cs.head? = some '/')) :
    skipBlock (c :: cs) = skipBlock cs := by
  rw [skipBlock]
  rintro cs' rfl rfl; exact h ⟨rfl, rfl⟩

theorem skipBlock_closed (s r : List Char) (h : ¬ HasPair '*' '/' (s ++ ['*'])) :
    skipBlock (s ++ ['*', '/'] ++ r) = some r := by
  induction s with
  | nil => rfl
  | cons c s ih =>
    rw [List.cons_append, hasPair_cons] at h
    rw [List.cons_append, List.cons_append, skipBlock_cons, ih (fun h' => h (Or.inr h'))]
    rintro ⟨rfl, hh⟩
    apply h
    left
    refine ⟨rfl, ?_⟩
    cases s with
    | nil => simp at hh
    | cons d s => simpa using hh

theorem skipBlock_open (s : List Char) (h : ¬ HasPair '*' '/' s) : skipBlock s = none := by
  induction s with
  | nil => rfl
  | cons c s ih =>
    rw [hasPair_cons] at h
    rw [skipBlock_cons _ _ (fun h' => h (Or.inl h')), ih (fun h' => h (Or.inr h'))]

theorem skipLine_cons (c : Char) (cs : List Char) (h : c ≠ '\n') : skipLine (c :: cs) = skipLine cs := by
  rw [skipLine]
  intro; exact h ‹_›

theorem skipLine_closed (s r : List Char) (h : '\n' ∉ s) : skipLine (s ++ ['\n'] ++ r) = some r := by
  induction s with
  | nil => rfl
  | cons c s ih =>
    simp only [List.mem_cons, not_or] at h
    rw [List.cons_append, List.cons_append, skipLine_cons _ _ (Ne.symm h.1), ih h.2]

theorem skipLine_open (s : List Char) (h : '\n' ∉ s) : skipLine s = none := by
  induction s with
  | nil => rfl
  | cons c s ih =>
    simp only [List.mem_cons, not_or] at h
    rw [skipLine_cons _ _ (Ne.symm h.1), ih h.2]

/-- C34: stripping keeps the code of a source text exactly, turns each block comment into one space and each
line comment into its line end. -/
theorem stripComments_pieces (ps : List Piece) (h : Proper ps) :
    stripComments (text ps) = ps.flatMap Piece.kept := by
  induction ps with
  | nil => rw [text, List.flatMap_nil, List.flatMap_nil, stripComments]
  | cons p ps ih =>
    rw [text, List.flatMap_cons, List.flatMap_cons]
    show stripComments (p.text ++ text ps) = _
    cases p with
    | code s =>
      rw [Piece.text, Piece.kept, strip_code s _ h.1, ih h.2]
    | block s =>
      have e : (Piece.block s).text ++ text ps = '/' :: '*' :: (s ++ ['*', '/'] ++ text ps) := by simp [Piece.text]
      rw [e, strip_block, skipBlock_closed s _ h.1]
      simp [Piece.kept, ih h.2]
    | line s =>
      have e : (Piece.line s).text ++ text ps = '/' :: '/' :: (s ++ ['\n'] ++ text ps) := by simp [Piece.text]
      rw [e, strip_line, skipLine_closed s _ h.1]
      simp [Piece.kept, ih h.2]
    | openBlock s =>
      obtain ⟨h1, rfl⟩ := h
      have e : (Piece.openBlock s).text ++ text [] = '/' :: '*' :: s := by simp [Piece.text, text]
      rw [e, strip_block, skipBlock_open s h1]
      simp [Piece.kept]
    | openLine s =>
      obtain ⟨h1, rfl⟩ := h
      have e : (Piece.openLine s).text ++ text [] = '/' :: '/' :: s := by simp [Piece.text, text]
      rw [e, strip_line, skipLine_open s h1]
      simp [Piece.kept]

theorem skipBlock_split : ∀ cs : List Char,
    (∃ s r, cs = s ++ ['*', '/'] ++ r ∧ ¬ HasPair '*' '/' (s ++ ['*'])) ∨ ¬ HasPair '*' '/' cs := by
  intro cs
  induction cs with
  | nil => exact Or.inr (hasPair_nil _ _)
  | cons c cs ih =>
    by_cases h : c = '*' ∧ cs.head? = some '/'
    · left
      obtain ⟨rfl, h⟩ := h
      cases cs with
      | nil => simp at h
      | cons d r =>
        simp at h; subst h
        refine ⟨[], r, rfl, ?_⟩
        rw [List.nil_append, hasPair_cons]
        rintro (h | h)
        · simp at h
        · exact hasPair_nil _ _ h
    · rcases ih with ⟨s, r, rfl, hs⟩ | h'
      · left
        refine ⟨c :: s, r, rfl, ?_⟩
        rw [List.cons_append, hasPair_cons]
        rintro (⟨h1, h2⟩ | h2)
        · apply h
          refine ⟨h1, ?_⟩
          cases s with
          | nil => simp at h2
          | cons d s => simpa using h2
        · exact hs h2
      · right
        rw [hasPair_cons]
        rintro (h2 | h2)
        · exact h h2
        · exact h' h2

theorem skipLine_split (cs : List Char) : (∃ s r, cs = s ++ ['\n'] ++ r ∧ '\n' ∉ s) ∨ '\n' ∉ cs := by
  by_cases h : '\n' ∈ cs
  · left
    obtain ⟨s, r, rfl, hs⟩ := List.eq_append_cons_of_mem h
    exact ⟨s, r, by simp, hs⟩
  · exact Or.inr h

/-- C34: every text is made of such pieces, so the description covers all texts. -/
theorem pieces_exist (cs : List Char) : ∃ ps, Proper ps ∧ text ps = cs := by
  induction hn : cs.length using Nat.strongRecOn generalizing cs with
  | _ n ih =>
    cases cs with
    | nil => exact ⟨[], trivial, rfl⟩
    | cons c cs =>
      have one : ¬ (c = '/' ∧ (cs.head? = some '*' ∨ cs.head? = some '/')) →
          ∃ ps, Proper ps ∧ text ps = c :: cs := by
        intro h
        obtain ⟨ps, h1, h2⟩ := ih cs.length (by simp [← hn]) cs rfl
        refine ⟨.code [c] :: ps, ⟨?_, h1⟩, by simp [text, Piece.text] at h2 ⊢; exact h2⟩
        rw [h2]
        constructor
        all_goals
          rw [List.cons_append, hasPair_cons, List.nil_append]
          rintro (⟨h3, h4⟩ | h3)
          · apply h
            cases cs with
            | nil => simp at h4
            | cons d t => simp at h4 ⊢; exact ⟨h3, by simp [h4]⟩
          · cases cs with
            | nil => exact hasPair_nil _ _ h3
            | cons d t =>
              simp only [List.take_succ_cons, List.take_zero] at h3
              rw [hasPair_cons] at h3
              rcases h3 with h3 | h3
              · simp at h3
              · exact hasPair_nil _ _ h3
      by_cases hc : c = '/'
      · subst hc
        cases cs with
        | nil => exact one (by simp)
        | cons d t =>
          by_cases hd : d = '*'
          · subst hd
            rcases skipBlock_split t with ⟨s, r, rfl, hs⟩ | h
            · obtain ⟨ps, h1, h2⟩ := ih r.length (by simp [← hn]; omega) r rfl
              exact ⟨.block s :: ps, ⟨hs, h1⟩, by simp [text, Piece.text] at h2 ⊢; exact h2⟩
            · exact ⟨[.openBlock t], ⟨h, rfl⟩, by simp [text, Piece.text]⟩
          · by_cases hd2 : d = '/'
            · subst hd2
              rcases skipLine_split t with ⟨s, r, rfl, hs⟩ | h
              · obtain ⟨ps, h1, h2⟩ := ih r.length (by simp [← hn]; omega) r rfl
                exact ⟨.line s :: ps, ⟨hs, h1⟩, by simp [text, Piece.text] at h2 ⊢; exact h2⟩
              · exact ⟨[.openLine t], ⟨h, rfl⟩, by simp [text, Piece.text]⟩
            · exact one (by simp [hd, hd2])
      · exact one (by simp [hc])

/-- C34: text without comment opener is unchanged. -/
theorem stripComments_id (s : List Char) (h : NoOpener s) : stripComments s = s := by
  have := strip_code s [] (by simpa using h)
  simpa [stripComments] using this

theorem strip_head (cs : List Char) (d : Char) (hd : d = '*' ∨ d = '/') (h : (stripComments cs).head? = some d) :
    cs.head? = some d := by
  cases cs with
  | nil => simp [stripComments] at h
  | cons c cs =>
    by_cases h1 : c = '/' ∧ cs.head? = some '*'
    · obtain ⟨rfl, h1⟩ := h1
      cases cs with
      | nil => simp at h1
      | cons e t =>
        simp at h1; subst h1
        rw [strip_block] at h
        split at h
        · simp at h; subst h; simp at hd
        · simp at h
    · by_cases h2 : c = '/' ∧ cs.head? = some '/'
      · obtain ⟨rfl, h2⟩ := h2
        cases cs with
        | nil => simp at h2
        | cons e t =>
          simp at h2; subst h2
          rw [strip_line] at h
          split at h
          · simp at h; subst h; simp at hd
          · simp at h
      · rw [strip_cons c cs h1 h2] at h
        simpa using h

/-- C34: no comment opener is left behind. -/
theorem stripComments_noOpener (cs : List Char) : NoOpener (stripComments cs) := by
  have key : ∀ d, (d = '*' ∨ d = '/') → ¬ HasPair '/' d (stripComments cs) := by
    intro d hd
    induction hn : cs.length using Nat.strongRecOn generalizing cs with
    | _ n ih =>
      cases cs with
      | nil => rw [stripComments]; exact hasPair_nil _ _
      | cons c cs =>
        by_cases h1 : c = '/' ∧ cs.head? = some '*'
        · obtain ⟨rfl, h1⟩ := h1
          cases cs with
          | nil => simp at h1
          | cons e t =>
            simp at h1; subst h1
            rw [strip_block]
            split
            · rename_i r hr
              rw [hasPair_cons]
              rintro (h | h)
              · simp at h
              · exact ih r.length (by have := skipBlock_length hr; simp at hn; omega) r rfl h
            · exact hasPair_nil _ _
        · by_cases h2 : c = '/' ∧ cs.head? = some '/'
          · obtain ⟨rfl, h2⟩ := h2
            cases cs with
            | nil => simp at h2
            | cons e t =>
              simp at h2; subst h2
              rw [strip_line]
              split
              · rename_i r hr
                rw [hasPair_cons]
                rintro (h | h)
                · simp at h
                · exact ih r.length (by have := skipLine_length hr; simp at hn; omega) r rfl h
              · exact hasPair_nil _ _
          · rw [strip_cons c cs h1 h2, hasPair_cons]
            rintro (⟨h3, h4⟩ | h3)
            · have := strip_head cs d hd h4
              rcases hd with rfl | rfl
              · exact h1 ⟨h3, this⟩
              · exact h2 ⟨h3, this⟩
            · exact ih cs.length (by simp at hn; omega) cs rfl h3
  exact ⟨key '*' (Or.inl rfl), key '/' (Or.inr rfl)⟩

/-- C34: stripping twice is stripping once. -/
theorem stripComments_idem (cs : List Char) : stripComments (stripComments cs) = stripComments cs :=
  stripComments_id _ (stripComments_noOpener cs)

example : stripComments "a /* x */ b // y\nc/d".toList = "a   b \nc/d".toList := by
  have := stripComments_pieces [.code "a ".toList, .block " x ".toList, .code " b ".toList, .line " y".toList,
    .code "c/d".toList] (by
      have h : ∀ a b s, contains2 a b s = false → ¬ HasPair a b s := by
        intro a b s h h'
        rw [(hasPair_of_contains2 a b s).2 h'] at h; cases h
      refine ⟨⟨h _ _ _ (by decide), h _ _ _ (by decide)⟩, h _ _ _ (by decide),
        ⟨h _ _ _ (by decide), h _ _ _ (by decide)⟩, by decide, ⟨h _ _ _ (by decide), h _ _ _ (by decide)⟩, trivial⟩)
  exact this

/-! ### Variables -/

theorem resolveLine_lit (alnum : Char → Bool) (vars : List Char → Option (List Char)) (s r : List Char)
    (h : '$' ∉ s) : resolveLine alnum vars (s ++ r) = s ++ resolveLine alnum vars r := by
  induction s with
  | nil => rfl
  | cons c s ih =>
    simp only [List.mem_cons, not_or] at h
    rw [List.cons_append, resolveLine, ih h.2, List.cons_append]
    intro hc; exact h.1 hc.symm

theorem takeWhile_append_stop {α : Type} (p : α → Bool) (n r : List α) (h : ∀ c ∈ n, p c = true)
    (hr : ∀ c, r.head? = some c → p c = false) :
    (n ++ r).takeWhile p = n ∧ (n ++ r).dropWhile p = r := by
  induction n with
  | nil =>
    cases r with
    | nil => simp
    | cons c r => have := hr c rfl; simp [this]
  | cons c n ih =>
    have h1 := h c (by simp)
    have h2 := ih (fun x hx => h x (by simp [hx]))
    simp [h1, h2.1, h2.2]

/-- C35: a line is resolved part by part: literal text is kept, each reference (taken as long as possible)
becomes its value, an undefined one stays as written. Names are made of letters, digits, dashes and
underscores. -/
theorem resolveLine_parts (alnum : Char → Bool) (vars : List Char → Option (List Char)) (ps : List Part)
    (h : ProperParts (fun c => alnum c || c == '-' || c == '_') ps) :
    resolveLine alnum vars (ps.flatMap Part.text) = ps.flatMap (Part.value vars) := by
  replace h : ProperParts (isName alnum) ps := h
  induction ps with
  | nil => rw [List.flatMap_nil, List.flatMap_nil, resolveLine]
  | cons p ps ih =>
    rw [List.flatMap_cons, List.flatMap_cons]
    cases p with
    | lit s => rw [Part.text, resolveLine_lit _ _ _ _ h.1, ih h.2]; rfl
    | ref n =>
      obtain ⟨h1, h2, h3⟩ := h
      obtain ⟨t, d⟩ := takeWhile_append_stop (isName alnum) n _ h1 h2
      rw [Part.text, List.cons_append, resolveLine, t, d, ih h3]
      congr 1
      simp only [Part.value]
      cases vars n <;> rfl

/-- C35: every line is made of such parts. -/
theorem parts_exist (name : Char → Bool) (line : List Char) :
    ∃ ps, ProperParts name ps ∧ ps.flatMap Part.text = line := by
  induction hn : line.length using Nat.strongRecOn generalizing line with
  | _ n ih =>
    cases line with
    | nil => exact ⟨[], trivial, rfl⟩
    | cons c cs =>
      by_cases hc : c = '$'
      · subst hc
        have hlen := (List.dropWhile_suffix (l := cs) name).length_le
        obtain ⟨ps, h1, h2⟩ := ih (cs.dropWhile name).length (by simp at hn; omega) (cs.dropWhile name) rfl
        refine ⟨.ref (cs.takeWhile name) :: ps, ⟨?_, ?_, h1⟩, ?_⟩
        · intro c hc; exact List.all_eq_true.1 List.all_takeWhile c hc
        · intro c hc
          rw [h2] at hc
          have := List.head?_dropWhile_not name cs
          rw [hc] at this
          simpa using this
        · rw [List.flatMap_cons, h2]; simp [Part.text]
      · obtain ⟨ps, h1, h2⟩ := ih cs.length (by simp at hn; omega) cs rfl
        refine ⟨.lit [c] :: ps, ⟨by simp; exact fun h => hc h.symm, h1⟩, ?_⟩
        rw [List.flatMap_cons, h2]; rfl

/-- C35: a line without `$` is unchanged. -/
theorem resolveLine_id (alnum : Char → Bool) (vars : List Char → Option (List Char)) (s : List Char)
    (h : '$' ∉ s) : resolveLine alnum vars s = s := by
  have := resolveLine_lit alnum vars s [] h
  simpa [resolveLine] using this

theorem dropBlocks_id (cs : List Char) (h : ¬ HasPair '/' '*' cs) : dropBlocks cs = cs := by
  induction cs with
  | nil => rw [dropBlocks]
  | cons c cs ih =>
    rw [hasPair_cons] at h
    rw [dropBlocks, ih (fun h' => h (Or.inr h'))]
    rintro cs' rfl rfl
    exact h (Or.inl ⟨rfl, rfl⟩)

theorem lines_cons_line (l r : List Char) (h : '\n' ∉ l) (hr : l.getLast? ≠ some '\r') :
    lines (l ++ '\n' :: r) = l :: lines r := by
  obtain ⟨t, d⟩ := takeWhile_append_stop (fun c => decide (c ≠ '\n')) l ('\n' :: r)
    (by intro c hc; simp; rintro rfl; exact h hc) (by simp)
  have hne : l ++ '\n' :: r ≠ [] := by simp
  generalize hg : l ++ '\n' :: r = x at *
  rw [lines.eq_def]
  cases x with
  | nil => exact absurd rfl hne
  | cons a x =>
    simp only
    split
    · rename_i h'; rw [d] at h'; simp at h'
    · rename_i b rest h'
      rw [d] at h'
      simp only [List.cons.injEq] at h'
      rw [t, if_neg hr, h'.2]

/-- The text made of lines each ended by a line feed. -/
def unlines (ls : List (List Char)) : List Char := ls.flatMap (fun l => l ++ ['\n'])

theorem lines_unlines (ls : List (List Char)) (h : ∀ l ∈ ls, '\n' ∉ l ∧ l.getLast? ≠ some '\r') :
    lines (unlines ls) = ls := by
  induction ls with
  | nil => simp [unlines, lines]
  | cons l ls ih =>
    have e : unlines (l :: ls) = l ++ '\n' :: unlines ls := by simp [unlines]
    rw [e, lines_cons_line l _ (h l (by simp)).1 (h l (by simp)).2, ih (fun x hx => h x (by simp [hx]))]

/-- C35, whole texts: lines whose first non-blank is `$` (definitions) are removed, every other line is
resolved and ended by a line feed, in order. -/
theorem resolveVariables_lines (ws alnum : Char → Bool) (vars : List Char → Option (List Char))
    (ls : List (List Char)) (h : ∀ l ∈ ls, '\n' ∉ l ∧ l.getLast? ≠ some '\r')
    (hc : ¬ HasPair '/' '*' (unlines ls)) :
    resolveVariables ws alnum vars (unlines ls) =
      unlines ((ls.filter (fun l => (trim ws l).head? ≠ some '$')).map (resolveLine alnum vars)) := by
  unfold resolveVariables
  rw [dropBlocks_id _ hc, lines_unlines ls h]
  clear h hc
  induction ls with
  | nil => rfl
  | cons l ls ih =>
    rw [List.flatMap_cons, ih]
    by_cases hl : (trim ws l).head? = some '$'
    · simp [hl]
    · simp [hl, unlines]

/-- C35: the last definition of a name counts. -/
theorem lookupDefs_last (pre post : List (List Char × List Char)) (n v : List Char)
    (h : ∀ d ∈ post, d.1 ≠ n) : lookupDefs (pre ++ (n, v) :: post) n = some v := by
  unfold lookupDefs
  have : post.reverse.find? (fun d => d.1 == n) = none := by
    rw [List.find?_eq_none]; intro d hd; simpa using h d (by simpa using hd)
  simp [List.reverse_append, List.find?_append, this]

/-- C35: an undefined name has no value. -/
theorem lookupDefs_none (defs : List (List Char × List Char)) (n : List Char) (h : ∀ d ∈ defs, d.1 ≠ n) :
    lookupDefs defs n = none := by
  unfold lookupDefs
  rw [Option.map_eq_none_iff, List.find?_eq_none]
  intro d hd; simpa using h d (by simpa using hd)

theorem trim_id (ws : Char → Bool) (s : List Char) (h1 : ∀ c, s.head? = some c → ws c = false)
    (h2 : ∀ c, s.getLast? = some c → ws c = false) : trim ws s = s := by
  unfold trim
  have d1 := (takeWhile_append_stop ws [] s (by simp) h1).2
  rw [List.nil_append] at d1
  rw [d1]
  have d2 := (takeWhile_append_stop ws [] s.reverse (by simp) (by simpa using h2)).2
  rw [List.nil_append] at d2
  rw [d2, List.reverse_reverse]

theorem dropWhile_append_all {α : Type} (p : α → Bool) (a b : List α) (h : ∀ c ∈ a, p c = true) :
    (a ++ b).dropWhile p = b.dropWhile p := by
  induction a with
  | nil => rfl
  | cons c a ih =>
    simp [h c (by simp), ih (fun x hx => h x (by simp [hx]))]

theorem trim_pad (ws : Char → Bool) (a s b : List Char) (ha : ∀ c ∈ a, ws c = true) (hb : ∀ c ∈ b, ws c = true)
    (h1 : ∀ c, s.head? = some c → ws c = false) (h2 : ∀ c, s.getLast? = some c → ws c = false)
    (hne : s ≠ []) : trim ws (a ++ s ++ b) = s := by
  unfold trim
  rw [List.append_assoc, dropWhile_append_all ws a _ ha]
  have d1 : (s ++ b).dropWhile ws = s ++ b := by
    obtain ⟨x, t, rfl⟩ := List.exists_cons_of_ne_nil hne
    have := h1 x rfl
    simp [this]
  rw [d1, List.reverse_append, dropWhile_append_all ws _ _ (by intro c hc; exact hb c (by simpa using hc))]
  have d2 := (takeWhile_append_stop ws [] s.reverse (by simp) (by simpa using h2)).2
  rw [List.nil_append] at d2
  rw [d2, List.reverse_reverse]

/-- C35: the line `$name : value;` (blanks anywhere around name, value and line) defines `name` as `value`. -/
theorem definition_line (ws : Char → Bool) (name value a b c d e f : List Char)
    (hsemi : ws ';' = false) (hdollar : ws '$' = false) (hcolon : ws ':' = false)
    (ha : ∀ x ∈ a, ws x = true) (hb : ∀ x ∈ b, ws x = true) (hc : ∀ x ∈ c, ws x = true)
    (hd : ∀ x ∈ d, ws x = true) (hf : ∀ x ∈ f, ws x = true)
    (hn : ∀ x ∈ name, ws x = false ∧ x ≠ ':') (hn0 : name ≠ [])
    (hv : ∀ x, value.head? = some x → ws x = false) (hv0 : value ≠ []) (he : e = [';']) :
    definition ws (trim ws (a ++ ('$' :: (b ++ name ++ c ++ ':' :: (d ++ value ++ e))) ++ f)) = some (name, value) := by
  subst he
  have htrim : trim ws (a ++ ('$' :: (b ++ name ++ c ++ ':' :: (d ++ value ++ [';']))) ++ f) =
      '$' :: (b ++ name ++ c ++ ':' :: (d ++ value ++ [';'])) := by
    apply trim_pad ws a _ f ha hf
    · intro x hx; simp at hx; subst hx; exact hdollar
    · intro x hx
      have : ('$' :: (b ++ name ++ c ++ ':' :: (d ++ value ++ [';']))).getLast? = some ';' := by
        have e : ('$' :: (b ++ name ++ c ++ ':' :: (d ++ value ++ [';']))) =
            ('$' :: (b ++ name ++ c ++ ':' :: (d ++ value))) ++ [';'] := by simp
        rw [e, List.getLast?_append]; rfl
      rw [this] at hx; cases hx; exact hsemi
    · simp
  rw [htrim]
  have hcol : ∀ x ∈ b ++ name ++ c, decide (x ≠ ':') = true := by
    intro x hx
    simp only [decide_eq_true_eq]
    rintro rfl
    simp only [List.mem_append] at hx
    rcases hx with (hx | hx) | hx
    · have := hb _ hx; rw [hcolon] at this; cases this
    · exact (hn _ hx).2 rfl
    · have := hc _ hx; rw [hcolon] at this; cases this
  obtain ⟨t1, t2⟩ := takeWhile_append_stop (fun x => decide (x ≠ ':')) (b ++ name ++ c)
    (':' :: (d ++ value ++ [';'])) hcol (by simp)
  have hname : trim ws (b ++ name ++ c) = name := by
    apply trim_pad ws b name c hb hc _ _ hn0
    · intro x hx; exact (hn x (List.mem_of_mem_head? hx)).1
    · intro x hx; exact (hn x (List.mem_of_mem_getLast? hx)).1
  have hval : trim ws (d ++ value ++ [';']) = value ++ [';'] := by
    have := trim_pad ws d (value ++ [';']) [] hd (by simp)
      (by
        intro x hx
        obtain ⟨y, t, rfl⟩ := List.exists_cons_of_ne_nil hv0
        simp at hx; subst hx; exact hv _ rfl)
      (by intro x hx; simp at hx; subst hx; exact hsemi) (by simp)
    simpa using this
  simp only [definition]
  rw [t2]
  simp only [t1, hname, hval]
  simp

/-- C35: a source of single-line definitions and other lines (no comments): the table of variables is the
list of the definitions in order. -/
theorem extractDefs_lines (ws : Char → Bool) (ls : List (List Char))
    (h : ∀ l ∈ ls, '\n' ∉ l ∧ l.getLast? ≠ some '\r')
    (hc : ∀ l ∈ ls, contains2 '/' '*' (trim ws l) = false ∧ contains2 '*' '/' (trim ws l) = false) :
    extractDefs ws (unlines ls) = ls.flatMap (fun l => (definition ws (trim ws l)).toList) := by
  unfold extractDefs
  rw [lines_unlines ls h]
  clear h
  have : ∀ acc, (ls.foldl (extractStep ws) (false, acc)) =
      (false, acc ++ ls.flatMap (fun l => (definition ws (trim ws l)).toList)) := by
    induction ls with
    | nil => intro acc; simp
    | cons l ls ih =>
      intro acc
      obtain ⟨h1, h2⟩ := hc l (by simp)
      rw [List.foldl_cons]
      have e : extractStep ws (false, acc) l = (false, acc ++ (definition ws (trim ws l)).toList) := by
        simp [extractStep, h1, h2]
      rw [e, ih (fun x hx => hc x (by simp [hx]))]
      simp
  rw [this]
  simp

/-- C35, the passes of `parse_stylesheet` together: for a source without comments written in lines, the text
given to the rule parser is the lines other than definitions, each `$name` in them replaced by the last
definition of `name` anywhere in the source. -/
theorem preprocess_lines_partial (ws alnum : Char → Bool) (ls : List (List Char))
    (h : ∀ l ∈ ls, '\n' ∉ l ∧ l.getLast? ≠ some '\r') (hc : NoOpener (unlines ls))
    (hd : ∀ l ∈ ls, ¬ HasPair '/' '*' (trim ws l) ∧ ¬ HasPair '*' '/' (trim ws l)) :
    preprocess ws alnum (unlines ls) =
      unlines ((ls.filter (fun l => (trim ws l).head? ≠ some '$')).map
        (resolveLine alnum (lookupDefs (ls.flatMap (fun l => (definition ws (trim ws l)).toList))))) := by
  unfold preprocess
  simp only
  rw [stripComments_id _ hc, resolveVariables_lines _ _ _ _ h hc.1, extractDefs_lines ws ls h]
  intro l hl
  have := hd l hl
  constructor
  · rw [Bool.eq_false_iff]; intro hh; exact this.1 ((hasPair_of_contains2 _ _ _).1 hh)
  · rw [Bool.eq_false_iff]; intro hh; exact this.2 ((hasPair_of_contains2 _ _ _).1 hh)

/-- Blank and line ends, for the examples. -/
def exWs (c : Char) : Bool := c == ' ' || c == '\n' || c == '\t' || c == '\r'

/-- ASCII letters and digits, for the examples. -/
def exAlnum (c : Char) : Bool := c.isAlphanum

/-- The longest name counts: `$ab` is not `$a` followed by `b`. -/
example : resolveLine exAlnum (lookupDefs [("a".toList, "red".toList), ("a-b".toList, "blue".toList)])
    "x: $a-b, $a; y: $abc".toList = "x: blue, red; y: $abc".toList := by
  have := resolveLine_parts exAlnum (lookupDefs [("a".toList, "red".toList), ("a-b".toList, "blue".toList)])
    [.lit "x: ".toList, .ref "a-b".toList, .lit ", ".toList, .ref "a".toList, .lit "; y: ".toList, .ref "abc".toList]
    (by refine ⟨by decide, ⟨by decide, ?_, by decide, ⟨by decide, ?_, by decide, by decide, by simp, trivial⟩⟩⟩
        · intro c hc; simp [Part.text] at hc; subst hc; decide
        · intro c hc; simp [Part.text] at hc; subst hc; decide)
  exact this

theorem lines_single (l : List Char) (h : '\n' ∉ l) (hne : l ≠ []) : lines l = [l] := by
  obtain ⟨t, d⟩ := takeWhile_append_stop (fun c => decide (c ≠ '\n')) l []
    (by intro c hc; simp; rintro rfl; exact h hc) (by simp)
  rw [List.append_nil] at t d
  rw [lines.eq_def]
  cases l with
  | nil => exact absurd rfl hne
  | cons a x =>
    simp only
    split
    · rw [t]
    · rename_i h'; rw [d] at h'; simp at h'

/-- A two-line stylesheet as preprocessed. -/
example : preprocess exWs exAlnum (unlines ["$c: red;".toList, "A { color: $c }".toList]) =
    "A { color: red }\n".toList := by
  rw [preprocess_lines_partial]
  · simp only [List.map, List.filter]
    have h1 : (trim exWs "$c: red;".toList).head? = some '$' := by decide
    have h2 : (trim exWs "A { color: $c }".toList).head? = some 'A' := by decide
    simp only [h1, h2, List.flatMap_cons, List.flatMap_nil]
    have h3 : definition exWs (trim exWs "$c: red;".toList) = some ("c".toList, "red".toList) := by decide
    have h4 : definition exWs (trim exWs "A { color: $c }".toList) = none := by decide
    rw [h3, h4]
    have := resolveLine_parts exAlnum (lookupDefs [("c".toList, "red".toList)])
      [.lit "A { color: ".toList, .ref "c".toList, .lit " }".toList]
      ⟨by decide, by decide, by intro c hc; simp [Part.text] at hc; subst hc; decide, by decide, trivial⟩
    have h5 : resolveLine exAlnum (lookupDefs [("c".toList, "red".toList)]) "A { color: $c }".toList =
      "A { color: red }".toList := this
    have h6 : decide (some '$' ≠ some '$') = false := by decide
    have h7 : decide (some 'A' ≠ some '$') = true := by decide
    simp only [h6, h7, List.map]
    show unlines [resolveLine exAlnum (lookupDefs [("c".toList, "red".toList)]) "A { color: $c }".toList] = _
    rw [h5]; decide
  · decide
  · constructor <;> rw [← hasPair_of_contains2] <;> decide
  · intro l hl
    rw [← hasPair_of_contains2, ← hasPair_of_contains2]
    revert l; decide

/-- C35 fails for a line that starts with a reference: the value on its own line, `color:` / `$c;`, is taken
for a definition line and lost although `c` is defined. -/
theorem reference_line_lost_counterexample :
    resolveVariables exWs exAlnum (lookupDefs [("c".toList, "red".toList)])
      (unlines ["A { color:".toList, "  $c; }".toList]) = "A { color:\n".toList := by
  rw [resolveVariables_lines _ _ _ _ (by decide) (by rw [← hasPair_of_contains2]; decide)]
  have h1 : (["A { color:".toList, "  $c; }".toList].filter (fun l => decide ((trim exWs l).head? ≠ some '$'))) =
    ["A { color:".toList] := by decide
  rw [h1]
  simp only [List.map]
  rw [resolveLine_id _ _ _ (by decide)]
  decide

/-- C35 fails for definitions through other variables: the value is inserted as written, so a reference to a
variable that is defined as `$c` yields the text `$c` although `c` is defined. -/
theorem nested_value_counterexample :
    resolveLine exAlnum (lookupDefs [("c".toList, "red".toList), ("d".toList, "$c".toList)]) "$d".toList =
      "$c".toList := by
  have := resolveLine_parts exAlnum (lookupDefs [("c".toList, "red".toList), ("d".toList, "$c".toList)])
      [.ref "d".toList] ⟨by decide, by simp, trivial⟩
  exact this

/-- C34 is about comments, not strings: `//` inside a quoted string is also removed, and the rest of the line
with it. -/
theorem string_comment_stripped :
    stripComments "[u=\"http://x\"] {}".toList = "[u=\"http:".toList := by
  have := stripComments_pieces [.code "[u=\"http:".toList, .openLine "x\"] {}".toList]
    ⟨by constructor <;> rw [← hasPair_of_contains2] <;> decide, by decide, rfl⟩
  exact this

end Textual.Source
