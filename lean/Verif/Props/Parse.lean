import Verif.Lemmas.Parse

/-!
C129: a stylesheet written by the grammar of `Spec/Sheet.lean` is read as what it says, whatever the blanks and
however deep its rules are nested. -/

namespace Textual.Parse

open Css Sheet
open RgbaColor (Outcome)
open Source (isName)

variable {V : Type} {ws alnum : Char → Bool} {known : List Char → Option (Q V)}

/-! ### The counters are never reached -/

theorem manyQ0_congr {α : Type} (p q : Q α) (L : Nat) (h : ∀ j : List Char, j.length ≤ L → p j = q j) :
    ∀ n m i, i.length ≤ L → i.length < n → i.length < m → manyQ0 p n i = manyQ0 q m i := by
  intro n
  induction n with
  | zero => intro m i _ h; omega
  | succ n ih =>
    intro m i h0 h1 h2
    obtain ⟨m, rfl⟩ : ∃ k, m = k + 1 := ⟨m - 1, by omega⟩
    unfold manyQ0
    rw [h i h0]
    cases q i with
    | panic => rfl
    | err => rfl
    | ok x =>
      obtain ⟨a, r⟩ := x
      simp only
      split
      · rw [ih m r (by omega) (by omega) (by omega)]
      · rfl

theorem manyQ_eq {α : Type} (p : Q α) (i : List Char) : manyQ p i =
    match p i with
    | .panic => .panic
    | .err => .ok ([], i)
    | .ok (a, r) =>
      if r.length < i.length then Outcome.bind (manyQ p r) fun x => .ok (a :: x.1, x.2) else .err := by
  conv_lhs => unfold manyQ manyQ0
  cases p i with
  | panic => rfl
  | err => rfl
  | ok x =>
    obtain ⟨a, r⟩ := x
    simp only
    split
    · rw [manyQ0_congr p p i.length (fun _ _ => rfl) i.length (r.length + 1) r (by omega) (by omega) (by omega)]
      rfl
    · rfl

/-- The counter of `rule` does not matter once it exceeds the length of the text: every level of nesting reads
at least its opening brace. -/
theorem rule_enough : ∀ n m i, i.length < n → i.length < m →
    rule ws alnum known n i = rule ws alnum known m i := by
  intro n
  induction n with
  | zero => intro m i h; omega
  | succ n ih =>
    intro m i h1 h2
    obtain ⟨m, rfl⟩ : ∃ k, m = k + 1 := ⟨m - 1, by omega⟩
    unfold rule
    cases hs : selectorList ws alnum (skip i) with
    | none => rfl
    | some x =>
      obtain ⟨sels, r⟩ := x
      have hl := selectorList_reads _ _ _ hs
      have := skip_length i
      have := skip_length r
      simp only
      cases hc : chr '{' (skip r) with
      | none => rfl
      | some r' =>
        have e := congrArg List.length (chr_some hc)
        simp at e
        simp only
        have : manyQ (item alnum known (rule ws alnum known n)) r' =
            manyQ (item alnum known (rule ws alnum known m)) r' := by
          unfold manyQ
          refine manyQ0_congr _ _ r'.length ?_ _ _ _ (Nat.le_refl _) (by omega) (by omega)
          intro j hj
          unfold item
          rw [ih m j (by omega) (by omega)]
        rw [this]

/-! ### A declaration is not taken for a rule -/

/-- Before the first `t` (and then `v`) there is neither `[` nor `{`. -/
def Keeps (t : Char) (v i : List Char) : Prop := ∃ u, i = u ++ t :: v ∧ '[' ∉ u ∧ '{' ∉ u

/-- Ends of declarations. -/
def Fence (t : Char) : Prop := t = ';' ∨ t = '}'

theorem Fence.facts (hp : Plain ws alnum) {t : Char} (h : Fence t) :
    isBlank t = false ∧ isName alnum t = false ∧ t ∉ ['#', '.', ':', '&', '*', '[', '>', '+', '~', ',', '{'] := by
  rcases h with h | h <;> subst h <;>
    exact ⟨by decide, hp.mark (by decide) (by decide) (by decide), by decide⟩

theorem keeps_drop {t : Char} {v n r : List Char} (h : Keeps t v (n ++ r)) (hn : t ∉ n) : Keeps t v r := by
  obtain ⟨u, e, h1, h2⟩ := h
  rcases List.append_eq_append_iff.1 e with ⟨a, e1, e2⟩ | ⟨a, e1, e2⟩
  · refine ⟨a, e2, ?_, ?_⟩ <;> intro hh <;> simp [e1, hh] at h1 h2
  · cases a with
    | nil => exact ⟨[], by simpa using e2.symm, by simp, by simp⟩
    | cons c a =>
      simp at e2
      rw [e2.1, e1] at hn
      simp at hn

theorem keeps_skip (hp : Plain ws alnum) {t : Char} (ht : Fence t) {v i : List Char} (h : Keeps t v i) :
    Keeps t v (skip i) := by
  have e : i = i.takeWhile isBlank ++ skip i := (List.takeWhile_append_dropWhile).symm
  rw [e] at h
  refine keeps_drop h ?_
  intro hh
  have := List.mem_takeWhile_imp hh
  rw [(ht.facts hp).1] at this
  simp at this

theorem keeps_chr {t c : Char} (hc : c ≠ t) {v i r : List Char} (h : Keeps t v i) (hr : chr c i = some r) :
    Keeps t v r := by
  have e := chr_some hr
  subst e
  exact keeps_drop (n := [c]) h (by simpa using hc.symm)

theorem keeps_ident (hp : Plain ws alnum) {t : Char} (ht : Fence t) {v i n r : List Char} (h : Keeps t v i)
    (hr : ident alnum i = some (n, r)) : Keeps t v r := by
  obtain ⟨e, -, hn, -⟩ := ident_some hr
  subst e
  refine keeps_drop h ?_
  intro hh
  have := hn _ hh
  rw [(ht.facts hp).2.1] at this
  simp at this

theorem keeps_no_bracket {t : Char} (ht : Fence t) {v i : List Char} (h : Keeps t v i) :
    chr '[' i = none ∧ chr '{' i = none := by
  obtain ⟨u, rfl, h1, h2⟩ := h
  cases u with
  | nil =>
    rcases ht with h | h <;> subst h <;> exact ⟨rfl, rfl⟩
  | cons c u =>
    simp only [List.mem_cons, not_or] at h1 h2
    exact ⟨chr_ne (fun hh => h1.1 hh.symm) _, chr_ne (fun hh => h2.1 hh.symm) _⟩

/-- A parser that keeps the end of the declaration in what it leaves. -/
def Keeper {α : Type} (t : Char) (v : List Char) (p : P α) : Prop :=
  ∀ i a r, Keeps t v i → p i = some (a, r) → Keeps t v r

theorem marked_keeps (hp : Plain ws alnum) {t : Char} (ht : Fence t) (v : List Char) {c : Char}
    (hc : c ∈ ['#', '.', ':']) (f : String → Selector) : Keeper t v (marked alnum c f) := by
  intro i a r h hr
  unfold marked at hr
  simp only [Option.bind_eq_bind, Option.bind_eq_some_iff] at hr
  obtain ⟨i1, h1, ⟨n, i2⟩, h2, h3⟩ := hr
  simp at h3
  obtain ⟨-, rfl⟩ := h3
  have hne : c ≠ t := by
    rintro rfl
    have := (ht.facts hp).2.2
    simp only [List.mem_cons, List.not_mem_nil, or_false] at hc
    rcases hc with h | h | h <;> subst h <;> simp at this
  exact keeps_ident hp ht (keeps_chr hne h h1) h2

theorem simple_keeps (hp : Plain ws alnum) {t : Char} (ht : Fence t) (v : List Char) :
    Keeper t v (simple ws alnum) := by
  intro i a r hk h
  have hf := (ht.facts hp).2.2
  simp only [List.mem_cons, List.not_mem_nil, or_false, not_or] at hf
  unfold simple at h
  simp only [Option.or_eq_some_iff, Option.map_eq_some_iff] at h
  rcases h with h | ⟨-, h | ⟨-, h | ⟨-, h | ⟨-, h | ⟨-, h | ⟨-, h⟩⟩⟩⟩⟩⟩
  · exact marked_keeps hp ht v (by decide) _ i a r hk h
  · exact marked_keeps hp ht v (by decide) _ i a r hk h
  · exact marked_keeps hp ht v (by decide) _ i a r hk h
  · obtain ⟨x, hx, he⟩ := h
    simp at he
    obtain ⟨-, rfl⟩ := he
    exact keeps_chr (by tauto) hk hx
  · obtain ⟨x, hx, he⟩ := h
    simp at he
    obtain ⟨-, rfl⟩ := he
    exact keeps_chr (by tauto) hk hx
  · unfold attrib at h
    rw [(keeps_no_bracket ht hk).1] at h
    simp at h
  · obtain ⟨⟨n, x⟩, hx, he⟩ := h
    simp at he
    obtain ⟨-, rfl⟩ := he
    exact keeps_ident hp ht hk hx

theorem many_keeps {α : Type} {t : Char} {v : List Char} {p : P α} (hp : Keeper t v p) : Keeper t v (many p) := by
  have : ∀ (n : Nat) i a r, i.length ≤ n → Keeps t v i → many p i = some (a, r) → Keeps t v r := by
    intro n
    induction n with
    | zero =>
      intro i a r hi hk h
      rw [many_eq] at h
      cases hx : p i with
      | none => rw [hx] at h; simp at h; exact h.2 ▸ hk
      | some x =>
        obtain ⟨b, r1⟩ := x
        rw [hx] at h
        simp only at h
        rw [if_neg (by omega)] at h
        simp at h
    | succ n ih =>
      intro i a r hi hk h
      rw [many_eq] at h
      cases hx : p i with
      | none => rw [hx] at h; simp at h; exact h.2 ▸ hk
      | some x =>
        obtain ⟨b, r1⟩ := x
        rw [hx] at h
        simp only at h
        split at h
        · simp only [Option.map_eq_some_iff] at h
          obtain ⟨⟨l1, r2⟩, h1, h2⟩ := h
          simp at h2
          obtain ⟨-, rfl⟩ := h2
          exact ih r1 l1 r2 (by omega) (hp i b r1 hk hx) h1
        · simp at h
  exact fun i a r => this i.length i a r (Nat.le_refl _)

theorem compound_keeps (hp : Plain ws alnum) {t : Char} (ht : Fence t) (v : List Char) :
    Keeper t v (compound ws alnum) := by
  intro i a r hk h
  unfold compound at h
  simp only [Option.bind_eq_bind, Option.bind_eq_some_iff] at h
  obtain ⟨⟨s, i1⟩, h1, ⟨l, i2⟩, h2, h3⟩ := h
  simp at h3
  obtain ⟨-, rfl⟩ := h3
  exact many_keeps (simple_keeps hp ht v) _ _ _ (simple_keeps hp ht v _ _ _ hk h1) h2

theorem complexLoop_keeps (hp : Plain ws alnum) {t : Char} (ht : Fence t) (v : List Char) :
    ∀ n cur i, Keeps t v i → Keeps t v (complexLoop ws alnum n cur i).2 := by
  intro n
  induction n with
  | zero => intro cur i hk; exact hk
  | succ n ih =>
    intro cur i hk
    have hks := keeps_skip hp ht hk
    unfold complexLoop
    simp only
    cases hs : symbol (skip i) with
    | some x =>
      obtain ⟨k, after⟩ := x
      have ha : Keeps t v after := by
        have hf := (ht.facts hp).2.2
        simp only [List.mem_cons, List.not_mem_nil, or_false, not_or] at hf
        unfold symbol at hs
        split at hs <;> simp at hs
        all_goals
          rename_i hq
          obtain ⟨-, rfl⟩ := hs
          rw [hq] at hks
          exact keeps_drop (n := [_]) hks (by simp; tauto)
      simp only
      cases hc : compound ws alnum (skip after) with
      | none => exact hk
      | some y => exact ih y.1 y.2 (compound_keeps hp ht v _ _ _ (keeps_skip hp ht ha) hc)
    | none =>
      simp only
      split
      · cases hc : compound ws alnum (skip i) with
        | none => exact hk
        | some y => exact ih y.1 y.2 (compound_keeps hp ht v _ _ _ hks hc)
      · exact hk

theorem complex_keeps (hp : Plain ws alnum) {t : Char} (ht : Fence t) (v : List Char) :
    Keeper t v (complex ws alnum) := by
  intro i a r hk h
  unfold complex at h
  simp only [Option.bind_eq_bind, Option.bind_eq_some_iff] at h
  obtain ⟨⟨c, i1⟩, h1, h2⟩ := h
  simp at h2
  have := complexLoop_keeps hp ht v (i1.length + 1) c i1 (compound_keeps hp ht v _ _ _ hk h1)
  rw [h2] at this
  exact this

theorem another_keeps (hp : Plain ws alnum) {t : Char} (ht : Fence t) (v : List Char) :
    Keeper t v (another ws alnum) := by
  intro i a r hk h
  unfold another at h
  simp only [Option.bind_eq_bind, Option.bind_eq_some_iff] at h
  obtain ⟨i1, h1, h2⟩ := h
  have hf := (ht.facts hp).2.2
  simp only [List.mem_cons, List.not_mem_nil, or_false, not_or] at hf
  exact complex_keeps hp ht v _ _ _ (keeps_skip hp ht (keeps_chr (by tauto) (keeps_skip hp ht hk) h1)) h2

theorem selectorList_keeps (hp : Plain ws alnum) {t : Char} (ht : Fence t) (v : List Char) :
    Keeper t v (selectorList ws alnum) := by
  intro i a r hk h
  unfold selectorList at h
  simp only [Option.bind_eq_bind, Option.bind_eq_some_iff] at h
  obtain ⟨⟨c, i1⟩, h1, ⟨l, i2⟩, h2, h3⟩ := h
  simp at h3
  obtain ⟨-, rfl⟩ := h3
  exact many_keeps (another_keeps hp ht v) _ _ _
    (complex_keeps hp ht v _ _ _ (keeps_skip hp ht hk) h1) h2

theorem rule_keeps (hp : Plain ws alnum) {t : Char} (ht : Fence t) {v i : List Char} (hk : Keeps t v i) (n : Nat) :
    rule ws alnum known n i = .err := by
  cases n with
  | zero => rfl
  | succ n =>
    unfold rule
    cases hs : selectorList ws alnum (skip i) with
    | none => rfl
    | some x =>
      obtain ⟨s, r⟩ := x
      have := selectorList_keeps hp ht v _ _ _ (keeps_skip hp ht hk) hs
      have := (keeps_no_bracket ht (keeps_skip hp ht this)).2
      simp only [this]

theorem name_no_mark (hp : Plain ws alnum) {n : List Char} (hn : Name alnum n) {c : Char}
    (h : c ∈ "#.:&*[]>+~,{};=!%$\"'() \t\r\n".toList) (h1 : c ≠ '-') (h2 : c ≠ '_') : c ∉ n := by
  intro hc
  have := name_isName hn c hc
  rw [hp.mark h h1 h2] at this
  simp at this

theorem gap_no {g : List Char} (hg : Gap g) {c : Char} (h : isBlank c = false) : c ∉ g := by
  intro hc
  have := gap_blank hg c hc
  rw [h] at this
  simp at this

theorem name_head {n : List Char} (hn : Name alnum n) : ∃ c r, n = c :: r ∧ isName alnum c = true := by
  cases n with
  | nil => exact absurd rfl hn.1
  | cons c r => exact ⟨c, r, rfl, name_isName hn c (by simp)⟩

theorem name_skip (hp : Plain ws alnum) {n i : List Char} (hn : Name alnum n) : skip (n ++ i) = n ++ i := by
  obtain ⟨c, r, rfl, hc⟩ := name_head hn
  exact skip_cons (head_not_symbol hp (r := r ++ i) (Or.inl hc)).2 _

/-- No rule begins where a declaration does. -/
theorem rule_declaration (hp : Plain ws alnum) {g0 n g g' v w rest : List Char} {t : Char} (hn : Name alnum n)
    (h0 : Gap g0) (hg : Gap g) (hg' : Gap g') (hs : Safe alnum g' v) (hw : '[' ∉ w ∧ '{' ∉ w) (ht : Fence t)
    (m : Nat) :
    rule ws alnum known m (g0 ++ (n ++ g ++ ':' :: (g' ++ v ++ w ++ t :: rest))) = .err := by
  rcases hs with ⟨c, hc, h1, h2, h3⟩ | ⟨h1, h2⟩
  · cases m with
    | zero => rfl
    | succ m =>
      have he : Ends alnum (g' ++ v ++ w ++ t :: rest) := by
        intro d hd
        cases hh : g' ++ v with
        | nil => rw [hh] at hc; simp at hc
        | cons x y =>
          rw [hh] at hc hd
          simp at hc hd
          subst hc hd
          simp [isName, h1, h2, h3]
      have hcol : Ends alnum (':' :: (g' ++ v ++ w ++ t :: rest)) :=
        marks_name hp (by decide) (by decide) (by decide)
      have hsim := simple_colon hp he
      have hsk : skip (g ++ ':' :: (g' ++ v ++ w ++ t :: rest)) = ':' :: (g' ++ v ++ w ++ t :: rest) := by
        rw [skip_gap hg, skip_cons (by decide)]
      have hstop : StopList ws alnum (g ++ ':' :: (g' ++ v ++ w ++ t :: rest)) :=
        { ends := gap_ends hp hg hcol
          here := gap_simple hp hg hcol hsim
          later := by rw [hsk]; exact hsim
          symbol := by rw [hsk]; rfl
          comma := by rw [hsk]; rfl }
      have hl := list_text hp (g := []) (ListText.one (ComplexText.one (CompoundText.one (SimpleText.type (ws := ws) hn))))
        (by simp [Gap]) hstop
      rw [List.nil_append] at hl
      unfold rule
      rw [skip_gap h0, List.append_assoc, name_skip hp hn, hl]
      simp only [hsk]
      rfl
  · refine rule_keeps hp ht (v := rest) ?_ m
    refine ⟨g0 ++ (n ++ g ++ ':' :: (g' ++ v ++ w)), by simp, ?_, ?_⟩
    · have a1 := gap_no h0 (c := '[') (by decide)
      have a2 := gap_no hg (c := '[') (by decide)
      have a3 := gap_no hg' (c := '[') (by decide)
      have a4 := name_no_mark hp hn (c := '[') (by decide) (by decide) (by decide)
      simp [a1, a2, a3, a4, h1, hw.1]
    · have a1 := gap_no h0 (c := '{') (by decide)
      have a2 := gap_no hg (c := '{') (by decide)
      have a3 := gap_no hg' (c := '{') (by decide)
      have a4 := name_no_mark hp hn (c := '{') (by decide) (by decide) (by decide)
      simp [a1, a2, a3, a4, h2, hw.2]

/-! ### Reading declarations, blocks and stylesheets -/

/-- The language of a table of properties: `text` and `important` say how its values are written. -/
def language (known : List Char → Option (Q V)) (text important : List Char → V → List Char → Prop) :
    Language (Written V) V where
  known := .known
  unknown := .unknown
  property n := (known n).isSome
  text := text
  important := important

/-- The table reads its values as they are written, up to the end of the declaration. -/
structure Faithful (known : List Char → Option (Q V)) (text important : List Char → V → List Char → Prop) :
    Prop where
  solid : ∀ n d v, text n d v ∨ important n d v → ∃ c r, v = c :: r ∧ isBlank c = false
  plain : ∀ n d v p, text n d v → known n = some p → ∀ g c r, Gap g → Fence c →
    ∃ r', p (v ++ g ++ c :: r) = .ok (d, r') ∧ skip r' = c :: r
  important : ∀ n d v p, important n d v → known n = some p → ∀ g g' c r, Gap g → g ≠ [] → Gap g' → Fence c →
    ∃ r', p (v ++ g ++ ("!important".toList ++ g' ++ c :: r)) = .ok (d, r') ∧
      skip r' = "!important".toList ++ g' ++ c :: r

theorem nests_name (hp : Plain ws alnum) {n i : List Char} (hn : Name alnum n) : nests (n ++ i) = false := by
  obtain ⟨c, r, rfl, hc⟩ := name_head hn
  have : ∀ d ∈ ['&', '.', '#'], c ≠ d := by
    rintro d hd rfl
    have hm : c ∈ "#.:&*[]>+~,{};=!%$\"'() \t\r\n".toList ∧ c ≠ '-' ∧ c ≠ '_' := by
      simp only [List.mem_cons, List.not_mem_nil, or_false] at hd
      rcases hd with h | h | h <;> subst h <;> decide
    rw [hp.mark hm.1 hm.2.1 hm.2.2] at hc
    simp at hc
  simp [nests, this '&' (by decide), this '.' (by decide), this '#' (by decide)]

theorem declaration_eq (hp : Plain ws alnum) {g0 n g i : List Char} (hn : Name alnum n) (h0 : Gap g0) (hg : Gap g) :
    declaration alnum known (g0 ++ (n ++ g ++ ':' :: i)) =
      Outcome.bind
        (match known n with
        | some p => Outcome.bind (p (skip i)) fun x => .ok (.known n x.1, x.2)
        | none =>
          match afterUnknown (skip i) with
          | some r => .ok (.unknown n, r)
          | none => .err)
        fun x => .ok (x.1, skipSemi (skipImportant x.2)) := by
  have he : Ends alnum (g ++ ':' :: i) :=
    gap_ends hp hg (marks_name hp (by decide) (by decide) (by decide))
  unfold declaration
  simp only
  rw [skip_gap h0, List.append_assoc, name_skip hp hn, nests_name hp hn, ident_name hn he]
  simp only [skip_gap hg, skip_cons (c := ':') (by decide), chr_cons]
  rfl

theorem skipImportant_fence (hp : Plain ws alnum) {r' r : List Char} {c : Char} (hc : Fence c) (h : skip r' = c :: r) :
    skip (skipImportant r') = c :: r := by
  unfold skipImportant
  rw [h, if_neg]
  · exact h
  · rcases hc with h | h <;> subst h <;> simp [List.isPrefixOf]

theorem skipImportant_there {r' i : List Char} (h : skip r' = "!important".toList ++ i) : skipImportant r' = i := by
  unfold skipImportant
  rw [h, if_pos (by simp)]
  simp

theorem skipSemi_semi {i r : List Char} (h : skip i = ';' :: r) : skipSemi i = r := by
  simp [skipSemi, h, chr]

theorem skipSemi_brace {i r : List Char} (h : skip i = '}' :: r) : skipSemi i = '}' :: r := by
  simp [skipSemi, h, chr]

variable {text important : List Char → V → List Char → Prop}

/-- What `bare` leaves after its value, at the end `c`. -/
theorem bare_reads (hp : Plain ws alnum) (hf : Faithful known text important) {d : Written V} {t g0 g1 r : List Char}
    {c : Char} (h : BareText alnum (language known text important) d t) (h0 : Gap g0) (h1 : Gap g1) (hc : Fence c) :
    ∃ i, skip i = c :: r ∧ declaration alnum known (g0 ++ (t ++ g1 ++ c :: r)) = .ok (d, skipSemi i) := by
  cases h with
  | @known n d v g g' hn hpr ht hg hg' hs =>
    change (known n).isSome = true at hpr
    obtain ⟨p, hk⟩ := Option.isSome_iff_exists.1 hpr
    obtain ⟨r', e1, e2⟩ := hf.plain n d v p ht hk g1 c r h1 hc
    obtain ⟨x, y, ev, hx⟩ := hf.solid n d v (Or.inl ht)
    refine ⟨skipImportant r', skipImportant_fence hp hc e2, ?_⟩
    have e3 : n ++ g ++ ':' :: (g' ++ v) ++ g1 ++ c :: r = n ++ g ++ ':' :: (g' ++ (v ++ g1 ++ c :: r)) := by simp
    have e4 : skip (g' ++ (v ++ g1 ++ c :: r)) = v ++ g1 ++ c :: r := by
      rw [skip_gap hg', ev]; exact skip_cons hx _
    rw [e3, declaration_eq hp hn h0 hg, e4, hk]
    simp only [e1, Outcome.bind]
    rfl
  | @important n d v g g' g'' hn hpr ht hg hg' hg'' hne hs =>
    change (known n).isSome = true at hpr
    obtain ⟨p, hk⟩ := Option.isSome_iff_exists.1 hpr
    obtain ⟨r', e1, e2⟩ := hf.important n d v p ht hk g'' g1 c r hg'' hne h1 hc
    obtain ⟨x, y, ev, hx⟩ := hf.solid n d v (Or.inr ht)
    refine ⟨skipImportant r', ?_, ?_⟩
    · rw [skipImportant_there (i := g1 ++ c :: r) (by rw [e2]; simp), skip_gap h1,
        skip_cons (hc.facts hp).1]
    · have e3 : n ++ g ++ ':' :: (g' ++ v ++ g'' ++ "!important".toList) ++ g1 ++ c :: r =
          n ++ g ++ ':' :: (g' ++ (v ++ g'' ++ ("!important".toList ++ g1 ++ c :: r))) := by simp
      have e4 : skip (g' ++ (v ++ g'' ++ ("!important".toList ++ g1 ++ c :: r))) =
          v ++ g'' ++ ("!important".toList ++ g1 ++ c :: r) := by
        rw [skip_gap hg', ev]; exact skip_cons hx _
      rw [e3, declaration_eq hp hn h0 hg, e4, hk]
      simp only [e1, Outcome.bind]
      rfl

theorem bare_no_rule (hp : Plain ws alnum) {d : Written V} {t g0 g1 r : List Char} {c : Char}
    (h : BareText alnum (language known text important) d t) (h0 : Gap g0) (h1 : Gap g1) (hc : Fence c) (m : Nat) :
    rule ws alnum known m (g0 ++ (t ++ g1 ++ c :: r)) = .err := by
  cases h with
  | @known n d v g g' hn hpr ht hg hg' hs =>
    have := rule_declaration (known := known) hp hn h0 hg hg' hs (w := g1)
      ⟨gap_no h1 (by decide), gap_no h1 (by decide)⟩ hc (rest := r) m
    simpa using this
  | @important n d v g g' g'' hn hpr ht hg hg' hg'' hne hs =>
    have := rule_declaration (known := known) hp hn h0 hg hg' hs (w := g'' ++ "!important".toList ++ g1)
      ⟨by simp [gap_no h1 (c := '[') (by decide), gap_no hg'' (c := '[') (by decide)],
        by simp [gap_no h1 (c := '{') (by decide), gap_no hg'' (c := '{') (by decide)]⟩ hc (rest := r) m
    simpa using this

/-- A declaration with its semicolon is read as one item. -/
theorem decl_item (hp : Plain ws alnum) (hf : Faithful known text important) {d : Written V} {t g0 r : List Char}
    (h : DeclText alnum (language known text important) d t) (h0 : Gap g0) (m : Nat) :
    item alnum known (rule ws alnum known m) (g0 ++ t ++ r) = .ok (.decl d, r) := by
  cases h with
  | @known d t g hb hg =>
    obtain ⟨i, e1, e2⟩ := bare_reads (r := r) hp hf hb h0 hg (c := ';') (Or.inl rfl)
    have e3 := bare_no_rule (r := r) hp hb h0 hg (c := ';') (Or.inl rfl) m
    have e4 : g0 ++ (t ++ g ++ [';']) ++ r = g0 ++ (t ++ g ++ ';' :: r) := by simp
    unfold item
    rw [e4, e3, e2, skipSemi_semi e1]
    rfl
  | @unknown n v g g' hn hpr hv hg hg' hs =>
    have hk : known n = none := by
      change ¬ (known n).isSome = true at hpr
      cases hx : known n with
      | none => rfl
      | some _ => simp [hx] at hpr
    have e3 := rule_declaration (known := known) hp hn h0 hg hg' hs (w := []) (by simp) (t := ';') (Or.inl rfl)
      (rest := r) m
    have e4 : g0 ++ (n ++ g ++ ':' :: (g' ++ v ++ [';'])) ++ r =
        g0 ++ (n ++ g ++ ':' :: (g' ++ v ++ [] ++ ';' :: r)) := by simp
    have e5 : ∃ w, skip (g' ++ v ++ [] ++ ';' :: r) = w ++ ';' :: r ∧ ';' ∉ w := by
      have e : g' ++ v ++ [] ++ ';' :: r = g' ++ (v ++ ';' :: r) := by simp
      rw [e, skip_gap hg']
      refine ⟨skip v, ?_, fun hh => hv ((List.dropWhile_sublist _).subset hh)⟩
      clear e e3 e4 hs
      unfold skip
      rw [List.dropWhile_append]
      split
      · rename_i hh
        have : v.dropWhile isBlank = [] := by simpa using hh
        rw [this]
        exact skip_cons (by decide) r
      · rfl
    obtain ⟨w, e6, e7⟩ := e5
    have e8 : afterUnknown (w ++ ';' :: r) = some (';' :: r) := by
      unfold afterUnknown
      rw [takeUntil_append e7]
      rfl
    unfold item
    rw [e4, e3, declaration_eq hp hn h0 hg, hk, e6]
    simp only [e8, Outcome.bind, Outcome.or]
    have : skip (skipImportant (';' :: r)) = ';' :: r :=
      skipImportant_fence hp (Or.inl rfl) (skip_cons (by decide) r)
    rw [skipSemi_semi this]
    rfl

theorem rule_brace (hp : Plain ws alnum) {g r : List Char} (hg : Gap g) (m : Nat) :
    rule ws alnum known m (g ++ '}' :: r) = .err := by
  refine rule_keeps hp (t := '}') (v := r) (Or.inr rfl) ⟨g, rfl, gap_no hg (by decide), gap_no hg (by decide)⟩ m

/-- Nothing is read at the end of a block. -/
theorem item_brace (hp : Plain ws alnum) {g r : List Char} (hg : Gap g) (m : Nat) :
    item alnum known (rule ws alnum known m) (g ++ '}' :: r) = .err := by
  unfold item
  rw [rule_brace hp hg]
  have : declaration alnum known (g ++ '}' :: r) = .err := by
    unfold declaration
    simp only
    rw [skip_gap hg, skip_cons (by decide),
      ident_none (marks_name hp (by decide) (by decide) (by decide))]
    rfl
  rw [this]
  rfl

theorem manyQ_err {α : Type} {p : Q α} {i : List Char} (h : p i = .err) : manyQ p i = .ok ([], i) := by
  rw [manyQ_eq, h]

theorem manyQ_cons {α : Type} {p : Q α} {i r r' : List Char} {a : α} {l : List α} (h : p i = .ok (a, r))
    (hr : r.length < i.length) (hm : manyQ p r = .ok (l, r')) : manyQ p i = .ok (a :: l, r') := by
  rw [manyQ_eq, h]
  simp [hr, hm, Outcome.bind]

theorem bare_ne {d : Written V} {t : List Char} {L : Language (Written V) V} (h : BareText alnum L d t) :
    0 < t.length := by
  cases h <;> simp <;> omega

theorem declText_ne {d : Written V} {t : List Char} {L : Language (Written V) V} (h : DeclText alnum L d t) :
    0 < t.length := by
  cases h <;> simp <;> omega

/-- The text of a rule, given how its block is read. -/
theorem rule_text (hp : Plain ws alnum) {s : List Complex} {t g g' tb r : List Char} {m : Nat}
    {b : Items (Written V)} (h : ListText ws alnum s t) (hg : Gap g) (hg' : Gap g')
    (hb : ∃ its g'', manyQ (item alnum known (rule ws alnum known m)) (tb ++ '}' :: r) = .ok (its, g'' ++ '}' :: r) ∧
      Gap g'' ∧ Items.ofList its = b) :
    rule ws alnum known (m + 1) (g ++ t ++ g' ++ '{' :: (tb ++ '}' :: r)) = .ok ((s, b), r) := by
  obtain ⟨its, g'', h1, h2, h3⟩ := hb
  have hst : StopList ws alnum (g' ++ '{' :: (tb ++ '}' :: r)) :=
    { toStop := gap_mark_stop hp hg' (by decide)
      comma := by rw [skip_gap hg', skip_cons (by decide)]; rfl }
  obtain ⟨d, l, e, hd⟩ := listText_head h
  have hl := list_text hp h (g := []) (by simp [Gap]) hst
  rw [List.nil_append] at hl
  have hsk : skip (g ++ t ++ g' ++ '{' :: (tb ++ '}' :: r)) = t ++ (g' ++ '{' :: (tb ++ '}' :: r)) := by
    rw [List.append_assoc, List.append_assoc, skip_gap hg, e]
    exact skip_cons (head_not_symbol hp (r := l) hd).2 _
  unfold rule
  rw [hsk, hl]
  simp only
  rw [skip_gap hg', skip_cons (by decide), chr_cons]
  simp only [h1, Outcome.bind]
  rw [skip_gap h2, skip_cons (by decide), chr_cons, h3]

theorem items_text (hp : Plain ws alnum) (hf : Faithful known text important) {it : Items (Written V)} {t : List Char}
    (h : ItemsText ws alnum (language known text important) it t) : ∀ (m : Nat) (r : List Char), t.length < m →
    ∃ its g, manyQ (item alnum known (rule ws alnum known m)) (t ++ '}' :: r) = .ok (its, g ++ '}' :: r) ∧
      Gap g ∧ Items.ofList its = it := by
  induction h with
  | nil hg =>
    intro m r _
    exact ⟨[], _, manyQ_err (item_brace hp hg m), hg, rfl⟩
  | @last d t g g' hb hg hg' =>
    intro m r _
    obtain ⟨i, e1, e2⟩ := bare_reads (r := r) hp hf hb hg hg' (c := '}') (Or.inr rfl)
    have e3 := bare_no_rule (r := r) hp hb hg hg' (c := '}') (Or.inr rfl) m
    have e4 : g ++ t ++ g' ++ '}' :: r = g ++ (t ++ g' ++ '}' :: r) := by simp
    refine ⟨[.decl d], [], ?_, by simp [Gap], rfl⟩
    have hi : item alnum known (rule ws alnum known m) (g ++ (t ++ g' ++ '}' :: r)) = .ok (.decl d, '}' :: r) := by
      unfold item
      rw [e3, e2, skipSemi_brace e1]
      rfl
    rw [e4]
    have := bare_ne hb
    exact manyQ_cons hi (by simp; omega) (manyQ_err (item_brace hp (g := []) (by simp [Gap]) m))
  | @decl d t g rest t' hd hg hr ih =>
    intro m r hm
    obtain ⟨its, g'', h1, h2, h3⟩ := ih m r (by simp at hm; omega)
    refine ⟨.decl d :: its, g'', ?_, h2, by simp [Items.ofList, h3]⟩
    have hi := decl_item hp hf hd hg m (r := t' ++ '}' :: r)
    have := declText_ne hd
    rw [List.append_assoc]
    exact manyQ_cons hi (by simp; omega) h1
  | @rule s t g g' b tb rest t' hs hg hg' hb hr ihb ihr =>
    intro m r hm
    obtain ⟨its, g'', h1, h2, h3⟩ := ihr m r (by simp at hm; omega)
    obtain ⟨m', rfl⟩ : ∃ k, m = k + 1 := ⟨m - 1, by omega⟩
    have hb' := ihb m' (t' ++ '}' :: r) (by simp at hm; omega)
    have hr' := rule_text hp hs hg hg' hb'
    refine ⟨.rule s b :: its, g'', ?_, h2, by simp [Items.ofList, h3]⟩
    have e : g ++ t ++ g' ++ '{' :: (tb ++ '}' :: t') ++ '}' :: r =
        g ++ t ++ g' ++ '{' :: (tb ++ '}' :: (t' ++ '}' :: r)) := by simp
    have hi : item alnum known (rule ws alnum known (m' + 1))
        (g ++ t ++ g' ++ '{' :: (tb ++ '}' :: (t' ++ '}' :: r))) = .ok (.rule s b, t' ++ '}' :: r) := by
      unfold item
      rw [hr']
      rfl
    rw [e]
    exact manyQ_cons hi (by simp; omega) h1

theorem gap_trim (hp : Plain ws alnum) {g : List Char} (hg : Gap g) : Source.trim ws g = [] := by
  have : g.dropWhile ws = [] := by
    rw [List.dropWhile_eq_nil_iff]
    intro c hc
    refine hp.blank c ?_
    rcases hg c hc with h | h | h | h <;> subst h <;> decide
  simp [Source.trim, this]

/-- No rule begins in blanks at the end of the text. -/
theorem rule_gap {g : List Char} (hg : Gap g) (m : Nat) : rule ws alnum known m g = .err := by
  cases m with
  | zero => rfl
  | succ m =>
    have e : skip g = [] := by
      have := skip_gap hg []
      rw [List.append_nil] at this
      rw [this]; rfl
    unfold rule
    rw [e]
    rfl

theorem sheet_steps (hp : Plain ws alnum) (hf : Faithful known text important)
    {rules : List (List Complex × Items (Written V))} {t : List Char}
    (h : SheetText ws alnum (language known text important) rules t) : ∀ m, t.length < m →
    ∃ g, Gap g ∧ manyQ (rule ws alnum known m) t = .ok (rules, g) := by
  induction h with
  | nil hg =>
    intro m _
    exact ⟨_, hg, manyQ_err (rule_gap hg m)⟩
  | @rule s t g g' b tb rest t' hs hg hg' hb hr ih =>
    intro m hm
    obtain ⟨g'', h1, h2⟩ := ih m (by simp at hm; omega)
    obtain ⟨m', rfl⟩ : ∃ k, m = k + 1 := ⟨m - 1, by omega⟩
    have hr' := rule_text (r := t') hp hs hg hg' (items_text hp hf hb m' t' (by simp at hm; omega))
    exact ⟨g'', h1, manyQ_cons hr' (by simp; omega) h2⟩

/-- C129: a text that the grammar allows is read as the rules it says, with nothing lost, added or reordered:
whatever the selectors, the declarations, the depth of nesting and the blanks between the parts. -/
theorem sheet_written (hp : Plain ws alnum) (hf : Faithful known text important)
    {rules : List (List Complex × Items (Written V))} {t : List Char}
    (h : SheetText ws alnum (language known text important) rules t) :
    sheet ws alnum known t = .ok rules := by
  obtain ⟨g, h1, h2⟩ := sheet_steps hp hf h (t.length + 1) (by omega)
  unfold sheet
  rw [h2]
  simp only [Outcome.bind]
  rw [if_pos (gap_trim hp h1)]

/-! ### Nested rules with mistakes -/

/-- Texts whose braces match. -/
inductive Braced : List Char → Prop
  | nil : Braced []
  | plain {c : Char} {t : List Char} (h : c ≠ '{') (h' : c ≠ '}') (ht : Braced t) : Braced (c :: t)
  | block {b t : List Char} (hb : Braced b) (ht : Braced t) : Braced ('{' :: (b ++ '}' :: t))

theorem afterBraces_inside {b : List Char} (h : Braced b) (d : Nat) (r : List Char) :
    afterBraces (d + 1) (b ++ r) = afterBraces (d + 1) r := by
  induction h generalizing d r with
  | nil => rfl
  | plain h h' _ ih =>
    rw [List.cons_append, afterBraces, if_neg h, if_neg h']
    exact ih d r
  | @block b t _ _ ih1 ih2 =>
    rw [List.cons_append, afterBraces, if_pos rfl, List.append_assoc]
    have h1 := ih1 (d + 1) ('}' :: t ++ r)
    push_cast at h1
    rw [h1, List.cons_append, afterBraces, if_neg (by decide), if_pos rfl, if_neg (by omega)]
    have : ((d : Int) + 1 + 1 - 1) = d + 1 := by omega
    rw [this]
    exact ih2 d r

/-- C129: a nested rule that starts with `&`, `.` or `#` and cannot be read is passed over as a whole, however deep
its braces are nested; what follows it is read on. -/
theorem broken_rule_skipped (n : Nat) {g head body rest : List Char} {c : Char} (hc : c = '&' ∨ c = '.' ∨ c = '#')
    (hg : Gap g) (hh : '{' ∉ head ∧ '}' ∉ head) (hb : Braced body)
    (bad : rule ws alnum known n (g ++ c :: (head ++ '{' :: (body ++ '}' :: rest))) = .err) :
    item alnum known (rule ws alnum known n) (g ++ c :: (head ++ '{' :: (body ++ '}' :: rest))) =
      .ok (.decl (.unknown "nested-rule".toList), rest) := by
  have hskip : skip (g ++ c :: (head ++ '{' :: (body ++ '}' :: rest))) = c :: (head ++ '{' :: (body ++ '}' :: rest)) := by
    rw [skip_gap hg]
    rcases hc with rfl | rfl | rfl <;> rfl
  have hn : nests (c :: (head ++ '{' :: (body ++ '}' :: rest))) = true := by
    rcases hc with rfl | rfl | rfl <;> rfl
  have hbr : ∀ h : List Char, '{' ∉ h → '}' ∉ h →
      afterBraces 0 (h ++ '{' :: (body ++ '}' :: rest)) = rest := by
    intro h h1 h2
    induction h with
    | nil =>
      rw [List.nil_append, afterBraces, if_pos rfl]
      have : afterBraces (0 + 1) (body ++ '}' :: rest) = afterBraces (0 + 1) ('}' :: rest) :=
        afterBraces_inside hb 0 ('}' :: rest)
      rw [this, afterBraces, if_neg (by decide), if_pos rfl, if_pos (by decide)]
    | cons a h ih =>
      simp only [List.mem_cons, not_or] at h1 h2
      rw [List.cons_append, afterBraces, if_neg (Ne.symm h1.1), if_neg (Ne.symm h2.1)]
      exact ih h1.2 h2.2
  have h0 := hbr (c :: head) (by rcases hc with rfl | rfl | rfl <;> simp [hh.1])
    (by rcases hc with rfl | rfl | rfl <;> simp [hh.2])
  rw [List.cons_append] at h0
  simp only [item, bad, declaration, hskip, hn, if_true, h0, Outcome.bind, Outcome.or]

end Textual.Parse
