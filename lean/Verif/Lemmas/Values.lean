import Mathlib.Algebra.Order.Field.Rat
import Mathlib.Tactic.Ring
import Verif.Props.Parse
import Verif.Spec.Values

/-! Lemmas for reading values: what stands after a value, numbers, sizes, keywords and colours. -/

namespace Textual.Parse

open Css Sheet
open RgbaColor (Outcome)
open Source (isName)
open Layout (Scalar Spacing)

variable {ws alnum : Char → Bool}

/-- What stands after a value: blanks and the end of the declaration, or at least a blank and an `!`. -/
def Tail (i : List Char) : Prop :=
  ∃ g c r, Gap g ∧ i = g ++ c :: r ∧ (Fence c ∨ (c = '!' ∧ g ≠ []))

/-- The characters a value may be cut off by. -/
def cutters : List Char := [' ', '\t', '\r', '\n', ';', '}']

/-- The text begins with one of `cutters`. -/
def Cut (i : List Char) : Prop := ∃ h l, i = h :: l ∧ h ∈ cutters

theorem space_cut {g : List Char} (hg : Space g) (i : List Char) : Cut (g ++ i) := by
  obtain ⟨hg, hne⟩ := hg
  cases g with
  | nil => exact absurd rfl hne
  | cons c g =>
    refine ⟨c, g ++ i, rfl, ?_⟩
    rcases hg c (by simp) with h | h | h | h <;> subst h <;> decide

theorem Tail.cut {i : List Char} (h : Tail i) : Cut i := by
  obtain ⟨g, c, r, hg, rfl, hc⟩ := h
  rcases hc with hc | ⟨rfl, hne⟩
  · cases g with
    | nil => exact ⟨c, r, rfl, by rcases hc with h | h <;> subst h <;> decide⟩
    | cons x g => exact space_cut ⟨hg, by simp⟩ _
  · exact space_cut ⟨hg, hne⟩ _

theorem gap_trimStart (hp : Plain ws alnum) {g i : List Char} (hg : Gap g) : trimStart ws (g ++ i) = trimStart ws i := by
  unfold trimStart
  refine List.dropWhile_append_of_pos ?_
  intro c hc
  refine hp.blank c ?_
  rcases hg c hc with h | h | h | h <;> subst h <;> decide

theorem trimStart_cons {c : Char} (h : ws c = false) (i : List Char) : trimStart ws (c :: i) = c :: i := by
  simp [trimStart, h]

/-- What is left once the blanks are gone. -/
theorem Tail.rest (hp : Plain ws alnum) {i : List Char} (h : Tail i) :
    ∃ c r, skip i = c :: r ∧ trimStart ws i = c :: r ∧ c ∈ [';', '}', '!'] := by
  obtain ⟨g, c, r, hg, rfl, hc⟩ := h
  have hc' : c ∈ [';', '}', '!'] := by
    rcases hc with (h | h) | ⟨h, -⟩ <;> subst h <;> decide
  refine ⟨c, r, ?_, ?_, hc'⟩
  · rw [skip_gap hg, skip_cons]
    simp only [List.mem_cons, List.not_mem_nil, or_false] at hc'
    rcases hc' with h | h | h <;> subst h <;> decide
  · rw [gap_trimStart hp hg, trimStart_cons]
    simp only [List.mem_cons, List.not_mem_nil, or_false] at hc'
    rcases hc' with h | h | h <;> subst h <;> exact hp.ink _ (by decide) (by decide)

theorem cut_ends (hp : Plain ws alnum) {i : List Char} (h : Cut i) : Ends alnum i := by
  obtain ⟨c, l, rfl, hc⟩ := h
  simp only [cutters, List.mem_cons, List.not_mem_nil, or_false] at hc
  rcases hc with h | h | h | h | h | h <;> subst h <;> exact marks_name hp (by decide) (by decide) (by decide)

/-! ### Numbers -/

theorem numeral_natural (ds : List Char) : numeral ds = natural ds := by
  have : ∀ (ds : List Char) (a : Nat),
      ds.foldl (fun n c => 10 * n + (c.toNat - '0'.toNat)) a = a * 10 ^ ds.length + natural ds := by
    intro ds
    induction ds with
    | nil => intro a; simp [natural]
    | cons c r ih =>
      intro a
      rw [List.foldl_cons, ih]
      simp only [natural, List.length_cons, show '0'.toNat = 48 from rfl]
      ring
  unfold numeral
  rw [this]
  simp

theorem digits_text {ds i : List Char} (h : Digits ds) (hi : ∀ c, i.head? = some c → isDigit c = false) :
    digits (ds ++ i) = some (ds, i) := by
  have hd : ∀ c ∈ ds, isDigit c = true := by
    intro c hc
    have := h.2 c hc
    simp [isDigit, this.1, this.2]
  obtain ⟨h1, h2⟩ := takeWhile_append_ends hd hi
  unfold digits
  simp only [h1, h2]
  rw [if_neg (by simpa using h.1)]

theorem digits_head {ds : List Char} (h : Digits ds) : ∃ c r, ds = c :: r ∧ '0' ≤ c ∧ c ≤ '9' := by
  cases ds with
  | nil => exact absurd rfl h.1
  | cons c r => exact ⟨c, r, rfl, h.2 c (by simp)⟩

theorem digit_ne {c d : Char} (h1 : '0' ≤ c) (h2 : c ≤ '9') (h : ¬ ('0' ≤ d ∧ d ≤ '9')) : c ≠ d := by
  rintro rfl
  exact h ⟨h1, h2⟩

/-- What must not follow a number without a point. -/
def AfterNumber (i : List Char) : Prop := ∀ c, i.head? = some c → isDigit c = false ∧ c ≠ '.'

theorem number_text {v : Rat} {t i : List Char} (h : NumberText v t) (hi : AfterNumber i) :
    number (t ++ i) = some (v, i) := by
  have hi1 : ∀ c, i.head? = some c → isDigit c = false := fun c hc => (hi c hc).1
  have hp : ∀ fs : List Char, chr '.' ('.' :: (fs ++ i)) = some (fs ++ i) := fun fs => chr_cons _ _
  have hno : (chr '.' i).bind digits = none := by
    cases i with
    | nil => rfl
    | cons c r => rw [chr_ne (hi c rfl).2]; rfl
  have hneg : ∀ ds x, Digits ds → chr '-' (ds ++ x) = none := by
    intro ds x hd
    obtain ⟨c, r, rfl, h1, h2⟩ := digits_head hd
    exact chr_ne (digit_ne h1 h2 (by decide)) _
  have hpt : ∀ c, ('.' :: i).head? = some c → isDigit c = false := by
    intro c hc; simp at hc; subst hc; decide
  cases h with
  | whole hd =>
    unfold number
    simp only [hneg _ _ hd, Option.bind_eq_bind]
    rw [digits_text hd hi1]
    simp only [Option.bind_some, hno]
    simp [decimal, numeral_natural, natural]
  | @fraction ds fs hd hf =>
    have e : ds ++ '.' :: fs ++ i = ds ++ '.' :: (fs ++ i) := by simp
    unfold number
    rw [e]
    simp only [hneg _ _ hd, Option.bind_eq_bind]
    rw [digits_text hd (by intro c hc; simp at hc; subst hc; decide)]
    simp only [Option.bind_some, hp, digits_text hf hi1]
    simp [decimal, numeral_natural]
  | @negWhole ds hd =>
    unfold number
    simp only [List.cons_append, chr_cons, Option.bind_eq_bind]
    rw [digits_text hd hi1]
    simp only [Option.bind_some, hno]
    simp [decimal, numeral_natural, natural]
  | @negFraction ds fs hd hf =>
    have e : ds ++ '.' :: fs ++ i = ds ++ '.' :: (fs ++ i) := by simp
    unfold number
    simp only [List.cons_append, chr_cons, Option.bind_eq_bind, e]
    rw [digits_text hd (by intro c hc; simp at hc; subst hc; decide)]
    simp only [Option.bind_some, hp, digits_text hf hi1]
    simp [decimal, numeral_natural]

/-- The first character of a number: a digit or a dash. -/
theorem numberText_head {v : Rat} {t : List Char} (h : NumberText v t) :
    ∃ c r, t = c :: r ∧ (('0' ≤ c ∧ c ≤ '9') ∨ c = '-') := by
  cases h with
  | whole hd => obtain ⟨c, r, e, h1, h2⟩ := digits_head hd; exact ⟨c, r, e, Or.inl ⟨h1, h2⟩⟩
  | @fraction ds fs hd _ =>
    obtain ⟨c, r, e, h1, h2⟩ := digits_head hd
    exact ⟨c, r ++ '.' :: fs, by rw [e]; rfl, Or.inl ⟨h1, h2⟩⟩
  | negWhole hd => exact ⟨_, _, rfl, Or.inr rfl⟩
  | negFraction hd hf => exact ⟨_, _, rfl, Or.inr rfl⟩

theorem char_le_trans {a b c : Char} (h1 : a ≤ b) (h2 : b ≤ c) : a ≤ c := by
  simp only [Char.le_def] at *
  exact UInt32.le_trans h1 h2

theorem numberHead_facts (hp : Plain ws alnum) {c : Char} (h : ('0' ≤ c ∧ c ≤ '9') ∨ c = '-') :
    ws c = false ∧ isBlank c = false ∧ c ≠ 'a' := by
  rcases h with ⟨h1, h2⟩ | rfl
  · refine ⟨hp.ink c (char_le_trans (by decide) h1) (char_le_trans h2 (by decide)), ?_, digit_ne h1 h2 (by decide)⟩
    simp [isBlank, digit_ne h1 h2 (d := ' ') (by decide), digit_ne h1 h2 (d := '\t') (by decide),
      digit_ne h1 h2 (d := '\r') (by decide), digit_ne h1 h2 (d := '\n') (by decide)]
  · exact ⟨hp.ink _ (by decide) (by decide), by decide, by decide⟩

theorem scalarText_head (hp : Plain ws alnum) {s : Scalar} {t : List Char} (h : ScalarText s t) :
    ∃ c r, t = c :: r ∧ ws c = false ∧ isBlank c = false := by
  cases h with
  | @number v t u tu hn hu =>
    obtain ⟨c, r, rfl, hc⟩ := numberText_head hn
    have := numberHead_facts hp hc
    exact ⟨c, r ++ tu, rfl, this.1, this.2.1⟩
  | auto => exact ⟨'a', _, rfl, hp.ink _ (by decide) (by decide), by decide⟩

theorem tag_auto_ne {c : Char} (h : c ≠ 'a') (i : List Char) : tag "auto" (c :: i) = none := by
  simp [tag, List.isPrefixOf, Ne.symm h]

theorem cut_afterNumber {i : List Char} (h : Cut i) : AfterNumber i := by
  obtain ⟨c, l, rfl, hc⟩ := h
  intro d hd
  simp at hd
  subst hd
  simp only [cutters, List.mem_cons, List.not_mem_nil, or_false] at hc
  rcases hc with h | h | h | h | h | h <;> subst h <;> exact ⟨by decide, by decide⟩

theorem unit_text {u : Layout.Unit} {tu i : List Char} (hu : unitText u = some tu) (hi : Cut i) :
    (match unitSuffix (tu ++ i) with
      | some (u, r) => (u, r)
      | none => (Layout.Unit.cells, tu ++ i)) = (u, i) ∧ AfterNumber (tu ++ i) := by
  obtain ⟨c, l, rfl, hc⟩ := hi
  simp only [cutters, List.mem_cons, List.not_mem_nil, or_false] at hc
  cases u <;> simp only [unitText, Option.some.injEq, reduceCtorEq] at hu <;> subst hu <;>
    rcases hc with h | h | h | h | h | h <;> subst h <;>
    exact ⟨rfl, fun d hd => by simp at hd; subst hd; exact ⟨by decide, by decide⟩⟩

theorem scalar_text (hp : Plain ws alnum) {s : Scalar} {t i : List Char} (h : ScalarText s t) (hi : Cut i) :
    scalar ws (t ++ i) = some (s, i) := by
  obtain ⟨c, r, e, hc, -⟩ := scalarText_head hp h
  have ht : trimStart ws (t ++ i) = t ++ i := by rw [e]; exact trimStart_cons hc _
  cases h with
  | @number v t u tu hn hu =>
    obtain ⟨d, r', e', hd⟩ := numberText_head hn
    obtain ⟨h1, h2⟩ := unit_text (u := u) hu hi
    have hnum := number_text hn h2
    have hauto : tag "auto" (t ++ (tu ++ i)) = none := by
      rw [e']; exact tag_auto_ne (numberHead_facts hp hd).2.2 _
    unfold scalar
    simp only
    rw [ht, List.append_assoc, hauto]
    simp only [hnum]
    cases hs : unitSuffix (tu ++ i) with
    | none =>
      rw [hs] at h1
      simp only [Prod.mk.injEq] at h1
      simp [h1.2, ← h1.1]
    | some x =>
      rw [hs] at h1
      simp only [Prod.mk.injEq] at h1
      simp [h1.1, h1.2]
  | auto =>
    unfold scalar
    simp only [ht]
    simp [tag]

/-- No size begins at the end of a declaration. -/
theorem scalar_end {c : Char} {r : List Char} (hw : ws c = false) (h : c ∈ [';', '}', '!']) :
    scalar ws (c :: r) = none := by
  unfold scalar
  simp only
  rw [trimStart_cons hw]
  simp only [List.mem_cons, List.not_mem_nil, or_false] at h
  rcases h with h | h | h <;> subst h <;> rfl

theorem Tail.scalar (hp : Plain ws alnum) {i : List Char} (h : Tail i) :
    Parse.scalar ws (skip i) = none ∧ (skip1 i).bind (Parse.scalar ws) = none := by
  obtain ⟨c, r, h1, -, hc⟩ := h.rest hp
  have hw : ws c = false := by
    simp only [List.mem_cons, List.not_mem_nil, or_false] at hc
    rcases hc with h | h | h <;> subst h <;> exact hp.ink _ (by decide) (by decide)
  have := scalar_end (r := r) hw hc
  rw [h1]
  refine ⟨this, ?_⟩
  unfold skip1
  rw [h1]
  split <;> simp [this]

theorem space_skip {g t : List Char} (hg : Space g) {c : Char} {r : List Char} (ht : t = c :: r)
    (hc : isBlank c = false) (i : List Char) : skip (g ++ (t ++ i)) = t ++ i ∧ skip1 (g ++ (t ++ i)) = some (t ++ i) := by
  have : skip (g ++ (t ++ i)) = t ++ i := by rw [skip_gap hg.1, ht]; exact skip_cons hc _
  refine ⟨this, ?_⟩
  unfold skip1
  rw [this, if_pos]
  have := List.length_pos_iff.2 hg.2
  simp
  omega

theorem u16_text {n : Nat} {t i : List Char} (h : U16Text n t) (hi : Cut i) : u16 (t ++ i) = some (n, i) := by
  obtain ⟨hd, rfl, hlt⟩ := h
  unfold u16
  rw [digits_text hd (fun c hc => (cut_afterNumber hi c hc).1)]
  simp [numeral_natural, hlt]

theorem u16Text_head (hp : Plain ws alnum) {n : Nat} {t : List Char} (h : U16Text n t) :
    ∃ c r, t = c :: r ∧ ws c = false ∧ isBlank c = false := by
  obtain ⟨c, r, e, h1, h2⟩ := digits_head h.1
  have := numberHead_facts hp (Or.inl ⟨h1, h2⟩)
  exact ⟨c, r, e, this.1, this.2.1⟩

theorem trimU16_text (hp : Plain ws alnum) {n : Nat} {t i : List Char} (h : U16Text n t) (hi : Cut i) :
    trimU16 ws (t ++ i) = some (n, i) := by
  obtain ⟨c, r, e, hc, -⟩ := u16Text_head hp h
  have ht : trimStart ws (t ++ i) = t ++ i := by rw [e]; exact trimStart_cons hc _
  unfold trimU16
  rw [ht]
  exact u16_text h hi

theorem u16_end {c : Char} {r : List Char} (h : c ∈ [';', '}', '!']) : u16 (c :: r) = none := by
  simp only [List.mem_cons, List.not_mem_nil, or_false] at h
  rcases h with h | h | h <;> subst h <;> rfl

theorem Tail.u16 (hp : Plain ws alnum) {i : List Char} (h : Tail i) :
    (skip1 i).bind Parse.u16 = none ∧ (skip1 i).bind (trimU16 ws) = none := by
  obtain ⟨c, r, h1, -, hc⟩ := h.rest hp
  have hw : ws c = false := by
    simp only [List.mem_cons, List.not_mem_nil, or_false] at hc
    rcases hc with h | h | h <;> subst h <;> exact hp.ink _ (by decide) (by decide)
  have := u16_end (r := r) hc
  unfold skip1
  rw [h1]
  constructor
  · split <;> simp [this]
  · split <;> simp [trimU16, trimStart_cons hw, this]

/-! ### Keywords -/

theorem find?_key {table : List (String × String)} (hnd : (table.map (·.1)).Nodup) {k w : String}
    (h : (k, w) ∈ table) : table.find? (fun e => e.1.toList == k.toList) = some (k, w) := by
  induction table with
  | nil => simp at h
  | cons e l ih =>
    simp only [List.map_cons, List.nodup_cons] at hnd
    rcases List.mem_cons.1 h with h | h
    · subst h; simp
    · have : e.1.toList ≠ k.toList := by
        intro he
        have : e.1 = k := String.ext (by simpa using he)
        exact hnd.1 (this ▸ List.mem_map.2 ⟨_, h, rfl⟩)
      rw [List.find?_cons_of_neg (by simpa using this)]
      exact ih hnd.2 h

theorem keyword_text {env : Env} (hp : Plain env.ws env.alnum) {table : List (String × String)}
    (hnd : (table.map (·.1)).Nodup) {w : String} {t i : List Char} (h : WordText env table w t) (hi : Cut i) :
    keyword env table (t ++ i) = some (w, i) := by
  obtain ⟨hn, k, hk, hl⟩ := h
  unfold keyword
  rw [ident_name hn (cut_ends hp hi)]
  have := find?_key hnd hk
  simp [hl, this]

theorem name_solid (hp : Plain ws alnum) {t : List Char} (h : Name alnum t) :
    ∃ c r, t = c :: r ∧ ws c = false ∧ isBlank c = false := by
  obtain ⟨c, r, rfl, hc⟩ := name_head h
  refine ⟨c, r, rfl, ?_, ?_⟩
  · rcases h.2 c (by simp) with h | h | h
    · exact hp.apart c h
    · subst h; exact hp.ink _ (by decide) (by decide)
    · subst h; exact hp.ink _ (by decide) (by decide)
  · rcases Bool.eq_false_or_eq_true (isBlank c) with hb | hb
    · exfalso
      have hb' : c ∈ "#.:&*[]>+~,{};=!%$\"'() \t\r\n".toList ∧ c ≠ '-' ∧ c ≠ '_' := by
        simp only [isBlank, Bool.or_eq_true, beq_iff_eq] at hb
        rcases hb with ((h | h) | h) | h <;> subst h <;> decide
      rw [hp.mark hb'.1 hb'.2.1 hb'.2.2] at hc
      simp at hc
    · exact hb

theorem keyword_end {env : Env} (hp : Plain env.ws env.alnum) {table : List (String × String)} {c : Char} {r : List Char}
    (h : c ∈ [';', '}', '!']) : keyword env table (c :: r) = none := by
  unfold keyword
  rw [ident_none]
  · rfl
  · simp only [List.mem_cons, List.not_mem_nil, or_false] at h
    rcases h with h | h | h <;> subst h <;> exact marks_name hp (by decide) (by decide) (by decide)

theorem Tail.keyword {env : Env} (hp : Plain env.ws env.alnum) {table : List (String × String)} {i : List Char}
    (h : Tail i) : (skip1 i).bind (Parse.keyword env table) = none := by
  obtain ⟨c, r, h1, -, hc⟩ := h.rest hp
  unfold skip1
  rw [h1]
  split <;> simp [keyword_end hp hc]

/-! ### Colours -/

/-- Characters that do not end a colour. -/
def Colored (ws : Char → Bool) (t : List Char) : Prop :=
  ∀ c ∈ t, ws c = false ∧ c ≠ ';' ∧ c ≠ '}' ∧ c ≠ '(' ∧ c ≠ ')'

theorem colorToken_word {t : List Char} (h : Colored ws t) (i : List Char) :
    colorToken ws 0 (t ++ i) = (t ++ (colorToken ws 0 i).1, (colorToken ws 0 i).2) := by
  induction t with
  | nil => rfl
  | cons c t ih =>
    obtain ⟨h1, h2, h3, h4, h5⟩ := h c (by simp)
    simp only [List.cons_append, colorToken]
    rw [if_neg h4, if_neg h5, if_neg (by simp [h2, h3]), if_neg (by simp [h1])]
    rw [ih (fun c hc => h c (by simp [hc]))]

theorem colorToken_inside {b : List Char} (h1 : '(' ∉ b) (h2 : ')' ∉ b) (i : List Char) :
    colorToken ws 1 (b ++ ')' :: i) = (b ++ [')'], i) := by
  induction b with
  | nil => simp [colorToken]
  | cons c b ih =>
    simp only [List.mem_cons, not_or] at h1 h2
    simp only [List.cons_append, colorToken]
    rw [if_neg (Ne.symm h1.1), if_neg (Ne.symm h2.1), if_neg (by simp), if_neg (by simp), ih h1.2 h2.2]

theorem colorToken_cut (hp : Plain ws alnum) {i : List Char} (h : Cut i) : colorToken ws 0 i = ([], i) := by
  obtain ⟨c, l, rfl, hc⟩ := h
  simp only [cutters, List.mem_cons, List.not_mem_nil, or_false] at hc
  have hb : ∀ c ∈ " \t\r\n".toList, ws c = true := hp.blank
  rcases hc with h | h | h | h | h | h <;> subst h <;> simp [colorToken, hb ' ' (by decide), hb '\t' (by decide),
    hb '\r' (by decide), hb '\n' (by decide)]

theorem plainColor_head {env : Env} (hp : Plain env.ws env.alnum) {c : RgbaColor} {t : List Char}
    (h : PlainColorText env c t) : ∃ d r, t = d :: r ∧ env.ws d = false := by
  cases h with
  | theme _ => exact ⟨_, _, rfl, hp.ink _ (by decide) (by decide)⟩
  | word hne _ hc _ =>
    cases t with
    | nil => exact absurd rfl hne
    | cons d t => exact ⟨d, t, rfl, (hc d (by simp)).1⟩
  | @call _ f b hne _ hc _ _ _ =>
    cases f with
    | nil => exact absurd rfl hne
    | cons d f => exact ⟨d, _, rfl, (hc d (by simp)).1⟩

theorem color_plain {env : Env} (hp : Plain env.ws env.alnum) {c : RgbaColor} {t i : List Char}
    (h : PlainColorText env c t) (hi : Cut i) : color env (t ++ i) = .ok (optionalAlpha env.ws i c) := by
  obtain ⟨d, r, e, hd⟩ := plainColor_head hp h
  have ht : trimStart env.ws (t ++ i) = t ++ i := by rw [e]; exact trimStart_cons hd _
  have hcut := colorToken_cut hp hi
  unfold color
  rw [ht]
  cases h with
  | @theme n hn =>
    have hs : Colored env.ws ('$' :: n) := by
      intro c hc
      rcases List.mem_cons.1 hc with h | h
      · subst h; exact ⟨hp.ink _ (by decide) (by decide), by decide, by decide, by decide, by decide⟩
      · exact hn c h
    have := colorToken_word hs i
    rw [hcut] at this
    rw [this]
    simp [themeVariable]
  | word hne hh hc hpar =>
    rw [colorToken_word hc i, hcut]
    subst e
    have hd' : d ≠ '$' := by rintro rfl; simp at hh
    simp only [List.append_nil]
    split
    · simp_all
    · simp_all
    · rename_i h1 h2 heq
      simp only [Prod.mk.injEq] at heq
      rw [← heq.1, ← heq.2, hpar]
      rfl
  | @call _ f b hne hh hc h1 h2 hpar =>
    have e2 : f ++ '(' :: (b ++ [')']) ++ i = f ++ '(' :: (b ++ ')' :: i) := by simp
    rw [e2, colorToken_word hc]
    have e3 : colorToken env.ws 0 ('(' :: (b ++ ')' :: i)) = ('(' :: (b ++ [')']), i) := by
      simp only [colorToken, if_true, Int.zero_add]
      rw [colorToken_inside h1 h2]
    rw [e3]
    have hd' : d ≠ '$' := by
      rintro rfl
      cases f with
      | nil => exact hne rfl
      | cons x f => simp at e hh; exact hh e.1
    simp only
    rw [e]
    rw [e] at hpar
    split
    · simp_all
    · simp_all
    · rename_i h1 h2 heq
      simp only [Prod.mk.injEq] at heq
      rw [← heq.1, ← heq.2, hpar]
      rfl

theorem digits_isDigit {ds : List Char} (h : Digits ds) : ∀ c ∈ ds, isDigit c = true := by
  intro c hc
  have := h.2 c hc
  simp [isDigit, this.1, this.2]

theorem percent_of {t : List Char} {v : Rat} (hne : t ≠ []) (ht : ∀ c ∈ t, (isDigit c || c == '.') = true)
    (hv : decimal? t = some v) (i : List Char) : percent (t ++ '%' :: i) = some (v / 100, i) := by
  obtain ⟨h1, h2⟩ := takeWhile_append_ends (p := fun c => isDigit c || c == '.') (i := '%' :: i) ht
    (by intro c hc; simp at hc; subst hc; decide)
  unfold percent
  simp only [h1, h2]
  rw [if_neg (by simpa using hne)]
  simp [hv]

theorem decimal?_whole {ds : List Char} (h : Digits ds) : decimal? ds = some (natural ds : Rat) := by
  obtain ⟨h1, h2⟩ := takeWhile_append_ends (p := isDigit) (i := []) (digits_isDigit h) (by simp)
  simp only [List.append_nil] at h1 h2
  unfold decimal?
  simp only [h1, h2]
  rw [if_neg (by simpa using h.1)]
  simp [decimal, numeral_natural, natural]

theorem decimal?_fraction {ds fs : List Char} (h : Digits ds) (h' : Digits fs) :
    decimal? (ds ++ '.' :: fs) = some ((natural ds : Rat) + (natural fs : Rat) / (10 ^ fs.length : Nat)) := by
  obtain ⟨h1, h2⟩ := takeWhile_append_ends (p := isDigit) (i := '.' :: fs) (digits_isDigit h)
    (by intro c hc; simp at hc; subst hc; decide)
  unfold decimal?
  simp only [h1, h2]
  rw [if_pos]
  · simp [decimal, numeral_natural]
  · have := digits_isDigit h'
    simp only [Bool.and_eq_true, List.all_eq_true, Bool.not_eq_true', Bool.and_eq_false_iff]
    exact ⟨this, Or.inl (by simpa using h.1)⟩

/-- What may follow a colour: something that is no alpha. -/
def AfterColor (env : Env) (i : List Char) : Prop := Cut i ∧ percent (trimStart env.ws i) = none

theorem color_text {env : Env} (hp : Plain env.ws env.alnum) {c : RgbaColor} {t i : List Char}
    (h : ColorText env c t) (hi : AfterColor env i) : color env (t ++ i) = .ok (c, i) := by
  cases h with
  | plain h =>
    rw [color_plain hp h hi.1]
    simp [optionalAlpha, hi.2]
  | @alpha c t g ds h hg hd =>
    have e : t ++ g ++ ds ++ ['%'] ++ i = t ++ (g ++ (ds ++ '%' :: i)) := by simp
    obtain ⟨x, r, ex, hx1, hx2⟩ := digits_head hd
    rw [e, color_plain hp h (space_cut hg _)]
    unfold optionalAlpha
    rw [gap_trimStart hp hg.1, ex, List.cons_append, trimStart_cons (numberHead_facts hp (Or.inl ⟨hx1, hx2⟩)).1,
      ← List.cons_append, ← ex,
      percent_of hd.1 (fun c hc => by simp [digits_isDigit hd c hc]) (decimal?_whole hd)]
  | @alphaFraction c t g ds fs h hg hd hf =>
    have e : t ++ g ++ (ds ++ '.' :: fs) ++ ['%'] ++ i = t ++ (g ++ ((ds ++ '.' :: fs) ++ '%' :: i)) := by simp
    obtain ⟨x, r, ex, hx1, hx2⟩ := digits_head hd
    rw [e, color_plain hp h (space_cut hg _)]
    unfold optionalAlpha
    have e' : trimStart env.ws (ds ++ '.' :: fs ++ '%' :: i) = ds ++ '.' :: fs ++ '%' :: i := by
      rw [ex]; exact trimStart_cons (numberHead_facts hp (Or.inl ⟨hx1, hx2⟩)).1 _
    rw [gap_trimStart hp hg.1, e', percent_of (by simp)
      (fun c hc => by
        rcases List.mem_append.1 hc with h | h
        · simp [digits_isDigit hd c h]
        · rcases List.mem_cons.1 h with h | h
          · subst h; decide
          · simp [digits_isDigit hf c h]) (decimal?_fraction hd hf)]

theorem colorText_head {env : Env} (hp : Plain env.ws env.alnum) {c : RgbaColor} {t : List Char}
    (h : ColorText env c t) : ∃ d r, t = d :: r ∧ env.ws d = false := by
  cases h with
  | plain h => exact plainColor_head hp h
  | alpha h _ _ => obtain ⟨d, r, rfl, hd⟩ := plainColor_head hp h; exact ⟨d, _, rfl, hd⟩
  | alphaFraction h _ _ _ => obtain ⟨d, r, rfl, hd⟩ := plainColor_head hp h; exact ⟨d, _, rfl, hd⟩

theorem ws_blank (hp : Plain ws alnum) {c : Char} (h : ws c = false) : isBlank c = false := by
  rcases Bool.eq_false_or_eq_true (isBlank c) with hb | hb
  · exfalso
    have : ws c = true := by
      refine hp.blank c ?_
      simp only [isBlank, Bool.or_eq_true, beq_iff_eq] at hb
      rcases hb with ((h | h) | h) | h <;> subst h <;> decide
    simp [this] at h
  · exact hb

theorem percent_none {i : List Char} (h : (i.dropWhile (fun c => isDigit c || c == '.')).head? ≠ some '%') :
    percent i = none := by
  unfold percent
  simp only
  split
  · rfl
  · split
    · rename_i heq; rw [heq] at h; simp at h
    · rfl

theorem Tail.afterColor {env : Env} (hp : Plain env.ws env.alnum) {i : List Char} (h : Tail i) : AfterColor env i := by
  obtain ⟨c, r, -, h2, hc⟩ := h.rest hp
  refine ⟨h.cut, ?_⟩
  rw [h2]
  simp only [List.mem_cons, List.not_mem_nil, or_false] at hc
  rcases hc with h | h | h <;> subst h <;> exact percent_none (by simp [isDigit])

theorem cut_no_percent {i : List Char} (h : Cut i) :
    (i.dropWhile (fun c => isDigit c || c == '.')).head? ≠ some '%' := by
  obtain ⟨c, l, rfl, hc⟩ := h
  simp only [cutters, List.mem_cons, List.not_mem_nil, or_false] at hc
  rcases hc with h | h | h | h | h | h <;> subst h <;> simp [isDigit]

theorem name_afterColor {env : Env} (hp : Plain env.ws env.alnum) {g t i : List Char} (hg : Space g)
    (ht : Name env.alnum t) (hi : Cut i) : AfterColor env (g ++ (t ++ i)) := by
  refine ⟨space_cut hg _, ?_⟩
  obtain ⟨c, r, e, hc, -⟩ := name_solid hp ht
  have e' : trimStart env.ws (t ++ i) = t ++ i := by rw [e]; exact trimStart_cons hc _
  rw [gap_trimStart hp hg.1, e']
  refine percent_none ?_
  have hno : '%' ∉ t := name_no_mark hp ht (by decide) (by decide) (by decide)
  clear e' e hc ht
  induction t with
  | nil => simpa using cut_no_percent hi
  | cons x t ih =>
    simp only [List.mem_cons, not_or] at hno
    rw [List.cons_append, List.dropWhile_cons]
    split
    · exact ih hno.2
    · simpa using Ne.symm hno.1

/-- What colours must not understand: words that begin with an exclamation mark. -/
structure PlainEnv (env : Env) : Prop extends Plain env.ws env.alnum where
  bang : ∀ t, env.color.named ('!' :: t) = none

theorem dropWhile_end {p : Char → Bool} {l : List Char} {c : Char} (h : p c = false) :
    ∃ l', (l ++ [c]).dropWhile p = l' ++ [c] := by
  induction l with
  | nil => exact ⟨[], by simp [h]⟩
  | cons x l ih =>
    rw [List.cons_append, List.dropWhile_cons]
    split
    · exact ih
    · exact ⟨x :: l, rfl⟩

theorem parse_bang {env : Env} (hp : PlainEnv env) (t : List Char) : RgbaColor.parse env.color ('!' :: t) = .err := by
  have ht : ∃ t', RgbaColor.trim ('!' :: t) = '!' :: t' := by
    unfold RgbaColor.trim
    rw [List.dropWhile_cons, if_neg (by decide), List.reverse_cons]
    obtain ⟨l', e⟩ := dropWhile_end (p := Char.isWhitespace) (l := t.reverse) (c := '!') (by decide)
    rw [e]
    exact ⟨l'.reverse, by simp⟩
  obtain ⟨t', e⟩ := ht
  unfold RgbaColor.parse
  simp only [e, List.isEmpty_cons, List.map_cons, show Char.toLower '!' = '!' from by decide]
  simp [List.isPrefixOf, hp.bang, RgbaColor.Outcome.ofOption]

/-- No colour begins at the end of a declaration. -/
theorem color_end {env : Env} (hp : PlainEnv env) {c : Char} {r : List Char} (h : c ∈ [';', '}', '!']) :
    color env (c :: r) = .err := by
  have hw : env.ws c = false := by
    simp only [List.mem_cons, List.not_mem_nil, or_false] at h
    rcases h with h | h | h <;> subst h <;> exact hp.ink _ (by decide) (by decide)
  unfold color
  rw [trimStart_cons hw]
  simp only [List.mem_cons, List.not_mem_nil, or_false] at h
  rcases h with h | h | h
  · subst h; simp [colorToken]
  · subst h; simp [colorToken]
  · subst h
    have : colorToken env.ws 0 ('!' :: r) = ('!' :: (colorToken env.ws 0 r).1, (colorToken env.ws 0 r).2) := by
      simp [colorToken, hw]
    rw [this]
    split
    · simp_all
    · simp_all
    · rename_i heq
      simp only [Prod.mk.injEq] at heq
      rw [← heq.1, parse_bang hp]
      rfl

end Textual.Parse
