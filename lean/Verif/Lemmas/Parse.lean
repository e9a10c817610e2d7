import Mathlib.Tactic.Common
import Mathlib.Data.List.TakeWhile
import Verif.Model.Parse
import Verif.Spec.Sheet

/-! Lemmas about the parsers of `Model/Parse.lean`: counters, progress, and reading what `Spec/Sheet.lean` says
is written. -/

namespace Textual.Parse

open Css Sheet
open RgbaColor (Outcome)
open Source (isName)

/-- What the character classes must satisfy; Unicode's do. -/
structure Plain (ws alnum : Char → Bool) : Prop where
  marks : ∀ c ∈ "#.:&*[]>+~,{};=!%$\"'() \t\r\n".toList, alnum c = false
  blank : ∀ c ∈ " \t\r\n".toList, ws c = true
  ink : ∀ c, '!' ≤ c → c ≤ '~' → ws c = false
  apart : ∀ c, alnum c = true → ws c = false

/-! ### Blanks and names -/

theorem gap_blank {g : List Char} (h : Gap g) : ∀ c ∈ g, isBlank c = true := by
  intro c hc
  rcases h c hc with h | h | h | h <;> subst h <;> rfl

theorem skip_gap {g : List Char} (h : Gap g) (i : List Char) : skip (g ++ i) = skip i := by
  unfold skip
  exact List.dropWhile_append_of_pos (gap_blank h)

theorem skip_cons {c : Char} (h : isBlank c = false) (i : List Char) : skip (c :: i) = c :: i := by
  simp [skip, h]

theorem skip_nil : skip [] = [] := rfl

theorem skip_length (i : List Char) : (skip i).length ≤ i.length :=
  (List.dropWhile_suffix (l := i) isBlank).length_le

theorem name_isName {alnum : Char → Bool} {n : List Char} (h : Name alnum n) :
    ∀ c ∈ n, isName alnum c = true := by
  intro c hc
  rcases h.2 c hc with h | h | h
  · simp [isName, h]
  · subst h; simp [isName]
  · subst h; simp [isName]

variable {ws alnum : Char → Bool}

theorem Plain.mark (hp : Plain ws alnum) {c : Char} (h : c ∈ "#.:&*[]>+~,{};=!%$\"'() \t\r\n".toList)
    (h1 : c ≠ '-') (h2 : c ≠ '_') : isName alnum c = false := by
  simp [isName, hp.marks c h, h1, h2]

/-- The text does not go on with a name. -/
def Ends (alnum : Char → Bool) (i : List Char) : Prop := ∀ c, i.head? = some c → isName alnum c = false

theorem takeWhile_append_ends {p : Char → Bool} {n i : List Char} (h : ∀ c ∈ n, p c = true)
    (he : ∀ c, i.head? = some c → p c = false) :
    (n ++ i).takeWhile p = n ∧ (n ++ i).dropWhile p = i := by
  constructor
  · rw [List.takeWhile_append_of_pos h]
    cases i with
    | nil => simp
    | cons c r => simp [List.takeWhile_cons, he c rfl]
  · rw [List.dropWhile_append_of_pos h]
    cases i with
    | nil => simp
    | cons c r => simp [List.dropWhile_cons, he c rfl]

theorem ident_name {n i : List Char} (h : Name alnum n) (he : Ends alnum i) :
    ident alnum (n ++ i) = some (n, i) := by
  obtain ⟨h1, h2⟩ := takeWhile_append_ends (name_isName h) he
  unfold ident
  simp only [h1, h2]
  rw [if_neg (by simpa using h.1)]

theorem ident_none {i : List Char} (he : Ends alnum i) : ident alnum i = none := by
  unfold ident
  cases i with
  | nil => simp
  | cons c r => simp [List.takeWhile_cons, he c rfl]

theorem ident_some {i n r : List Char} (h : ident alnum i = some (n, r)) :
    i = n ++ r ∧ n ≠ [] ∧ (∀ c ∈ n, isName alnum c = true) ∧ Ends alnum r := by
  unfold ident at h
  simp only at h
  split at h
  · simp at h
  · rename_i hn
    simp only [Option.some.injEq, Prod.mk.injEq] at h
    obtain ⟨h1, h2⟩ := h
    subst h1 h2
    refine ⟨(List.takeWhile_append_dropWhile).symm, by simpa using hn, ?_, ?_⟩
    · intro c hc; exact List.mem_takeWhile_imp hc
    · intro c hc
      have := List.head?_dropWhile_not (isName alnum) i
      rw [hc] at this
      simpa using this

theorem chr_cons (c : Char) (i : List Char) : chr c (c :: i) = some i := by simp [chr]

theorem chr_ne {c d : Char} (h : d ≠ c) (i : List Char) : chr c (d :: i) = none := by simp [chr, h]

theorem chr_nil (c : Char) : chr c [] = none := rfl

theorem chr_some {c : Char} {i r : List Char} (h : chr c i = some r) : i = c :: r := by
  cases i with
  | nil => simp [chr] at h
  | cons d i =>
    simp only [chr] at h
    split at h
    · simp only [Option.some.injEq] at h; subst h; simp_all
    · simp at h

theorem takeUntil_append {c : Char} {t i : List Char} (h : c ∉ t) :
    takeUntil c (t ++ c :: i) = some (t, c :: i) := by
  unfold takeUntil
  rw [if_pos (by simp)]
  obtain ⟨h1, h2⟩ := takeWhile_append_ends (p := fun x => decide (x ≠ c)) (n := t) (i := c :: i)
    (by intro x hx; simp; rintro rfl; exact h hx) (by simp)
  rw [h1, h2]

theorem takeUntil_some {c : Char} {i t r : List Char} (h : takeUntil c i = some (t, r)) :
    i = t ++ r ∧ ∃ r', r = c :: r' := by
  unfold takeUntil at h
  split at h
  · rename_i hc
    simp only [Option.some.injEq, Prod.mk.injEq] at h
    obtain ⟨rfl, rfl⟩ := h
    refine ⟨(List.takeWhile_append_dropWhile).symm, ?_⟩
    cases hd : i.dropWhile (fun x => decide (x ≠ c)) with
    | nil =>
      exfalso
      rw [List.dropWhile_eq_nil_iff] at hd
      have := hd c hc
      simp at this
    | cons d r =>
      have := List.head?_dropWhile_not (fun x => decide (x ≠ c)) i
      rw [hd] at this
      simp at this
      exact ⟨r, by rw [this]⟩
  · simp at h

/-! ### Progress -/

/-- A parser that succeeds reads something. -/
def Reads {α : Type} (p : P α) : Prop := ∀ i a r, p i = some (a, r) → r.length < i.length

theorem attrib_reads : Reads (attrib ws) := by
  intro i a r h
  unfold attrib at h
  simp only [Option.bind_eq_bind, Option.bind_eq_some_iff] at h
  obtain ⟨i1, h1, ⟨t, i2⟩, h2, i3, h3, h4⟩ := h
  have e1 := chr_some h1
  have e2 := (takeUntil_some h2).1
  have e3 : i2 = ']' :: i3 := chr_some h3
  have e4 : r = i3 := by
    split at h4 <;> simp at h4 <;> exact h4.2.symm
  subst e4
  rw [e1, e2, e3]
  simp
  omega

theorem marked_reads (c : Char) (f : String → Selector) : Reads (marked alnum c f) := by
  intro i a r h
  unfold marked at h
  simp only [Option.bind_eq_bind, Option.bind_eq_some_iff] at h
  obtain ⟨i1, h1, ⟨t, i2⟩, h2, h3⟩ := h
  have e1 := chr_some h1
  have e2 := (ident_some h2).1
  simp at h3
  obtain ⟨-, rfl⟩ := h3
  subst e1 e2
  simp
  omega

theorem simple_reads : Reads (simple ws alnum) := by
  intro i a r h
  unfold simple at h
  simp only [Option.or_eq_some_iff, Option.map_eq_some_iff] at h
  rcases h with h | ⟨-, h | ⟨-, h | ⟨-, h | ⟨-, h | ⟨-, h | ⟨-, h⟩⟩⟩⟩⟩⟩
  · exact marked_reads _ _ i a r h
  · exact marked_reads _ _ i a r h
  · exact marked_reads _ _ i a r h
  · obtain ⟨x, hx, he⟩ := h; have := chr_some hx; simp at he; obtain ⟨-, rfl⟩ := he; subst this; simp
  · obtain ⟨x, hx, he⟩ := h; have := chr_some hx; simp at he; obtain ⟨-, rfl⟩ := he; subst this; simp
  · exact attrib_reads i a r h
  · obtain ⟨⟨n, x⟩, hx, he⟩ := h
    obtain ⟨e1, e2, -⟩ := ident_some hx
    simp at he
    obtain ⟨-, rfl⟩ := he
    subst e1
    have := List.length_pos_iff.2 e2
    simp
    omega

theorem many0_enough {α : Type} (p : P α) : ∀ n m i, i.length < n → i.length < m → many0 p n i = many0 p m i := by
  intro n
  induction n with
  | zero => intro m i h; omega
  | succ n ih =>
    intro m i h1 h2
    obtain ⟨m, rfl⟩ : ∃ k, m = k + 1 := ⟨m - 1, by omega⟩
    unfold many0
    cases p i with
    | none => rfl
    | some x =>
      obtain ⟨a, r⟩ := x
      simp only
      split
      · rw [ih m r (by omega) (by omega)]
      · rfl

/-- `many0` without the counter. -/
theorem many_eq {α : Type} (p : P α) (i : List Char) : many p i =
    match p i with
    | none => some ([], i)
    | some (a, r) => if r.length < i.length then (many p r).map fun x => (a :: x.1, x.2) else none := by
  conv_lhs => unfold many many0
  cases p i with
  | none => rfl
  | some x =>
    obtain ⟨a, r⟩ := x
    simp only
    split
    · rw [many0_enough p i.length (r.length + 1) r (by omega) (by omega)]; rfl
    · rfl

theorem many_none {α : Type} {p : P α} {i : List Char} (h : p i = none) : many p i = some ([], i) := by
  rw [many_eq, h]

theorem many_cons {α : Type} {p : P α} {i r r' : List Char} {a : α} {l : List α} (h : p i = some (a, r))
    (hr : r.length < i.length) (hm : many p r = some (l, r')) : many p i = some (a :: l, r') := by
  rw [many_eq, h]
  simp [hr, hm]

theorem many_length {α : Type} {p : P α} : ∀ (n : Nat) {i r : List Char} {l : List α}, i.length ≤ n →
    many p i = some (l, r) → r.length ≤ i.length := by
  intro n
  induction n with
  | zero =>
    intro i r l hi h
    rw [many_eq] at h
    cases hp : p i with
    | none => rw [hp] at h; simp at h; simp [h.2]
    | some x =>
      obtain ⟨a, r1⟩ := x
      rw [hp] at h
      simp only at h
      rw [if_neg (by omega)] at h
      simp at h
  | succ n ih =>
    intro i r l hi h
    rw [many_eq] at h
    cases hp : p i with
    | none => rw [hp] at h; simp at h; simp [h.2]
    | some x =>
      obtain ⟨a, r1⟩ := x
      rw [hp] at h
      simp only at h
      split at h
      · simp only [Option.map_eq_some_iff] at h
        obtain ⟨⟨l1, r2⟩, h1, h2⟩ := h
        simp at h2
        obtain ⟨-, rfl⟩ := h2
        have := ih (by omega) h1
        omega
      · simp at h

/-- A parser that reads something never makes `many0` fail. -/
theorem many_isSome {α : Type} {p : P α} (hp : Reads p) : ∀ (n : Nat) (i : List Char), i.length ≤ n →
    (many p i).isSome = true := by
  intro n
  induction n with
  | zero =>
    intro i hi
    rw [many_eq]
    cases h : p i with
    | none => rfl
    | some x => have := hp i x.1 x.2 h; omega
  | succ n ih =>
    intro i hi
    rw [many_eq]
    cases h : p i with
    | none => rfl
    | some x =>
      have := hp i x.1 x.2 h
      simp only
      rw [if_pos this]
      simpa using ih x.2 (by omega)

theorem compound_reads : Reads (compound ws alnum) := by
  intro i a r h
  unfold compound at h
  simp only [Option.bind_eq_bind, Option.bind_eq_some_iff] at h
  obtain ⟨⟨s, i1⟩, h1, ⟨l, i2⟩, h2, h3⟩ := h
  simp at h3
  obtain ⟨-, rfl⟩ := h3
  have := simple_reads i s i1 h1
  have := many_length _ (Nat.le_refl _) h2
  simp at this
  omega

theorem compound_none {i : List Char} (h : simple ws alnum i = none) : compound ws alnum i = none := by
  simp [compound, h]

/-! ### Selectors -/

/-- `simple` on a text that begins with none of the marks and is no name. -/
theorem simple_none {i : List Char} (he : Ends alnum i)
    (h : ∀ c, i.head? = some c → c ∉ ['#', '.', ':', '&', '*', '[']) : simple ws alnum i = none := by
  unfold simple marked attrib
  rw [ident_none he]
  cases i with
  | nil => simp [chr]
  | cons c r =>
    have := h c rfl
    simp only [List.mem_cons, List.not_mem_nil, or_false, not_or] at this
    simp [chr, this]

/-- A colon that no name follows begins no pseudo class. -/
theorem simple_colon (hp : Plain ws alnum) {i : List Char} (he : Ends alnum i) :
    simple ws alnum (':' :: i) = none := by
  unfold simple marked attrib
  rw [ident_none (i := ':' :: i) (by intro c hc; simp at hc; subst hc; exact hp.mark (by decide) (by decide) (by decide))]
  simp [chr, ident_none he]

theorem white_trim {n g g' : List Char} (hn : Tight ws n) (hg : White ws g) (hg' : White ws g') :
    Source.trim ws (g ++ n ++ g') = n := by
  unfold Source.trim
  rw [List.append_assoc, List.dropWhile_append_of_pos hg]
  cases n with
  | nil =>
    simp only [List.nil_append]
    have : g'.dropWhile ws = [] := by rw [List.dropWhile_eq_nil_iff]; exact hg'
    simp [this]
  | cons c r =>
    have h1 : ws c = false := hn.1 c rfl
    have h2 : ((c :: r) ++ g').dropWhile ws = (c :: r) ++ g' := by simp [h1]
    rw [h2, List.reverse_append, List.dropWhile_append_of_pos (by simpa using fun a (ha : a ∈ g') => hg' a ha)]
    have h3 : ((c :: r).reverse).dropWhile ws = (c :: r).reverse := by
      cases hr : (c :: r).reverse with
      | nil => rfl
      | cons d l =>
        have : (c :: r).getLast? = some d := by
          rw [← List.head?_reverse, hr]; rfl
        simp [hn.2 d this]
    rw [h3, List.reverse_reverse]

/-- Whether the selector ends in a name. -/
def named : Selector → Bool
  | .type _ | .cls _ | .id _ | .pseudo _ => true
  | _ => false

theorem marks_name {c : Char} {i : List Char} (hp : Plain ws alnum) (h : c ∈ "#.:&*[]>+~,{};=!%$\"'() \t\r\n".toList)
    (h1 : c ≠ '-') (h2 : c ≠ '_') : Ends alnum (c :: i) := by
  intro d hd
  simp at hd
  subst hd
  exact hp.mark h h1 h2

theorem simple_text (hp : Plain ws alnum) {s : Selector}
    {t i : List Char} (h : SimpleText ws alnum s t)
    (he : named s = true → Ends alnum i) : simple ws alnum (t ++ i) = some (s, i) := by
  have hw : ∀ c, ws c = true → c ≠ ']' ∧ c ≠ '=' := by
    intro c hc
    constructor <;> rintro rfl <;> rw [hp.ink _ (by decide) (by decide)] at hc <;> simp at hc
  cases h with
  | type hn =>
    have hn' := hn
    obtain ⟨h0, hn⟩ := hn
    cases t with
    | nil => simp at h0
    | cons c r =>
      have hc := name_isName hn' c (by simp)
      have hne : ∀ d ∈ "#.:&*[]>+~,{};=!%$\"'() \t\r\n".toList, d ≠ '-' → d ≠ '_' → c ≠ d := by
        rintro d hd h1 h2 rfl
        rw [hp.mark hd h1 h2] at hc
        simp at hc
      have e1 := hne '#' (by decide) (by decide) (by decide)
      have e2 := hne '.' (by decide) (by decide) (by decide)
      have e3 := hne ':' (by decide) (by decide) (by decide)
      have e4 := hne '&' (by decide) (by decide) (by decide)
      have e5 := hne '*' (by decide) (by decide) (by decide)
      have e6 := hne '[' (by decide) (by decide) (by decide)
      unfold simple marked attrib
      rw [ident_name hn' (he rfl)]
      simp [chr, e1, e2, e3, e4, e5, e6]
  | cls hn => simp [simple, marked, chr, ident_name hn (he rfl)]
  | id hn => simp [simple, marked, chr, ident_name hn (he rfl)]
  | pseudo hn => simp [simple, marked, chr, ident_name hn (he rfl)]
  | parent => simp [simple, marked, chr]
  | universal => simp [simple, marked, chr]
  | @has n g g' h1 h2 h3 h4 h5 =>
    have hin : ']' ∉ g ++ n ++ g' := by
      simp only [List.mem_append, not_or]
      exact ⟨⟨fun hh => (hw _ (h4 _ hh)).1 rfl, h3⟩, fun hh => (hw _ (h5 _ hh)).1 rfl⟩
    have hne : '=' ∉ g ++ n ++ g' := by
      simp only [List.mem_append, not_or]
      exact ⟨⟨fun hh => (hw _ (h4 _ hh)).2 rfl, h2⟩, fun hh => (hw _ (h5 _ hh)).2 rfl⟩
    have e : takeUntil ']' ((g ++ n ++ g' ++ [']']) ++ i) = some (g ++ n ++ g', ']' :: i) := by
      rw [List.append_assoc]
      exact takeUntil_append hin
    have e2 : attrib ws ('[' :: (g ++ n ++ g' ++ [']']) ++ i) =
        some (.attribute (String.ofList n) "", i) := by
      unfold attrib
      rw [List.cons_append, chr_cons]
      simp only [Option.bind_eq_bind, Option.bind_some]
      rw [e]
      simp only [Option.bind_some, chr_cons]
      rw [if_neg hne, white_trim h1 h4 h5]
      rfl
    unfold simple marked
    rw [e2]
    simp [chr]
  | @equal n v g1 g2 g3 g4 h1 h2 h3 h4 h5 w1 w2 w3 w4 =>
    have hin : ']' ∉ g1 ++ n ++ g2 ++ '=' :: (g3 ++ v ++ g4) := by
      simp only [List.mem_append, List.mem_cons, not_or]
      exact ⟨⟨⟨fun hh => (hw _ (w1 _ hh)).1 rfl, h3⟩, fun hh => (hw _ (w2 _ hh)).1 rfl⟩,
        by decide, ⟨fun hh => (hw _ (w3 _ hh)).1 rfl, h5⟩, fun hh => (hw _ (w4 _ hh)).1 rfl⟩
    have hne : '=' ∉ g1 ++ n ++ g2 := by
      simp only [List.mem_append, not_or]
      exact ⟨⟨fun hh => (hw _ (w1 _ hh)).2 rfl, h2⟩, fun hh => (hw _ (w2 _ hh)).2 rfl⟩
    have e : takeUntil ']' ((g1 ++ n ++ g2 ++ '=' :: (g3 ++ v ++ g4 ++ [']'])) ++ i) =
        some (g1 ++ n ++ g2 ++ '=' :: (g3 ++ v ++ g4), ']' :: i) := by
      have : (g1 ++ n ++ g2 ++ '=' :: (g3 ++ v ++ g4 ++ [']'])) ++ i =
          (g1 ++ n ++ g2 ++ '=' :: (g3 ++ v ++ g4)) ++ ']' :: i := by simp
      rw [this]
      exact takeUntil_append hin
    obtain ⟨t1, t2⟩ := takeWhile_append_ends (p := fun x => decide (x ≠ '=')) (n := g1 ++ n ++ g2)
      (i := '=' :: (g3 ++ v ++ g4)) (by intro x hx; simp; rintro rfl; exact hne hx) (by simp)
    have e2 : attrib ws ('[' :: (g1 ++ n ++ g2 ++ '=' :: (g3 ++ v ++ g4 ++ [']'])) ++ i) =
        some (.attribute (String.ofList n) (String.ofList v), i) := by
      unfold attrib
      rw [List.cons_append, chr_cons]
      simp only [Option.bind_eq_bind, Option.bind_some]
      rw [e]
      simp only [Option.bind_some, chr_cons]
      rw [if_pos (by simp), t1, t2]
      simp only [List.drop_one, List.tail_cons]
      rw [white_trim h1 w1 w2, white_trim h4 w3 w4]
      rfl
    unfold simple marked
    rw [e2]
    simp [chr]

/-- A text that is no type name begins with a mark. -/
theorem simpleText_mark {s : Selector} {t : List Char} (h : SimpleText ws alnum s t) :
    (∃ n, s = .type n) ∨ ∃ c r, t = c :: r ∧ c ∈ ['#', '.', ':', '&', '*', '['] := by
  cases h with
  | type _ => exact Or.inl ⟨_, rfl⟩
  | cls _ => exact Or.inr ⟨_, _, rfl, by decide⟩
  | id _ => exact Or.inr ⟨_, _, rfl, by decide⟩
  | pseudo _ => exact Or.inr ⟨_, _, rfl, by decide⟩
  | parent => exact Or.inr ⟨_, _, rfl, by decide⟩
  | universal => exact Or.inr ⟨_, _, rfl, by decide⟩
  | has => exact Or.inr ⟨_, _, rfl, by decide⟩
  | equal => exact Or.inr ⟨_, _, rfl, by decide⟩

theorem compoundText_first {s : Selector} {r : Compound} {t : List Char} (h : CompoundText ws alnum (s :: r) t) :
    ∃ a b, t = a ++ b ∧ SimpleText ws alnum s a := by
  cases h with
  | one h => exact ⟨t, [], by simp, h⟩
  | cons h _ _ => exact ⟨_, _, rfl, h⟩

theorem compoundText_ne {c : Compound} {t : List Char} (h : CompoundText ws alnum c t) : c ≠ [] := by
  cases h <;> simp

/-- The first character of a simple selector: a mark or part of a name. -/
theorem simpleText_head {s : Selector} {t : List Char} (h : SimpleText ws alnum s t) :
    ∃ c r, t = c :: r ∧ (isName alnum c = true ∨ c ∈ ['#', '.', ':', '&', '*', '[']) := by
  rcases simpleText_mark h with ⟨n, rfl⟩ | ⟨c, r, h1, h2⟩
  · cases h with
    | type hn =>
      cases t with
      | nil => exact absurd rfl hn.1
      | cons c r => exact ⟨c, r, rfl, Or.inl (name_isName hn c (by simp))⟩
  · exact ⟨c, r, h1, Or.inr h2⟩

theorem compoundText_head {c : Compound} {t : List Char} (h : CompoundText ws alnum c t) :
    ∃ c r, t = c :: r ∧ (isName alnum c = true ∨ c ∈ ['#', '.', ':', '&', '*', '[']) := by
  cases c with
  | nil => exact absurd rfl (compoundText_ne h)
  | cons s l =>
    obtain ⟨a, b, rfl, hs⟩ := compoundText_first h
    obtain ⟨d, r, rfl, hd⟩ := simpleText_head hs
    exact ⟨d, r ++ b, rfl, hd⟩

theorem mark_sub {c : Char} (h : c ∈ ['#', '.', ':', '&', '*', '[']) :
    c ∈ "#.:&*[]>+~,{};=!%$\"'() \t\r\n".toList ∧ c ≠ '-' ∧ c ≠ '_' := by
  simp only [List.mem_cons, List.not_mem_nil, or_false] at h
  rcases h with h | h | h | h | h | h <;> subst h <;> decide

theorem many_compound (hp : Plain ws alnum) {c : Compound} {t i : List Char} (h : CompoundText ws alnum c t)
    (he : Ends alnum i) (hs : simple ws alnum i = none) : many (simple ws alnum) (t ++ i) = some (c, i) := by
  induction h with
  | one h =>
    have h1 := simple_text hp h (i := i) (fun _ => he)
    exact many_cons h1 (simple_reads _ _ _ h1) (many_none hs)
  | @cons s t s' r t' h hf hc ih =>
    have h1 := simple_text hp h (i := t' ++ i) (by
      intro hn
      obtain ⟨a, b, e, ha⟩ := compoundText_first hc
      rcases simpleText_mark ha with ht | ⟨d, l, e2, hd⟩
      · exfalso
        rcases hf ht with h | h | ⟨n, v, h⟩ <;> subst h <;> simp [named] at hn
      · subst e e2
        obtain ⟨m1, m2, m3⟩ := mark_sub hd
        exact marks_name hp m1 m2 m3)
    rw [List.append_assoc]
    exact many_cons h1 (simple_reads _ _ _ h1) ih

theorem compound_text (hp : Plain ws alnum) {c : Compound} {t i : List Char} (h : CompoundText ws alnum c t)
    (he : Ends alnum i) (hs : simple ws alnum i = none) : compound ws alnum (t ++ i) = some (c, i) := by
  have hm := many_compound hp h he hs
  have hne := compoundText_ne h
  rw [many_eq] at hm
  cases hx : simple ws alnum (t ++ i) with
  | none => rw [hx] at hm; simp at hm; exact absurd hm.1 hne
  | some x =>
    obtain ⟨a, r⟩ := x
    rw [hx] at hm
    simp only at hm
    rw [if_pos (simple_reads _ _ _ hx)] at hm
    simp only [Option.map_eq_some_iff] at hm
    obtain ⟨⟨l, r'⟩, h1, h2⟩ := hm
    simp only [Prod.mk.injEq] at h2
    unfold compound
    simp only [Option.bind_eq_bind, hx, Option.bind_some, h1]
    rw [h2.1, h2.2]
    rfl

/-- What may stand after a complex selector. -/
structure Stop (ws alnum : Char → Bool) (i : List Char) : Prop where
  ends : Ends alnum i
  here : simple ws alnum i = none
  later : simple ws alnum (skip i) = none
  symbol : symbol (skip i) = none

theorem complexLoop_enough : ∀ n m cur i, i.length < n → i.length < m →
    complexLoop ws alnum n cur i = complexLoop ws alnum m cur i := by
  intro n
  induction n with
  | zero => intro m cur i h; omega
  | succ n ih =>
    intro m cur i h1 h2
    obtain ⟨m, rfl⟩ : ∃ k, m = k + 1 := ⟨m - 1, by omega⟩
    have hk := skip_length i
    unfold complexLoop
    simp only
    cases hs : symbol (skip i) with
    | some x =>
      obtain ⟨k, after⟩ := x
      have ha : after.length < (skip i).length := by
        unfold symbol at hs
        split at hs <;> simp at hs <;> (obtain ⟨-, rfl⟩ := hs; simp_all)
      simp only
      cases hc : compound ws alnum (skip after) with
      | none => rfl
      | some y =>
        have := compound_reads _ y.1 y.2 hc
        have := skip_length after
        simp only
        rw [ih m y.1 y.2 (by omega) (by omega)]
    | none =>
      simp only
      split
      · cases hc : compound ws alnum (skip i) with
        | none => rfl
        | some y =>
          have := compound_reads _ y.1 y.2 hc
          simp only
          rw [ih m y.1 y.2 (by omega) (by omega)]
      · rfl

theorem head_not_symbol (hp : Plain ws alnum) {c : Char} {r : List Char}
    (h : isName alnum c = true ∨ c ∈ ['#', '.', ':', '&', '*', '[']) :
    symbol (c :: r) = none ∧ isBlank c = false := by
  have hne : ∀ d ∈ ['>', '+', '~', ' ', '\t', '\r', '\n'], c ≠ d := by
    rintro d hd rfl
    rcases h with h | h
    · have hm : c ∈ "#.:&*[]>+~,{};=!%$\"'() \t\r\n".toList ∧ c ≠ '-' ∧ c ≠ '_' := by
        simp only [List.mem_cons, List.not_mem_nil, or_false] at hd
        rcases hd with h | h | h | h | h | h | h <;> subst h <;> decide
      rw [hp.mark hm.1 hm.2.1 hm.2.2] at h
      simp at h
    · simp only [List.mem_cons, List.not_mem_nil, or_false] at hd
      rcases hd with h' | h' | h' | h' | h' | h' | h' <;> subst h' <;> simp at h
  constructor
  · unfold symbol
    split
    · rename_i he; simp at he; exact absurd he.1 (hne '>' (by decide))
    · rename_i he; simp at he; exact absurd he.1 (hne '+' (by decide))
    · rename_i he; simp at he; exact absurd he.1 (hne '~' (by decide))
    · rfl
  · simp [isBlank, hne ' ' (by decide), hne '\t' (by decide), hne '\r' (by decide), hne '\n' (by decide)]

theorem gap_ends (hp : Plain ws alnum) {g i : List Char} (hg : Gap g) (he : Ends alnum i) : Ends alnum (g ++ i) := by
  cases g with
  | nil => exact he
  | cons c g =>
    refine marks_name hp ?_ ?_ ?_ <;>
      (rcases hg c (by simp) with h | h | h | h <;> subst h <;> decide)

theorem gap_simple (hp : Plain ws alnum) {g i : List Char} (hg : Gap g) (he : Ends alnum i)
    (h : simple ws alnum i = none) : simple ws alnum (g ++ i) = none := by
  cases g with
  | nil => exact h
  | cons c g =>
    refine simple_none (gap_ends hp hg he) ?_
    intro d hd
    simp at hd
    subst hd
    rcases hg c (by simp) with h | h | h | h <;> subst h <;> decide

theorem complexText_head {s : Complex} {t : List Char} (h : ComplexText ws alnum s t) :
    ∃ c r, t = c :: r ∧ (isName alnum c = true ∨ c ∈ ['#', '.', ':', '&', '*', '[']) := by
  cases h with
  | one h => exact compoundText_head h
  | cons h _ _ =>
    obtain ⟨c, r, rfl, hc⟩ := compoundText_head h
    exact ⟨c, _, rfl, hc⟩

theorem complex_steps (hp : Plain ws alnum) {s : Complex} {t i : List Char} (h : ComplexText ws alnum s t)
    (hs : Stop ws alnum i) : ∃ c i', compound ws alnum (t ++ i) = some (c, i') ∧
      complexLoop ws alnum (i'.length + 1) c i' = (s, i) := by
  induction h with
  | @one c t h =>
    refine ⟨c, i, compound_text hp h hs.ends hs.here, ?_⟩
    unfold complexLoop
    simp only [hs.symbol, compound_none hs.later]
    split <;> rfl
  | @cons c t k b r t' h hb hr ih =>
    obtain ⟨c', i', h1, h2⟩ := ih
    obtain ⟨d, l, e, hd⟩ := complexText_head hr
    have hsym := head_not_symbol hp (r := l ++ i) hd
    have hskip : skip (t' ++ i) = t' ++ i := by rw [e]; exact skip_cons hsym.2 _
    have hlen : i'.length < (t' ++ i).length := compound_reads _ _ _ h1
    have symb : ∀ (m : Char) (km : Combinator) (g g' : List Char), m ∈ ['>', '+', '~'] → Gap g → Gap g' →
        (∀ r, symbol (m :: r) = some (km, r)) → k = km → b = g ++ m :: g' →
        ∃ c0 i0, compound ws alnum (t ++ b ++ t' ++ i) = some (c0, i0) ∧
          complexLoop ws alnum (i0.length + 1) c0 i0 = (⟨c, k⟩ :: r, i) := by
      intro m km g g' hm hg hg' hsy hk hb
      subst hk hb
      have hmm : m ∈ "#.:&*[]>+~,{};=!%$\"'() \t\r\n".toList ∧ m ≠ '-' ∧ m ≠ '_' ∧ isBlank m = false ∧
          m ∉ ['#', '.', ':', '&', '*', '['] := by
        simp only [List.mem_cons, List.not_mem_nil, or_false] at hm
        rcases hm with h | h | h <;> subst h <;> decide
      have hm1 : Ends alnum (m :: (g' ++ t' ++ i)) := marks_name hp hmm.1 hmm.2.1 hmm.2.2.1
      have hm2 : simple ws alnum (m :: (g' ++ t' ++ i)) = none := simple_none hm1 (by
        intro x hx; simp only [List.head?_cons, Option.some.injEq] at hx; subst hx; exact hmm.2.2.2.2)
      have ee : t ++ (g ++ m :: g') ++ t' ++ i = t ++ (g ++ m :: (g' ++ t' ++ i)) := by simp
      refine ⟨c, g ++ m :: (g' ++ t' ++ i), ?_, ?_⟩
      · rw [ee]
        exact compound_text hp h (gap_ends hp hg hm1) (gap_simple hp hg hm1 hm2)
      · unfold complexLoop
        rw [skip_gap hg, skip_cons hmm.2.2.2.1]
        simp only [hsy]
        rw [List.append_assoc, skip_gap hg', hskip, h1]
        simp only
        rw [complexLoop_enough _ (i'.length + 1) c' i' (by simp at hlen ⊢; omega) (by omega), h2]
    cases hb with
    | descendant hg hne =>
      have hsp : Ends alnum (b ++ (t' ++ i)) ∧ simple ws alnum (b ++ (t' ++ i)) = none := by
        cases b with
        | nil => exact absurd rfl hne
        | cons x g =>
          have hx := hg x (by simp)
          have h1 : Ends alnum (x :: (g ++ (t' ++ i))) := by
            refine marks_name hp ?_ ?_ ?_ <;> (rcases hx with h | h | h | h <;> subst h <;> decide)
          refine ⟨h1, simple_none h1 ?_⟩
          intro y hy
          simp only [List.cons_append, List.head?_cons, Option.some.injEq] at hy
          subst hy
          rcases hx with h | h | h | h <;> subst h <;> decide
      refine ⟨c, b ++ (t' ++ i), ?_, ?_⟩
      · have := compound_text hp h hsp.1 hsp.2
        simpa using this
      · unfold complexLoop
        rw [skip_gap hg, hskip]
        have hsy : symbol (t' ++ i) = none := by rw [e]; exact hsym.1
        simp only [hsy]
        rw [if_pos (by have := List.length_pos_iff.2 hne; simp; omega), h1]
        simp only
        rw [complexLoop_enough _ (i'.length + 1) c' i' (by simp at hlen ⊢; omega) (by omega), h2]
    | child hg hg' => exact symb '>' .child _ _ (by decide) hg hg' (fun _ => rfl) rfl rfl
    | adjacent hg hg' => exact symb '+' .adjacentSibling _ _ (by decide) hg hg' (fun _ => rfl) rfl rfl
    | sibling hg hg' => exact symb '~' .generalSibling _ _ (by decide) hg hg' (fun _ => rfl) rfl rfl

theorem complex_text (hp : Plain ws alnum) {s : Complex} {t i : List Char} (h : ComplexText ws alnum s t)
    (hs : Stop ws alnum i) : complex ws alnum (t ++ i) = some (s, i) := by
  obtain ⟨c, i', h1, h2⟩ := complex_steps hp h hs
  unfold complex
  simp only [Option.bind_eq_bind, h1, Option.bind_some, h2]
  rfl

theorem complexLoop_length : ∀ n cur i, (complexLoop ws alnum n cur i).2.length ≤ i.length := by
  intro n
  induction n with
  | zero => intro cur i; simp [complexLoop]
  | succ n ih =>
    intro cur i
    have hk := skip_length i
    unfold complexLoop
    simp only
    cases hs : symbol (skip i) with
    | some x =>
      obtain ⟨k, after⟩ := x
      have ha : after.length < (skip i).length := by
        unfold symbol at hs
        split at hs <;> simp at hs <;> (obtain ⟨-, rfl⟩ := hs; simp_all)
      simp only
      cases hc : compound ws alnum (skip after) with
      | none => simp
      | some y =>
        have := compound_reads _ y.1 y.2 hc
        have := skip_length after
        have := ih y.1 y.2
        simp only
        omega
    | none =>
      simp only
      split
      · cases hc : compound ws alnum (skip i) with
        | none => simp
        | some y =>
          have := compound_reads _ y.1 y.2 hc
          have := ih y.1 y.2
          simp only
          omega
      · simp

theorem complex_reads : Reads (complex ws alnum) := by
  intro i a r h
  unfold complex at h
  simp only [Option.bind_eq_bind, Option.bind_eq_some_iff] at h
  obtain ⟨⟨c, i1⟩, h1, h2⟩ := h
  simp at h2
  have := compound_reads _ _ _ h1
  have := complexLoop_length (ws := ws) (alnum := alnum) (i1.length + 1) c i1
  rw [h2] at this
  simp at this
  omega

theorem another_reads : Reads (another ws alnum) := by
  intro i a r h
  unfold another at h
  simp only [Option.bind_eq_bind, Option.bind_eq_some_iff] at h
  obtain ⟨i1, h1, h2⟩ := h
  have e := chr_some h1
  have := complex_reads _ _ _ h2
  have := skip_length i
  have := skip_length i1
  rw [e] at *
  simp at *
  omega

/-- What may stand after a list of selectors. -/
structure StopList (ws alnum : Char → Bool) (i : List Char) : Prop extends Stop ws alnum i where
  comma : chr ',' (skip i) = none

theorem gap_mark_stop (hp : Plain ws alnum) {g : List Char} {m : Char} {i : List Char} (hg : Gap g)
    (hm : m ∈ [',', '{', '}', ';', '=', '!']) : Stop ws alnum (g ++ m :: i) := by
  have hmm : m ∈ "#.:&*[]>+~,{};=!%$\"'() \t\r\n".toList ∧ m ≠ '-' ∧ m ≠ '_' ∧ isBlank m = false ∧
      m ∉ ['#', '.', ':', '&', '*', '['] ∧ m ≠ '>' ∧ m ≠ '+' ∧ m ≠ '~' := by
    simp only [List.mem_cons, List.not_mem_nil, or_false] at hm
    rcases hm with h | h | h | h | h | h <;> subst h <;> decide
  have hm1 : Ends alnum (m :: i) := marks_name hp hmm.1 hmm.2.1 hmm.2.2.1
  have hm2 : simple ws alnum (m :: i) = none := simple_none hm1 (by
    intro x hx; simp only [List.head?_cons, Option.some.injEq] at hx; subst hx; exact hmm.2.2.2.2.1)
  refine ⟨gap_ends hp hg hm1, gap_simple hp hg hm1 hm2, ?_, ?_⟩
  · rw [skip_gap hg, skip_cons hmm.2.2.2.1]; exact hm2
  · rw [skip_gap hg, skip_cons hmm.2.2.2.1]
    unfold symbol
    split
    · rename_i he; simp at he; exact absurd he.1 hmm.2.2.2.2.2.1
    · rename_i he; simp at he; exact absurd he.1 hmm.2.2.2.2.2.2.1
    · rename_i he; simp at he; exact absurd he.1 hmm.2.2.2.2.2.2.2
    · rfl

theorem listText_head {s : List Complex} {t : List Char} (h : ListText ws alnum s t) :
    ∃ c r, t = c :: r ∧ (isName alnum c = true ∨ c ∈ ['#', '.', ':', '&', '*', '[']) := by
  cases h with
  | one h => exact complexText_head h
  | cons h _ _ _ =>
    obtain ⟨c, r, rfl, hc⟩ := complexText_head h
    exact ⟨c, _, rfl, hc⟩

theorem list_steps (hp : Plain ws alnum) {s : List Complex} {t i : List Char} (h : ListText ws alnum s t)
    (hs : StopList ws alnum i) : ∃ f r i', s = f :: r ∧ complex ws alnum (t ++ i) = some (f, i') ∧
      many (another ws alnum) i' = some (r, i) := by
  induction h with
  | @one s t h =>
    refine ⟨s, [], i, rfl, complex_text hp h hs.toStop, many_none ?_⟩
    unfold another
    simp [hs.comma]
  | @cons s t g g' r t' h hg hg' hr ih =>
    obtain ⟨f, r', i', e1, h1, h2⟩ := ih
    obtain ⟨d, l, e, hd⟩ := listText_head hr
    have hsym := head_not_symbol hp (r := l ++ i) hd
    have hskip : skip (t' ++ i) = t' ++ i := by rw [e]; exact skip_cons hsym.2 _
    refine ⟨s, r, g ++ ',' :: (g' ++ t' ++ i), rfl, ?_, ?_⟩
    · have := complex_text hp h (gap_mark_stop hp hg (m := ',') (i := g' ++ t' ++ i) (by decide))
      simpa using this
    · have ha : another ws alnum (g ++ ',' :: (g' ++ t' ++ i)) = some (f, i') := by
        unfold another
        rw [skip_gap hg, skip_cons (by decide), chr_cons]
        simp only [Option.bind_eq_bind, Option.bind_some]
        rw [List.append_assoc, skip_gap hg', hskip, h1]
      rw [e1]
      exact many_cons ha (another_reads _ _ _ ha) h2

theorem list_text (hp : Plain ws alnum) {s : List Complex} {t g i : List Char} (h : ListText ws alnum s t)
    (hg : Gap g) (hs : StopList ws alnum i) : selectorList ws alnum (g ++ t ++ i) = some (s, i) := by
  obtain ⟨f, r, i', rfl, h1, h2⟩ := list_steps hp h hs
  obtain ⟨d, l, e, hd⟩ := listText_head h
  have hsym := head_not_symbol hp (r := l ++ i) hd
  have hskip : skip (t ++ i) = t ++ i := by rw [e]; exact skip_cons hsym.2 _
  unfold selectorList
  rw [List.append_assoc, skip_gap hg, hskip]
  simp only [Option.bind_eq_bind, h1, Option.bind_some, h2]
  rfl

theorem selectorList_reads : Reads (selectorList ws alnum) := by
  intro i a r h
  unfold selectorList at h
  simp only [Option.bind_eq_bind, Option.bind_eq_some_iff] at h
  obtain ⟨⟨c, i1⟩, h1, ⟨l, i2⟩, h2, h3⟩ := h
  simp at h3
  obtain ⟨-, rfl⟩ := h3
  have := complex_reads _ _ _ h1
  have := skip_length i
  have := many_length _ (Nat.le_refl _) h2
  simp at this
  omega

end Textual.Parse
