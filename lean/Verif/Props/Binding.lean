import Verif.Model.Binding
import Mathlib.Tactic.Common

/-! Key bindings: C75. -/

namespace Textual.Binding

/-! ### Specification: a binding as it is written -/

/-- A word of a binding with the blanks around it. -/
structure Tok where
  pre : List Char := []
  word : List Char
  post : List Char := []
deriving Repr

def Tok.text (t : Tok) : List Char := t.pre ++ t.word ++ t.post

/-- Blanks around, no blank at either end of the word, no separator in it. -/
def Tok.Ok (ws : Char → Bool) (t : Tok) : Prop :=
  (∀ c ∈ t.pre, ws c = true) ∧ (∀ c ∈ t.post, ws c = true) ∧ t.word ≠ [] ∧
  (∀ c, t.word.head? = some c → ws c = false) ∧ (∀ c, t.word.getLast? = some c → ws c = false) ∧
  (∀ c ∈ t.word, c ≠ ',' ∧ c ≠ '+')

/-- The pieces with a separator between each two. -/
def joinWith (sep : Char) : List (List Char) → List Char
  | [] => []
  | [p] => p
  | p :: ps => p ++ sep :: joinWith sep ps

/-- The text of a binding: alternatives separated by commas, each a list of words separated by `+`. -/
def written (alts : List (List Tok)) : List Char :=
  joinWith ',' (alts.map (fun a => joinWith '+' (a.map Tok.text)))

/-- The names of the modifiers. -/
def ctrlNames : List (List Char) := ["ctrl".toList, "control".toList]
def shiftNames : List (List Char) := ["shift".toList]
def altNames : List (List Char) := ["alt".toList, "meta".toList, "super".toList]

def isMod (w : List Char) : Bool := decide (w ∈ ctrlNames ++ shiftNames ++ altNames)

/-- The names of the keys: the long names, and every single character. -/
def KeyName (w : List Char) (k : Key) : Prop :=
  (w, k) ∈ [("enter".toList, Key.enter), ("escape".toList, .esc), ("esc".toList, .esc), ("tab".toList, .tab),
    ("backtab".toList, .backTab), ("space".toList, .char ' '), ("up".toList, .up), ("down".toList, .down),
    ("left".toList, .left), ("right".toList, .right), ("home".toList, .home), ("end".toList, .end),
    ("pageup".toList, .pageUp), ("pagedown".toList, .pageDown), ("backslash".toList, .char '\\')] ∨
  ∃ c, w = [c] ∧ k = .char c

/-- The same key: equal, or the same letter in another case. -/
def SameKey (k k' : Key) : Prop := k = k' ∨ ∃ c d, k = .char c ∧ k' = .char d ∧ asciiLower c = asciiLower d

/-- The event is the chord with these words (in lower case): the last word that is no modifier names its
key; it has every modifier named, and apart from SHIFT no other. -/
def IsChord (ev : Event) (words : List (List Char)) : Prop :=
  (∃ w k, (words.filter (fun w => !isMod w)).getLast? = some w ∧ KeyName w k ∧ SameKey k ev.code) ∧
  (ev.mods.ctrl = true ↔ ∃ w ∈ words, w ∈ ctrlNames) ∧
  (ev.mods.alt = true ↔ ∃ w ∈ words, w ∈ altNames) ∧
  ((∃ w ∈ words, w ∈ shiftNames) → ev.mods.shift = true) ∧
  ev.mods.other = false

/-! ### Splitting and trimming -/

theorem split_ne_nil (sep : Char) (s : List Char) : split sep s ≠ [] := by
  cases s with
  | nil => simp [split]
  | cons c s =>
    rw [split]
    split
    · simp
    · split <;> simp

theorem split_none (sep : Char) (s : List Char) (h : sep ∉ s) : split sep s = [s] := by
  induction s with
  | nil => rfl
  | cons c s ih =>
    rw [split, if_neg (fun e => h (by simp [e])), ih (fun hm => h (by simp [hm]))]

theorem split_append (sep : Char) (s t : List Char) (h : sep ∉ s) : split sep (s ++ sep :: t) = s :: split sep t := by
  induction s with
  | nil => rw [List.nil_append, split, if_pos rfl]
  | cons c s ih =>
    rw [List.cons_append, split, if_neg (fun e => h (by simp [e])), ih (fun hm => h (by simp [hm]))]

theorem split_join (sep : Char) : ∀ ps : List (List Char), ps ≠ [] → (∀ p ∈ ps, sep ∉ p) →
    split sep (joinWith sep ps) = ps := by
  intro ps
  induction ps with
  | nil => intro h; exact absurd rfl h
  | cons p ps ih =>
    intro _ h
    cases ps with
    | nil => exact split_none _ _ (h p (by simp))
    | cons q ps =>
      rw [joinWith, split_append _ _ _ (h p (by simp)), ih (by simp) (fun x hx => h x (by simp [hx]))]
      · simp

theorem split_suffix (sep : Char) (w : List Char) (hw : sep ∉ w) : ∀ s : List Char,
    ∃ init last, split sep s = init ++ [last] ∧ split sep (s ++ w) = init ++ [last ++ w] := by
  intro s
  induction s with
  | nil => exact ⟨[], [], rfl, by rw [List.nil_append, split_none _ _ hw]; rfl⟩
  | cons c s ih =>
    obtain ⟨init, last, h1, h2⟩ := ih
    rw [List.cons_append]
    by_cases hc : c = sep
    · refine ⟨[] :: init, last, ?_, ?_⟩
      · rw [split, if_pos hc, h1]; rfl
      · rw [split, if_pos hc, h2]; rfl
    · cases init with
      | nil =>
        refine ⟨[], c :: last, ?_, ?_⟩
        · rw [split, if_neg hc, h1]; rfl
        · rw [split, if_neg hc, h2]; rfl
      | cons p init =>
        refine ⟨(c :: p) :: init, last, ?_, ?_⟩
        · rw [split, if_neg hc, h1]; rfl
        · rw [split, if_neg hc, h2]; rfl

theorem dropWhile_pad (ws : Char → Bool) (pre rest : List Char) (h : ∀ c ∈ pre, ws c = true) :
    (pre ++ rest).dropWhile ws = rest.dropWhile ws := by
  induction pre with
  | nil => rfl
  | cons c pre ih =>
    rw [List.cons_append, List.dropWhile_cons_of_pos (h c (by simp))]
    exact ih (fun d hd => h d (by simp [hd]))

theorem trim_pre (ws : Char → Bool) (pre s : List Char) (h : ∀ c ∈ pre, ws c = true) : trim ws (pre ++ s) = trim ws s := by
  unfold trim; rw [dropWhile_pad ws pre s h]

theorem trim_blank (ws : Char → Bool) (s : List Char) (h : ∀ c ∈ s, ws c = true) : trim ws s = [] := by
  have := trim_pre ws s [] h
  rw [List.append_nil] at this
  rw [this]; rfl

theorem trim_post (ws : Char → Bool) (post s : List Char) (h : ∀ c ∈ post, ws c = true) : trim ws (s ++ post) = trim ws s := by
  by_cases hs : ∀ c ∈ s, ws c = true
  · rw [trim_blank ws s hs, trim_blank]
    intro c hc
    rcases List.mem_append.1 hc with hc | hc
    · exact hs c hc
    · exact h c hc
  · have key : ∀ s : List Char, (¬ ∀ c ∈ s, ws c = true) → (s ++ post).dropWhile ws = s.dropWhile ws ++ post := by
      intro s
      induction s with
      | nil => intro h; exact absurd (by simp) h
      | cons c s ih =>
        intro hn
        by_cases hc : ws c = true
        · rw [List.cons_append, List.dropWhile_cons_of_pos hc, List.dropWhile_cons_of_pos hc]
          apply ih
          intro hall
          apply hn
          intro d hd
          rcases List.mem_cons.1 hd with rfl | hd
          · exact hc
          · exact hall d hd
        · rw [List.cons_append, List.dropWhile_cons_of_neg hc, List.dropWhile_cons_of_neg hc, List.cons_append]
    unfold trim
    rw [key s hs, List.reverse_append, dropWhile_pad ws _ _ (fun c hc => h c (List.mem_reverse.1 hc))]

theorem trim_tok {ws : Char → Bool} {t : Tok} (h : t.Ok ws) : trim ws t.text = t.word := by
  obtain ⟨h1, h2, h3, h4, h5, _⟩ := h
  unfold Tok.text
  rw [trim_post ws _ _ h2, trim_pre ws _ _ h1]
  unfold trim
  obtain ⟨c, w, hw⟩ := List.exists_cons_of_ne_nil h3
  have hc := h4 c (by rw [hw]; rfl)
  have e1 : t.word.dropWhile ws = t.word := by rw [hw, List.dropWhile_cons_of_neg (by simp [hc])]
  rw [e1]
  obtain ⟨d, w', hw'⟩ := List.exists_cons_of_ne_nil (l := t.word.reverse) (by simpa using h3)
  have hd := h5 d (by rw [List.getLast?_eq_head?_reverse, hw']; rfl)
  have e2 : t.word.reverse.dropWhile ws = t.word.reverse := by rw [hw', List.dropWhile_cons_of_neg (by simp [hd])]
  rw [e2, List.reverse_reverse]

/-- Blanks around a whole part do not change the trimmed pieces. -/
theorem split_trim (ws : Char → Bool) (sep : Char) (hsep : ws sep = false) (s : List Char) :
    (split sep (trim ws s)).map (trim ws) = (split sep s).map (trim ws) := by
  have hl : ∀ s : List Char, (split sep (s.dropWhile ws)).map (trim ws) = (split sep s).map (trim ws) := by
    intro s
    induction s with
    | nil => rfl
    | cons c s ih =>
      by_cases hc : ws c = true
      · rw [List.dropWhile_cons_of_pos hc, ih]
        have hne : c ≠ sep := by intro e; rw [e, hsep] at hc; cases hc
        rw [split, if_neg hne]
        obtain ⟨p, ps, e⟩ := List.exists_cons_of_ne_nil (split_ne_nil sep s)
        rw [e]
        dsimp only
        rw [List.map_cons, List.map_cons, show c :: p = [c] ++ p from rfl, trim_pre ws [c] p (by simpa using hc)]
      · rw [List.dropWhile_cons_of_neg hc]
  have hr : ∀ s : List Char, (split sep (s.reverse.dropWhile ws).reverse).map (trim ws) = (split sep s).map (trim ws) := by
    intro s
    have e : (s.reverse.dropWhile ws).reverse ++ (s.reverse.takeWhile ws).reverse = s := by
      rw [← List.reverse_append, List.takeWhile_append_dropWhile, List.reverse_reverse]
    have hw : ∀ c ∈ (s.reverse.takeWhile ws).reverse, ws c = true := by
      intro c hc
      have h1 := List.mem_reverse.1 hc
      have h2 := List.all_takeWhile (p := ws) (l := s.reverse)
      exact List.all_eq_true.1 h2 c h1
    obtain ⟨init, last, e1, e2⟩ := split_suffix sep (s.reverse.takeWhile ws).reverse
      (fun hm => by have := hw _ hm; rw [hsep] at this; cases this) (s.reverse.dropWhile ws).reverse
    rw [e] at e2
    rw [e1, e2, List.map_append, List.map_append, List.map_cons, List.map_cons, trim_post ws _ _ hw]
  show (split sep ((s.dropWhile ws).reverse.dropWhile ws).reverse).map (trim ws) = _
  rw [hr, hl]

/-! ### Names -/

theorem parseKeyToken_iff (w : List Char) (k : Key) : parseKeyToken w = some k ↔ KeyName w k := by
  unfold parseKeyToken KeyName
  constructor
  · intro h
    by_cases h0 : w = "enter".toList
    · rw [if_pos h0] at h; cases h; rw [h0]; simp
    rw [if_neg h0] at h
    by_cases h1 : w = "escape".toList ∨ w = "esc".toList
    · rw [if_pos h1] at h; cases h; rcases h1 with e | e <;> rw [e] <;> simp
    rw [if_neg h1] at h
    by_cases h2 : w = "tab".toList
    · rw [if_pos h2] at h; cases h; rw [h2]; simp
    rw [if_neg h2] at h
    by_cases h3 : w = "backtab".toList
    · rw [if_pos h3] at h; cases h; rw [h3]; simp
    rw [if_neg h3] at h
    by_cases h4 : w = "space".toList
    · rw [if_pos h4] at h; cases h; rw [h4]; simp
    rw [if_neg h4] at h
    by_cases h5 : w = "up".toList
    · rw [if_pos h5] at h; cases h; rw [h5]; simp
    rw [if_neg h5] at h
    by_cases h6 : w = "down".toList
    · rw [if_pos h6] at h; cases h; rw [h6]; simp
    rw [if_neg h6] at h
    by_cases h7 : w = "left".toList
    · rw [if_pos h7] at h; cases h; rw [h7]; simp
    rw [if_neg h7] at h
    by_cases h8 : w = "right".toList
    · rw [if_pos h8] at h; cases h; rw [h8]; simp
    rw [if_neg h8] at h
    by_cases h9 : w = "home".toList
    · rw [if_pos h9] at h; cases h; rw [h9]; simp
    rw [if_neg h9] at h
    by_cases h10 : w = "end".toList
    · rw [if_pos h10] at h; cases h; rw [h10]; simp
    rw [if_neg h10] at h
    by_cases h11 : w = "pageup".toList
    · rw [if_pos h11] at h; cases h; rw [h11]; simp
    rw [if_neg h11] at h
    by_cases h12 : w = "pagedown".toList
    · rw [if_pos h12] at h; cases h; rw [h12]; simp
    rw [if_neg h12] at h
    by_cases h13 : w = "backslash".toList
    · rw [if_pos h13] at h; cases h; rw [h13]; simp
    rw [if_neg h13] at h
    right
    split at h
    · cases h; exact ⟨_, rfl, rfl⟩
    · cases h
  · rintro (h | ⟨c, rfl, rfl⟩)
    · simp only [List.mem_cons, Prod.mk.injEq, List.not_mem_nil, or_false] at h
      rcases h with ⟨rfl, rfl⟩ | ⟨rfl, rfl⟩ | ⟨rfl, rfl⟩ | ⟨rfl, rfl⟩ | ⟨rfl, rfl⟩ | ⟨rfl, rfl⟩ | ⟨rfl, rfl⟩ |
        ⟨rfl, rfl⟩ | ⟨rfl, rfl⟩ | ⟨rfl, rfl⟩ | ⟨rfl, rfl⟩ | ⟨rfl, rfl⟩ | ⟨rfl, rfl⟩ | ⟨rfl, rfl⟩ | ⟨rfl, rfl⟩ <;> decide
    · simp

theorem keyMatches_iff (k k' : Key) : keyMatches k k' = true ↔ SameKey k k' := by
  unfold SameKey
  cases k <;> cases k' <;> simp [keyMatches]
  intro h
  rw [h]

/-- What the loop over the tokens computes. -/
theorem readTokens_spec (lower : List Char → List Char) : ∀ (ts : List (List Char)) (m : Mods) (k : Option (List Char)),
    readTokens lower ts m k =
      ({ ctrl := m.ctrl || (ts.map lower).any (· ∈ ctrlNames), shift := m.shift || (ts.map lower).any (· ∈ shiftNames),
         alt := m.alt || (ts.map lower).any (· ∈ altNames), other := m.other },
       ((ts.map lower).filter (fun w => !isMod w)).getLast?.or k) := by
  intro ts
  induction ts with
  | nil => intro m k; simp [readTokens]
  | cons t ts ih =>
    intro m k
    rw [readTokens]
    by_cases h1 : lower t = "ctrl".toList ∨ lower t = "control".toList
    · rw [if_pos h1, ih]
      rcases h1 with h1 | h1 <;> simp [h1, isMod, ctrlNames, shiftNames, altNames]
    rw [if_neg h1]
    by_cases h2 : lower t = "shift".toList
    · rw [if_pos h2, ih]
      simp [h2, isMod, ctrlNames, shiftNames, altNames]
    rw [if_neg h2]
    by_cases h3 : lower t = "alt".toList
    · rw [if_pos h3, ih]
      simp [h3, isMod, ctrlNames, shiftNames, altNames]
    rw [if_neg h3]
    by_cases h4 : lower t = "meta".toList ∨ lower t = "super".toList
    · rw [if_pos h4, ih]
      rcases h4 with h4 | h4 <;> simp [h4, isMod, ctrlNames, shiftNames, altNames]
    rw [if_neg h4, ih]
    have n1 : lower t ∉ ctrlNames := by simpa [ctrlNames] using h1
    have n2 : lower t ∉ shiftNames := by simpa [shiftNames] using h2
    have n3 : lower t ∉ altNames := by
      simp only [altNames, List.mem_cons, List.not_mem_nil, or_false, not_or]
      exact ⟨h3, fun e => h4 (.inl e), fun e => h4 (.inr e)⟩
    have n4 : isMod (lower t) = false := by
      simp [isMod, n1, n2, n3]
    rw [List.map_cons, List.filter_cons_of_pos (by simp [n4])]
    simp only [List.any_cons, n1, n2, n3, decide_false, Bool.false_or]
    congr 1
    cases hg : ((ts.map lower).filter (fun w => !isMod w)).getLast? with
    | none =>
      have : (ts.map lower).filter (fun w => !isMod w) = [] := by
        rwa [List.getLast?_eq_none_iff] at hg
      rw [this]; rfl
    | some x =>
      have hne : (ts.map lower).filter (fun w => !isMod w) ≠ [] := by
        intro e; rw [e] at hg; cases hg
      rw [List.getLast?_cons, hg]
      rfl

/-- The test of the modifiers. -/
theorem mods_accepted : ∀ c s a o rc rs ra km : Bool,
    (if !(Mods.mk c s a o).contains ⟨false || rc, false || rs, false || ra, false⟩ then false
      else if ((Mods.mk c s a o).minus ⟨false || rc, false || rs, false || ra, false⟩).minus { shift := true } ≠ {} then false
      else km) = true ↔
    km = true ∧ (c = true ↔ rc = true) ∧ (a = true ↔ ra = true) ∧ (rs = true → s = true) ∧ o = false := by
  decide

/-- What a part matches, in terms of its trimmed non-empty pieces. -/
theorem matchPart_spec (ws : Char → Bool) (lower : List Char → List Char) (ev : Event) (part : List Char) :
    matchPart ws lower ev part = true ↔
      IsChord ev ((((split '+' part).map (trim ws)).filter (fun t => !t.isEmpty)).map lower) := by
  unfold matchPart
  dsimp only
  rw [readTokens_spec]
  dsimp only
  generalize (((split '+' part).map (trim ws)).filter (fun t => !t.isEmpty)).map lower = words
  unfold IsChord
  have hany : ∀ names : List (List Char), (∃ w ∈ words, w ∈ names) ↔ words.any (· ∈ names) = true := by
    intro names; simp
  rw [hany, hany, hany]
  generalize words.any (· ∈ ctrlNames) = rc
  generalize words.any (· ∈ altNames) = ra
  generalize words.any (· ∈ shiftNames) = rs
  rw [Option.or_none]
  generalize (words.filter (fun w => !isMod w)).getLast? = last
  cases last with
  | none => simp
  | some w =>
    dsimp only
    cases hk : parseKeyToken w with
    | none =>
      simp only [Bool.false_eq_true, false_iff]
      rintro ⟨⟨w', k, e, hn, _⟩, _⟩
      cases e
      rw [(parseKeyToken_iff w k).2 hn] at hk
      cases hk
    | some k =>
      dsimp only
      have hkey : (∃ w' k', some w = some w' ∧ KeyName w' k' ∧ SameKey k' ev.code) ↔ keyMatches k ev.code = true := by
        constructor
        · rintro ⟨w', k', e, hn, hs⟩
          cases e
          have := (parseKeyToken_iff w k').2 hn
          rw [hk] at this
          cases this
          exact (keyMatches_iff _ _).2 hs
        · intro h
          exact ⟨w, k, rfl, (parseKeyToken_iff w k).1 hk, (keyMatches_iff _ _).1 h⟩
      rw [hkey]
      generalize keyMatches k ev.code = km
      exact mods_accepted ev.mods.ctrl ev.mods.shift ev.mods.alt ev.mods.other rc rs ra km

theorem matches_parts (ws : Char → Bool) (hplus : ws '+' = false) (lower : List Char → List Char) (ev : Event)
    (b : List Char) :
    matchesBinding ws lower ev b = true ↔ ∃ part ∈ split ',' b, matchPart ws lower ev part = true := by
  have htrim : ∀ p, matchPart ws lower ev (trim ws p) = matchPart ws lower ev p := by
    intro p; unfold matchPart; rw [split_trim ws '+' hplus p]
  have hempty : matchPart ws lower ev [] = false := rfl
  unfold matchesBinding
  rw [List.any_eq_true]
  constructor
  · rintro ⟨p, hp, hm⟩
    obtain ⟨q, hq, rfl⟩ := List.mem_map.1 (List.mem_filter.1 hp).1
    exact ⟨q, hq, by rw [← htrim]; exact hm⟩
  · rintro ⟨q, hq, hm⟩
    rw [← htrim] at hm
    refine ⟨trim ws q, List.mem_filter.2 ⟨List.mem_map.2 ⟨q, hq, rfl⟩, ?_⟩, hm⟩
    cases e : trim ws q with
    | nil => rw [e, hempty] at hm; cases hm
    | cons c l => rfl

/-! ### C75 -/

theorem sep_not_mem {ws : Char → Bool} (hc : ws ',' = false) (hp : ws '+' = false) {t : Tok} (h : t.Ok ws) :
    ',' ∉ t.text ∧ '+' ∉ t.text := by
  obtain ⟨h1, h2, _, _, _, h6⟩ := h
  unfold Tok.text
  simp only [List.mem_append, not_or]
  refine ⟨⟨⟨fun hm => ?_, fun hm => ?_⟩, fun hm => ?_⟩, ⟨⟨fun hm => ?_, fun hm => ?_⟩, fun hm => ?_⟩⟩
  · have := h1 _ hm; rw [hc] at this; cases this
  · exact (h6 _ hm).1 rfl
  · have := h2 _ hm; rw [hc] at this; cases this
  · have := h1 _ hm; rw [hp] at this; cases this
  · exact (h6 _ hm).2 rfl
  · have := h2 _ hm; rw [hp] at this; cases this

theorem mem_join {sep c : Char} : ∀ {ps : List (List Char)}, c ∈ joinWith sep ps → c = sep ∨ ∃ p ∈ ps, c ∈ p := by
  intro ps
  induction ps with
  | nil => intro h; cases h
  | cons p ps ih =>
    intro h
    cases ps with
    | nil => exact .inr ⟨p, by simp, h⟩
    | cons q ps =>
      rw [joinWith] at h
      · rcases List.mem_append.1 h with h | h
        · exact .inr ⟨p, by simp, h⟩
        · rcases List.mem_cons.1 h with h | h
          · exact .inl h
          · rcases ih h with h | ⟨x, hx, h⟩
            · exact .inl h
            · exact .inr ⟨x, by simp [hx], h⟩
      · simp

/-- C75: a binding as written matches exactly the events that are one of its chords; blanks, letter case
and the order of the modifiers do not matter, and no modifier beyond those named is accepted except SHIFT. -/
theorem binding_exact (ws : Char → Bool) (hc : ws ',' = false) (hp : ws '+' = false) (lower : List Char → List Char)
    (alts : List (List Tok)) (hne : alts ≠ []) (hok : ∀ a ∈ alts, a ≠ [] ∧ ∀ t ∈ a, t.Ok ws) (ev : Event) :
    matchesBinding ws lower ev (written alts) = true ↔
      ∃ a ∈ alts, IsChord ev (a.map (fun t => lower t.word)) := by
  rw [matches_parts ws hp]
  unfold written
  rw [split_join]
  · constructor
    · rintro ⟨part, hpart, hm⟩
      obtain ⟨a, ha, rfl⟩ := List.mem_map.1 hpart
      refine ⟨a, ha, ?_⟩
      rw [matchPart_spec, split_join] at hm
      · have e : ((a.map Tok.text).map (trim ws)).filter (fun t => !t.isEmpty) = a.map (·.word) := by
          rw [List.map_map, List.filter_eq_self.2]
          · exact List.map_congr_left (fun t ht => trim_tok ((hok a ha).2 t ht))
          · intro w hw
            obtain ⟨t, ht, rfl⟩ := List.mem_map.1 hw
            have h := (hok a ha).2 t ht
            simp only [Function.comp_apply, trim_tok h]
            simpa using h.2.2.1
        rw [e, List.map_map] at hm
        exact hm
      · simpa using (hok a ha).1
      · intro p hpm
        obtain ⟨t, ht, rfl⟩ := List.mem_map.1 hpm
        exact (sep_not_mem hc hp ((hok a ha).2 t ht)).2
    · rintro ⟨a, ha, hm⟩
      refine ⟨_, List.mem_map.2 ⟨a, ha, rfl⟩, ?_⟩
      rw [matchPart_spec, split_join]
      · have e : ((a.map Tok.text).map (trim ws)).filter (fun t => !t.isEmpty) = a.map (·.word) := by
          rw [List.map_map, List.filter_eq_self.2]
          · exact List.map_congr_left (fun t ht => trim_tok ((hok a ha).2 t ht))
          · intro w hw
            obtain ⟨t, ht, rfl⟩ := List.mem_map.1 hw
            have h := (hok a ha).2 t ht
            simp only [Function.comp_apply, trim_tok h]
            simpa using h.2.2.1
        rw [e, List.map_map]
        exact hm
      · simpa using (hok a ha).1
      · intro p hpm
        obtain ⟨t, ht, rfl⟩ := List.mem_map.1 hpm
        exact (sep_not_mem hc hp ((hok a ha).2 t ht)).2
  · simpa using hne
  · intro p hpm hm
    obtain ⟨a, ha, rfl⟩ := List.mem_map.1 hpm
    rcases mem_join hm with h | ⟨q, hq, h⟩
    · cases h
    · obtain ⟨t, ht, rfl⟩ := List.mem_map.1 hq
      exact (sep_not_mem hc hp ((hok a ha).2 t ht)).1 h

/-- The tokens of `ctrl+p, f`. -/
def demoBinding : List (List Tok) :=
  [[{ word := "ctrl".toList }, { word := "p".toList }], [{ pre := [' '], word := "f".toList }]]

example : written demoBinding = "ctrl+p, f".toList ∧
    (∀ a ∈ demoBinding, a ≠ [] ∧ ∀ t ∈ a, t.Ok (· == ' ')) := by
  refine ⟨by decide, ?_⟩
  unfold demoBinding Tok.Ok
  simp

example : matchesBinding (· == ' ') (·.map asciiLower) ⟨.char 'P', { ctrl := true, shift := true }⟩ "ctrl+p, f".toList = true ∧
    matchesBinding (· == ' ') (·.map asciiLower) ⟨.char 'p', { ctrl := true, alt := true }⟩ "ctrl+p, f".toList = false ∧
    matchesBinding (· == ' ') (·.map asciiLower) ⟨.char 'f', {}⟩ "ctrl+p, f".toList = true := by decide +kernel

/-- C75: the order of the words before the key does not matter. -/
theorem order_irrelevant (ev : Event) (ms ms' : List (List Char)) (key : List Char)
    (hm : ∀ w ∈ ms, isMod w = true) (h : ∀ w, w ∈ ms ↔ w ∈ ms') (hk : isMod key = false) :
    IsChord ev (ms ++ [key]) ↔ IsChord ev (ms' ++ [key]) := by
  have hf : ∀ l : List (List Char), (∀ w ∈ l, isMod w = true) → (l ++ [key]).filter (fun w => !isMod w) = [key] := by
    intro l hl
    rw [List.filter_append, List.filter_eq_nil_iff.2 (by intro w hw; simp [hl w hw])]
    simp [hk]
  have hex : ∀ names : List (List Char), (∃ w ∈ ms ++ [key], w ∈ names) ↔ ∃ w ∈ ms' ++ [key], w ∈ names := by
    intro names; simp [h]
  unfold IsChord
  rw [hf ms hm, hf ms' (fun w hw => hm w ((h w).2 hw)), hex, hex, hex]

example : ∀ w, w ∈ ["ctrl".toList, "alt".toList] ↔ w ∈ ["alt".toList, "ctrl".toList] := by
  intro w; simp [or_comm]

theorem mem_split {sep c : Char} : ∀ {s p : List Char}, p ∈ split sep s → c ∈ p → c ∈ s ∧ c ≠ sep := by
  intro s
  induction s with
  | nil => intro p hp hc; simp [split] at hp; rw [hp] at hc; cases hc
  | cons d s ih =>
    intro p hp hc
    rw [split] at hp
    by_cases hd : d = sep
    · rw [if_pos hd] at hp
      rcases List.mem_cons.1 hp with rfl | hp
      · cases hc
      · exact ⟨by simp [(ih hp hc).1], (ih hp hc).2⟩
    · rw [if_neg hd] at hp
      obtain ⟨q, qs, e⟩ := List.exists_cons_of_ne_nil (split_ne_nil sep s)
      rw [e] at hp ih
      dsimp only at hp
      rcases List.mem_cons.1 hp with rfl | hp
      · rcases List.mem_cons.1 hc with rfl | hc
        · exact ⟨by simp, hd⟩
        · exact ⟨by simp [(ih (p := q) (by simp) hc).1], (ih (p := q) (by simp) hc).2⟩
      · exact ⟨by simp [(ih (p := p) (by simp [hp]) hc).1], (ih (p := p) (by simp [hp]) hc).2⟩

theorem mem_trim {ws : Char → Bool} {c : Char} {s : List Char} (h : c ∈ trim ws s) : c ∈ s := by
  unfold trim at h
  have h1 := (List.dropWhile_sublist ws).subset (List.mem_reverse.1 h)
  exact (List.dropWhile_sublist ws).subset (List.mem_reverse.1 h1)

/-- C75 is false for the keys `+` and `,`: no binding whatsoever matches them (lower case does not create
these characters). -/
theorem plus_comma_counterexample (ws : Char → Bool) (hp : ws '+' = false) (lower : List Char → List Char)
    (hl : ∀ s, ('+' ∈ lower s → '+' ∈ s) ∧ (',' ∈ lower s → ',' ∈ s)) (mods : Mods) (b : List Char) :
    matchesBinding ws lower ⟨.char '+', mods⟩ b = false ∧ matchesBinding ws lower ⟨.char ',', mods⟩ b = false := by
  have inj : ∀ c : Char, (asciiLower c = '+' → c = '+') ∧ (asciiLower c = ',' → c = ',') := by
    intro c
    unfold asciiLower
    split
    · rename_i h
      have h1 : 65 ≤ c.toNat := h.1
      have h2 : c.toNat ≤ 90 := h.2
      have hk : ∀ k : Fin 26, Char.ofNat (k.1 + 65 + 32) ≠ '+' ∧ Char.ofNat (k.1 + 65 + 32) ≠ ',' := by decide
      have := hk ⟨c.toNat - 65, by omega⟩
      dsimp only at this
      rw [show c.toNat - 65 + 65 = c.toNat by omega] at this
      exact ⟨fun e => absurd e this.1, fun e => absurd e this.2⟩
    · exact ⟨id, id⟩
  have key : ∀ c : Char, (c = '+' ∨ c = ',') → matchesBinding ws lower ⟨.char c, mods⟩ b ≠ true := by
    intro c hc hm
    rw [matches_parts ws hp] at hm
    obtain ⟨part, hpart, hm⟩ := hm
    rw [matchPart_spec] at hm
    obtain ⟨⟨w, k, hw, hn, hs⟩, _⟩ := hm
    -- the word contains the character, the characters of the word come from the binding
    have hsame : ∃ d, k = .char d ∧ d = c := by
      rcases hs with hs | ⟨d, e, hd, he, hde⟩
      · exact ⟨c, hs, rfl⟩
      · cases he
        refine ⟨d, hd, ?_⟩
        rcases hc with rfl | rfl
        · exact (inj d).1 (by rw [hde]; decide)
        · exact (inj d).2 (by rw [hde]; decide)
    obtain ⟨d, rfl, rfl⟩ := hsame
    have hwc : w = [d] := by
      rcases hn with hn | ⟨c', rfl, e⟩
      · exfalso
        simp only [List.mem_cons, Prod.mk.injEq, reduceCtorEq, and_false, List.not_mem_nil, or_false, false_or,
          Key.char.injEq] at hn
        rcases hc with rfl | rfl
        · rcases hn with ⟨_, e⟩ | ⟨_, e⟩ <;> exact absurd e (by decide)
        · rcases hn with ⟨_, e⟩ | ⟨_, e⟩ <;> exact absurd e (by decide)
      · cases e; rfl
    have hmem := (List.mem_filter.1 (List.mem_of_getLast? hw)).1
    obtain ⟨t, ht, e⟩ := List.mem_map.1 hmem
    obtain ⟨q, hq, rfl⟩ := List.mem_map.1 (List.mem_filter.1 ht).1
    have hd : d ∈ lower (trim ws q) := by rw [e, hwc]; simp
    rcases hc with rfl | rfl
    · have := mem_trim ((hl _).1 hd)
      exact (mem_split hq this).2 rfl
    · have := mem_trim ((hl _).2 hd)
      have := (mem_split hq this).1
      exact (mem_split hpart this).2 rfl
  exact ⟨by simpa using key '+' (.inl rfl), by simpa using key ',' (.inr rfl)⟩

example : ∀ s : List Char, ('+' ∈ id s → '+' ∈ s) ∧ (',' ∈ id s → ',' ∈ s) := fun _ => ⟨id, id⟩

/-- C75 is false for Shift+Tab: terminals report it as the key BackTab with SHIFT, which `shift+tab` does
not match. -/
theorem shift_tab_counterexample :
    matchesBinding (· == ' ') (·.map asciiLower) ⟨.backTab, { shift := true }⟩ "shift+tab".toList = false := by
  decide +kernel

end Textual.Binding
