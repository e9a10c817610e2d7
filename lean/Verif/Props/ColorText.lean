import Verif.Model.ColorFn
import Verif.Props.Binding
import Verif.Props.Hsl

/-!
C153: what `rgb(...)` and `hsl(...)` texts mean.
-/

namespace Textual.RgbaColor

/-- A word with white space around it. -/
def Padded (w p : List Char) : Prop :=
  ∃ pre post, (∀ c ∈ pre, c.isWhitespace = true) ∧ (∀ c ∈ post, c.isWhitespace = true) ∧ p = pre ++ w ++ post

/-- A word as it can stand between the commas of a colour function: no white space at its ends, no
commas or parentheses, and written in lower case. -/
def Word (w : List Char) : Prop :=
  w ≠ [] ∧ (∀ c ∈ w, c.isWhitespace = false ∧ c ≠ ',' ∧ c ≠ '(' ∧ c ≠ ')' ∧ c.toLower = c)

/-- A whole number in decimal digits. -/
def Numeral (w : List Char) (n : Nat) : Prop :=
  w ≠ [] ∧ (∀ c ∈ w, c.isDigit = true) ∧ Nat.ofDigitChars 10 w 0 = n

theorem white_facts {c : Char} (h : c.isWhitespace = true) :
    c ≠ ',' ∧ c ≠ '(' ∧ c ≠ ')' ∧ c.toLower = c := by
  have : c = ' ' ∨ c = '\t' ∨ c = '\r' ∨ c = '\n' := by
    simpa [Char.isWhitespace, or_assoc] using h
  rcases this with rfl | rfl | rfl | rfl <;> decide

theorem digit_facts {c : Char} (h : c.isDigit = true) :
    c.isWhitespace = false ∧ c ≠ ',' ∧ c ≠ '(' ∧ c ≠ ')' ∧ c.toLower = c ∧ c ≠ '-' ∧ c ≠ '+' := by
  have h' : 48 ≤ c.val.toNat ∧ c.val.toNat ≤ 57 := by
    simp only [Char.isDigit, ge_iff_le, Bool.and_eq_true, decide_eq_true_eq] at h
    exact ⟨by simpa using UInt32.le_iff_toNat_le.1 h.1, by simpa using UInt32.le_iff_toNat_le.1 h.2⟩
  have ne : ∀ d : Char, d.val.toNat < 48 ∨ 57 < d.val.toNat → c ≠ d := by
    rintro d hd rfl; omega
  refine ⟨?_, ne _ (by decide), ne _ (by decide), ne _ (by decide), ?_, ne _ (by decide), ne _ (by decide)⟩
  · cases hw : c.isWhitespace with
    | false => rfl
    | true =>
      exfalso
      have : c = ' ' ∨ c = '\t' ∨ c = '\r' ∨ c = '\n' := by
        simpa [Char.isWhitespace, or_assoc] using hw
      rcases this with e | e | e | e <;> exact ne _ (by decide) e
  · unfold Char.toLower
    rw [dif_neg]
    rintro ⟨h1, _⟩
    have := UInt32.le_iff_toNat_le.1 h1
    have e : c.toNat = c.val.toNat := rfl
    simp at this
    omega

theorem numeral_word {w : List Char} {n : Nat} (h : Numeral w n) : Word w :=
  ⟨h.1, fun c hc => by
    obtain ⟨h1, h2, h3, h4, h5, _⟩ := digit_facts (h.2.1 c hc)
    exact ⟨h1, h2, h3, h4, h5⟩⟩

theorem trim_eq (s : List Char) : trim s = Binding.trim Char.isWhitespace s := rfl

theorem trim_word {w : List Char} (h : ∀ c ∈ w, c.isWhitespace = false) : trim w = w := by
  have key : ∀ w : List Char, (∀ c ∈ w, c.isWhitespace = false) → w.dropWhile Char.isWhitespace = w := by
    intro w h
    cases w with
    | nil => rfl
    | cons c w => rw [List.dropWhile_cons_of_neg (by simp [h c (by simp)])]
  unfold trim
  rw [key w h, key w.reverse (fun c hc => h c (List.mem_reverse.1 hc)), List.reverse_reverse]

theorem trim_padded {w p : List Char} (hw : Word w) (h : Padded w p) : trim p = w := by
  obtain ⟨pre, post, h1, h2, rfl⟩ := h
  rw [trim_eq, Binding.trim_post _ _ _ h2, Binding.trim_pre _ _ _ h1, ← trim_eq]
  exact trim_word fun c hc => (hw.2 c hc).1

theorem padded_facts {w p : List Char} (hw : Word w) (h : Padded w p) :
    ∀ c ∈ p, c ≠ ',' ∧ c ≠ '(' ∧ c ≠ ')' ∧ c.toLower = c := by
  obtain ⟨pre, post, h1, h2, rfl⟩ := h
  intro c hc
  simp only [List.mem_append] at hc
  rcases hc with (hc | hc) | hc
  · exact white_facts (h1 c hc)
  · exact (hw.2 c hc).2
  · exact white_facts (h2 c hc)

theorem sign_digits {w : List Char} (h : ∀ c ∈ w, c.isDigit = true) : signOf w = (false, w) := by
  cases w with
  | nil => rfl
  | cons c w =>
    obtain ⟨_, _, _, _, _, hm, hp⟩ := digit_facts (h c (by simp))
    unfold signOf
    split
    · rename_i heq; exact absurd (List.cons.inj heq).1 hm
    · rename_i heq; exact absurd (List.cons.inj heq).1 hp
    · rfl

theorem parseU8_numeral {w : List Char} {n : Nat} (h : Numeral w n) (hn : n < 256) : parseU8 w = some n := by
  obtain ⟨h1, h2, h3⟩ := h
  have hI : parseI32 w = some (n : Int) := by
    unfold parseI32
    have e : signOf w = (false, w) := sign_digits h2
    rw [e]
    have hall : w.all Char.isDigit = true := List.all_eq_true.2 h2
    have hne : w.isEmpty = false := by
      cases w with
      | nil => exact absurd rfl h1
      | cons c w => rfl
    simp only [hall, hne, Bool.not_true, Bool.or_self, Bool.false_eq_true, if_false, h3]
    rw [if_neg (by omega)]
  unfold parseU8
  rw [hI]
  simp only [Option.bind_eq_bind, Option.bind_some]
  rw [if_neg (by omega)]
  simp

theorem parseU8_big {w : List Char} {n : Nat} (h : Numeral w n) (hn : 256 ≤ n) : parseU8 w = none := by
  obtain ⟨h1, h2, h3⟩ := h
  have e : signOf w = (false, w) := sign_digits h2
  unfold parseU8 parseI32
  rw [e]
  have hall : w.all Char.isDigit = true := List.all_eq_true.2 h2
  have hne : w.isEmpty = false := by
    cases w with
    | nil => exact absurd rfl h1
    | cons c w => rfl
  simp only [hall, hne, Bool.not_true, Bool.or_self, Bool.false_eq_true, if_false, h3]
  split
  · rfl
  · simp only [Option.bind_eq_bind, Option.bind_some]
    rw [if_pos (by omega)]

/-- The comma-separated words of a colour function. -/
theorem components_words (ps ws : List (List Char)) (hne : ps ≠ [])
    (h : List.Forall₂ (fun w p => Word w ∧ Padded w p) ws ps) :
    components (Binding.joinWith ',' ps) = ws := by
  unfold components
  rw [Binding.split_join ',' ps hne]
  · clear hne
    induction h with
    | nil => rfl
    | cons h _ ih => rw [List.map_cons, trim_padded h.1 h.2, ih]
  · intro p hp hc
    obtain ⟨w, hw, hq⟩ : ∃ w, Word w ∧ Padded w p := by
      clear hne hc
      induction h with
      | nil => cases hp
      | @cons w q ws ps h _ ih =>
        rcases List.mem_cons.1 hp with rfl | hp
        · exact ⟨w, h.1, h.2⟩
        · exact ih hp
    exact (padded_facts hw hq _ hc).1 rfl

theorem findIdx_append {s t : List Char} {d : Char} (h : d ∉ s) :
    (s ++ d :: t).findIdx? (· == d) = some s.length := by
  induction s with
  | nil => simp [List.findIdx?_cons]
  | cons c s ih =>
    have hc : (c == d) = false := by
      simp only [List.mem_cons, not_or] at h
      simpa using Ne.symm h.1
    rw [List.cons_append, List.findIdx?_cons, hc, ih (fun hm => h (by simp [hm]))]
    simp

theorem sliceParens_text (name content : List Char) (body : List Char → Option RgbaColor)
    (hn : ∀ c ∈ name, c ≠ '(' ∧ c ≠ ')') (hc : ∀ c ∈ content, c ≠ '(' ∧ c ≠ ')') :
    sliceParens (name ++ '(' :: (content ++ [')'])) body = .ofOption (body content) := by
  unfold sliceParens
  rw [findIdx_append (fun hm => (hn _ hm).1 rfl)]
  have e : name ++ '(' :: (content ++ [')']) = (name ++ '(' :: content) ++ ')' :: [] := by simp
  have h2 : ')' ∉ name ++ '(' :: content := by
    simp only [List.mem_append, List.mem_cons, not_or]
    exact ⟨fun hm => (hn _ hm).2 rfl, by decide, fun hm => (hc _ hm).2 rfl⟩
  simp only
  rw [e, findIdx_append h2]
  simp only
  rw [if_neg (by simp)]
  congr 2
  rw [List.take_left']
  · rw [show name ++ '(' :: content = (name ++ ['(']) ++ content by simp, List.drop_left']
    simp
  · rfl

theorem toLower_lower {l : List Char} (h : ∀ c ∈ l, c.toLower = c) : l.map Char.toLower = l := by
  induction l with
  | nil => rfl
  | cons c l ih => rw [List.map_cons, h c (by simp), ih (fun d hd => h d (by simp [hd]))]

theorem mem_join_facts {ps ws : List (List Char)}
    (h : List.Forall₂ (fun w p => Word w ∧ Padded w p) ws ps) :
    ∀ c ∈ Binding.joinWith ',' ps, c ≠ '(' ∧ c ≠ ')' ∧ c.toLower = c := by
  intro c hc
  rcases Binding.mem_join hc with rfl | ⟨p, hp, hc⟩
  · decide
  · clear * - h hp hc
    induction h with
    | nil => cases hp
    | @cons w q ws ps h _ ih =>
      rcases List.mem_cons.1 hp with rfl | hp
      · exact (padded_facts h.1 h.2 c hc).2
      · exact ih hp

/-- A colour function with its name in any case: the text up to the parenthesis, the comma-separated
words with white space around them, and the closing parenthesis. -/
theorem parse_function (readF : List Char → Option Rat) (named : List Char → Option RgbaColor)
    (name : List Char) (ps ws : List (List Char)) (hne : ps ≠ [])
    (h : List.Forall₂ (fun w p => Word w ∧ Padded w p) ws ps)
    (hname : name.map Char.toLower = "rgb".toList ∨ name.map Char.toLower = "rgba".toList ∨
      name.map Char.toLower = "hsl".toList ∨ name.map Char.toLower = "hsla".toList) :
    parse (colorExt readF named) (name ++ '(' :: (Binding.joinWith ',' ps ++ [')']))
      = .ofOption ((if name.map Char.toLower = "rgb".toList ∨ name.map Char.toLower = "rgba".toList
          then rgbBody readF else hslBody readF) (Binding.joinWith ',' ps)) := by
  set content := Binding.joinWith ',' ps with hcontent
  have facts := mem_join_facts h
  rw [← hcontent] at facts
  have hlow : (name ++ '(' :: (content ++ [')'])).map Char.toLower
      = name.map Char.toLower ++ '(' :: (content ++ [')']) := by
    rw [List.map_append, List.map_cons, List.map_append, toLower_lower (fun c hc => (facts c hc).2.2)]
    rfl
  obtain ⟨c0, rest, hcr⟩ : ∃ c0 rest, name = c0 :: rest := by
    cases name with
    | nil => simp at hname
    | cons c0 rest => exact ⟨c0, rest, rfl⟩
  have hc0 : c0.toLower = 'r' ∨ c0.toLower = 'h' := by
    rw [hcr] at hname
    simp only [List.map_cons] at hname
    rcases hname with e | e | e | e
    · exact .inl (List.cons.inj e).1
    · exact .inl (List.cons.inj e).1
    · exact .inr (List.cons.inj e).1
    · exact .inr (List.cons.inj e).1
  have hc0w : c0.isWhitespace = false := by
    cases hw : c0.isWhitespace with
    | false => rfl
    | true =>
      have e := (white_facts hw).2.2.2
      have : c0 = ' ' ∨ c0 = '\t' ∨ c0 = '\r' ∨ c0 = '\n' := by
        simpa [Char.isWhitespace, or_assoc] using hw
      rw [e] at hc0
      rcases this with rfl | rfl | rfl | rfl <;> exact absurd hc0 (by decide)
  have hc0h : c0 ≠ '#' := by
    rintro rfl
    exact absurd hc0 (by decide)
  have htrim : trim (name ++ '(' :: (content ++ [')'])) = name ++ '(' :: (content ++ [')']) := by
    unfold trim
    have e1 : (name ++ '(' :: (content ++ [')'])).dropWhile Char.isWhitespace
        = name ++ '(' :: (content ++ [')']) := by
      rw [hcr, List.cons_append, List.dropWhile_cons_of_neg (by simp [hc0w])]
    rw [e1]
    have e2 : (name ++ '(' :: (content ++ [')'])).reverse
        = ')' :: (name ++ '(' :: content).reverse := by simp
    rw [e2, List.dropWhile_cons_of_neg (by decide), ← e2, List.reverse_reverse]
  have hparen : '(' ∈ (name ++ '(' :: (content ++ [')'])).map Char.toLower := by
    rw [hlow]; simp
  have hnp : ∀ c ∈ name.map Char.toLower, c ≠ '(' ∧ c ≠ ')' := by
    intro c hc
    rcases hname with e | e | e | e <;> (rw [e] at hc; revert c; decide)
  unfold parse
  simp only [htrim]
  rw [if_neg (by rw [hcr]; simp)]
  rw [if_neg (by intro e; rw [e] at hparen; exact absurd hparen (by decide))]
  rw [if_neg (by intro e; rw [e] at hparen; exact absurd hparen (by decide))]
  split
  · rename_i heq
    rw [hcr, List.cons_append] at heq
    exact absurd (List.cons.inj heq).1 hc0h
  · rw [hlow]
    rcases hname with e | e | e | e <;>
    · rw [e] at hnp ⊢
      simp only [colorExt]
      first
        | rw [if_pos (by simp [List.isPrefixOf_iff_prefix, List.prefix_append]), if_pos (by decide),
            sliceParens_text _ _ _ hnp (fun c hc => ⟨(facts c hc).1, (facts c hc).2.1⟩)]
        | rw [if_neg (by simp [List.isPrefixOf]), if_pos (by simp [List.isPrefixOf]), if_neg (by decide),
            sliceParens_text _ _ _ hnp (fun c hc => ⟨(facts c hc).1, (facts c hc).2.1⟩)]

/-- C153. `rgb(r, g, b)`, with the numbers in decimal, any white space around them and the name in any
case, is the colour with those channels, fully opaque. -/
theorem rgb_text (readF : List Char → Option Rat) (named : List Char → Option RgbaColor)
    (name p1 p2 p3 w1 w2 w3 : List Char) (r g b : Nat)
    (hname : name.map Char.toLower = "rgb".toList ∨ name.map Char.toLower = "rgba".toList)
    (h1 : Padded w1 p1) (h2 : Padded w2 p2) (h3 : Padded w3 p3)
    (n1 : Numeral w1 r) (n2 : Numeral w2 g) (n3 : Numeral w3 b) (hr : r < 256) (hg : g < 256) (hb : b < 256) :
    parse (colorExt readF named) (name ++ '(' :: (p1 ++ ',' :: p2 ++ ',' :: p3 ++ [')'])) = .ok (rgb r g b) := by
  have hf : List.Forall₂ (fun w p => Word w ∧ Padded w p) [w1, w2, w3] [p1, p2, p3] :=
    .cons ⟨numeral_word n1, h1⟩ (.cons ⟨numeral_word n2, h2⟩ (.cons ⟨numeral_word n3, h3⟩ .nil))
  have key := parse_function readF named name [p1, p2, p3] [w1, w2, w3] (by simp) hf
    (hname.elim .inl fun h => .inr (.inl h))
  rw [if_pos hname] at key
  have hc := components_words [p1, p2, p3] [w1, w2, w3] (by simp) hf
  have e : Binding.joinWith ',' [p1, p2, p3] = p1 ++ ',' :: p2 ++ ',' :: p3 := by
    simp [Binding.joinWith]
  rw [e] at key hc
  rw [key]
  unfold rgbBody
  rw [hc]
  simp [parseU8_numeral n1 hr, parseU8_numeral n2 hg, parseU8_numeral n3 hb, alphaOf, Outcome.ofOption, rgb, rgba]

/-- C153. A fourth number is the opacity. -/
theorem rgba_text (readF : List Char → Option Rat) (named : List Char → Option RgbaColor)
    (name p1 p2 p3 p4 w1 w2 w3 w4 : List Char) (r g b : Nat) (a : Rat)
    (hname : name.map Char.toLower = "rgb".toList ∨ name.map Char.toLower = "rgba".toList)
    (h1 : Padded w1 p1) (h2 : Padded w2 p2) (h3 : Padded w3 p3) (h4 : Padded w4 p4)
    (n1 : Numeral w1 r) (n2 : Numeral w2 g) (n3 : Numeral w3 b) (hr : r < 256) (hg : g < 256) (hb : b < 256)
    (hw : Word w4) (ha : readF w4 = some a) :
    parse (colorExt readF named) (name ++ '(' :: (p1 ++ ',' :: p2 ++ ',' :: p3 ++ ',' :: p4 ++ [')']))
      = .ok (rgba r g b a) := by
  have hf : List.Forall₂ (fun w p => Word w ∧ Padded w p) [w1, w2, w3, w4] [p1, p2, p3, p4] :=
    .cons ⟨numeral_word n1, h1⟩ (.cons ⟨numeral_word n2, h2⟩ (.cons ⟨numeral_word n3, h3⟩
      (.cons ⟨hw, h4⟩ .nil)))
  have key := parse_function readF named name [p1, p2, p3, p4] [w1, w2, w3, w4] (by simp) hf
    (hname.elim .inl fun h => .inr (.inl h))
  rw [if_pos hname] at key
  have hc := components_words [p1, p2, p3, p4] [w1, w2, w3, w4] (by simp) hf
  have e : Binding.joinWith ',' [p1, p2, p3, p4] = p1 ++ ',' :: p2 ++ ',' :: p3 ++ ',' :: p4 := by
    simp [Binding.joinWith]
  rw [e] at key hc
  rw [key]
  unfold rgbBody
  rw [hc]
  simp [parseU8_numeral n1 hr, parseU8_numeral n2 hg, parseU8_numeral n3 hb, alphaOf, Outcome.ofOption, ha]

/-- C153. A channel that is not a number from 0 to 255 is an error, whichever of the three it is. -/
theorem rgb_range (readF : List Char → Option Rat) (named : List Char → Option RgbaColor)
    (name p1 p2 p3 w1 w2 w3 : List Char) (r g b : Nat)
    (hname : name.map Char.toLower = "rgb".toList ∨ name.map Char.toLower = "rgba".toList)
    (h1 : Padded w1 p1) (h2 : Padded w2 p2) (h3 : Padded w3 p3)
    (n1 : Numeral w1 r) (n2 : Numeral w2 g) (n3 : Numeral w3 b) (hbad : 256 ≤ r ∨ 256 ≤ g ∨ 256 ≤ b) :
    parse (colorExt readF named) (name ++ '(' :: (p1 ++ ',' :: p2 ++ ',' :: p3 ++ [')'])) = .err := by
  have hf : List.Forall₂ (fun w p => Word w ∧ Padded w p) [w1, w2, w3] [p1, p2, p3] :=
    .cons ⟨numeral_word n1, h1⟩ (.cons ⟨numeral_word n2, h2⟩ (.cons ⟨numeral_word n3, h3⟩ .nil))
  have key := parse_function readF named name [p1, p2, p3] [w1, w2, w3] (by simp) hf
    (hname.elim .inl fun h => .inr (.inl h))
  rw [if_pos hname] at key
  have hc := components_words [p1, p2, p3] [w1, w2, w3] (by simp) hf
  have e : Binding.joinWith ',' [p1, p2, p3] = p1 ++ ',' :: p2 ++ ',' :: p3 := by
    simp [Binding.joinWith]
  rw [e] at key hc
  rw [key]
  unfold rgbBody
  rw [hc]
  have u8 : ∀ {w : List Char} {n : Nat}, Numeral w n → parseU8 w = if n < 256 then some n else none := by
    intro w n hn
    split
    · rename_i h; exact parseU8_numeral hn h
    · rename_i h; exact parseU8_big hn (by omega)
  dsimp only
  rw [u8 n1, u8 n2, u8 n3]
  rcases hbad with h | h | h
  · rw [if_neg (by omega)]; rfl
  · rw [if_neg (c := g < 256) (by omega)]
    split <;> rfl
  · rw [if_neg (c := b < 256) (by omega)]
    split <;> split <;> rfl

/-- The number `n` as the channel of a colour: decimal digits, with or without a sign. -/
def Channel (w : List Char) (n : Nat) : Prop :=
  n < 256 ∧ ∃ ds, Numeral ds n ∧ (w = ds ∨ w = '+' :: ds ∨ w = '-' :: ds ∧ n = 0)

theorem parseU8_channel {w : List Char} {n : Nat} (h : parseU8 w = some n) : Channel w n := by
  unfold parseU8 at h
  cases hI : parseI32 w with
  | none => rw [hI] at h; simp at h
  | some v =>
    rw [hI] at h
    simp only [Option.bind_eq_bind, Option.bind_some] at h
    split at h
    · cases h
    rename_i hr
    have hn := Option.some.inj h
    unfold parseI32 at hI
    generalize hs : signOf w = sd at hI
    obtain ⟨neg, ds⟩ := sd
    have hw : w = ds ∧ neg = false ∨ w = '+' :: ds ∧ neg = false ∨ w = '-' :: ds ∧ neg = true := by
      unfold signOf at hs
      split at hs <;> cases hs <;> simp
    dsimp only at hI
    split at hI
    · cases hI
    rename_i hd
    simp only [Bool.or_eq_true, Bool.not_eq_true', not_or, Bool.not_eq_true, Bool.not_eq_false] at hd
    have hv : (if neg = true then -((Nat.ofDigitChars 10 ds 0 : Nat) : Int) else (Nat.ofDigitChars 10 ds 0 : Nat)) = v := by
      generalize (if neg = true then -((Nat.ofDigitChars 10 ds 0 : Nat) : Int) else (Nat.ofDigitChars 10 ds 0 : Nat)) = u at hI ⊢
      split at hI
      · cases hI
      · exact Option.some.inj hI
    have hne : ds ≠ [] := by rintro rfl; simp at hd
    have hall : ∀ c ∈ ds, c.isDigit = true := List.all_eq_true.1 hd.2
    generalize hk : Nat.ofDigitChars 10 ds 0 = k at *
    rcases hw with ⟨rfl, rfl⟩ | ⟨rfl, rfl⟩ | ⟨rfl, rfl⟩ <;>
      simp only [Bool.false_eq_true, if_true, if_false] at hv
    · exact ⟨by omega, _, ⟨hne, hall, by omega⟩, .inl rfl⟩
    · exact ⟨by omega, _, ⟨hne, hall, by omega⟩, .inr (.inl rfl)⟩
    · exact ⟨by omega, _, ⟨hne, hall, by omega⟩, .inr (.inr ⟨rfl, by omega⟩)⟩

/-- C153. `rgb(...)` of three words is a colour only if each word is a number from 0 to 255, and it is the one with
those numbers. -/
theorem rgb_only_numbers (readF : List Char → Option Rat) (named : List Char → Option RgbaColor)
    (name p1 p2 p3 w1 w2 w3 : List Char) (c : RgbaColor)
    (hname : name.map Char.toLower = "rgb".toList ∨ name.map Char.toLower = "rgba".toList)
    (h1 : Padded w1 p1) (h2 : Padded w2 p2) (h3 : Padded w3 p3) (n1 : Word w1) (n2 : Word w2) (n3 : Word w3)
    (h : parse (colorExt readF named) (name ++ '(' :: (p1 ++ ',' :: p2 ++ ',' :: p3 ++ [')'])) = .ok c) :
    ∃ r g b, Channel w1 r ∧ Channel w2 g ∧ Channel w3 b ∧ c = rgb r g b := by
  have hf : List.Forall₂ (fun w p => Word w ∧ Padded w p) [w1, w2, w3] [p1, p2, p3] :=
    .cons ⟨n1, h1⟩ (.cons ⟨n2, h2⟩ (.cons ⟨n3, h3⟩ .nil))
  have key := parse_function readF named name [p1, p2, p3] [w1, w2, w3] (by simp) hf
    (hname.elim .inl fun h => .inr (.inl h))
  rw [if_pos hname] at key
  have hc := components_words [p1, p2, p3] [w1, w2, w3] (by simp) hf
  have e : Binding.joinWith ',' [p1, p2, p3] = p1 ++ ',' :: p2 ++ ',' :: p3 := by
    simp [Binding.joinWith]
  rw [e] at key hc
  rw [key] at h
  unfold rgbBody at h
  rw [hc] at h
  dsimp only [alphaOf] at h
  simp only [Option.bind_eq_bind, Option.bind_some] at h
  cases hr : parseU8 w1 with
  | none => rw [hr] at h; simp [Outcome.ofOption] at h
  | some r =>
    cases hg : parseU8 w2 with
    | none => rw [hr, hg] at h; simp [Outcome.ofOption] at h
    | some g =>
      cases hb : parseU8 w3 with
      | none => rw [hr, hg, hb] at h; simp [Outcome.ofOption] at h
      | some b =>
        rw [hr, hg, hb] at h
        have h : Outcome.ok (rgba r g b 1) = Outcome.ok c := h
        rw [Outcome.ok.injEq] at h
        exact ⟨r, g, b, parseU8_channel hr, parseU8_channel hg, parseU8_channel hb, h.symm⟩

/-- C153. `hsl(h, s%, l%)` is the colour of that hue, saturation and lightness. -/
theorem hsl_text (readF : List Char → Option Rat) (named : List Char → Option RgbaColor)
    (name p1 p2 p3 w1 w2 w3 : List Char) (h s l : Rat)
    (hname : name.map Char.toLower = "hsl".toList ∨ name.map Char.toLower = "hsla".toList)
    (h1 : Padded w1 p1) (h2 : Padded (w2 ++ ['%']) p2) (h3 : Padded (w3 ++ ['%']) p3)
    (n1 : Word w1) (n2 : Word w2) (n3 : Word w3) (e2 : '%' ∉ w2) (e3 : '%' ∉ w3)
    (hh : readF w1 = some h) (hs : readF w2 = some s) (hl : readF w3 = some l) :
    parse (colorExt readF named) (name ++ '(' :: (p1 ++ ',' :: p2 ++ ',' :: p3 ++ [')']))
      = .ok (fromHsl h (s / 100) (l / 100) 1) := by
  have pc : ∀ w : List Char, Word w → Word (w ++ ['%']) := by
    intro w hw
    refine ⟨by simp, fun c hc => ?_⟩
    rcases List.mem_append.1 hc with hc | hc
    · exact hw.2 c hc
    · rw [List.mem_singleton.1 hc]; decide
  have hf : List.Forall₂ (fun w p => Word w ∧ Padded w p) [w1, w2 ++ ['%'], w3 ++ ['%']] [p1, p2, p3] :=
    .cons ⟨n1, h1⟩ (.cons ⟨pc w2 n2, h2⟩ (.cons ⟨pc w3 n3, h3⟩ .nil))
  have key := parse_function readF named name [p1, p2, p3] [w1, w2 ++ ['%'], w3 ++ ['%']] (by simp) hf
    (hname.elim (fun h => .inr (.inr (.inl h))) fun h => .inr (.inr (.inr h)))
  have hnot : ¬ (name.map Char.toLower = "rgb".toList ∨ name.map Char.toLower = "rgba".toList) := by
    rcases hname with e | e <;> (rw [e]; decide)
  rw [if_neg hnot] at key
  have hc := components_words [p1, p2, p3] [w1, w2 ++ ['%'], w3 ++ ['%']] (by simp) hf
  have e : Binding.joinWith ',' [p1, p2, p3] = p1 ++ ',' :: p2 ++ ',' :: p3 := by
    simp [Binding.joinWith]
  rw [e] at key hc
  rw [key]
  unfold hslBody
  rw [hc]
  have per : ∀ {w : List Char} {x : Rat}, '%' ∉ w → readF w = some x →
      parsePercentage readF (w ++ ['%']) = some (x / 100) := by
    intro w x hw hx
    unfold parsePercentage
    have : ((w ++ ['%']).reverse.dropWhile (· == '%')).reverse = w := by
      rw [List.reverse_append, List.reverse_singleton, List.singleton_append,
        List.dropWhile_cons_of_pos (by decide)]
      have : w.reverse.dropWhile (· == '%') = w.reverse := by
        cases hrev : w.reverse with
        | nil => rfl
        | cons c cs =>
          rw [List.dropWhile_cons_of_neg]
          intro hc
          apply hw
          rw [← List.mem_reverse, hrev, ← beq_iff_eq.1 hc]
          simp
      rw [this, List.reverse_reverse]
    rw [this, hx]; rfl
  rw [fromHsl_channels]
  simp [per e2 hs, per e3 hl, hh, alphaOf, Outcome.ofOption]

theorem bind_u8 {s : List Char} {n : Nat} (h : parseU8 s = some n) : n < 256 := by
  unfold parseU8 at h
  cases hI : parseI32 s with
  | none => rw [hI] at h; simp at h
  | some v =>
    rw [hI] at h
    simp only [Option.bind_eq_bind, Option.bind_some] at h
    split at h
    · cases h
    · cases h; omega

theorem roundU8_lt (x : Rat) : roundU8 x < 256 := clampU8_lt _

theorem hexDigit_lt {c : Char} {n : Nat} (h : parseHexDigit c = some n) : n < 16 := by
  unfold parseHexDigit at h
  split at h
  · rename_i hc
    cases h
    have := UInt32.le_iff_toNat_le.1 (Char.le_def.1 hc.2)
    have e : c.toNat = c.val.toNat := rfl
    simp at this ⊢
    omega
  · split at h
    · rename_i hc
      cases h
      have := UInt32.le_iff_toNat_le.1 (Char.le_def.1 hc.2)
      have e : c.toNat = c.val.toNat := rfl
      simp at this ⊢
      omega
    · cases h

theorem hexPair_lt {c d : Char} {n : Nat} (h : parseHexPair c d = some n) : n < 256 := by
  unfold parseHexPair at h
  simp only [Option.bind_eq_bind, Option.bind_eq_some_iff] at h
  obtain ⟨a, ha, b, hb, hc⟩ := h
  cases hc
  have := hexDigit_lt ha
  have := hexDigit_lt hb
  omega

theorem parseHex_valid {s : List Char} {c : RgbaColor} (h : parseHex s = some c) : c.Valid := by
  unfold parseHex at h
  split at h
  · simp only [Option.bind_eq_bind, Option.bind_eq_some_iff] at h
    obtain ⟨r, hr, g, hg, b, hb, hc⟩ := h
    cases hc
    have := hexDigit_lt hr
    have := hexDigit_lt hg
    have := hexDigit_lt hb
    unfold Valid rgb
    refine ⟨?_, ?_, ?_⟩ <;> dsimp only <;> omega
  · simp only [Option.bind_eq_bind, Option.bind_eq_some_iff] at h
    obtain ⟨r, hr, g, hg, b, hb, a, ha, hc⟩ := h
    cases hc
    have := hexDigit_lt hr
    have := hexDigit_lt hg
    have := hexDigit_lt hb
    unfold Valid rgba
    refine ⟨?_, ?_, ?_⟩ <;> dsimp only <;> omega
  · simp only [Option.bind_eq_bind, Option.bind_eq_some_iff] at h
    obtain ⟨r, hr, g, hg, b, hb, hc⟩ := h
    cases hc
    exact ⟨hexPair_lt hr, hexPair_lt hg, hexPair_lt hb⟩
  · simp only [Option.bind_eq_bind, Option.bind_eq_some_iff] at h
    obtain ⟨r, hr, g, hg, b, hb, a, ha, hc⟩ := h
    cases hc
    exact ⟨hexPair_lt hr, hexPair_lt hg, hexPair_lt hb⟩
  · cases h

/-- C153. Whatever the text, a colour read from it has channels from 0 to 255 (given that the named
colours have). -/
theorem parse_valid (readF : List Char → Option Rat) (named : List Char → Option RgbaColor)
    (hnamed : ∀ s c, named s = some c → c.Valid) (s : List Char) (c : RgbaColor)
    (h : parse (colorExt readF named) s = .ok c) : c.Valid := by
  have of : ∀ {o : Option RgbaColor}, Outcome.ofOption o = .ok c → o = some c := by
    intro o ho
    cases o with
    | none => cases ho
    | some d => cases ho; rfl
  have slice : ∀ {t : List Char} {body : List Char → Option RgbaColor},
      sliceParens t body = .ok c → ∃ u, body u = some c := by
    intro t body ht
    unfold sliceParens at ht
    split at ht
    · cases ht
    · split at ht
      · cases ht
      · split at ht
        · cases ht
        · exact ⟨_, of ht⟩
  unfold parse at h
  simp only at h
  split at h
  · cases h
  split at h
  · cases h; unfold Valid autoColor; decide
  split at h
  · cases h; unfold Valid rgba; decide
  split at h
  · exact parseHex_valid (of h)
  split at h
  · obtain ⟨u, hu⟩ := slice h
    simp only [colorExt, rgbBody] at hu
    split at hu
    · simp only [Option.bind_eq_bind, Option.bind_eq_some_iff] at hu
      obtain ⟨r, hr, g, hg, b, hb, a, _, hc⟩ := hu
      cases hc
      exact ⟨bind_u8 hr, bind_u8 hg, bind_u8 hb⟩
    · cases hu
  split at h
  · obtain ⟨u, hu⟩ := slice h
    simp only [colorExt, hslBody] at hu
    split at hu
    · simp only [Option.bind_eq_bind, Option.bind_eq_some_iff] at hu
      obtain ⟨r, hr, g, hg, b, hb, a, _, hc⟩ := hu
      cases hc
      unfold hslToRgb
      split <;> exact ⟨roundU8_lt _, roundU8_lt _, roundU8_lt _⟩
    · cases hu
  · exact hnamed _ _ (of h)

/-- C153 fails for the opacity: it is not kept between 0 and 1. -/
theorem opacity_counterexample (readF : List Char → Option Rat) (named : List Char → Option RgbaColor)
    (h5 : readF "5".toList = some 5) :
    parse (colorExt readF named) "rgb(1, 2, 3, 5)".toList = .ok (rgba 1 2 3 5) := by
  have pad : ∀ w : List Char, Padded w ([' '] ++ w ++ []) := fun w => ⟨[' '], [], by decide, by simp, rfl⟩
  exact rgba_text readF named "rgb".toList "1".toList " 2".toList " 3".toList " 5".toList "1".toList "2".toList
    "3".toList "5".toList 1 2 3 5 (.inl (by decide)) ⟨[], [], by simp, by simp, rfl⟩ (pad ['2']) (pad ['3']) (pad ['5'])
    (by unfold Numeral; decide) (by unfold Numeral; decide) (by unfold Numeral; decide)
    (by decide) (by decide) (by decide) (by unfold Word; decide) h5

/-- The hypotheses can be met. -/
example : Channel "+7".toList 7 ∧ Word "+7".toList :=
  ⟨⟨by decide, "7".toList, by unfold Numeral; decide, .inr (.inl rfl)⟩, by unfold Word; decide⟩

example : Numeral "042".toList 42 ∧ Padded "042".toList "  042 ".toList ∧ Word "0.5".toList := by
  refine ⟨by unfold Numeral; decide, ⟨"  ".toList, " ".toList, by decide, by decide, rfl⟩, by unfold Word; decide⟩

end Textual.RgbaColor
