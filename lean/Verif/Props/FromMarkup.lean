import Verif.Model.FromMarkup
import Verif.Props.ColorText
import Verif.Props.Markup
import Verif.Props.Content

/-!
C165: colours of markup and of stylesheets. C166: from markup to drawn text.
-/

namespace Textual.FromMarkup

open Markup (Res)
open RgbaColor (Padded Word Numeral parseU8 trim)

/-! ### C165 -/

theorem padded_trim (p : List Char) : Padded (trim p) p := by
  refine ⟨p.takeWhile Char.isWhitespace, ((p.dropWhile Char.isWhitespace).reverse.takeWhile Char.isWhitespace).reverse, ?_, ?_, ?_⟩
  · intro c hc; exact List.all_eq_true.mp List.all_takeWhile c hc
  · intro c hc; exact List.all_eq_true.mp List.all_takeWhile c (List.mem_reverse.mp hc)
  · unfold RgbaColor.trim
    rw [List.append_assoc, ← List.reverse_append, List.takeWhile_append_dropWhile, List.reverse_reverse,
      List.takeWhile_append_dropWhile]

theorem split_ne_nil (sep : Char) (s : List Char) : Binding.split sep s ≠ [] := by
  cases s with
  | nil => simp [Binding.split]
  | cons c cs =>
    unfold Binding.split
    split
    · simp
    · split <;> simp

theorem join_split (sep : Char) : ∀ s : List Char, Binding.joinWith sep (Binding.split sep s) = s
  | [] => rfl
  | c :: cs => by
    have ih := join_split sep cs
    unfold Binding.split
    split
    · next h =>
      subst h
      cases hs : Binding.split c cs with
      | nil => exact absurd hs (split_ne_nil _ _)
      | cons p ps => rw [hs] at ih; simp [Binding.joinWith, ih]
    · cases hs : Binding.split sep cs with
      | nil => exact absurd hs (split_ne_nil _ _)
      | cons p ps =>
        rw [hs] at ih
        dsimp only
        cases ps with
        | nil => simpa [Binding.joinWith] using ih
        | cons q qs => simpa [Binding.joinWith] using ih

theorem readU8_spec {w : List Char} {n : Nat} (h : readU8 w = some n) : Word w ∧ parseU8 w = some n := by
  have core : ∀ ds : List Char, (if ds.isEmpty || !ds.all Char.isDigit then none
      else if Nat.ofDigitChars 10 ds 0 ≤ 255 then some (Nat.ofDigitChars 10 ds 0) else none) = some n →
      Numeral ds n ∧ n < 256 := by
    intro ds hd
    by_cases he : (ds.isEmpty || !ds.all Char.isDigit) = true
    · rw [if_pos he] at hd; simp at hd
    · rw [if_neg he] at hd
      simp only [Bool.or_eq_true, Bool.not_eq_true', not_or, List.isEmpty_iff, Bool.not_eq_false] at he
      split at hd
      · next hl =>
        obtain rfl := Option.some.inj hd
        exact ⟨⟨he.1, List.all_eq_true.mp he.2, rfl⟩, by omega⟩
      · simp at hd
  by_cases hp : ∃ ds, w = '+' :: ds
  · obtain ⟨ds, rfl⟩ := hp
    obtain ⟨hn, hl⟩ := core ds h
    have hu := RgbaColor.parseU8_numeral hn hl
    refine ⟨⟨by simp, ?_⟩, ?_⟩
    · intro c hc
      rcases List.mem_cons.mp hc with rfl | hc
      · decide
      · obtain ⟨h1, h2, h3, h4, h5, _⟩ := RgbaColor.digit_facts (hn.2.1 c hc)
        exact ⟨h1, h2, h3, h4, h5⟩
    · have e : RgbaColor.parseI32 ('+' :: ds) = RgbaColor.parseI32 ds := by
        unfold RgbaColor.parseI32
        rw [RgbaColor.sign_digits hn.2.1]
        rfl
      unfold RgbaColor.parseU8 at hu ⊢
      rw [e]; exact hu
  · have : readU8 w = (if w.isEmpty || !w.all Char.isDigit then none
      else if Nat.ofDigitChars 10 w 0 ≤ 255 then some (Nat.ofDigitChars 10 w 0) else none) := by
      unfold readU8
      split
      · next ds' => exact absurd ⟨ds', rfl⟩ hp
      · rfl
    rw [this] at h
    obtain ⟨hn, hl⟩ := core w h
    exact ⟨RgbaColor.numeral_word hn, RgbaColor.parseU8_numeral hn hl⟩

/-- The eight names only markup knows. -/
def Bright (n : List Char) : Prop := "bright_".toList <+: n

theorem names_agree : ∀ n ∈ knownNames, "bright_".toList.isPrefixOf n.toList = false →
    n.toList ≠ "auto".toList ∧ n.toList ≠ "transparent".toList ∧ "rgb".toList.isPrefixOf n.toList = false ∧
    "hsl".toList.isPrefixOf n.toList = false ∧
    (sheetNames.find? fun e => e.1.toList == n.toList).map (·.2) = some (namedToRgb n.toList) := by
  decide +kernel

theorem hexDigit_agree {c : Char} {d : Nat} (h : Markup.hexDigit c = .ok d) :
    RgbaColor.parseHexDigit c.toLower = some d := by
  have hc : c.toNat < 103 := by
    unfold Markup.hexDigit at h
    have conv : ∀ {a b : Char}, a ≤ b → a.toNat ≤ b.toNat := fun h => UInt32.le_iff_toNat_le.1 h
    split at h
    · next hh => have := conv hh.2; have : '9'.toNat = 57 := rfl; omega
    · split at h
      · next hh => have := conv hh.2; have : 'f'.toNat = 102 := rfl; omega
      · split at h
        · next hh => have := conv hh.2; have : 'F'.toNat = 70 := rfl; omega
        · simp at h
  have key : ∀ n, n < 103 → ∀ d, d < 16 → Markup.hexDigit (Char.ofNat n) = .ok d →
      RgbaColor.parseHexDigit (Char.ofNat n).toLower = some d := by decide +kernel
  have hd : d < 16 := by
    have key2 : ∀ n, n < 103 → Markup.hexDigit (Char.ofNat n) ∈ (Res.err :: (List.range 16).map Res.ok) := by
      decide +kernel
    have := key2 _ hc
    rw [Char.ofNat_toNat, h] at this
    simpa using this
  have := key _ hc d hd
  rw [Char.ofNat_toNat] at this
  exact this h

theorem hexPair_agree {a b : Char} {d : Nat} (h : Markup.hexPair a b = .ok d) :
    RgbaColor.parseHexPair a.toLower b.toLower = some d := by
  unfold Markup.hexPair at h
  cases ha : Markup.hexDigit a with
  | err => rw [ha] at h; cases h
  | panic => rw [ha] at h; cases h
  | ok x =>
    cases hb : Markup.hexDigit b with
    | err => rw [ha, hb] at h; cases h
    | panic => rw [ha, hb] at h; cases h
    | ok y =>
      rw [ha, hb] at h
      injection h with h
      unfold RgbaColor.parseHexPair
      rw [hexDigit_agree ha, hexDigit_agree hb]
      simpa using h

theorem length_le_blen : ∀ s : List Char, s.length ≤ Markup.blen s
  | [] => Nat.le_refl _
  | c :: cs => by
    have := length_le_blen cs
    have h1 := Char.utf8Size_pos c
    simp only [Markup.blen, List.map_cons, List.sum_cons, List.length_cons] at this ⊢
    omega

theorem res_bind {α β : Type} {x : Res α} {f : α → Res β} {b : β} (h : x.bind f = .ok b) :
    ∃ a, x = .ok a ∧ f a = .ok b := by
  cases x with
  | ok a => exact ⟨a, rfl, h⟩
  | err => cases h
  | panic => cases h

theorem nth_some {s : List Char} {i : Nat} {c : Char} (h : Markup.nth s i = .ok c) : s[i]? = some c := by
  unfold Markup.nth at h
  cases hs : s[i]? with
  | none => rw [hs] at h; cases h
  | some d => rw [hs] at h; cases h; rfl

theorem hex_agree {hex : List Char} {c : Markup.Color} (h : Markup.parseHex hex = .ok c) :
    RgbaColor.parseHex hex = some (convertColor c) := by
  have hl := length_le_blen hex
  unfold Markup.parseHex at h
  split at h
  · next hb =>
    obtain ⟨c0, h0, h⟩ := res_bind h
    obtain ⟨r, hr, h⟩ := res_bind h
    obtain ⟨c1, h1, h⟩ := res_bind h
    obtain ⟨g, hg, h⟩ := res_bind h
    obtain ⟨c2, h2, h⟩ := res_bind h
    obtain ⟨b, hb', h⟩ := res_bind h
    cases h
    match hex, nth_some h0, nth_some h1, nth_some h2, hl, hb with
    | [x, y, z], e0, e1, e2, _, _ =>
      simp at e0 e1 e2
      subst e0 e1 e2
      simp [RgbaColor.parseHex, hexDigit_agree hr, hexDigit_agree hg, hexDigit_agree hb', convertColor, toRgb]
    | _ :: _ :: _ :: _ :: _, _, _, _, hl, hb => rw [hb] at hl; simp only [List.length_cons] at hl; omega
  · split at h
    · next hb =>
      obtain ⟨c0, h0, h⟩ := res_bind h
      obtain ⟨c1, h1, h⟩ := res_bind h
      obtain ⟨r, hr, h⟩ := res_bind h
      obtain ⟨c2, h2, h⟩ := res_bind h
      obtain ⟨c3, h3, h⟩ := res_bind h
      obtain ⟨g, hg, h⟩ := res_bind h
      obtain ⟨c4, h4, h⟩ := res_bind h
      obtain ⟨c5, h5, h⟩ := res_bind h
      obtain ⟨b, hb', h⟩ := res_bind h
      cases h
      match hex, nth_some h0, nth_some h1, nth_some h2, nth_some h3, nth_some h4, nth_some h5, hl, hb with
      | [u, v, w, x, y, z], e0, e1, e2, e3, e4, e5, _, _ =>
        simp at e0 e1 e2 e3 e4 e5
        subst e0 e1 e2 e3 e4 e5
        simp [RgbaColor.parseHex, hexPair_agree hr, hexPair_agree hg, hexPair_agree hb', convertColor, toRgb]
      | _ :: _ :: _ :: _ :: _ :: _ :: _ :: _, _, _, _, _, _, _, hl, hb => rw [hb] at hl; simp only [List.length_cons] at hl; omega
    · cases h

theorem rgb_agree {readF : List Char → Option Rat} {body : List Char} {r g b : Nat}
    (h : rgbBody body = some (r, g, b)) :
    sheetColor readF ("rgb(".toList ++ body ++ [')']) = .ok (RgbaColor.rgb r g b) := by
  unfold rgbBody at h
  split at h
  · next pr pg pb hs =>
    simp only [Option.bind_eq_bind, Option.pure_def] at h
    cases hr : readU8 pr with
    | none => simp [hr] at h
    | some r' =>
      cases hg : readU8 pg with
      | none => simp [hr, hg] at h
      | some g' =>
        cases hb : readU8 pb with
        | none => simp [hr, hg, hb] at h
        | some b' =>
          simp [hr, hg, hb] at h
          obtain ⟨rfl, rfl, rfl⟩ := h
          obtain ⟨wr, ur⟩ := readU8_spec hr
          obtain ⟨wg, ug⟩ := readU8_spec hg
          obtain ⟨wb, ub⟩ := readU8_spec hb
          have hf : List.Forall₂ (fun w p => Word w ∧ Padded w p) [pr, pg, pb] (Binding.split ',' body) := by
            match hsp : Binding.split ',' body, hs with
            | [x, y, z], hs =>
              simp only [List.map_cons, List.map_nil, List.cons.injEq, and_true] at hs
              obtain ⟨rfl, rfl, rfl⟩ := hs
              exact .cons ⟨wr, padded_trim x⟩ (.cons ⟨wg, padded_trim y⟩ (.cons ⟨wb, padded_trim z⟩ .nil))
            | [], hs => simp at hs
            | [_], hs => simp at hs
            | [_, _], hs => simp at hs
            | _ :: _ :: _ :: _ :: _, hs => simp at hs
          have key := RgbaColor.parse_function readF sheetNamed "rgb".toList (Binding.split ',' body) [pr, pg, pb]
            (split_ne_nil _ _) hf (.inl (by decide))
          rw [if_pos (.inl (by decide)), join_split] at key
          unfold sheetColor
          have e : "rgb(".toList ++ body ++ [')'] = "rgb".toList ++ '(' :: (body ++ [')']) := by
            have : "rgb(".toList = ['r', 'g', 'b', '('] := by decide
            have h2 : "rgb".toList = ['r', 'g', 'b'] := by decide
            rw [this, h2]; simp
          rw [e, key]
          unfold RgbaColor.rgbBody RgbaColor.components
          rw [hs]
          simp [ur, ug, ub, RgbaColor.alphaOf, RgbaColor.Outcome.ofOption, RgbaColor.rgb, RgbaColor.rgba]
  · simp at h

theorem dropWhile_idem (q : Char → Bool) : ∀ s : List Char, (s.dropWhile q).dropWhile q = s.dropWhile q
  | [] => rfl
  | c :: cs => by
    by_cases h : q c = true
    · rw [List.dropWhile_cons_of_pos h]; exact dropWhile_idem q cs
    · rw [List.dropWhile_cons_of_neg h, List.dropWhile_cons_of_neg h]

theorem dropWhile_head {q : Char → Bool} {s : List Char} {c : Char} {cs : List Char}
    (h : s.dropWhile q = c :: cs) : q c = false := by
  have := dropWhile_idem q s
  rw [h] at this
  cases hq : q c with
  | false => rfl
  | true =>
    rw [List.dropWhile_cons_of_pos hq] at this
    have := congrArg List.length this
    have h2 := (List.dropWhile_suffix (l := cs) q).length_le
    simp at this
    omega

theorem trim_idem (s : List Char) : trim (trim s) = trim s := by
  unfold RgbaColor.trim
  have hd : ∀ x : List Char, x.dropWhile Char.isWhitespace = x →
      ((x.reverse.dropWhile Char.isWhitespace).reverse).dropWhile Char.isWhitespace =
        (x.reverse.dropWhile Char.isWhitespace).reverse := by
    intro x hx
    cases he : (x.reverse.dropWhile Char.isWhitespace).reverse with
    | nil => rfl
    | cons c cs =>
      have hp : x = (c :: cs) ++ (x.reverse.takeWhile Char.isWhitespace).reverse := by
        rw [← he, ← List.reverse_append, List.takeWhile_append_dropWhile, List.reverse_reverse]
      have : Char.isWhitespace c = false := by
        apply dropWhile_head (s := x) (cs := cs ++ (x.reverse.takeWhile Char.isWhitespace).reverse)
        rw [hx]; exact hp
      rw [List.dropWhile_cons_of_neg (by simp [this])]
  have e := hd (s.dropWhile Char.isWhitespace) (dropWhile_idem _ _)
  rw [e, List.reverse_reverse, dropWhile_idem]

theorem sheetColor_trim (readF : List Char → Option Rat) (s : List Char) :
    sheetColor readF (trim s) = sheetColor readF s := by
  unfold sheetColor RgbaColor.parse
  rw [trim_idem]

theorem known_mem {s : List Char} (h : ext.known s = true) : ∃ n ∈ knownNames, n.toList = s := by
  obtain ⟨n, hn, he⟩ := List.any_eq_true.mp h
  exact ⟨n, hn, eq_of_beq he⟩

/-- C165: a colour that markup accepts is accepted in a stylesheet and is the same colour there.
Missing (`bright_counterexample`): the eight `bright_` names. -/
theorem same_colour_partial (readF : List Char → Option Rat) (s : List Char) (c : Markup.Color)
    (h : Markup.Color.parse ext s = .ok c) (hb : ∀ n, c = .named n → ¬ "bright_".toList <+: n) :
    sheetColor readF s = .ok (RgbaColor.rgb (toRgb c).1 (toRgb c).2.1 (toRgb c).2.2) := by
  show _ = RgbaColor.Outcome.ok (convertColor c)
  rw [← sheetColor_trim]
  have ht : Markup.trim ext.ws s = trim s := rfl
  have htt := trim_idem s
  unfold Markup.Color.parse at h
  simp only [ht] at h
  generalize trim s = t at h htt
  split at h
  · cases h
  · next hex =>
    unfold sheetColor RgbaColor.parse
    simp only [htt]
    rw [if_neg (by simp), if_neg, if_neg]
    · rw [hex_agree h]; rfl
    · simp only [List.map_cons]
      intro e
      exact absurd (List.cons.inj (e.trans (by decide : "transparent".toList = 't' :: "ransparent".toList))).1 (by decide)
    · simp only [List.map_cons]
      intro e
      exact absurd (List.cons.inj (e.trans (by decide : "auto".toList = 'a' :: "uto".toList))).1 (by decide)
  · next hne hh =>
    split at h
    · next hr =>
      simp only [Bool.and_eq_true] at hr
      have e4 : "rgb(".toList = ['r', 'g', 'b', '('] := by decide
      obtain ⟨body, rfl⟩ : ∃ body, t = "rgb(".toList ++ body ++ [')'] := by
        obtain ⟨u, hu⟩ := List.isPrefixOf_iff_prefix.mp hr.1
        have hlast := eq_of_beq hr.2
        rcases List.eq_nil_or_concat u with rfl | ⟨body, x, rfl⟩
        · rw [← hu, e4] at hlast
          exact absurd hlast (by decide)
        · rw [← hu] at hlast
          simp only [List.concat_eq_append] at hlast hu
          rw [← List.append_assoc, List.getLast?_append] at hlast
          simp at hlast
          exact ⟨body, by rw [← hu, hlast, List.append_assoc]⟩
      have e : ((("rgb(".toList ++ body ++ [')']).drop 4).dropLast) = body := by
        rw [e4]
        simp
      rw [e] at h
      cases hbd : ext.rgbBody body with
      | none => rw [hbd] at h; cases h
      | some x =>
        obtain ⟨r, g, b⟩ := x
        rw [hbd] at h
        cases h
        exact rgb_agree hbd
    · split at h
      · next hk =>
        cases h
        obtain ⟨n, hn, he⟩ := known_mem hk
        have hl : ext.lower t = t.map Char.toLower := rfl
        rw [hl] at he hb
        have hbr : "bright_".toList.isPrefixOf n.toList = false := by
          rw [he]
          have := hb _ rfl
          rw [← List.isPrefixOf_iff_prefix] at this
          exact Bool.eq_false_iff.mpr this
        obtain ⟨h1, h2, h3, h4, h5⟩ := names_agree n hn hbr
        unfold sheetColor RgbaColor.parse
        simp only [htt]
        rw [he] at h1 h2 h3 h4 h5
        rw [if_neg (by cases t with
          | nil => exact absurd rfl hne
          | cons _ _ => simp), if_neg h1, if_neg h2]
        rw [h3, h4]
        simp only [Bool.false_eq_true, if_false, RgbaColor.colorExt, sheetNamed]
        cases hf : sheetNames.find? fun e => e.1.toList == t.map Char.toLower with
        | none => rw [hf] at h5; cases h5
        | some e =>
          rw [hf] at h5
          simp only [Option.map_some, Option.some.injEq] at h5
          simp [RgbaColor.Outcome.ofOption, convertColor, toRgb, hl, ← h5]
      · cases h

example : Markup.Color.parse ext " RGB(1,2,3)".toList = .err ∧
    Markup.Color.parse ext " rgb( 1,+2,3) ".toList = .ok (.rgb 1 2 3) ∧
    Markup.Color.parse ext "Tomato".toList = .ok (.named "tomato".toList) ∧
    ¬ "bright_".toList <+: "tomato".toList ∧ toRgb (.named "tomato".toList) = (255, 99, 71) ∧
    Markup.Color.parse ext "#fA0".toList = .ok (.rgb 255 170 0) := by decide +kernel

/-- C165: `bright_red` is a colour in markup and none in a stylesheet. -/
theorem bright_counterexample (readF : List Char → Option Rat) :
    Markup.Color.parse ext "bright_red".toList = .ok (.named "bright_red".toList) ∧
    sheetColor readF "bright_red".toList = .err := by
  refine ⟨by decide +kernel, ?_⟩
  unfold sheetColor RgbaColor.parse
  have e : trim "bright_red".toList = "bright_red".toList := by decide +kernel
  rw [e]
  rw [if_neg (by decide +kernel), if_neg (by decide +kernel), if_neg (by decide +kernel)]
  have e2 : "bright_red".toList = 'b' :: "right_red".toList := by decide +kernel
  rw [e2]
  rw [if_neg (by decide +kernel), if_neg (by decide +kernel)]
  have e3 : sheetNamed (List.map Char.toLower ('b' :: "right_red".toList)) = none := by decide +kernel
  simp only [RgbaColor.colorExt, e3]
  rfl

theorem sheet_known : ∀ e ∈ sheetNames, e.1.toList ≠ [] ∧ e.1.toList.head? ≠ some '#' ∧
    '(' ∉ e.1.toList ∧ (knownNames.any fun n => n.toList == e.1.toList) = true ∧
    namedToRgb e.1.toList = e.2 := by decide +kernel

/-- C165: every colour name of a stylesheet, in any case and with blanks around it, is the same colour in
markup. -/
theorem names_in_markup (s : List Char) (c : RgbaColor) (h : sheetNamed ((trim s).map Char.toLower) = some c) :
    ∃ n, Markup.Color.parse ext s = .ok (.named n) ∧
      RgbaColor.rgb (toRgb (.named n)).1 (toRgb (.named n)).2.1 (toRgb (.named n)).2.2 = c := by
  unfold sheetNamed at h
  cases hf : sheetNames.find? fun e => e.1.toList == (trim s).map Char.toLower with
  | none => rw [hf] at h; cases h
  | some e =>
    rw [hf] at h
    simp only [Option.map_some, Option.some.injEq] at h
    have he : e.1.toList = (trim s).map Char.toLower := eq_of_beq (List.find?_some (p := fun e : String × Nat × Nat × Nat => e.1.toList == (trim s).map Char.toLower) hf)
    obtain ⟨h1, h2, h3, h4, h5⟩ := sheet_known e (List.mem_of_find?_eq_some hf)
    rw [he] at h1 h2 h3 h4 h5
    refine ⟨(trim s).map Char.toLower, ?_, ?_⟩
    · unfold Markup.Color.parse
      have ht : Markup.trim ext.ws s = trim s := rfl
      simp only [ht]
      generalize trim s = t at h1 h2 h3 h4 h5
      split
      · exact absurd rfl h1
      · simp at h2
      · rw [if_neg, if_pos]
        · rfl
        · exact h4
        · simp only [Bool.and_eq_true, not_and]
          intro hp
          exfalso
          apply h3
          obtain ⟨u, rfl⟩ := List.isPrefixOf_iff_prefix.mp hp
          have e4 : "rgb(".toList = ['r', 'g', 'b', '('] := by decide
          rw [e4]
          exact List.mem_map.mpr ⟨'(', by simp, by decide⟩
    · show RgbaColor.rgb (namedToRgb _).1 (namedToRgb _).2.1 (namedToRgb _).2.2 = c
      rw [h5]; exact h

example : sheetNamed ((trim " DarkOrange ".toList).map Char.toLower) = some (RgbaColor.rgb 255 140 0) := by
  decide +kernel

/-! ### C166 -/

theorem convert_apply (a b : Markup.Style) :
    convertStyle (a.apply b) = (convertStyle a).apply (convertStyle b) := by
  unfold convertStyle Markup.Style.apply Style.apply Markup.TextStyle.apply
  simp only [Style.mk.injEq, and_true, Bool.or_self, true_and]
  constructor
  · cases b.fg <;> rfl
  · cases b.bg <;> rfl

theorem foldl_apply (l : List Style) : ∀ a : Style, l.foldl Style.apply a = a.apply (l.foldl Style.apply {}) := by
  induction l with
  | nil => intro a; exact (Style.apply_empty a).1.symm
  | cons x xs ih =>
    intro a
    rw [List.foldl_cons, List.foldl_cons, ih, ih (Style.apply {} x), (Style.apply_empty x).2, Style.apply_assoc]

theorem covering_style (spans : List Markup.Span) (pos : Nat) : ∀ acc : Markup.Style,
    ((Content.covering (spans.map convertSpan) pos).map (·.style)).foldl Style.apply (convertStyle acc) =
      convertStyle (spans.foldl (fun a s => if s.contains pos then a.apply s.style else a) acc) := by
  induction spans with
  | nil => intro acc; rfl
  | cons x xs ih =>
    intro acc
    rw [List.foldl_cons, List.map_cons]
    unfold Content.covering
    by_cases h : x.start ≤ pos ∧ pos < x.stop
    · rw [List.filter_cons_of_pos (a := convertSpan x) (by exact decide_eq_true h)]
      have hc : x.contains pos = true := by simp [Markup.Span.contains, h]
      rw [if_pos hc, List.map_cons, List.foldl_cons]
      have := ih (acc.apply x.style)
      rw [convert_apply] at this
      exact this
    · rw [List.filter_cons_of_neg (a := convertSpan x) (by rw [decide_eq_true_eq]; exact h)]
      have hc : ¬ x.contains pos = true := by simpa [Markup.Span.contains] using h
      rw [if_neg hc]
      exact ih acc

theorem annotate_style (c : Content.Content) (hl : c.linkStyle = none) (spans : List Content.Span) :
    ∀ (t : List Grapheme) (pos : Nat) (pre post : List Content.Glyph) (x : Content.Glyph),
      c.annotate spans pos t = pre ++ x :: post →
      x.2.1 = ((Content.covering spans (pos + Content.blen (pre.map (·.1)))).map (·.style)).foldl Style.apply
          (c.style.getD {}) ∧
        x.2.2 = Content.metaAt spans (pos + Content.blen (pre.map (·.1)))
  | [], _, pre, _, _, h => by simp [Content.Content.annotate] at h
  | g :: gs, pos, pre, post, x, h => by
    unfold Content.Content.annotate at h
    cases pre with
    | nil =>
      rw [List.nil_append] at h
      obtain ⟨rfl, _⟩ := List.cons.inj h
      simp only [List.map_nil, Content.blen, List.sum_nil, Nat.add_zero, and_true]
      unfold Content.Content.styleAt
      rw [hl]
      dsimp only
      split
      · next h2 => cases h2
      · rfl
    | cons p ps =>
      rw [List.cons_append] at h
      obtain ⟨rfl, h'⟩ := List.cons.inj h
      have := annotate_style c hl spans gs (pos + Content.gbytes g) ps post x h'
      have e : pos + Content.gbytes g + Content.blen (ps.map (·.1)) =
          pos + Content.blen (((g, c.styleAt spans pos, Content.metaAt spans pos) :: ps).map (·.1)) := by
        rw [List.map_cons]; unfold Content.blen; rw [List.map_cons, List.sum_cons, Nat.add_assoc]
      rw [e] at this
      exact this

/-- The characters of a text, each a grapheme of its own. -/
def byChar (w : Char → Nat) (t : List Char) : List Grapheme := t.map fun c => ⟨String.singleton c, w c⟩

theorem blen_byChar (w : Char → Nat) (t : List Char) : Content.blen (byChar w t) = Markup.blen t := by
  unfold Content.blen byChar Markup.blen
  rw [List.map_map]
  congr 1
  apply List.map_congr_left
  intro c _
  simp [Content.gbytes]

theorem byChar_solid (w : Char → Nat) (t : List Char) : Content.Solid (byChar w t) := by
  intro g hg
  obtain ⟨c, _, rfl⟩ := List.mem_map.mp hg
  simp [Content.gbytes, Char.utf8Size_pos]

/-- Markup tags always stand between characters. -/
theorem byChar_aligned (w : Char → Nat) {src : List Char} {m : Markup.Parsed} (h : Markup.parse ext src = .ok m) :
    Content.Aligned (m.spans.map convertSpan) (byChar w m.text) := by
  intro s hs x hx _
  obtain ⟨y, hy, rfl⟩ := List.mem_map.mp hs
  have hw := (Markup.spans_wellformed h).1 y hy
  have hb : Markup.Boundary m.text x := by
    rcases hx with rfl | rfl
    · exact hw.2.2.1
    · exact hw.2.2.2.1
  obtain ⟨pre, post, he, hl⟩ := hb
  refine ⟨pre.length, ?_⟩
  rw [← hl, ← blen_byChar w]
  congr 1
  unfold byChar
  rw [he, List.map_append, List.take_left' (by simp)]

/-- A drawn style has the look a markup style asks for: its colours as red, green and blue, and its
attributes. -/
structure SameLook (m : Markup.Style) (st : Style) : Prop where
  fg : st.fg = m.fg.map fun c => RgbaColor.rgb (toRgb c).1 (toRgb c).2.1 (toRgb c).2.2
  bg : st.bg = m.bg.map fun c => RgbaColor.rgb (toRgb c).1 (toRgb c).2.1 (toRgb c).2.2
  bold : st.bold = m.text.bold
  dim : st.dim = m.text.dim
  italic : st.italic = m.text.italic
  underline : st.underline = m.text.underline
  strike : st.strike = m.text.strike
  reverse : st.reverse = m.text.reverse

/-- Every open tag and every span carries at most one entry. -/
def Single (p : Markup.Parser) : Prop :=
  (∀ e ∈ p.stack, e.info.length ≤ 1) ∧ ∀ s ∈ p.spans, s.info.length ≤ 1

theorem Single.close {es : List Markup.Entry} : ∀ {p : Markup.Parser}, Single p → (∀ e ∈ es, e.info.length ≤ 1) →
    Single (es.foldl (fun q e => q.createSpan e) p) := by
  induction es with
  | nil => exact fun h _ => h
  | cons e es ih =>
    intro p h he
    rw [List.foldl_cons]
    refine ih ?_ fun x hx => he x (List.mem_cons_of_mem _ hx)
    unfold Markup.Parser.createSpan
    split
    · refine ⟨h.1, fun s hs => ?_⟩
      rcases List.mem_append.1 hs with hs | hs
      · exact h.2 s hs
      · rw [List.mem_singleton] at hs
        subst hs
        exact he e (List.mem_cons_self ..)
    · exact h

theorem Single.closeMany {es rest : List Markup.Entry} {p : Markup.Parser} (h : Single p) (hs : p.stack = es ++ rest) :
    Single (es.foldl (fun q e => q.createSpan e) { p with stack := rest }) := by
  refine Single.close ⟨fun e he => h.1 e ?_, h.2⟩ fun e he => h.1 e ?_
  · rw [hs]; exact List.mem_append_right _ he
  · rw [hs]; exact List.mem_append_left _ he

theorem Single.pop {p : Markup.Parser} (h : Single p) : Single p.pop := by
  rw [Markup.pop_eq]
  apply Single.closeMany h
  cases p.stack <;> rfl

theorem Single.step {ext : Markup.Ext} {p q : Markup.Parser} {t : Markup.Token} (h : Single p) (hs : p.step ext t = .ok q) :
    Single q := by
  have push : ∀ (st : Markup.Style) (m : Markup.Meta) (c : List Char), m.length ≤ 1 → Single (p.push st m c) := by
    intro st m c hm
    refine ⟨fun e he => ?_, h.2⟩
    rcases List.mem_cons.1 he with rfl | he
    · exact hm
    · exact h.1 e he
  cases t with
  | text s => simp only [Markup.Parser.step, Res.ok.injEq] at hs; subst hs; exact h
  | esc c => simp only [Markup.Parser.step, Res.ok.injEq] at hs; subst hs; exact h
  | close spec =>
    cases spec with
    | none => simp only [Markup.Parser.step, Res.ok.injEq] at hs; subst hs; exact h.pop
    | some n =>
      simp only [Markup.Parser.step, Res.ok.injEq] at hs; subst hs
      exact Single.closeMany h (Markup.splitMatching_append _ n p.stack).symm
  | «open» content =>
    simp only [Markup.Parser.step, Res.bind_eq_ok] at hs
    obtain ⟨t, _, hs⟩ := hs
    cases t <;> simp only [Res.ok.injEq] at hs <;> subst hs
    · exact push _ _ _ (by simp)
    · exact push _ _ _ (by simp)
    · exact h.pop
    · exact Single.closeMany h (Markup.splitMatching_append _ _ p.stack).symm

theorem Single.run {ext : Markup.Ext} : ∀ (ts : List Markup.Token) {p q : Markup.Parser}, Single p →
    p.run ext ts = .ok q → Single q
  | [], p, q, h, hr => by simp only [Markup.Parser.run, Res.ok.injEq] at hr; subst hr; exact h
  | t :: ts, p, q, h, hr => by
    simp only [Markup.Parser.run, Res.bind_eq_ok] at hr
    obtain ⟨p', h1, h2⟩ := hr
    exact Single.run ts (h.step h1) h2

theorem parse_single {ext : Markup.Ext} {src : List Char} {m : Markup.Parsed} (h : Markup.parse ext src = .ok m) :
    ∀ s ∈ m.spans, s.info.length ≤ 1 := by
  simp only [Markup.parse, Res.bind_eq_ok, Res.ok.injEq] at h
  obtain ⟨toks, hl, p, hr, rfl⟩ := h
  exact (Single.closeMany (Single.run toks ⟨by simp, by simp⟩ hr) (rest := []) (by simp)).2

/-- The entries at a place, in the order the content keeps them. -/
theorem covering_meta (spans : List Markup.Span) (h : ∀ s ∈ spans, s.info.length ≤ 1) (pos : Nat) (acc : Markup.Meta) :
    Content.metaAt (spans.map convertSpan) pos ++ acc.map (fun kv => (String.ofList kv.1, String.ofList kv.2)) =
      (spans.foldl (fun acc s => if s.contains pos then Markup.Meta.insertAll acc s.info else acc) acc).map
        fun kv => (String.ofList kv.1, String.ofList kv.2) := by
  induction spans generalizing acc with
  | nil => rfl
  | cons x xs ih =>
    rw [List.foldl_cons, ← ih fun s hs => h s (List.mem_cons_of_mem _ hs)]
    unfold Content.metaAt Content.covering
    rw [List.map_cons]
    by_cases hx : x.contains pos = true
    · rw [if_pos hx, List.filter_cons_of_pos (a := convertSpan x) (by
          apply decide_eq_true; simpa [Markup.Span.contains, convertSpan] using hx),
        List.map_cons, List.reverse_cons, List.flatten_append, List.append_assoc]
      congr 1
      have := h x (List.mem_cons_self ..)
      show (convertMeta x.info :: []).flatten ++ _ = _
      match hi : x.info, this with
      | [], _ => rfl
      | [kv], _ => rfl
      | _ :: _ :: _, h => simp at h
    · rw [if_neg hx, List.filter_cons_of_neg (a := convertSpan x) (by
        rw [decide_eq_true_eq]; simpa [Markup.Span.contains, convertSpan] using hx)]

/-- C166: text written in markup is drawn as the markup says: the lines are the text of the markup cut at its
newlines, and every character has the look of the markup style at its place, laid over the style of the
content, and the links of the markup there. The tags must stand between graphemes.
Missing (`blink_counterexample`): blinking text does not blink. -/
theorem drawn_partial (cluster : List Char → List Grapheme) (src : List Char) (m : Markup.Parsed)
    (h : Markup.parse ext src = .ok m) (base : Option Style) (hs : Content.Solid (cluster m.text))
    (ha : Content.Aligned (m.spans.map convertSpan) (cluster m.text)) :
    ∃ (c : Content.Content) (r : List Strip) (A : List Content.Glyph), fromMarkup cluster src = .ok c ∧ ({ c with style := base } : Content.Content).lines = some r ∧
      r.map Content.glyphs = Content.splitGlyphs A ∧ A.map (·.1) = cluster m.text ∧
      ∀ pre x post, A = pre ++ x :: post → ∃ st, x.2.1 = (base.getD {}).apply st ∧
        SameLook (m.styleAt (Content.blen (pre.map (·.1)))) st ∧
        x.2.2 = (m.metaAt (Content.blen (pre.map (·.1)))).map fun kv => (String.ofList kv.1, String.ofList kv.2) := by
  obtain ⟨sp, hc, hspans⟩ : ∃ sp : Option (List Content.Span),
      fromMarkup cluster src = .ok { text := cluster m.text, spans := sp } ∧ sp.getD [] = m.spans.map convertSpan := by
    refine ⟨if (m.spans.map convertSpan).isEmpty then none else some (m.spans.map convertSpan), ?_, ?_⟩
    · unfold fromMarkup; rw [h]; rfl
    · split
      · next he => simpa using (List.isEmpty_iff.mp he).symm
      · rfl
  obtain ⟨r, h1, h2, _, _⟩ := Content.lines_styled
    ({ text := cluster m.text, style := base, spans := sp } : Content.Content) hs (by dsimp only; rw [hspans]; exact ha)
  refine ⟨_, r, _, hc, h1, h2, ?_, ?_⟩
  · unfold Content.Content.annotated
    exact Content.annotate_map _ _ _ _
  · intro pre x post he
    unfold Content.Content.annotated at he
    dsimp only at he
    rw [hspans] at he
    obtain ⟨this, hmeta⟩ := annotate_style _ rfl _ _ 0 pre post x he
    rw [Nat.zero_add] at this hmeta
    refine ⟨convertStyle (m.styleAt (Content.blen (pre.map (·.1)))), ?_, ⟨rfl, rfl, rfl, rfl, rfl, rfl, rfl, rfl⟩, ?_⟩
    · rw [this, foldl_apply]
      congr 1
      exact covering_style m.spans _ {}
    · rw [hmeta]
      have := covering_meta m.spans (parse_single h) (Content.blen (pre.map (·.1))) []
      rw [List.map_nil, List.append_nil] at this
      exact this

/-- C166: when every character is a grapheme of its own the tags always stand between graphemes. -/
theorem drawn_chars_partial (w : Char → Nat) (src : List Char) (m : Markup.Parsed)
    (h : Markup.parse ext src = .ok m) (base : Option Style) :
    ∃ (c : Content.Content) (r : List Strip) (A : List Content.Glyph), fromMarkup (byChar w) src = .ok c ∧ ({ c with style := base } : Content.Content).lines = some r ∧
      r.map Content.glyphs = Content.splitGlyphs A ∧ A.map (·.1.text) = m.text.map String.singleton ∧
      ∀ pre ch post, m.text = pre ++ ch :: post → ∃ x st, A[pre.length]? = some x ∧
        x.2.1 = (base.getD {}).apply st ∧ SameLook (m.styleAt (Markup.blen pre)) st ∧
        x.2.2 = (m.metaAt (Markup.blen pre)).map fun kv => (String.ofList kv.1, String.ofList kv.2) := by
  obtain ⟨c, r, A, h1, h2, h3, h4, h5⟩ := drawn_partial (byChar w) src m h base (byChar_solid w _) (byChar_aligned w h)
  refine ⟨c, r, A, h1, h2, h3, ?_, ?_⟩
  · have := congrArg (List.map (·.text)) h4
    rw [List.map_map] at this
    simpa [byChar, Function.comp_def] using this
  · intro pre ch post he
    have hl : pre.length < A.length := by
      have := congrArg List.length h4
      rw [List.length_map] at this
      rw [this, he]; simp [byChar]
    have hsplit : A = A.take pre.length ++ A[pre.length] :: A.drop (pre.length + 1) := by
      rw [← List.drop_eq_getElem_cons hl, List.take_append_drop]
    obtain ⟨st, e1, e2, e4⟩ := h5 _ _ _ hsplit
    refine ⟨A[pre.length], st, by rw [List.getElem?_eq_getElem hl], e1, ?_⟩
    have e3 : (A.take pre.length).map (·.1) = byChar w pre := by
      rw [List.map_take, h4, he]
      unfold byChar
      rw [List.map_append, List.take_left' (by simp)]
    rw [e3, blen_byChar] at e2 e4
    exact ⟨e2, e4⟩

/-- The styles of the drawn characters, line by line. -/
def looks (c : Content.Content) : Option (List (List Style)) :=
  c.lines.map fun l => l.map fun s => (Content.glyphs s).map fun g => g.2.1

example : (Markup.parse ext "[bold]a[/]b [on blue]c[/]".toList).bind (fun m =>
    .ok (m.text, m.styleAt 0, m.styleAt 3)) =
    .ok ("ab c".toList, { text := { bold := true } }, { bg := some (.named "blue".toList) }) ∧
    (∃ c : Content.Content, fromMarkup (byChar fun _ => 1) "[bold]a[/]b [on blue]c[/]".toList = .ok c ∧
      looks c = some [[{ bold := true }, {}, {}, { bg := some (RgbaColor.rgb 0 0 255) }]]) := by
  let spans : List Content.Span :=
    [⟨0, 1, { bold := true }, {}⟩, ⟨3, 4, { bg := some (RgbaColor.rgb 0 0 255) }, {}⟩]
  refine ⟨by decide +kernel, { text := byChar (fun _ => 1) "ab c".toList, spans := some spans }, ?_, ?_⟩ <;> decide +kernel

/-- C166: text marked to blink is drawn like text that is not. -/
theorem blink_counterexample : ∃ (m : Markup.Parsed) (c : Content.Content),
    Markup.parse ext "[blink]a[/]".toList = .ok m ∧ (m.styleAt 0).text.blink = true ∧
    fromMarkup (byChar fun _ => 1) "[blink]a[/]".toList = .ok c ∧ looks c = some [[{}]] := by
  refine ⟨{ text := "a".toList, spans := [⟨0, 1, { text := { blink := true } }, {}⟩] },
    { text := byChar (fun _ => 1) "a".toList, spans := some [⟨0, 1, {}, {}⟩] }, ?_, ?_, ?_, ?_⟩ <;> decide +kernel

/-- C166: any text can be shown as it is: escaped and read back it has no styles, links or tags. -/
theorem escaped (w : Char → Nat) (s : List Char) :
    fromMarkup (byChar w) (Markup.escape s) = .ok { text := byChar w s } := by
  unfold fromMarkup
  rw [Markup.escape_roundtrip]
  rfl

example : Markup.escape "[red]x".toList = "\\[red\\]x".toList := by decide +kernel

end Textual.FromMarkup
