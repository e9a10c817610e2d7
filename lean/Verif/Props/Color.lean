import Verif.Model.Color
import Mathlib.Algebra.Order.Field.Rat
import Mathlib.Data.Rat.Floor
import Mathlib.Tactic.Linarith
import Mathlib.Tactic.Positivity
import Mathlib.Tactic.NormNum
import Mathlib.Tactic.Ring

/-! C36 (hex colours), C37 (blending), C38 (colour parsing and panics). -/

namespace Textual.RgbaColor

/-! ### C37 -/

theorem clampU8_mono {x y : Rat} (h : x ≤ y) : clampU8 x ≤ clampU8 y := by
  unfold clampU8
  apply Int.toNat_le_toNat
  apply Rat.floor_monotone
  exact min_le_min_right _ (max_le_max_right _ h)

theorem clampU8_nat {n : Nat} (h : n < 256) : clampU8 (n : Rat) = n := by
  unfold clampU8
  have h0 : (0 : Rat) ≤ n := by positivity
  have h1 : (n : Rat) ≤ 255 := by exact_mod_cast (by omega : n ≤ 255)
  rw [max_eq_left h0, min_eq_left h1]
  have : ((n : Rat)).floor = (n : Int) := by
    have := Rat.floor_intCast (n : Int)
    simpa using this
  rw [this]; simp

theorem clampU8_lt (x : Rat) : clampU8 x < 256 := by
  have : clampU8 x ≤ clampU8 (max x 255) := clampU8_mono (le_max_left _ _)
  have h2 : clampU8 (max x 255) = 255 := by
    unfold clampU8
    have : min (max (max x 255) 0) (255 : Rat) = (255 : Int) := by
      rw [min_eq_right]
      · norm_num
      · exact le_max_of_le_left (le_max_right _ _)
    rw [this, Rat.floor_intCast]; rfl
  omega

/-- C37: an interpolated channel lies between its two inputs. -/
theorem lerpU8_between {x y : Nat} (hx : x < 256) (hy : y < 256) {t : Rat}
    (h0 : 0 ≤ t) (h1 : t ≤ 1) : min x y ≤ lerpU8 x y t ∧ lerpU8 x y t ≤ max x y := by
  unfold lerpU8
  rcases Nat.le_total x y with h | h
  · have hq : (x : Rat) ≤ y := by exact_mod_cast h
    rw [Nat.min_eq_left h, Nat.max_eq_right h]
    refine ⟨?_, ?_⟩
    · conv_lhs => rw [← clampU8_nat hx]
      apply clampU8_mono; nlinarith
    · conv_rhs => rw [← clampU8_nat hy]
      apply clampU8_mono; nlinarith
  · have hq : (y : Rat) ≤ x := by exact_mod_cast h
    rw [Nat.min_eq_right h, Nat.max_eq_left h]
    refine ⟨?_, ?_⟩
    · conv_lhs => rw [← clampU8_nat hy]
      apply clampU8_mono; nlinarith
    · conv_rhs => rw [← clampU8_nat hx]
      apply clampU8_mono; nlinarith

/-- C37: an interpolated channel is the exact mix of its inputs, rounded down. -/
theorem lerpU8_exact {x y : Nat} (hx : x < 256) (hy : y < 256) {t : Rat}
    (h0 : 0 ≤ t) (h1 : t ≤ 1) :
    (lerpU8 x y t : Rat) ≤ (1 - t) * x + t * y ∧ (1 - t) * x + t * y < (lerpU8 x y t : Rat) + 1 := by
  have hx0 : (0 : Rat) ≤ x := by positivity
  have hy0 : (0 : Rat) ≤ y := by positivity
  have hx1 : (x : Rat) ≤ 255 := by exact_mod_cast (by omega : x ≤ 255)
  have hy1 : (y : Rat) ≤ 255 := by exact_mod_cast (by omega : y ≤ 255)
  have e : (x : Rat) + ((y : Rat) - x) * t = (1 - t) * x + t * y := by ring
  have l0 : 0 ≤ (1 - t) * x + t * y := by nlinarith
  have l1 : (1 - t) * x + t * y ≤ 255 := by nlinarith
  unfold lerpU8 clampU8
  rw [e, max_eq_left l0, min_eq_left l1]
  generalize (1 - t) * x + t * y = q at l0 l1
  have hf : (0 : Int) ≤ q.floor := by
    rw [Rat.le_floor_iff]; exact_mod_cast l0
  have hc : ((q.floor.toNat : Nat) : Rat) = (q.floor : Rat) := by
    have : ((q.floor.toNat : Nat) : Int) = q.floor := Int.toNat_of_nonneg hf
    exact_mod_cast congrArg (Int.cast : Int → Rat) this
  rw [hc]
  exact ⟨Rat.floor_le _, by exact_mod_cast Rat.lt_floor_add_one q⟩

/-- C37: the ends of the interpolation. -/
theorem lerpU8_zero {x y : Nat} (hx : x < 256) : lerpU8 x y 0 = x := by
  unfold lerpU8; rw [mul_zero, add_zero, clampU8_nat hx]

theorem lerpU8_one {x y : Nat} (hy : y < 256) : lerpU8 x y 1 = y := by
  unfold lerpU8; rw [mul_one, add_sub_cancel, clampU8_nat hy]

/-- C37: moving the factor up moves every channel towards the target. -/
theorem lerpU8_mono {x y : Nat} {s t : Rat} (hst : s ≤ t) :
    (x ≤ y → lerpU8 x y s ≤ lerpU8 x y t) ∧ (y ≤ x → lerpU8 x y t ≤ lerpU8 x y s) := by
  unfold lerpU8
  constructor <;> intro h <;> apply clampU8_mono
  · have hq : (x : Rat) ≤ y := by exact_mod_cast h
    nlinarith
  · have hq : (y : Rat) ≤ x := by exact_mod_cast h
    nlinarith

/-- `c` lies channel-wise between `a` and `b`. -/
def Between (c a b : RgbaColor) : Prop :=
  (min a.r b.r ≤ c.r ∧ c.r ≤ max a.r b.r) ∧
  (min a.g b.g ≤ c.g ∧ c.g ≤ max a.g b.g) ∧
  (min a.b b.b ≤ c.b ∧ c.b ≤ max a.b b.b)

/-- C37 for `tint`: between, keeps alpha, and with alpha 0 / 1 gives the base / the overlay colour. -/
theorem tint_between {a o : RgbaColor} (ha : a.Valid) (ho : o.Valid)
    (h0 : 0 ≤ o.a) (h1 : o.a ≤ 1) : Between (a.tint o) a o ∧ (a.tint o).a = a.a :=
  ⟨⟨lerpU8_between ha.1 ho.1 h0 h1, lerpU8_between ha.2.1 ho.2.1 h0 h1,
    lerpU8_between ha.2.2 ho.2.2 h0 h1⟩, rfl⟩

theorem tint_ends {a o : RgbaColor} (ha : a.Valid) (ho : o.Valid) :
    (o.a = 0 → (a.tint o).r = a.r ∧ (a.tint o).g = a.g ∧ (a.tint o).b = a.b) ∧
    (o.a = 1 → (a.tint o).r = o.r ∧ (a.tint o).g = o.g ∧ (a.tint o).b = o.b) := by
  constructor <;> intro h <;> simp only [tint, rgba, h]
  · exact ⟨lerpU8_zero ha.1, lerpU8_zero ha.2.1, lerpU8_zero ha.2.2⟩
  · exact ⟨lerpU8_one ho.1, lerpU8_one ho.2.1, lerpU8_one ho.2.2⟩

/-- C37 for `blend_over`. -/
theorem blendOver_between {f bg : RgbaColor} (hf : f.Valid) (hb : bg.Valid) (h0 : 0 ≤ f.a) :
    Between (f.blendOver bg) bg f := by
  unfold blendOver
  split
  · simp only [Between]; omega
  · exact (tint_between hb hf h0 (by grind)).1

/-- C37 for `blend`, for every factor (also outside `[0,1]`). -/
theorem blend_between {a d : RgbaColor} (ha : a.Valid) (hd : d.Valid) (t : Rat) (al : Option Rat) :
    Between (a.blend d t al) a d := by
  unfold blend
  split
  · simp only [Between]; omega
  · split
    · simp only [Between]; omega
    · rename_i h0 h1
      exact ⟨lerpU8_between ha.1 hd.1 (by linarith) (by linarith),
        lerpU8_between ha.2.1 hd.2.1 (by linarith) (by linarith),
        lerpU8_between ha.2.2 hd.2.2 (by linarith) (by linarith)⟩

theorem blend_ends (a d : RgbaColor) (al : Option Rat) :
    a.blend d 0 al = a ∧ a.blend d 1 al = d := by
  constructor
  · simp [blend]
  · rw [blend, if_neg (by norm_num), if_pos (by norm_num)]

/-- C37 for `blend_toward`, for every factor. -/
theorem blendToward_between {a d : RgbaColor} (ha : a.Valid) (hd : d.Valid) (t : Rat) :
    Between (a.blendToward d t) d a := by
  unfold blendToward
  split
  · simp only [Between]; omega
  · split
    · simp only [Between]; omega
    · rename_i h0 h1
      exact ⟨lerpU8_between hd.1 ha.1 (by linarith) (by linarith),
        lerpU8_between hd.2.1 ha.2.1 (by linarith) (by linarith),
        lerpU8_between hd.2.2 ha.2.2 (by linarith) (by linarith)⟩

theorem blendToward_ends (a d : RgbaColor) :
    a.blendToward d 1 = a ∧ a.blendToward d 0 = d := by
  constructor
  · simp [blendToward]
  · rw [blendToward, if_neg (by norm_num), if_pos (by norm_num)]

/-- C37: every blending operation yields valid channels, whatever the alpha values are. -/
theorem tint_valid (a o : RgbaColor) : (a.tint o).Valid :=
  ⟨clampU8_lt _, clampU8_lt _, clampU8_lt _⟩

/-- C37, monotonicity for `blend` strictly inside the unit interval, red channel (the other two
channels are the same function). -/
theorem blend_mono {a d : RgbaColor} {s t : Rat} (al : Option Rat) (h0 : 0 < s) (hst : s ≤ t)
    (h1 : t < 1) :
    ((a.r ≤ d.r → (a.blend d s al).r ≤ (a.blend d t al).r) ∧
      (d.r ≤ a.r → (a.blend d t al).r ≤ (a.blend d s al).r)) ∧
    ((a.g ≤ d.g → (a.blend d s al).g ≤ (a.blend d t al).g) ∧
      (d.g ≤ a.g → (a.blend d t al).g ≤ (a.blend d s al).g)) ∧
    ((a.b ≤ d.b → (a.blend d s al).b ≤ (a.blend d t al).b) ∧
      (d.b ≤ a.b → (a.blend d t al).b ≤ (a.blend d s al).b)) := by
  have e : ∀ u : Rat, 0 < u → u < 1 → a.blend d u al =
      rgba (lerpU8 a.r d.r u) (lerpU8 a.g d.g u) (lerpU8 a.b d.b u)
        (al.getD (a.a + (d.a - a.a) * u)) := by
    intro u h0 h1
    rw [blend, if_neg (by linarith), if_neg (by linarith)]
  rw [e s h0 (by linarith), e t (by linarith) h1]
  exact ⟨lerpU8_mono hst, lerpU8_mono hst, lerpU8_mono hst⟩

example : Between ((rgb 100 100 100).tint (rgba 255 0 0 (1/2))) (rgb 100 100 100) (rgba 255 0 0 (1/2)) :=
  (tint_between (by simp [Valid, rgb]) (by simp [Valid, rgba]) (by norm_num [rgba]) (by norm_num [rgba])).1

/-- The documented value: tinting 100 grey by half red gives 177 (the doc comment says 178; the
cast truncates). -/
example : lerpU8 100 255 (1/2) = 177 ∧ lerpU8 100 0 (1/2) = 50 := by decide +kernel

/-! ### C36 -/

/-- The (lower-case) digit with a given value. -/
def hexDigit (n : Nat) : Char := ("0123456789abcdef".toList)[n]?.getD '0'

theorem parseHexDigit_hexDigit (n : Nat) (h : n < 16) : parseHexDigit (hexDigit n).toLower = some n := by
  have : ∀ n : Fin 16, parseHexDigit (hexDigit n).toLower = some n.1 := by decide
  exact this ⟨n, h⟩

/-- The two-digit spelling of a byte. -/
def hexByte (n : Nat) : List Char := [hexDigit (n / 16), hexDigit (n % 16)]

theorem parseHexPair_hexByte (n : Nat) (h : n < 256) :
    parseHexPair (hexDigit (n / 16)).toLower (hexDigit (n % 16)).toLower = some n := by
  unfold parseHexPair
  rw [parseHexDigit_hexDigit _ (by omega), parseHexDigit_hexDigit _ (by omega)]
  simp only [Option.bind_eq_bind, Option.bind_some, Option.pure_def, Option.some.injEq]
  omega

/-- C36: printing a colour as `rrggbb` and parsing gives the colour back. -/
theorem parseHex_roundtrip6 {r g b : Nat} (hr : r < 256) (hg : g < 256) (hb : b < 256) :
    parseHex (hexByte r ++ hexByte g ++ hexByte b) = some (rgb r g b) := by
  simp [parseHex, hexByte, parseHexPair_hexByte, *]

/-- C36: the same with an alpha byte. -/
theorem parseHex_roundtrip8 {r g b a : Nat} (hr : r < 256) (hg : g < 256) (hb : b < 256) (ha : a < 256) :
    parseHex (hexByte r ++ hexByte g ++ hexByte b ++ hexByte a) = some (rgba r g b ((a : Rat) / 255)) := by
  simp [parseHex, hexByte, parseHexPair_hexByte, *]

theorem parseHexPair_self (c : Char) : parseHexPair c c = (parseHexDigit c).map (· * 17) := by
  unfold parseHexPair
  cases parseHexDigit c <;> simp; omega

/-- C36: the short forms are the long forms with every digit doubled. -/
theorem parseHex_short3 (c0 c1 c2 : Char) :
    parseHex [c0, c1, c2] = parseHex [c0, c0, c1, c1, c2, c2] := by
  simp only [parseHex, List.map, parseHexPair_self]
  cases parseHexDigit c0.toLower <;> cases parseHexDigit c1.toLower <;>
    cases parseHexDigit c2.toLower <;> rfl

theorem parseHex_short4 (c0 c1 c2 c3 : Char) :
    parseHex [c0, c1, c2, c3] = parseHex [c0, c0, c1, c1, c2, c2, c3, c3] := by
  simp only [parseHex, List.map, parseHexPair_self]
  cases parseHexDigit c0.toLower <;> cases parseHexDigit c1.toLower <;>
    cases parseHexDigit c2.toLower <;> cases parseHexDigit c3.toLower <;> rfl

/-- C36: letter case is irrelevant: texts equal up to ASCII case parse alike. -/
theorem parseHex_case {s t : List Char} (h : s.map Char.toLower = t.map Char.toLower) :
    parseHex s = parseHex t := by
  unfold parseHex; rw [h]

theorem parseHexDigit_isSome (c : Char) :
    (parseHexDigit c).isSome → ∃ n, n < 16 ∧ c = hexDigit n := by
  intro h
  unfold parseHexDigit at h
  split at h
  · rename_i hc
    refine ⟨c.toNat - 48, ?_, ?_⟩
    · have h1 : c.toNat ≤ 57 := hc.2
      omega
    · have h0 : 48 ≤ c.toNat := hc.1
      have h1 : c.toNat ≤ 57 := hc.2
      have hk : ∀ k : Fin 10, hexDigit k = Char.ofNat (k.1 + 48) := by decide
      have := hk ⟨c.toNat - 48, by omega⟩
      simp only at this
      rw [this, show c.toNat - 48 + 48 = c.toNat by omega, Char.ofNat_toNat]
  · split at h
    · rename_i hc
      have h0 : 97 ≤ c.toNat := hc.1
      have h1 : c.toNat ≤ 102 := hc.2
      refine ⟨c.toNat - 97 + 10, by omega, ?_⟩
      have hk : ∀ k : Fin 6, hexDigit (k.1 + 10) = Char.ofNat (k.1 + 97) := by decide
      have := hk ⟨c.toNat - 97, by omega⟩
      simp only at this
      rw [this, show c.toNat - 97 + 97 = c.toNat by omega, Char.ofNat_toNat]
    · simp at h

/-- C36: anything accepted has length 3, 4, 6 or 8 and only hex digits (up to case); all else is
rejected. -/
theorem parseHex_accepts {s : List Char} (h : (parseHex s).isSome) :
    (s.length = 3 ∨ s.length = 4 ∨ s.length = 6 ∨ s.length = 8) ∧
    ∀ c ∈ s, ∃ n, n < 16 ∧ c.toLower = hexDigit n := by
  have key : ∀ c, parseHexDigit c = none ∨ ∃ n, n < 16 ∧ c = hexDigit n := by
    intro c
    cases hc : parseHexDigit c with
    | none => exact .inl rfl
    | some v => exact .inr (parseHexDigit_isSome c (by rw [hc]; rfl))
  have main : ∀ l : List Char, l = s.map Char.toLower →
      (l.length = 3 ∨ l.length = 4 ∨ l.length = 6 ∨ l.length = 8) ∧
      ∀ c ∈ l, ∃ n, n < 16 ∧ c = hexDigit n := by
    intro l hl
    unfold parseHex at h
    rw [← hl] at h
    split at h <;> first
      | (refine ⟨by simp, ?_⟩
         intro c hc
         rcases key c with hk | hk
         · exfalso
           simp only [List.mem_cons, List.not_mem_nil, or_false] at hc
           revert h
           rcases hc with rfl | rfl | rfl | rfl | rfl | rfl | rfl | rfl <;>
             simp [parseHexPair, hk]
         · exact hk)
      | (refine ⟨by simp, ?_⟩
         intro c hc
         rcases key c with hk | hk
         · exfalso
           simp only [List.mem_cons, List.not_mem_nil, or_false] at hc
           revert h
           rcases hc with rfl | rfl | rfl | rfl | rfl | rfl <;>
             simp [parseHexPair, hk]
         · exact hk)
      | (refine ⟨by simp, ?_⟩
         intro c hc
         rcases key c with hk | hk
         · exfalso
           simp only [List.mem_cons, List.not_mem_nil, or_false] at hc
           revert h
           rcases hc with rfl | rfl | rfl | rfl <;>
             simp [hk]
         · exact hk)
      | (refine ⟨by simp, ?_⟩
         intro c hc
         rcases key c with hk | hk
         · exfalso
           simp only [List.mem_cons, List.not_mem_nil, or_false] at hc
           revert h
           rcases hc with rfl | rfl | rfl <;>
             simp [hk]
         · exact hk)
      | simp at h
  obtain ⟨h1, h2⟩ := main _ rfl
  refine ⟨by simpa using h1, ?_⟩
  intro c hc
  exact h2 c.toLower (List.mem_map_of_mem hc)

example : parseHex "1e90FF".toList = some (rgb 30 144 255) := by decide
example : parseHex "1e90f".toList = none := by decide

/-! ### C38 -/

/-- The text has both parentheses and the first `)` comes before the first `(`. -/
def ParensSwapped (s : List Char) : Prop :=
  ∃ pre post, s = pre ++ ')' :: post ∧ '(' ∉ pre ∧ ')' ∉ pre ∧ '(' ∈ post

theorem sliceParens_panic_iff (s : List Char) (body : List Char → Option RgbaColor) :
    sliceParens s body = .panic ↔ ParensSwapped s := by
  unfold sliceParens
  constructor
  · intro h
    split at h
    · simp at h
    · rename_i start hs
      split at h
      · simp at h
      · rename_i stop he
        split at h
        · rename_i hlt
          rw [List.findIdx?_eq_some_iff_getElem] at hs he
          obtain ⟨hs1, hs2, hs3⟩ := hs
          obtain ⟨he1, he2, he3⟩ := he
          have hne : start ≠ stop := by
            rintro rfl; simp_all
          refine ⟨s.take stop, s.drop (stop + 1), ?_, ?_, ?_, ?_⟩
          · have : s[stop] = ')' := by simpa using he2
            rw [← this, List.cons_getElem_drop_succ, List.take_append_drop]
          · intro hm
            obtain ⟨k, hk, hk2⟩ := List.mem_iff_getElem.1 hm
            simp at hk hk2
            have := hs3 k (by omega)
            simp [hk2] at this
          · intro hm
            obtain ⟨k, hk, hk2⟩ := List.mem_iff_getElem.1 hm
            simp at hk hk2
            have := he3 k (by omega)
            simp [hk2] at this
          · rw [List.mem_drop_iff_getElem]
            refine ⟨start - (stop + 1), by omega, ?_⟩
            have : stop + 1 + (start - (stop + 1)) = start := by omega
            simp only [this]; simpa using hs2
        · cases hb : body ((s.take stop).drop (start + 1)) <;> simp [hb, Outcome.ofOption] at h
  · rintro ⟨pre, post, rfl, h1, h2, h3⟩
    have e1 : (pre ++ ')' :: post).findIdx? (· == ')') = some pre.length := by
      rw [List.findIdx?_append, List.findIdx?_eq_none_iff.2 (by
        intro x hx; simp; rintro rfl; exact h2 hx)]
      simp [List.findIdx?_cons]
    obtain ⟨k, hk⟩ : ∃ k, post.findIdx? (· == '(') = some k := by
      cases hf : post.findIdx? (· == '(') with
      | some k => exact ⟨k, rfl⟩
      | none =>
        rw [List.findIdx?_eq_none_iff] at hf
        have := hf _ h3; simp at this
    have e2 : (pre ++ ')' :: post).findIdx? (· == '(') = some (pre.length + (k + 1)) := by
      rw [List.findIdx?_append, List.findIdx?_eq_none_iff.2 (by
        intro x hx; simp; rintro rfl; exact h1 hx)]
      simp [List.findIdx?_cons, hk]; omega
    rw [e1, e2]
    simp only
    rw [if_pos (by omega)]

/-- C38, complete characterisation of the failure: parsing panics exactly for texts that (trimmed,
lower-cased) start with `rgb` or `hsl` and have their first `)` before their first `(`.
The property (never panics) is false; this is the strongest true version. -/
theorem parse_panic_iff_partial (ext : ParseExt) (s : List Char) :
    parse ext s = .panic ↔
      (("rgb".toList <+: (trim s).map Char.toLower ∨ "hsl".toList <+: (trim s).map Char.toLower) ∧
        ParensSwapped ((trim s).map Char.toLower)) := by
  unfold parse
  simp only
  generalize trim s = t
  have hof : ∀ o : Option RgbaColor, Outcome.ofOption o ≠ .panic := by
    intro o; cases o <;> simp [Outcome.ofOption]
  split
  · rename_i h
    rw [List.isEmpty_iff] at h
    subst h
    simp
  · split
    · rename_i h
      simp only [h, reduceCtorEq, false_iff, not_and]
      rintro (h | h) <;> simp at h
    · split
      · rename_i h
        simp only [h, reduceCtorEq, false_iff, not_and]
        rintro (h | h) <;> simp at h
      · split
        · rename_i rest _ _ _
          simp only [hof, false_iff, not_and]
          have : Char.toLower '#' = '#' := by decide
          rintro (h | h) <;> simp [this] at h
        · split
          · rename_i h
            rw [List.isPrefixOf_iff_prefix] at h
            rw [sliceParens_panic_iff]; exact (and_iff_right (Or.inl h)).symm
          · rename_i h
            rw [List.isPrefixOf_iff_prefix] at h
            split
            · rename_i h2
              rw [List.isPrefixOf_iff_prefix] at h2
              rw [sliceParens_panic_iff]; exact (and_iff_right (Or.inr h2)).symm
            · rename_i h2
              rw [List.isPrefixOf_iff_prefix] at h2
              simp only [hof, false_iff, not_and]
              rintro (h' | h') <;> contradiction

/-- C38 fails: `rgb)(` panics, whatever the rest of the parser does. -/
theorem parse_panic_counterexample (ext : ParseExt) : parse ext "rgb)(".toList = .panic := by
  rw [parse_panic_iff_partial]
  have : (trim "rgb)(".toList).map Char.toLower = "rgb)(".toList := by decide
  rw [this]
  exact ⟨.inl ⟨[')', '('], rfl⟩, "rgb".toList, ['('], rfl, by decide, by decide, by decide⟩

/-- A text meeting the non-panicking side: parentheses in order. -/
example : ¬ ParensSwapped "rgb(1,2,3)".toList := by
  rintro ⟨pre, post, h, h1, h2, h3⟩
  have : sliceParens "rgb(1,2,3)".toList (fun _ => none) = .err := by decide
  have h4 := (sliceParens_panic_iff "rgb(1,2,3)".toList (fun _ => none)).2 ⟨pre, post, h, h1, h2, h3⟩
  rw [this] at h4
  cases h4

end Textual.RgbaColor
