import Verif.Props.Stylesheet
import Mathlib.Data.List.Infix

/-!
C131: reading a stylesheet never crashes, but for a `)` before the `(` of `rgb` or `hsl`.

Every parser leaves an end of its input (`Sub`, `SubQ`); a panic comes from `RgbaColor::parse` on a word of the text
(`Calm`). -/

namespace Textual.Parse

open Css Sheet
open RgbaColor (Outcome)
open Layout (Scalar Spacing)

variable {ws alnum : Char → Bool} {env : Env}

/-- What is left is an end of the input. -/
def Sub {α : Type} (p : P α) : Prop := ∀ i a r, p i = some (a, r) → r <:+ i

/-- The same for parsers that may panic. -/
def SubQ {α : Type} (p : Q α) : Prop := ∀ i a r, p i = .ok (a, r) → r <:+ i

theorem skip_sub (i : List Char) : skip i <:+ i := List.dropWhile_suffix _
theorem trimStart_sub (i : List Char) : trimStart ws i <:+ i := List.dropWhile_suffix _

theorem chr_sub {c : Char} {i r : List Char} (h : chr c i = some r) : r <:+ i := by
  rw [chr_some h]; exact List.suffix_cons _ _

theorem skip1_sub {i r : List Char} (h : skip1 i = some r) : r <:+ i := by
  unfold skip1 at h
  split at h
  · simp at h; rw [← h]; exact skip_sub i
  · simp at h

theorem tag_sub {t : String} {i r : List Char} (h : tag t i = some r) : r <:+ i := by
  unfold tag at h
  split at h
  · simp at h; rw [← h]; exact List.drop_suffix _ _
  · simp at h

theorem takeUntil_sub (c : Char) : Sub (takeUntil c) := by
  intro i a r h
  unfold takeUntil at h
  split at h
  · simp at h; rw [← h.2]; exact List.dropWhile_suffix _
  · simp at h

theorem ident_sub : Sub (ident alnum) := by
  intro i a r h
  unfold ident at h
  simp only at h
  split at h
  · simp at h
  · simp at h; rw [← h.2]; exact List.dropWhile_suffix _

theorem attrib_sub : Sub (attrib ws) := by
  intro i a r h
  unfold attrib at h
  simp only [Option.bind_eq_bind, Option.bind_eq_some_iff] at h
  obtain ⟨i1, h1, ⟨c, i2⟩, h2, i3, h3, h4⟩ := h
  have h5 := ((chr_sub h3).trans (takeUntil_sub _ _ _ _ h2)).trans (chr_sub h1)
  split at h4 <;> simp at h4 <;> rw [← h4.2] <;> exact h5

theorem marked_sub (c : Char) (f : String → Selector) : Sub (marked alnum c f) := by
  intro i a r h
  unfold marked at h
  simp only [Option.bind_eq_bind, Option.bind_eq_some_iff] at h
  obtain ⟨i1, h1, ⟨n, i2⟩, h2, h3⟩ := h
  simp at h3
  rw [← h3.2]
  exact (ident_sub _ _ _ h2).trans (chr_sub h1)

theorem simple_sub : Sub (simple ws alnum) := by
  intro i a r h
  unfold simple at h
  simp only [Option.or_eq_some_iff] at h
  rcases h with h | ⟨-, h | ⟨-, h | ⟨-, h | ⟨-, h | ⟨-, h | ⟨-, h⟩⟩⟩⟩⟩⟩
  · exact marked_sub _ _ _ _ _ h
  · exact marked_sub _ _ _ _ _ h
  · exact marked_sub _ _ _ _ _ h
  · simp only [Option.map_eq_some_iff] at h
    obtain ⟨x, h1, h2⟩ := h
    simp at h2; rw [← h2.2]; exact chr_sub h1
  · simp only [Option.map_eq_some_iff] at h
    obtain ⟨x, h1, h2⟩ := h
    simp at h2; rw [← h2.2]; exact chr_sub h1
  · exact attrib_sub _ _ _ h
  · simp only [Option.map_eq_some_iff] at h
    obtain ⟨⟨n, x⟩, h1, h2⟩ := h
    simp at h2; rw [← h2.2]; exact ident_sub _ _ _ h1

theorem many_sub {α : Type} {p : P α} (hp : Sub p) : Sub (many p) := by
  have : ∀ (n : Nat) i a r, many0 p n i = some (a, r) → r <:+ i := by
    intro n
    induction n with
    | zero => intro i a r h; simp [many0] at h
    | succ n ih =>
      intro i a r h
      rw [many0] at h
      split at h
      · simp at h; rw [h.2]
      · rename_i b r1 hx
        split at h
        · simp only [Option.map_eq_some_iff] at h
          obtain ⟨⟨l, r2⟩, h1, h2⟩ := h
          simp at h2
          rw [← h2.2]
          exact (ih _ _ _ h1).trans (hp _ _ _ hx)
        · simp at h
  exact fun i a r h => this _ i a r h

theorem compound_sub : Sub (compound ws alnum) := by
  intro i a r h
  unfold compound at h
  simp only [Option.bind_eq_bind, Option.bind_eq_some_iff] at h
  obtain ⟨⟨s, i1⟩, h1, ⟨l, i2⟩, h2, h3⟩ := h
  simp at h3
  rw [← h3.2]
  exact (many_sub simple_sub _ _ _ h2).trans (simple_sub _ _ _ h1)

theorem symbol_sub : Sub symbol := by
  intro i a r h
  unfold symbol at h
  split at h <;> simp at h <;> rw [← h.2] <;> exact List.suffix_cons _ _

theorem complexLoop_sub : ∀ n cur i, (complexLoop ws alnum n cur i).2 <:+ i := by
  intro n
  induction n with
  | zero => intro cur i; exact List.suffix_rfl
  | succ n ih =>
    intro cur i
    rw [complexLoop]
    simp only
    split
    · rename_i k after hs
      split
      · rename_i next i' hc
        exact (ih next i').trans (((compound_sub _ _ _ hc).trans (skip_sub _)).trans
          ((symbol_sub _ _ _ hs).trans (skip_sub _)))
      · exact List.suffix_rfl
    · split
      · split
        · rename_i next i' hc
          exact (ih next i').trans ((compound_sub _ _ _ hc).trans (skip_sub _))
        · exact List.suffix_rfl
      · exact List.suffix_rfl

theorem complex_sub : Sub (complex ws alnum) := by
  intro i a r h
  unfold complex at h
  simp only [Option.bind_eq_bind, Option.bind_eq_some_iff] at h
  obtain ⟨⟨s, i1⟩, h1, h2⟩ := h
  have := complexLoop_sub (ws := ws) (alnum := alnum) (i1.length + 1) s i1
  simp at h2
  rw [h2] at this
  exact this.trans (compound_sub _ _ _ h1)

theorem another_sub : Sub (another ws alnum) := by
  intro i a r h
  unfold another at h
  simp only [Option.bind_eq_bind, Option.bind_eq_some_iff] at h
  obtain ⟨i1, h1, h2⟩ := h
  exact ((complex_sub _ _ _ h2).trans (skip_sub _)).trans ((chr_sub h1).trans (skip_sub _))

theorem selectorList_sub : Sub (selectorList ws alnum) := by
  intro i a r h
  unfold selectorList at h
  simp only [Option.bind_eq_bind, Option.bind_eq_some_iff] at h
  obtain ⟨⟨s, i1⟩, h1, ⟨l, i2⟩, h2, h3⟩ := h
  simp at h3
  rw [← h3.2]
  exact (many_sub another_sub _ _ _ h2).trans ((complex_sub _ _ _ h1).trans (skip_sub _))

/-! ### Values -/

theorem digits_sub : Sub digits := by
  intro i a r h
  unfold digits at h
  simp only at h
  split at h
  · simp at h
  · simp at h; rw [← h.2]; exact List.dropWhile_suffix _

theorem number_sub : Sub number := by
  have body : ∀ (neg : Bool) (i : List Char) (a : Rat) (r : List Char),
      (do
        let (whole, i) ← digits i
        let (frac, i) := match (chr '.' i).bind digits with | some x => x | none => ([], i)
        return (if neg then -decimal whole frac else decimal whole frac, i)) = some (a, r) → r <:+ i := by
    intro neg i a r h
    simp only [Option.bind_eq_bind, Option.bind_eq_some_iff] at h
    obtain ⟨⟨whole, i1⟩, h1, h2⟩ := h
    have hs1 := digits_sub _ _ _ h1
    simp only at h2
    cases hd : (chr '.' i1).bind digits with
    | none =>
      rw [hd] at h2
      simp at h2
      rw [← h2.2]
      exact hs1
    | some x =>
      rw [hd] at h2
      obtain ⟨f, i2⟩ := x
      simp only [Option.bind_eq_some_iff] at hd
      obtain ⟨j, hj, hj2⟩ := hd
      simp at h2
      rw [← h2.2]
      exact ((digits_sub _ _ _ hj2).trans (chr_sub hj)).trans hs1
  intro i a r h
  unfold number at h
  cases hc : chr '-' i with
  | none => rw [hc] at h; exact body _ _ _ _ h
  | some x => rw [hc] at h; exact (body _ _ _ _ h).trans (chr_sub hc)

theorem unitSuffix_sub : Sub unitSuffix := by
  intro i a r h
  unfold unitSuffix at h
  split at h <;> simp at h <;> rw [← h.2] <;>
    first
    | exact List.suffix_cons _ _
    | exact (List.suffix_cons _ _).trans (List.suffix_cons _ _)

theorem scalar_sub : Sub (scalar ws) := by
  intro i a r h
  unfold scalar at h
  simp only at h
  split at h
  · rename_i x hx
    simp at h
    rw [← h.2]
    exact (tag_sub hx).trans (trimStart_sub _)
  · split at h
    · simp at h
    · rename_i v i1 hn
      have h1 := (number_sub _ _ _ hn).trans (trimStart_sub i)
      split at h
      · rename_i u x hu
        simp at h
        rw [← h.2]
        exact (unitSuffix_sub _ _ _ hu).trans h1
      · simp at h
        rw [← h.2]
        exact h1

theorem optSkip_sub {α : Type} {p : P α} (hp : Sub p) (i : List Char) : (optSkip p i).2 <:+ i := by
  unfold optSkip
  split
  · rename_i h; exact (hp _ _ _ h).trans (skip_sub _)
  · exact List.suffix_rfl

theorem optSkip1_sub {α : Type} {p : P α} (hp : Sub p) (i : List Char) : (optSkip1 p i).2 <:+ i := by
  unfold optSkip1
  split
  · rename_i h
    simp only [Option.bind_eq_some_iff] at h
    obtain ⟨j, h1, h2⟩ := h
    exact (hp _ _ _ h2).trans (skip1_sub h1)
  · exact List.suffix_rfl

theorem spacing_sub : Sub (spacing ws) := by
  intro i a r h
  unfold spacing at h
  simp only [Option.bind_eq_bind, Option.bind_eq_some_iff] at h
  obtain ⟨⟨s, i1⟩, h1, h2⟩ := h
  have hs := scalar_sub _ _ _ h1
  have ho := optSkip_sub (scalar_sub (ws := ws)) i1
  simp only at h2
  split at h2
  · rename_i i2 e
    rw [e] at ho
    simp at h2
    rw [← h2.2]
    exact ho.trans hs
  · rename_i x i2 e
    rw [e] at ho
    have ho2 := optSkip_sub (scalar_sub (ws := ws)) i2
    have ho3 := optSkip_sub (scalar_sub (ws := ws)) (optSkip (scalar ws) i2).2
    split at h2 <;> simp at h2 <;> rw [← h2.2] <;> exact ho3.trans (ho2.trans (ho.trans hs))

theorem u16_sub : Sub u16 := by
  intro i a r h
  unfold u16 at h
  simp only [Option.bind_eq_bind, Option.bind_eq_some_iff] at h
  obtain ⟨⟨ds, i1⟩, h1, h2⟩ := h
  simp only at h2
  split at h2
  · simp at h2; rw [← h2.2]; exact digits_sub _ _ _ h1
  · simp at h2

theorem trimU16_sub : Sub (trimU16 ws) := fun i a r h => (u16_sub _ a r h).trans (trimStart_sub i)

theorem layout_sub : Sub (layout ws) := by
  intro i a r h
  unfold layout at h
  simp only [Option.or_eq_some_iff, Option.map_eq_some_iff] at h
  rcases h with ⟨x, h1, h2⟩ | ⟨-, ⟨x, h1, h2⟩ | ⟨-, x, h1, h2⟩⟩ <;> simp at h2 <;> rw [← h2.2] <;>
    exact (tag_sub h1).trans (trimStart_sub _)

theorem keyword_sub (table : List (String × String)) : Sub (keyword env table) := by
  intro i a r h
  unfold keyword at h
  simp only [Option.bind_eq_bind, Option.bind_eq_some_iff] at h
  obtain ⟨⟨w, i1⟩, h1, e, -, h3⟩ := h
  simp at h3
  rw [← h3.2]
  exact ident_sub _ _ _ h1

theorem gridSize_sub : Sub (gridSize ws) := by
  intro i a r h
  unfold gridSize at h
  simp only [Option.bind_eq_bind, Option.bind_eq_some_iff] at h
  obtain ⟨⟨s, i1⟩, h1, h2⟩ := h
  have := optSkip1_sub (trimU16_sub (ws := ws)) i1
  simp at h2
  rw [← h2.2]
  exact this.trans (trimU16_sub _ _ _ h1)

theorem gridGutter_sub : Sub (gridGutter ws) := by
  intro i a r h
  unfold gridGutter at h
  simp only [Option.bind_eq_bind, Option.bind_eq_some_iff] at h
  obtain ⟨⟨s, i1⟩, h1, h2⟩ := h
  have := optSkip1_sub (scalar_sub (ws := ws)) i1
  simp at h2
  rw [← h2.2]
  exact this.trans (scalar_sub _ _ _ h1)

theorem offset_sub : Sub (offset ws) := by
  intro i a r h
  unfold offset at h
  simp only [Option.bind_eq_bind, Option.bind_eq_some_iff] at h
  obtain ⟨⟨s, i1⟩, h1, ⟨y, i2⟩, ⟨j, h2, h3⟩, h4⟩ := h
  simp at h4
  rw [← h4.2]
  exact (scalar_sub _ _ _ h3).trans ((skip1_sub h2).trans (scalar_sub _ _ _ h1))

theorem scalarList_sub : Sub (scalarList ws) := by
  intro i a r h
  unfold scalarList at h
  simp only [Option.bind_eq_bind, Option.bind_eq_some_iff] at h
  obtain ⟨⟨s, i1⟩, h1, ⟨y, i2⟩, h2, h4⟩ := h
  simp at h4
  rw [← h4.2]
  refine (many_sub ?_ _ _ _ h2).trans (scalar_sub _ _ _ h1)
  intro i a r h
  simp only [Option.bind_eq_some_iff] at h
  obtain ⟨j, h1, h2⟩ := h
  exact (scalar_sub _ _ _ h2).trans (skip1_sub h1)

theorem scrollbarSize_sub : Sub scrollbarSize := by
  intro i a r h
  unfold scrollbarSize at h
  simp only [Option.bind_eq_bind, Option.bind_eq_some_iff] at h
  obtain ⟨⟨s, i1⟩, h1, h2⟩ := h
  have := optSkip1_sub u16_sub i1
  simp at h2
  rw [← h2.2]
  exact this.trans (u16_sub _ _ _ h1)

theorem overflow2_sub : Sub (overflow2 env) := by
  intro i a r h
  unfold overflow2 at h
  simp only [Option.bind_eq_bind, Option.bind_eq_some_iff] at h
  obtain ⟨⟨s, i1⟩, h1, h2⟩ := h
  have := optSkip1_sub (keyword_sub (env := env) overflows) i1
  simp at h2
  rw [← h2.2]
  exact this.trans (keyword_sub _ _ _ _ h1)

theorem contentAlign_sub : Sub (contentAlign env) := by
  intro i a r h
  unfold contentAlign at h
  simp only [Option.bind_eq_bind, Option.bind_eq_some_iff] at h
  obtain ⟨⟨s, i1⟩, h1, j, h2, ⟨v, i2⟩, h3, h4⟩ := h
  simp at h4
  rw [← h4.2]
  exact (keyword_sub _ _ _ _ h3).trans ((skip1_sub h2).trans (keyword_sub _ _ _ _ h1))

theorem untilEnd_sub (i : List Char) : (untilEnd i).2 <:+ i := List.dropWhile_suffix _

theorem textStyle_sub : Sub (textStyle env) := by
  intro i a r h
  unfold textStyle at h
  simp only at h
  have := (untilEnd_sub (trimStart env.ws i)).trans (trimStart_sub i)
  split at h
  · simp at h
  · simp at h; rw [← h.2]; exact this
  · simp only [Option.map_eq_some_iff] at h
    obtain ⟨x, -, h2⟩ := h
    simp at h2; rw [← h2.2]; exact this

theorem layer_sub : Sub (layer env) := by
  intro i a r h
  unfold layer at h
  simp only [Option.map_eq_some_iff] at h
  obtain ⟨⟨n, x⟩, h1, h2⟩ := h
  simp at h2; rw [← h2.2]; exact (ident_sub _ _ _ h1).trans (trimStart_sub _)

theorem layers_sub : Sub (layers env) := by
  intro i a r h
  unfold layers at h
  simp only at h
  have := (untilEnd_sub (trimStart env.ws i)).trans (trimStart_sub i)
  split at h
  · simp at h
  · split at h
    · simp at h
    · simp at h; rw [← h.2]; exact this

theorem opacity_sub : Sub (opacity ws) := by
  intro i a r h
  unfold opacity at h
  simp only at h
  split at h
  · rename_i s x hs
    simp at h; rw [← h.2]; exact (scalar_sub _ _ _ hs).trans (trimStart_sub _)
  · split at h
    · simp at h
    · simp only [Option.map_eq_some_iff] at h
      obtain ⟨x, -, h2⟩ := h
      simp at h2; rw [← h2.2]; exact (List.dropWhile_suffix _).trans (trimStart_sub _)

theorem percent_sub : Sub percent := by
  intro i a r h
  unfold percent at h
  simp only at h
  split at h
  · simp at h
  · split at h
    · rename_i x hx
      simp only [Option.map_eq_some_iff] at h
      obtain ⟨v, -, h2⟩ := h
      simp at h2
      rw [← h2.2]
      have := List.dropWhile_suffix (l := i) (fun c => isDigit c || c == '.')
      rw [hx] at this
      exact (List.suffix_cons _ _).trans this
    · simp at h

theorem optionalAlpha_sub (i : List Char) (c : RgbaColor) : (optionalAlpha ws i c).2 <:+ i := by
  unfold optionalAlpha
  split
  · rename_i h; exact (percent_sub _ _ _ h).trans (trimStart_sub _)
  · exact List.suffix_rfl

theorem colorToken_append : ∀ (d : Int) (i : List Char), (colorToken ws d i).1 ++ (colorToken ws d i).2 = i := by
  intro d i
  induction i generalizing d with
  | nil => rfl
  | cons c r ih =>
    rw [colorToken]
    split
    · simp [ih]
    · split
      · split
        · rfl
        · simp [ih]
      · split
        · rfl
        · split
          · rfl
          · simp [ih]

/-- A colour in the text on which `RgbaColor::parse` panics. -/
def Bad (env : Env) (i : List Char) : Prop :=
  ∃ s, s <:+ i ∧ RgbaColor.parse env.color (colorToken env.ws 0 s).1 = .panic

theorem Bad.mono {i j : List Char} (h : Bad env i) (hs : i <:+ j) : Bad env j := by
  obtain ⟨s, h1, h2⟩ := h
  exact ⟨s, h1.trans hs, h2⟩

/-- A panic comes from a bad colour. -/
def Calm (env : Env) {α : Type} (p : Q α) : Prop := ∀ i, p i = .panic → Bad env i

theorem colorToken_sub (i : List Char) : (colorToken ws 0 i).2 <:+ i :=
  ⟨(colorToken ws 0 i).1, colorToken_append 0 i⟩

theorem color_sub : SubQ (color env) := by
  intro i a r h
  unfold color at h
  have hs := (colorToken_sub (ws := env.ws) (trimStart env.ws i)).trans (trimStart_sub i)
  split at h
  · simp at h
  · rename_i n x e
    rw [e] at hs
    have ho := optionalAlpha_sub (ws := env.ws) x (themeVariable n)
    simp only [Outcome.ok.injEq] at h
    rw [h] at ho
    exact ho.trans hs
  · rename_i t x _ _ e
    rw [e] at hs
    cases hp : RgbaColor.parse env.color t with
    | ok c =>
      rw [hp] at h
      simp only [Outcome.bind, Outcome.ok.injEq] at h
      have ho := optionalAlpha_sub (ws := env.ws) x c
      rw [h] at ho
      exact ho.trans hs
    | err => rw [hp] at h; simp [Outcome.bind] at h
    | panic => rw [hp] at h; simp [Outcome.bind] at h

theorem color_calm : Calm env (color env) := by
  intro i h
  unfold color at h
  split at h
  · simp at h
  · simp at h
  · rename_i t x _ _ e
    refine ⟨trimStart env.ws i, trimStart_sub i, ?_⟩
    rw [e]
    cases hp : RgbaColor.parse env.color t with
    | ok c => rw [hp] at h; simp [Outcome.bind] at h
    | err => rw [hp] at h; simp [Outcome.bind] at h
    | panic => rfl

theorem bind_ok {α β : Type} {x : Outcome α} {f : α → Outcome β} {b : β} (h : Outcome.bind x f = .ok b) :
    ∃ a, x = .ok a ∧ f a = .ok b := by
  cases x with
  | ok a => exact ⟨a, rfl, h⟩
  | err => simp [Outcome.bind] at h
  | panic => simp [Outcome.bind] at h

theorem bind_panic {α β : Type} {x : Outcome α} {f : α → Outcome β} (h : Outcome.bind x f = .panic) :
    x = .panic ∨ ∃ a, x = .ok a ∧ f a = .panic := by
  cases x with
  | ok a => exact Or.inr ⟨a, rfl, h⟩
  | err => simp [Outcome.bind] at h
  | panic => exact Or.inl rfl

theorem edge_sub : SubQ (edge env) := by
  intro i a r h
  unfold edge at h
  simp only at h
  have ht := trimStart_sub (ws := env.ws) i
  split at h
  · rename_i kind x hk
    have hx := (keyword_sub _ _ _ _ hk).trans ht
    split at h
    · simp at h; rw [← h.2]; exact hx
    · rename_i y hy
      split at h
      · rename_i c z hc
        simp at h; rw [← h.2]; exact (color_sub _ _ _ hc).trans ((skip1_sub hy).trans hx)
      · simp at h; rw [← h.2]; exact hx
      · simp at h
  · obtain ⟨⟨c, x⟩, h1, h2⟩ := bind_ok h
    simp only at h2
    split at h2
    · rename_i kind y hk
      simp at h2
      rw [← h2.2]
      exact ((keyword_sub _ _ _ _ hk).trans (trimStart_sub _)).trans ((color_sub _ _ _ h1).trans ht)
    · simp at h2

theorem edge_calm : Calm env (edge env) := by
  intro i h
  unfold edge at h
  simp only at h
  have ht := trimStart_sub (ws := env.ws) i
  split at h
  · rename_i kind x hk
    have hx := (keyword_sub _ _ _ _ hk).trans ht
    split at h
    · simp at h
    · rename_i y hy
      split at h
      · simp at h
      · simp at h
      · rename_i hc
        exact (color_calm _ hc).mono ((skip1_sub hy).trans hx)
  · rcases bind_panic h with h | ⟨⟨c, x⟩, h1, h2⟩
    · exact (color_calm _ h).mono ht
    · simp only at h2
      split at h2 <;> simp at h2

/-- The part of `hatch` before the colour leaves an end of its input. -/
theorem hatch_split (i : List Char) : ∃ x : Option (List Char × List Char), (∀ p r, x = some (p, r) → r <:+ i) ∧
    hatch env i = match x with
      | none => .err
      | some (p, i) =>
        Outcome.bind (color env (trimStart env.ws i)) fun x =>
          let i := trimStart env.ws x.2
          match percent i with
          | some (v, r) => .ok ((p, x.1, clamp01 v), r)
          | none => .ok ((p, x.1, 1), i) := by
  refine ⟨_, ?_, rfl⟩
  intro p r h
  have ht := trimStart_sub (ws := env.ws) i
  generalize trimStart env.ws i = j at h ht
  split at h
  · rename_i q rest
    split at h
    · simp only [Option.bind_eq_bind, Option.bind_eq_some_iff] at h
      obtain ⟨⟨t, x⟩, h1, y, h2, h3⟩ := h
      simp at h3
      rw [← h3.2]
      exact ((List.tail_suffix _).trans (takeUntil_sub _ _ _ _ h1)).trans ((List.suffix_cons _ _).trans ht)
    · simp only [Option.bind_eq_bind, Option.bind_eq_some_iff] at h
      obtain ⟨⟨t, x⟩, h1, y, h2, h3⟩ := h
      simp at h3
      rw [← h3.2]
      exact (ident_sub _ _ _ h1).trans ht
  · simp at h

theorem hatch_sub : SubQ (hatch env) := by
  intro i a r h
  obtain ⟨x, hx, e⟩ := hatch_split (env := env) i
  rw [e] at h
  split at h
  · simp at h
  · rename_i p j
    have hj := hx _ _ rfl
    obtain ⟨⟨c, k⟩, h1, h2⟩ := bind_ok h
    have hk := (trimStart_sub (ws := env.ws) k).trans (((color_sub _ _ _ h1).trans (trimStart_sub _)).trans hj)
    simp only at h2
    split at h2
    · rename_i v y hp
      simp at h2
      rw [← h2.2]
      exact (percent_sub _ _ _ hp).trans hk
    · simp at h2
      rw [← h2.2]
      exact hk

theorem hatch_calm : Calm env (hatch env) := by
  intro i h
  obtain ⟨x, hx, e⟩ := hatch_split (env := env) i
  rw [e] at h
  split at h
  · simp at h
  · rename_i p j
    have hj := hx _ _ rfl
    rcases bind_panic h with h | ⟨⟨c, k⟩, h1, h2⟩
    · exact (color_calm _ h).mono ((trimStart_sub _).trans hj)
    · simp only at h2
      split at h2 <;> simp at h2

theorem keyline_sub : SubQ (keyline env) := by
  intro i a r h
  unfold keyline at h
  split at h
  · simp at h
  · rename_i kind j hk
    have hj := (trimStart_sub (ws := env.ws) j).trans ((keyword_sub _ _ _ _ hk).trans (trimStart_sub i))
    simp only at h
    split at h
    · simp at h; rw [← h.2]; exact hj
    · obtain ⟨⟨c, k⟩, h1, h2⟩ := bind_ok h
      simp at h2
      rw [← h2.2]
      exact (color_sub _ _ _ h1).trans hj

theorem keyline_calm : Calm env (keyline env) := by
  intro i h
  unfold keyline at h
  split at h
  · simp at h
  · rename_i kind j hk
    have hj := (trimStart_sub (ws := env.ws) j).trans ((keyword_sub _ _ _ _ hk).trans (trimStart_sub i))
    simp only at h
    split at h
    · simp at h
    · rcases bind_panic h with h | ⟨⟨c, k⟩, h1, h2⟩
      · exact (color_calm _ h).mono hj
      · simp at h2

theorem lift_sub {α : Type} {p : P α} (hp : Sub p) (f : α → Value) : SubQ (lift p f) ∧ Calm env (lift p f) := by
  constructor
  · intro i a r h
    unfold lift at h
    split at h
    · rename_i x y hx
      simp at h
      rw [← h.2]
      exact hp _ _ _ hx
    · simp at h
  · intro i h
    unfold lift at h
    split at h <;> simp at h

theorem map_sub {α : Type} {p : Q α} (h1 : SubQ p) (h2 : Calm env p) (f : α → Value) :
    SubQ (fun i => Outcome.bind (p i) fun x => .ok (f x.1, x.2)) ∧
    Calm env (fun i => Outcome.bind (p i) fun x => .ok (f x.1, x.2)) := by
  constructor
  · intro i a r h
    obtain ⟨⟨c, k⟩, h3, h4⟩ := bind_ok h
    simp at h4
    rw [← h4.2]
    exact h1 _ _ _ h3
  · intro i h
    rcases bind_panic h with h | ⟨a, -, h4⟩
    · exact h2 _ h
    · simp at h4

theorem kind_sub (k : Kind) : SubQ (k.parser env) ∧ Calm env (k.parser env) := by
  cases k with
  | color => exact map_sub color_sub color_calm .color
  | edge => exact map_sub edge_sub edge_calm fun x => .edge x.1 x.2
  | hatch => exact map_sub hatch_sub hatch_calm fun x => .hatch x.1 x.2.1 x.2.2
  | keyline => exact map_sub keyline_sub keyline_calm fun x => .keyline x.1 x.2
  | scalar => exact lift_sub scalar_sub _
  | spacing => exact lift_sub spacing_sub _
  | u16 => exact lift_sub u16_sub _
  | trimU16 => exact lift_sub trimU16_sub _
  | scrollbarSize => exact lift_sub scrollbarSize_sub _
  | opacity => exact lift_sub opacity_sub _
  | overflow2 => exact lift_sub overflow2_sub _
  | layout => exact lift_sub layout_sub _
  | layers => exact lift_sub layers_sub _
  | layer => exact lift_sub layer_sub _
  | gridSize => exact lift_sub gridSize_sub _
  | scalarList => exact lift_sub scalarList_sub _
  | gridGutter => exact lift_sub gridGutter_sub _
  | textStyle => exact lift_sub textStyle_sub _
  | contentAlign => exact lift_sub contentAlign_sub _
  | offset => exact lift_sub offset_sub _
  | _ => exact lift_sub (keyword_sub _) _

theorem table_sub {n : List Char} {p : Q Value} (h : table env n = some p) : SubQ p ∧ Calm env p := by
  unfold table at h
  simp only [Option.map_eq_some_iff] at h
  obtain ⟨e, -, rfl⟩ := h
  exact kind_sub e.2

/-! ### Rules -/

theorem afterBraces_sub : ∀ (d : Int) (i : List Char), afterBraces d i <:+ i := by
  intro d i
  induction i generalizing d with
  | nil => exact List.suffix_rfl
  | cons c r ih =>
    rw [afterBraces]
    split
    · exact (ih _).trans (List.suffix_cons _ _)
    · split
      · split
        · exact List.suffix_cons _ _
        · exact (ih _).trans (List.suffix_cons _ _)
      · exact (ih _).trans (List.suffix_cons _ _)

theorem afterUnknown_sub {i r : List Char} (h : afterUnknown i = some r) : r <:+ i := by
  unfold afterUnknown at h
  simp only [Option.map_eq_some_iff, Option.or_eq_some_iff] at h
  obtain ⟨⟨a, b⟩, h | ⟨-, h⟩, rfl⟩ := h <;> exact takeUntil_sub _ _ _ _ h

theorem skipImportant_sub (i : List Char) : skipImportant i <:+ i := by
  unfold skipImportant
  split
  · exact (List.drop_suffix _ _).trans (skip_sub _)
  · exact List.suffix_rfl

theorem skipSemi_sub (i : List Char) : skipSemi i <:+ i := by
  unfold skipSemi
  cases h : chr ';' (skip i) with
  | none => exact skip_sub i
  | some r => exact (chr_sub h).trans (skip_sub i)

theorem declaration_sub : SubQ (declaration env.alnum (table env)) ∧ Calm env (declaration env.alnum (table env)) := by
  have key : ∀ i x, declaration env.alnum (table env) i = x →
      (∀ a r, x = .ok (a, r) → r <:+ i) ∧ (x = .panic → Bad env i) := by
    intro i x h
    subst h
    unfold declaration
    simp only
    split
    · refine ⟨?_, by simp⟩
      intro a r h
      simp at h
      rw [← h.2]
      exact (afterBraces_sub _ _).trans (skip_sub _)
    · split
      · simp
      · rename_i name i1 hi
        have s1 := (ident_sub _ _ _ hi).trans (skip_sub i)
        split
        · simp
        · rename_i i2 hc
          have s2 := (skip_sub i2).trans ((chr_sub hc).trans ((skip_sub _).trans s1))
          cases hk : table env name with
          | none =>
            simp only
            cases hu : afterUnknown (skip i2) with
            | none => simp [Outcome.bind]
            | some r' =>
              simp only [Outcome.bind]
              refine ⟨?_, by simp⟩
              intro a r h
              simp at h
              rw [← h.2]
              exact (skipSemi_sub _).trans ((skipImportant_sub _).trans ((afterUnknown_sub hu).trans s2))
          | some p =>
            obtain ⟨t1, t2⟩ := table_sub hk
            simp only
            refine ⟨?_, ?_⟩
            · intro a r h
              obtain ⟨⟨d, r'⟩, h1, h2⟩ := bind_ok h
              obtain ⟨⟨d', r''⟩, h3, h4⟩ := bind_ok h1
              simp at h2 h4
              rw [← h2.2, ← h4.2]
              exact (skipSemi_sub _).trans ((skipImportant_sub _).trans ((t1 _ _ _ h3).trans s2))
            · intro h
              rcases bind_panic h with h | ⟨a, -, h2⟩
              · rcases bind_panic h with h | ⟨a, -, h2⟩
                · exact (t2 _ h).mono s2
                · simp at h2
              · simp at h2
  exact ⟨fun i a r h => (key i _ h).1 a r rfl, fun i h => (key i _ h).2 rfl⟩

theorem item_sub {nested : Q (List Complex × Items (Written Value))} (h1 : SubQ nested) (h2 : Calm env nested) :
    SubQ (item env.alnum (table env) nested) ∧ Calm env (item env.alnum (table env) nested) := by
  obtain ⟨d1, d2⟩ := declaration_sub (env := env)
  constructor
  · intro i a r h
    unfold item at h
    cases hn : nested i with
    | ok x =>
      rw [hn] at h
      simp [Outcome.bind, Outcome.or] at h
      rw [← h.2]
      exact h1 i x.1 x.2 hn
    | err =>
      rw [hn] at h
      simp only [Outcome.bind, Outcome.or] at h
      obtain ⟨⟨d, r'⟩, h3, h4⟩ := bind_ok h
      simp at h4
      rw [← h4.2]
      exact d1 _ _ _ h3
    | panic => rw [hn] at h; simp [Outcome.bind, Outcome.or] at h
  · intro i h
    unfold item at h
    cases hn : nested i with
    | ok x => rw [hn] at h; simp [Outcome.bind, Outcome.or] at h
    | err =>
      rw [hn] at h
      simp only [Outcome.bind, Outcome.or] at h
      rcases bind_panic h with h | ⟨a, -, h4⟩
      · exact d2 _ h
      · simp at h4
    | panic => exact h2 _ hn

theorem manyQ_sub {α : Type} {p : Q α} (h1 : SubQ p) (h2 : Calm env p) : SubQ (manyQ p) ∧ Calm env (manyQ p) := by
  have : ∀ (n : Nat) i, (∀ a r, manyQ0 p n i = .ok (a, r) → r <:+ i) ∧ (manyQ0 p n i = .panic → Bad env i) := by
    intro n
    induction n with
    | zero => intro i; simp [manyQ0]
    | succ n ih =>
      intro i
      rw [manyQ0]
      cases hp : p i with
      | panic => exact ⟨by simp, fun _ => h2 _ hp⟩
      | err =>
        refine ⟨?_, by simp⟩
        intro a r h
        simp at h
        rw [h.2]
      | ok x =>
        obtain ⟨a, r⟩ := x
        have s := h1 _ _ _ hp
        simp only
        split
        · refine ⟨?_, ?_⟩
          · intro b r' h
            obtain ⟨⟨l, r2⟩, h3, h4⟩ := bind_ok h
            simp at h4
            rw [← h4.2]
            exact ((ih r).1 _ _ h3).trans s
          · intro h
            rcases bind_panic h with h | ⟨a, -, h4⟩
            · exact ((ih r).2 h).mono s
            · simp at h4
        · simp
  exact ⟨fun i a r h => (this _ i).1 a r h, fun i h => (this _ i).2 h⟩

theorem rule_sub : ∀ n, SubQ (rule env.ws env.alnum (table env) n) ∧ Calm env (rule env.ws env.alnum (table env) n) := by
  intro n
  induction n with
  | zero =>
    constructor
    · intro i a r h; simp [rule] at h
    · intro i h; simp [rule] at h
  | succ n ih =>
    obtain ⟨m1, m2⟩ := manyQ_sub (env := env) (item_sub ih.1 ih.2).1 (item_sub ih.1 ih.2).2
    have key : ∀ i, (∀ a r, rule env.ws env.alnum (table env) (n + 1) i = .ok (a, r) → r <:+ i) ∧
        (rule env.ws env.alnum (table env) (n + 1) i = .panic → Bad env i) := by
      intro i
      rw [rule]
      split
      · simp
      · rename_i sels i1 hs
        have s1 := (selectorList_sub _ _ _ hs).trans (skip_sub i)
        split
        · simp
        · rename_i i2 hc
          have s2 := (chr_sub hc).trans ((skip_sub _).trans s1)
          refine ⟨?_, ?_⟩
          · intro a r h
            obtain ⟨⟨l, r'⟩, h3, h4⟩ := bind_ok h
            simp only at h4
            split at h4
            · simp at h4
            · rename_i r2 hr
              simp at h4
              rw [← h4.2]
              exact (chr_sub hr).trans ((skip_sub _).trans ((m1 _ _ _ h3).trans s2))
          · intro h
            rcases bind_panic h with h | ⟨⟨l, r'⟩, -, h4⟩
            · exact (m2 _ h).mono s2
            · simp only at h4
              split at h4 <;> simp at h4
    exact ⟨fun i a r h => (key i).1 a r h, fun i h => (key i).2 h⟩

theorem sheet_calm {i : List Char} (h : sheet env.ws env.alnum (table env) i = .panic) : Bad env i := by
  unfold sheet at h
  obtain ⟨r1, r2⟩ := rule_sub (env := env) (i.length + 1)
  rcases bind_panic h with h | ⟨⟨l, r'⟩, -, h4⟩
  · exact (manyQ_sub r1 r2).2 _ h
  · simp only at h4
    split at h4 <;> simp at h4

/-! ### Which colours panic -/

/-- After each `rgb` or `hsl` in the text, in any case, a `)` has a `(` before it. -/
def OpensFirst (t : List Char) : Prop :=
  ∀ u w v x y, t = u ++ w ++ v → w.map Char.toLower = "rgb".toList ∨ w.map Char.toLower = "hsl".toList →
    v = x ++ ')' :: y → '(' ∈ x

theorem toLower_paren {c d : Char} (hd : d = '(' ∨ d = ')') : c.toLower = d ↔ c = d := by
  constructor
  · intro h
    unfold Char.toLower at h
    split at h
    · rename_i hc
      exfalso
      have h1 : (c.val + 32).toNat = d.val.toNat := by rw [← h]; rfl
      have h2 : d.val.toNat = 40 ∨ d.val.toNat = 41 := by rcases hd with h | h <;> subst h <;> decide
      obtain ⟨ha, hb⟩ := hc
      have h3 : 65 ≤ c.val.toNat := ha
      have h4 : c.val.toNat ≤ 90 := hb
      rw [UInt32.toNat_add] at h1
      have h5 : (32 : UInt32).toNat = 32 := rfl
      rw [h5] at h1
      omega
    · exact h
  · rintro rfl
    rcases hd with h | h <;> subst h <;> decide

theorem slice_panic {l : List Char} {body : List Char → Option RgbaColor} (h : RgbaColor.sliceParens l body = .panic) :
    ∃ x y, l = x ++ ')' :: y ∧ '(' ∉ x := by
  unfold RgbaColor.sliceParens at h
  split at h
  · simp at h
  · rename_i start hs
    split at h
    · simp at h
    · rename_i stop ht
      split at h
      · rename_i hlt
        rw [List.findIdx?_eq_some_iff_getElem] at hs ht
        obtain ⟨hs1, hs2, hs3⟩ := hs
        obtain ⟨ht1, ht2, ht3⟩ := ht
        have hne : stop ≠ start := by
          rintro rfl
          simp only [beq_iff_eq] at hs2 ht2
          rw [hs2] at ht2
          exact absurd ht2 (by decide)
        refine ⟨l.take stop, l.drop (stop + 1), ?_, ?_⟩
        · simp only [beq_iff_eq] at ht2
          conv_lhs => rw [← List.take_append_drop stop l, List.drop_eq_getElem_cons ht1, ht2]
        · intro hm
          obtain ⟨k, hk, he⟩ := List.mem_iff_getElem.1 hm
          rw [List.length_take] at hk
          rw [List.getElem_take] at he
          have := hs3 k (by omega)
          simp [he] at this
      · unfold RgbaColor.Outcome.ofOption at h
        split at h <;> simp at h

theorem map_paren {l x y : List Char} (h : l.map Char.toLower = x ++ ')' :: y) (hx : '(' ∉ x) :
    ∃ x' y', l = x' ++ ')' :: y' ∧ '(' ∉ x' := by
  rw [List.map_eq_append_iff] at h
  obtain ⟨l1, l2, rfl, h1, h2⟩ := h
  rw [List.map_eq_cons_iff] at h2
  obtain ⟨c, l3, rfl, hc, -⟩ := h2
  rw [toLower_paren (Or.inr rfl)] at hc
  subst hc
  refine ⟨l1, l3, rfl, ?_⟩
  intro hm
  refine hx (h1 ▸ List.mem_map.2 ⟨'(', hm, by decide⟩)

theorem isPrefixOf_split {a l : List Char} (h : a.isPrefixOf l = true) : ∃ b, l = a ++ b := by
  obtain ⟨b, hb⟩ := List.isPrefixOf_iff_prefix.1 h
  exact ⟨b, hb.symm⟩

/-- A colour that panics has `rgb` or `hsl` with a `)` after it and no `(` between. -/
theorem parse_panic {ext : RgbaColor.ParseExt} {t : List Char} (h : RgbaColor.parse ext t = .panic) :
    ∃ u w x y, t = u ++ w ++ (x ++ ')' :: y) ∧
      (w.map Char.toLower = "rgb".toList ∨ w.map Char.toLower = "hsl".toList) ∧ '(' ∉ x := by
  have ht : ∃ a b, t = a ++ RgbaColor.trim t ++ b := by
    obtain ⟨a, ha⟩ := List.dropWhile_suffix (l := t) Char.isWhitespace
    obtain ⟨b, hb⟩ := List.dropWhile_suffix (l := (t.dropWhile Char.isWhitespace).reverse) Char.isWhitespace
    have hb' := congrArg List.reverse hb
    rw [List.reverse_append, List.reverse_reverse] at hb'
    refine ⟨a, b.reverse, ?_⟩
    rw [List.append_assoc]
    unfold RgbaColor.trim
    rw [hb', ha]
  obtain ⟨a, b, hab⟩ := ht
  have hin : ∃ w x y, RgbaColor.trim t = w ++ (x ++ ')' :: y) ∧
      (w.map Char.toLower = "rgb".toList ∨ w.map Char.toLower = "hsl".toList) ∧ '(' ∉ x := by
    unfold RgbaColor.parse at h
    simp only at h
    clear hab
    generalize RgbaColor.trim t = s at h ⊢
    have cut : ∀ (p : List Char) (body : List Char → Option RgbaColor),
        (p = "rgb".toList ∨ p = "hsl".toList) → p.isPrefixOf (s.map Char.toLower) = true →
        RgbaColor.sliceParens (s.map Char.toLower) body = .panic → ∃ w x y, s = w ++ (x ++ ')' :: y) ∧
          (w.map Char.toLower = "rgb".toList ∨ w.map Char.toLower = "hsl".toList) ∧ '(' ∉ x := by
      intro p body hp hpre hsl
      obtain ⟨q, hq⟩ := isPrefixOf_split hpre
      obtain ⟨w, v, rfl, hw, hv⟩ := List.map_eq_append_iff.1 hq
      obtain ⟨x, y, e, hx⟩ := slice_panic hsl
      obtain ⟨x', y', e', hx'⟩ := map_paren e hx
      have hnp : ')' ∉ w := by
        intro hm
        have : ')' ∈ p := hw ▸ List.mem_map.2 ⟨')', hm, by decide⟩
        rcases hp with rfl | rfl <;> exact absurd this (by decide)
      rcases List.append_eq_append_iff.1 e' with ⟨as, h1, h2⟩ | ⟨bs, h1, h2⟩
      · refine ⟨w, as, y', by rw [h2], by rw [hw]; exact hp, ?_⟩
        intro hm
        exact hx' (h1 ▸ List.mem_append_right _ hm)
      · cases bs with
        | nil =>
          exact ⟨w, [], y', by rw [List.nil_append, h2, List.nil_append], by rw [hw]; exact hp, by simp⟩
        | cons c bs =>
          simp at h2
          exact absurd (h1 ▸ List.mem_append_right _ (by rw [← h2.1]; exact List.mem_cons_self)) hnp
    split at h
    · simp at h
    · split at h
      · simp at h
      · split at h
        · simp at h
        · split at h
          · unfold RgbaColor.Outcome.ofOption at h
            split at h <;> simp at h
          · split at h
            · rename_i hp; exact cut _ _ (Or.inl rfl) hp h
            · split at h
              · rename_i hp; exact cut _ _ (Or.inr rfl) hp h
              · unfold RgbaColor.Outcome.ofOption at h
                split at h <;> simp at h
  obtain ⟨w, x, y, e, hw, hx⟩ := hin
  refine ⟨a, w, x, y ++ b, ?_, hw, hx⟩
  rw [hab, e]
  simp

/-- C131 (partial: a `)` before the `(` of `rgb` or `hsl` makes the parser panic, see `panic_counterexample`): reading a
stylesheet never panics. -/
theorem no_panic_partial (env : Env) (source : List Char) (h : OpensFirst (Source.preprocess env.ws env.alnum source)) :
    parseStylesheet env.ws env.alnum (table env) source ≠ .panic := by
  intro hp
  unfold parseStylesheet at hp
  rcases bind_panic hp with hp | ⟨a, -, h4⟩
  · obtain ⟨s, ⟨p, hs⟩, hbad⟩ := sheet_calm hp
    obtain ⟨u, w, x, y, e, hw, hx⟩ := parse_panic hbad
    have ha := colorToken_append (ws := env.ws) 0 s
    refine hx (h (p ++ u) w (x ++ ')' :: (y ++ (colorToken env.ws 0 s).2)) x (y ++ (colorToken env.ws 0 s).2) ?_ hw rfl)
    rw [e] at ha
    rw [← hs]
    generalize (colorToken env.ws 0 s).2 = z at ha ⊢
    rw [← ha]
    simp
  · simp at h4

/-- A text is checked end by end. -/
theorem opensFirst_of_tails {t : List Char}
    (h : ∀ s ∈ t.tails, ((s.take 3).map Char.toLower = "rgb".toList ∨ (s.take 3).map Char.toLower = "hsl".toList) →
      ')' ∈ s.drop 3 → '(' ∈ (s.drop 3).takeWhile (· != ')')) : OpensFirst t := by
  intro u w v x y e hw hv
  have hl : w.length = 3 := by
    rcases hw with h | h <;> simpa using congrArg List.length h
  have hs : w ++ v ∈ t.tails := by
    rw [List.mem_tails]
    exact ⟨u, by rw [e]; simp⟩
  have h1 : (w ++ v).take 3 = w := by rw [← hl]; simp
  have h2 : (w ++ v).drop 3 = v := by rw [← hl]; simp
  have := h _ hs
  rw [h1, h2] at this
  have hm := this hw (by rw [hv]; simp)
  rw [hv, List.takeWhile_append] at hm
  split at hm
  · simpa using hm
  · exact (List.takeWhile_prefix _).subset hm

/-- A sheet with colours written as functions meets the hypothesis; the sheet of `panic_counterexample` does not. -/
example : OpensFirst (Source.preprocess exEnv.ws exEnv.alnum "A { color: rgb(1,2,3); tint: HSL(1,2,3); }\n".toList) ∧
    ¬ OpensFirst (Source.preprocess exEnv.ws exEnv.alnum "A { color: rgb)(; }\n".toList) := by
  refine ⟨?_, fun h => no_panic_partial exEnv _ h panic_counterexample⟩
  have : Source.preprocess exEnv.ws exEnv.alnum (Source.unlines ["A { color: rgb(1,2,3); tint: HSL(1,2,3); }".toList]) =
      Source.unlines ["A { color: rgb(1,2,3); tint: HSL(1,2,3); }".toList] := by
    refine preprocess_plain _ _ (by decide) ?_ (by decide)
    constructor <;> rw [← Source.hasPair_of_contains2] <;> decide
  have e : "A { color: rgb(1,2,3); tint: HSL(1,2,3); }\n".toList =
    Source.unlines ["A { color: rgb(1,2,3); tint: HSL(1,2,3); }".toList] := by decide
  rw [e, this]
  exact opensFirst_of_tails (by decide +kernel)

end Textual.Parse
