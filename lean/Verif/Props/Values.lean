import Verif.Lemmas.Values
import Mathlib.Data.List.Induction

/-!
C130: the values of declarations are read as they are written.

`value_text` is the statement for one value; `sheet_values` for a whole stylesheet. -/

namespace Textual.Parse

open Css Sheet
open RgbaColor (Outcome)
open Source (isName)
open Layout (Scalar Spacing)

variable {env : Env}

theorem lift_some {α : Type} {p : P α} {f : α → Value} {i r : List Char} {a : α} (h : p i = some (a, r)) :
    lift p f i = .ok (f a, r) := by simp [lift, h]

/-! ### Sizes -/

theorem scalar_next (hp : Plain env.ws env.alnum) {g t i : List Char} {s : Scalar} (hg : Space g) (h : ScalarText s t)
    (hi : Cut i) : Parse.scalar env.ws (skip (g ++ (t ++ i))) = some (s, i) ∧
      (skip1 (g ++ (t ++ i))).bind (Parse.scalar env.ws) = some (s, i) := by
  obtain ⟨c, r, e, -, hb⟩ := scalarText_head hp h
  obtain ⟨h1, h2⟩ := space_skip hg e hb i
  rw [h1, h2]
  simp [scalar_text hp h hi]

theorem u16_next (hp : Plain env.ws env.alnum) {g t i : List Char} {n : Nat} (hg : Space g) (h : U16Text n t)
    (hi : Cut i) : (skip1 (g ++ (t ++ i))).bind Parse.u16 = some (n, i) ∧
      (skip1 (g ++ (t ++ i))).bind (Parse.trimU16 env.ws) = some (n, i) := by
  obtain ⟨c, r, e, -, hb⟩ := u16Text_head hp h
  obtain ⟨-, h2⟩ := space_skip hg e hb i
  rw [h2]
  simp [u16_text h hi, trimU16_text hp h hi]

theorem keyword_next (hp : Plain env.ws env.alnum) {table : List (String × String)} (hnd : (table.map (·.1)).Nodup)
    {g t i : List Char} {w : String} (hg : Space g) (h : WordText env table w t) (hi : Cut i) :
    (skip1 (g ++ (t ++ i))) = some (t ++ i) ∧ keyword env table (t ++ i) = some (w, i) := by
  obtain ⟨c, r, e, -, hb⟩ := name_solid hp h.1
  obtain ⟨-, h2⟩ := space_skip hg e hb i
  exact ⟨h2, keyword_text hp hnd h hi⟩

theorem scalars_text (hp : Plain env.ws env.alnum) {l : List Scalar} {t i : List Char} (h : ScalarsText l t) (hi : Tail i) :
    scalarList env.ws (t ++ i) = some (l, i) := by
  have hm : ∀ {l : List Scalar} {t : List Char}, ScalarsText l t → ∀ g, Space g →
      many (fun j => (skip1 j).bind (Parse.scalar env.ws)) (g ++ (t ++ i)) = some (l, i) := by
    intro l t h
    induction h with
    | one h =>
      intro g hg
      refine many_cons (scalar_next hp hg h hi.cut).2 ?_ (many_none (hi.scalar hp).2)
      obtain ⟨c, r, e, -, -⟩ := scalarText_head hp h
      subst e
      simp
      omega
    | @cons s t g' l t' h hg' _ ih =>
      intro g hg
      have e : g ++ (t ++ g' ++ t' ++ i) = g ++ (t ++ (g' ++ (t' ++ i))) := by simp
      rw [e]
      refine many_cons (scalar_next hp hg h (space_cut hg' _)).2 ?_ (ih g' hg')
      obtain ⟨c, r, e, -, -⟩ := scalarText_head hp h
      subst e
      simp
      omega
  cases h with
  | one h =>
    unfold scalarList
    rw [scalar_text hp h hi.cut]
    simp only [Option.bind_eq_bind, Option.bind_some]
    rw [many_none (hi.scalar hp).2]
    rfl
  | @cons s t g l t' h hg h' =>
    unfold scalarList
    have e : t ++ g ++ t' ++ i = t ++ (g ++ (t' ++ i)) := by simp
    rw [e, scalar_text hp h (space_cut hg _)]
    simp only [Option.bind_eq_bind, Option.bind_some]
    rw [hm h' g hg]
    rfl

/-! ### Lists of words -/

theorem splitWords_word {ws : Char → Bool} {t : List Char} (h : ∀ c ∈ t, ws c = false) (acc i : List Char) :
    splitWords ws acc (t ++ i) = splitWords ws (t.reverse ++ acc) i := by
  induction t generalizing acc with
  | nil => rfl
  | cons c t ih =>
    simp only [List.cons_append, splitWords, h c (by simp)]
    rw [if_neg (by simp), ih (fun c hc => h c (by simp [hc]))]
    simp

theorem splitWords_space {ws : Char → Bool} {g : List Char} (h : ∀ c ∈ g, ws c = true) (i : List Char) :
    splitWords ws [] (g ++ i) = splitWords ws [] i := by
  induction g with
  | nil => rfl
  | cons c g ih =>
    simp only [List.cons_append, splitWords, h c (by simp), if_true, List.isEmpty_nil, List.nil_append]
    exact ih (fun c hc => h c (by simp [hc]))

theorem gap_ws (hp : Plain env.ws env.alnum) {g : List Char} (hg : Gap g) : ∀ c ∈ g, env.ws c = true := by
  intro c hc
  refine hp.blank c ?_
  rcases hg c hc with h | h | h | h <;> subst h <;> decide

theorem name_ws (hp : Plain env.ws env.alnum) {t : List Char} (h : Name env.alnum t) : ∀ c ∈ t, env.ws c = false := by
  intro c hc
  rcases h.2 c hc with h | h | h
  · exact hp.apart c h
  · subst h; exact hp.ink _ (by decide) (by decide)
  · subst h; exact hp.ink _ (by decide) (by decide)

/-- What a text of words looks like from outside. -/
theorem words_facts (hp : Plain env.ws env.alnum) {l : List (List Char)} {t : List Char} (h : WordsText env l t) :
    (splitWords env.ws [] t).map env.lower = l ∧ ';' ∉ t ∧ '}' ∉ t ∧
    (∃ c r, t = c :: r ∧ env.ws c = false ∧ c ≠ '$') ∧ (∃ c, t.getLast? = some c ∧ env.ws c = false) := by
  have hhead : ∀ {t : List Char}, Name env.alnum t → ∃ c r, t = c :: r ∧ env.ws c = false ∧ c ≠ '$' := by
    intro t ht
    obtain ⟨c, r, e, hc, -⟩ := name_solid hp ht
    refine ⟨c, r, e, hc, ?_⟩
    rintro rfl
    exact name_no_mark hp ht (c := '$') (by decide) (by decide) (by decide) (by rw [e]; simp)
  induction h with
  | @one t ht =>
    have hw := name_ws hp ht
    refine ⟨?_, name_no_mark hp ht (by decide) (by decide) (by decide),
      name_no_mark hp ht (by decide) (by decide) (by decide), hhead ht, ?_⟩
    · have := splitWords_word hw [] []
      simp only [List.append_nil] at this
      rw [this, splitWords]
      simp [ht.1]
    · exact ⟨t.getLast ht.1, List.getLast?_eq_some_getLast ht.1, hw _ (List.getLast_mem ht.1)⟩
  | @cons t g l t' ht hg _ ih =>
    obtain ⟨h1, h2, h3, -, c, hc, hcw⟩ := ih
    have hw := name_ws hp ht
    refine ⟨?_, ?_, ?_, ?_, ?_⟩
    · rw [List.append_assoc, splitWords_word hw]
      obtain ⟨hg1, hg2⟩ := hg
      cases g with
      | nil => exact absurd rfl hg2
      | cons x g =>
        have hx := gap_ws hp hg1
        simp only [List.append_nil, List.cons_append, splitWords, hx x (by simp), if_true]
        rw [if_neg (by simpa using ht.1), splitWords_space (fun c hc => hx c (by simp [hc]))]
        simp [h1]
    · simp only [List.mem_append, not_or]
      exact ⟨⟨name_no_mark hp ht (by decide) (by decide) (by decide), gap_no hg.1 (by decide)⟩, h2⟩
    · simp only [List.mem_append, not_or]
      exact ⟨⟨name_no_mark hp ht (by decide) (by decide) (by decide), gap_no hg.1 (by decide)⟩, h3⟩
    · obtain ⟨c, r, rfl, h⟩ := hhead ht
      exact ⟨c, r ++ g ++ t', by simp, h⟩
    · refine ⟨c, ?_, hcw⟩
      rw [List.getLast?_append, hc]
      rfl

theorem untilEnd_text {t g r : List Char} {c : Char} (h1 : ';' ∉ t) (h2 : '}' ∉ t) (hg : Gap g) (hc : Fence c) :
    untilEnd (t ++ (g ++ c :: r)) = (t ++ g, c :: r) := by
  have hs : ∀ x ∈ t ++ g, (decide (x ≠ ';') && decide (x ≠ '}')) = true := by
    intro x hx
    rcases List.mem_append.1 hx with h | h
    · have h1 : x ≠ ';' := by rintro rfl; exact h1 h
      have h2 : x ≠ '}' := by rintro rfl; exact h2 h
      simp [h1, h2]
    · rcases hg x h with h | h | h | h <;> subst h <;> decide
  have he : ∀ x, (c :: r).head? = some x → (decide (x ≠ ';') && decide (x ≠ '}')) = false := by
    intro x hx
    simp at hx
    subst hx
    rcases hc with h | h <;> subst h <;> decide
  obtain ⟨e1, e2⟩ := takeWhile_append_ends (p := fun x => decide (x ≠ ';') && decide (x ≠ '}')) hs he
  unfold untilEnd
  rw [← List.append_assoc]
  simp only [ne_eq] at e1 e2 ⊢
  rw [e1, e2]

theorem words_trim (hp : Plain env.ws env.alnum) {l : List (List Char)} {t g : List Char} (h : WordsText env l t)
    (hg : Gap g) : Source.trim env.ws (t ++ g) = t := by
  obtain ⟨-, -, -, ⟨c, r, e, hc, -⟩, d, hd, hdw⟩ := words_facts hp h
  have := white_trim (ws := env.ws) (n := t) (g := []) (g' := g)
    ⟨fun x hx => by rw [e] at hx; simp at hx; subst hx; exact hc, fun x hx => by rw [hd] at hx; simp at hx; subst hx; exact hdw⟩
    (by intro c hc; simp at hc) (gap_ws hp hg)
  simpa using this

theorem afterNone_concat (l : List (List Char)) (w : List Char) :
    afterNone (l ++ [w]) = if w = "none".toList then [] else afterNone l ++ [w] := by
  unfold afterNone
  rw [List.reverse_append, List.reverse_singleton, List.singleton_append, List.takeWhile_cons]
  by_cases h : w = "none".toList
  · simp [h]
  · rw [if_pos (by simpa using h), if_neg h, List.reverse_cons]

theorem mem_afterNone {l : List (List Char)} {w x : List Char} (h : w ≠ "none".toList) :
    decide (x ∈ afterNone (l ++ [w])) = (decide (x = w) || decide (x ∈ afterNone l)) := by
  rw [afterNone_concat, if_neg h, ← Bool.decide_or]
  simp [or_comm]

theorem styleWord_concat (l : List (List Char)) {w : List Char} (h : w ∈ styleWords) :
    styleWord (styleOf l) w = some (styleOf (l ++ [w])) := by
  simp only [styleWords, List.map_cons, List.map_nil, List.mem_cons, List.not_mem_nil, or_false] at h
  rcases h with h | h
  · subst h
    unfold styleOf
    rw [afterNone_concat, if_pos rfl]
    rfl
  have hw : w ≠ "none".toList := by
    rcases h with h | h | h | h | h | h | h | h | h | h <;> subst h <;> decide
  have hm : ∀ x, decide (x ∈ afterNone (l ++ [w])) = (decide (x = w) || decide (x ∈ afterNone l)) :=
    fun x => mem_afterNone hw
  unfold styleOf
  simp only [hm]
  generalize afterNone l = L
  rcases h with h | h | h | h | h | h | h | h | h | h <;> subst h <;> rfl

theorem style_fold {l : List (List Char)} (h : ∀ w ∈ l, w ∈ styleWords) :
    l.foldl (fun s w => s.bind fun s => styleWord s w) (some {}) = some (styleOf l) := by
  induction l using List.reverseRecOn with
  | nil => rfl
  | append_singleton l w ih =>
    rw [List.foldl_append, ih (fun x hx => h x (by simp [hx]))]
    simp [styleWord_concat l (h w (by simp))]

theorem textStyle_text (hp : Plain env.ws env.alnum) {l : List (List Char)} {t g r : List Char} {c : Char}
    (h : WordsText env l t) (hl : ∀ w ∈ l, w ∈ styleWords) (hg : Gap g) (hc : Fence c) :
    textStyle env (t ++ (g ++ c :: r)) = some (styleOf l, c :: r) := by
  obtain ⟨h1, h2, h3, ⟨x, t', e, hx, hd⟩, -⟩ := words_facts hp h
  have ht : trimStart env.ws (t ++ (g ++ c :: r)) = t ++ (g ++ c :: r) := by rw [e]; exact trimStart_cons hx _
  unfold textStyle
  simp only [ht, untilEnd_text h2 h3 hg hc, words_trim hp h hg]
  have hf := style_fold hl
  rw [← h1, List.foldl_map] at hf
  rw [h1] at hf
  subst e
  split
  · simp_all
  · simp_all
  · rename_i heq
    rw [hf]
    rfl

theorem layers_text (hp : Plain env.ws env.alnum) {l : List (List Char)} {t g r : List Char} {c : Char}
    (h : WordsText env l t) (hg : Gap g) (hc : Fence c) : layers env (t ++ (g ++ c :: r)) = some (l, c :: r) := by
  obtain ⟨h1, h2, h3, ⟨x, t', e, hx, hd⟩, -⟩ := words_facts hp h
  have ht : trimStart env.ws (t ++ (g ++ c :: r)) = t ++ (g ++ c :: r) := by rw [e]; exact trimStart_cons hx _
  unfold layers
  simp only [ht, untilEnd_text h2 h3 hg hc, words_trim hp h hg, h1]
  rw [if_neg (by rw [e]; simp), if_neg]
  cases h <;> simp

/-! ### Borders, hatches, keylines -/

theorem borderKinds_nodup : (borderKinds.map (·.1)).Nodup := by decide

theorem edge_kind (hp : PlainEnv env) {k : String} {t i : List Char} (h : WordText env borderKinds k t) (hi : Tail i) :
    edge env (t ++ i) = .ok ((k, none), i) := by
  obtain ⟨x, t', e, hx, -⟩ := name_solid hp.toPlain h.1
  have ht : trimStart env.ws (t ++ i) = t ++ i := by rw [e]; exact trimStart_cons hx _
  obtain ⟨c, r, h1, -, hc⟩ := hi.rest hp.toPlain
  unfold edge
  simp only [ht]
  rw [keyword_text hp.toPlain borderKinds_nodup h hi.cut]
  simp only
  unfold skip1
  split
  · rename_i heq
    split at heq
    · simp at heq
    · rfl
  · rename_i heq
    split at heq
    · simp only [Option.some.injEq] at heq
      rw [← heq, h1, color_end hp hc]
    · simp at heq

theorem edge_kind_color (hp : PlainEnv env) {k : String} {c : RgbaColor} {t g t' i : List Char}
    (h : WordText env borderKinds k t) (hg : Space g) (h' : ColorText env c t') (hi : AfterColor env i) :
    edge env (t ++ (g ++ (t' ++ i))) = .ok ((k, some c), i) := by
  obtain ⟨x, t1, e, hx, -⟩ := name_solid hp.toPlain h.1
  have ht : trimStart env.ws (t ++ (g ++ (t' ++ i))) = t ++ (g ++ (t' ++ i)) := by rw [e]; exact trimStart_cons hx _
  obtain ⟨y, t2, e2, hy⟩ := colorText_head hp.toPlain h'
  obtain ⟨-, h2⟩ := space_skip hg e2 (ws_blank hp.toPlain hy) i
  unfold edge
  simp only [ht]
  rw [keyword_text hp.toPlain borderKinds_nodup h (space_cut hg _)]
  simp only [h2, color_text hp.toPlain h' hi]

theorem takeWhile_space (hp : Plain env.ws env.alnum) {g : List Char} (hg : Space g) (t i : List Char) :
    (t ++ (g ++ i)).takeWhile (isName env.alnum) = t.takeWhile (isName env.alnum) := by
  have hg' : (g ++ i).takeWhile (isName env.alnum) = [] := by
    have := cut_ends hp (space_cut hg i)
    cases e : g ++ i with
    | nil => rfl
    | cons c r => rw [List.takeWhile_cons, if_neg]; simp [this c (by rw [e]; rfl)]
  induction t with
  | nil => simpa using hg'
  | cons c t ih =>
    rw [List.cons_append, List.takeWhile_cons, List.takeWhile_cons, ih]

theorem edge_color_kind (hp : PlainEnv env) {k : String} {c : RgbaColor} {t g t' i : List Char}
    (h : ColorText env c t) (hg : Space g) (h' : WordText env borderKinds k t')
    (hno : ∀ w ∈ borderKinds, env.lower (t.takeWhile (isName env.alnum)) ≠ w.1.toList) (hi : Cut i) :
    edge env (t ++ (g ++ (t' ++ i))) = .ok ((k, some c), i) := by
  obtain ⟨x, t1, e, hx⟩ := colorText_head hp.toPlain h
  have ht : trimStart env.ws (t ++ (g ++ (t' ++ i))) = t ++ (g ++ (t' ++ i)) := by rw [e]; exact trimStart_cons hx _
  have hk : keyword env borderKinds (t ++ (g ++ (t' ++ i))) = none := by
    unfold keyword ident
    simp only [takeWhile_space hp.toPlain hg]
    split
    · rfl
    · simp only [Option.bind_eq_bind, Option.bind_some]
      rw [List.find?_eq_none.2]
      · rfl
      · intro w hw
        simpa using Ne.symm (hno w hw)
  obtain ⟨y, t2, e2, hy, -⟩ := name_solid hp.toPlain h'.1
  have ht2 : trimStart env.ws (g ++ (t' ++ i)) = t' ++ i := by
    rw [gap_trimStart hp.toPlain hg.1, e2]; exact trimStart_cons hy _
  unfold edge
  simp only [ht, hk]
  rw [color_text hp.toPlain h (name_afterColor hp.toPlain hg h'.1 hi)]
  simp only [Outcome.bind, ht2]
  rw [keyword_text hp.toPlain borderKinds_nodup h' hi]

theorem hatch_text (hp : PlainEnv env) {w : List Char} {c : RgbaColor} {t g t' i : List Char}
    (hn : Name env.alnum t) (hw : env.lower t = w)
    (hm : w ∈ ["left", "right", "cross", "horizontal", "vertical"].map String.toList) (hg : Space g)
    (h : ColorText env c t') (hi : Tail i) :
    ∃ r, hatch env (t ++ (g ++ (t' ++ i))) = .ok ((w, c, 1), r) ∧ skip r = skip i := by
  obtain ⟨x, t1, e, hx, -⟩ := name_solid hp.toPlain hn
  have ht : trimStart env.ws (t ++ (g ++ (t' ++ i))) = t ++ (g ++ (t' ++ i)) := by rw [e]; exact trimStart_cons hx _
  obtain ⟨y, t2, e2, hy⟩ := colorText_head hp.toPlain h
  have ht2 : trimStart env.ws (g ++ (t' ++ i)) = t' ++ i := by
    rw [gap_trimStart hp.toPlain hg.1, e2]; exact trimStart_cons hy _
  obtain ⟨d, r, h1, h2, hd⟩ := hi.rest hp.toPlain
  have hq : x ≠ '"' ∧ x ≠ '\'' := by
    constructor
    · rintro rfl; exact name_no_mark hp.toPlain hn (c := '"') (by decide) (by decide) (by decide) (by rw [e]; simp)
    · rintro rfl; exact name_no_mark hp.toPlain hn (c := '\'') (by decide) (by decide) (by decide) (by rw [e]; simp)
  have hid : ident env.alnum (t ++ (g ++ (t' ++ i))) = some (t, g ++ (t' ++ i)) :=
    ident_name hn (cut_ends hp.toPlain (space_cut hg _))
  have hpat : hatchPattern env t = some w := by
    unfold hatchPattern
    rw [hw, if_pos hm]
  refine ⟨d :: r, ?_, ?_⟩
  · unfold hatch
    simp only [ht]
    rw [hid]
    simp only [Option.bind_eq_bind, Option.bind_some, hpat]
    have e3 : t ++ (g ++ (t' ++ i)) = x :: (t1 ++ (g ++ (t' ++ i))) := by rw [e]; rfl
    rw [e3]
    simp only
    rw [if_neg (by simp [hq])]
    simp only [Option.pure_def]
    simp only [ht2]
    rw [color_text hp.toPlain h (hi.afterColor hp.toPlain)]
    simp only [Outcome.bind]
    have hpn := (hi.afterColor hp.toPlain).2
    rw [h2] at hpn ⊢
    rw [hpn]
  · rw [h1, skip_cons]
    simp only [List.mem_cons, List.not_mem_nil, or_false] at hd
    rcases hd with h | h | h <;> subst h <;> decide

theorem keylines_nodup : (keylines.map (·.1)).Nodup := by decide

theorem keyline_text (hp : PlainEnv env) {k : String} {c : RgbaColor} {t g t' i : List Char}
    (h : WordText env keylines k t) (hg : Space g) (h' : ColorText env c t') (hi : AfterColor env i)
    (hs : t'.head? ≠ some ';' ∧ t'.head? ≠ some '}') :
    keyline env (t ++ (g ++ (t' ++ i))) = .ok ((k, c), i) := by
  obtain ⟨x, t1, e, hx, -⟩ := name_solid hp.toPlain h.1
  have ht : trimStart env.ws (t ++ (g ++ (t' ++ i))) = t ++ (g ++ (t' ++ i)) := by rw [e]; exact trimStart_cons hx _
  obtain ⟨y, t2, e2, hy⟩ := colorText_head hp.toPlain h'
  have ht2 : trimStart env.ws (g ++ (t' ++ i)) = t' ++ i := by
    rw [gap_trimStart hp.toPlain hg.1, e2]; exact trimStart_cons hy _
  unfold keyline
  rw [ht, keyword_text hp.toPlain keylines_nodup h (space_cut hg _)]
  simp only [ht2]
  rw [if_neg, color_text hp.toPlain h' hi]
  · rfl
  · rw [e2] at hs ⊢
    simp at hs ⊢
    intro _
    exact hs

theorem keyline_none (hp : PlainEnv env) {t g r : List Char} {c : Char} (h : WordText env keylines "none" t) (hg : Gap g)
    (hc : Fence c) : keyline env (t ++ (g ++ c :: r)) = .ok (("none", RgbaColor.rgba 0 0 0 0), c :: r) := by
  have hi : Tail (g ++ c :: r) := ⟨g, c, r, hg, rfl, Or.inl hc⟩
  obtain ⟨x, t1, e, hx, -⟩ := name_solid hp.toPlain h.1
  have ht : trimStart env.ws (t ++ (g ++ c :: r)) = t ++ (g ++ c :: r) := by rw [e]; exact trimStart_cons hx _
  have hw : env.ws c = false := by rcases hc with h | h <;> subst h <;> exact hp.ink _ (by decide) (by decide)
  unfold keyline
  rw [ht, keyword_text hp.toPlain keylines_nodup h hi.cut]
  simp only [gap_trimStart hp.toPlain hg, trimStart_cons hw]
  rw [if_pos]
  rcases hc with h | h <;> subst h <;> simp

theorem colorText_not_end (hp : Plain env.ws env.alnum) {c : RgbaColor} {t : List Char} (h : ColorText env c t) :
    t.head? ≠ some ';' ∧ t.head? ≠ some '}' := by
  have : ∀ {c : RgbaColor} {t : List Char}, PlainColorText env c t → ∃ d r, t = d :: r ∧ d ≠ ';' ∧ d ≠ '}' := by
    intro c t h
    cases h with
    | theme _ => exact ⟨_, _, rfl, by decide, by decide⟩
    | word hne _ hc _ =>
      cases t with
      | nil => exact absurd rfl hne
      | cons d t => exact ⟨d, t, rfl, (hc d (by simp)).2.1, (hc d (by simp)).2.2.1⟩
    | @call _ f b hne _ hc _ _ _ =>
      cases f with
      | nil => exact absurd rfl hne
      | cons d f => exact ⟨d, _, rfl, (hc d (by simp)).2.1, (hc d (by simp)).2.2.1⟩
  cases h with
  | plain h => obtain ⟨d, r, rfl, h1, h2⟩ := this h; simp [h1, h2]
  | alpha h _ _ => obtain ⟨d, r, rfl, h1, h2⟩ := this h; simp [h1, h2]
  | alphaFraction h _ _ _ => obtain ⟨d, r, rfl, h1, h2⟩ := this h; simp [h1, h2]

theorem clamp01_unit (v : Rat) : clamp01 v = unitInterval v := by
  unfold clamp01 unitInterval
  split
  · rename_i h
    rw [min_eq_left (le_of_lt (lt_trans h (by norm_num))), max_eq_left (le_of_lt h)]
  · rename_i h
    split
    · rename_i h'
      rw [min_eq_right (le_of_lt h')]
      simp
    · rename_i h'
      rw [min_eq_left (not_lt.1 h'), max_eq_right (not_lt.1 h)]

/-! ### All kinds -/

theorem wordsOf_parser {k : Kind} {table : List (String × String)} (h : wordsOf k = some table) :
    k.parser env = lift (keyword env table) .word ∧ (table.map (·.1)).Nodup := by
  cases k <;> simp only [wordsOf, Option.some.injEq, reduceCtorEq] at h <;> subst h <;> exact ⟨rfl, by decide⟩

theorem number_scalar {v : Rat} {t : List Char} (h : NumberText v t) : ScalarText ⟨v, .cells⟩ t := by
  have := ScalarText.number h (u := .cells) rfl
  simpa using this

theorem opacity_of (hp : Plain env.ws env.alnum) {s : Scalar} {t i : List Char} (h : ScalarText s t) (hi : Cut i) :
    Parse.opacity env.ws (t ++ i) = some (unitInterval (if s.unit = .percent then s.value / 100 else s.value), i) := by
  obtain ⟨c, r, e, hc, -⟩ := scalarText_head hp h
  have ht : trimStart env.ws (t ++ i) = t ++ i := by rw [e]; exact trimStart_cons hc _
  unfold Parse.opacity
  simp only [ht]
  rw [scalar_text hp h hi]
  simp [clamp01_unit]

/-- The values that go on up to the end of the declaration, whatever stands there. -/
def Greedy (k : Kind) : Prop := k = .textStyle ∨ k = .layers ∨ k = .keyline

set_option maxHeartbeats 1000000 in
/-- A value is read as it is written, and the blanks after it are all that may be lost. Before `!important` this
needs a property that is not read up to the end of the declaration. -/
theorem value_text (hp : PlainEnv env) {k : Kind} {d : Value} {v i : List Char} (h : ValueText env k d v)
    (hi : Tail i) (hk : Greedy k → ∃ g c r, Gap g ∧ Fence c ∧ i = g ++ c :: r) :
    ∃ r, k.parser env (v ++ i) = .ok (d, r) ∧ skip r = skip i := by
  have hP := hp.toPlain
  have hcut := hi.cut
  cases h with
  | color h =>
    refine ⟨i, ?_, rfl⟩
    simp only [Kind.parser, color_text hP h (hi.afterColor hP), Outcome.bind]
  | scalar h => exact ⟨i, lift_some (scalar_text hP h hcut), rfl⟩
  | @spacing1 a _ h =>
    refine ⟨i, lift_some (p := Parse.spacing env.ws) (a := ⟨a, a, a, a⟩) ?_, rfl⟩
    unfold Parse.spacing optSkip
    rw [scalar_text hP h hcut]
    simp only [Option.bind_eq_bind, Option.bind_some]
    rw [(hi.scalar hP).1]
    rfl
  | @spacing2 a b t1 g t2 h1 hg h2 =>
    refine ⟨i, lift_some (p := Parse.spacing env.ws) (a := ⟨a, b, a, b⟩) ?_, rfl⟩
    have e : t1 ++ g ++ t2 ++ i = t1 ++ (g ++ (t2 ++ i)) := by simp
    unfold Parse.spacing optSkip
    rw [e, scalar_text hP h1 (space_cut hg _)]
    simp only [Option.bind_eq_bind, Option.bind_some]
    rw [(scalar_next hP hg h2 hcut).1]
    simp only [(hi.scalar hP).1]
    rfl
  | @spacing4 a b c d t1 g1 t2 g2 t3 g3 t4 h1 hg1 h2 hg2 h3 hg3 h4 =>
    refine ⟨i, lift_some (p := Parse.spacing env.ws) (a := ⟨a, b, c, d⟩) ?_, rfl⟩
    have e : t1 ++ g1 ++ (t2 ++ g2 ++ (t3 ++ g3 ++ t4)) ++ i = t1 ++ (g1 ++ (t2 ++ (g2 ++ (t3 ++ (g3 ++ (t4 ++ i)))))) := by
      simp
    unfold Parse.spacing optSkip
    rw [e, scalar_text hP h1 (space_cut hg1 _)]
    simp only [Option.bind_eq_bind, Option.bind_some]
    rw [(scalar_next hP hg1 h2 (space_cut hg2 _)).1]
    simp only
    rw [(scalar_next hP hg2 h3 (space_cut hg3 _)).1]
    simp only
    rw [(scalar_next hP hg3 h4 hcut).1]
    rfl
  | edge h =>
    refine ⟨i, ?_, rfl⟩
    simp only [Kind.parser, edge_kind hp h hi, Outcome.bind]
  | @edgeKind k t g c t' h hg h' =>
    refine ⟨i, ?_, rfl⟩
    have e : t ++ g ++ t' ++ i = t ++ (g ++ (t' ++ i)) := by simp
    simp only [Kind.parser, e, edge_kind_color hp h hg h' (hi.afterColor hP), Outcome.bind]
  | @edgeColor k t g c t' h hg h' hno =>
    refine ⟨i, ?_, rfl⟩
    have e : t ++ g ++ t' ++ i = t ++ (g ++ (t' ++ i)) := by simp
    simp only [Kind.parser, e, edge_color_kind hp h hg h' hno hcut, Outcome.bind]
  | u16 h => exact ⟨i, lift_some (u16_text h hcut), rfl⟩
  | trimU16 h => exact ⟨i, lift_some (trimU16_text hP h hcut), rfl⟩
  | @scrollbarSize1 n _ h =>
    refine ⟨i, lift_some (p := Parse.scrollbarSize) (a := (n, n)) ?_, rfl⟩
    unfold Parse.scrollbarSize optSkip1
    rw [u16_text h hcut]
    simp only [Option.bind_eq_bind, Option.bind_some]
    rw [(hi.u16 hP).1]
    rfl
  | @scrollbarSize2 n t g m t' h hg h' =>
    refine ⟨i, lift_some (p := Parse.scrollbarSize) (a := (n, m)) ?_, rfl⟩
    have e : t ++ g ++ t' ++ i = t ++ (g ++ (t' ++ i)) := by simp
    unfold Parse.scrollbarSize optSkip1
    rw [e, u16_text h (space_cut hg _)]
    simp only [Option.bind_eq_bind, Option.bind_some]
    rw [(u16_next hP hg h' hcut).1]
    rfl
  | word hw h =>
    obtain ⟨e, hnd⟩ := wordsOf_parser (env := env) hw
    exact ⟨i, by rw [e]; exact lift_some (keyword_text hP hnd h hcut), rfl⟩
  | @opacity x _ h =>
    refine ⟨i, lift_some (p := Parse.opacity env.ws) (f := .opacity) (a := unitInterval x) ?_, rfl⟩
    rw [opacity_of hP (number_scalar h) hcut, if_neg (by simp)]
  | @opacityPercent x t h =>
    refine ⟨i, lift_some (p := Parse.opacity env.ws) (f := .opacity) (a := unitInterval (x / 100)) ?_, rfl⟩
    rw [opacity_of hP (ScalarText.number h (u := .percent) rfl) hcut, if_pos rfl]
  | @overflow1 w _ h =>
    refine ⟨i, lift_some (p := Parse.overflow2 env) (a := (w, w)) ?_, rfl⟩
    unfold Parse.overflow2 optSkip1
    rw [keyword_text hP (table := overflows) (by decide) h hcut]
    simp only [Option.bind_eq_bind, Option.bind_some]
    rw [hi.keyword hP]
    rfl
  | @overflow2 w t g w' t' h hg h' =>
    refine ⟨i, lift_some (p := Parse.overflow2 env) (a := (w, w')) ?_, rfl⟩
    have e : t ++ g ++ t' ++ i = t ++ (g ++ (t' ++ i)) := by simp
    unfold Parse.overflow2 optSkip1
    rw [e, keyword_text hP (table := overflows) (by decide) h (space_cut hg _)]
    simp only [Option.bind_eq_bind, Option.bind_some]
    obtain ⟨e1, e2⟩ := keyword_next hP (table := overflows) (by decide) hg h' hcut
    rw [e1]
    simp only [Option.bind_some, e2]
    rfl
  | @layout w h =>
    refine ⟨i, lift_some (p := Parse.layout env.ws) (a := w) ?_, rfl⟩
    have hc : ∃ c r, w.toList = c :: r ∧ env.ws c = false := by
      simp only [List.mem_cons, List.not_mem_nil, or_false] at h
      rcases h with h | h | h <;> subst h <;> exact ⟨_, _, rfl, hP.ink _ (by decide) (by decide)⟩
    obtain ⟨c, r, e, hc⟩ := hc
    have ht : trimStart env.ws (w.toList ++ i) = w.toList ++ i := by rw [e]; exact trimStart_cons hc _
    unfold Parse.layout
    simp only [ht]
    clear ht e
    simp only [List.mem_cons, List.not_mem_nil, or_false] at h
    rcases h with h | h | h <;> subst h <;> simp [tag, List.isPrefixOf]
  | layers h =>
    obtain ⟨g, c, r, hg, hc, rfl⟩ := hk (Or.inr (Or.inl rfl))
    refine ⟨c :: r, lift_some (layers_text hP h hg hc), ?_⟩
    rw [skip_gap hg]
  | layer h =>
    refine ⟨i, lift_some (p := Parse.layer env) ?_, rfl⟩
    obtain ⟨c, r, e, hc, -⟩ := name_solid hP h
    have ht : trimStart env.ws (v ++ i) = v ++ i := by rw [e]; exact trimStart_cons hc _
    unfold Parse.layer
    rw [ht, ident_name h (cut_ends hP hcut)]
    rfl
  | @gridSize1 n _ h =>
    refine ⟨i, lift_some (p := Parse.gridSize env.ws) (a := (n, none)) ?_, rfl⟩
    unfold Parse.gridSize optSkip1
    rw [trimU16_text hP h hcut]
    simp only [Option.bind_eq_bind, Option.bind_some]
    rw [(hi.u16 hP).2]
    rfl
  | @gridSize2 n t g m t' h hg h' =>
    refine ⟨i, lift_some (p := Parse.gridSize env.ws) (a := (n, some m)) ?_, rfl⟩
    have e : t ++ g ++ t' ++ i = t ++ (g ++ (t' ++ i)) := by simp
    unfold Parse.gridSize optSkip1
    rw [e, trimU16_text hP h (space_cut hg _)]
    simp only [Option.bind_eq_bind, Option.bind_some]
    rw [(u16_next hP hg h' hcut).2]
    rfl
  | scalars h => exact ⟨i, lift_some (scalars_text hP h hi), rfl⟩
  | @gutter1 s _ h =>
    refine ⟨i, lift_some (p := Parse.gridGutter env.ws) (a := (s, none)) ?_, rfl⟩
    unfold Parse.gridGutter optSkip1
    rw [scalar_text hP h hcut]
    simp only [Option.bind_eq_bind, Option.bind_some]
    rw [(hi.scalar hP).2]
    rfl
  | @gutter2 s t g s' t' h hg h' =>
    refine ⟨i, lift_some (p := Parse.gridGutter env.ws) (a := (s, some s')) ?_, rfl⟩
    have e : t ++ g ++ t' ++ i = t ++ (g ++ (t' ++ i)) := by simp
    unfold Parse.gridGutter optSkip1
    rw [e, scalar_text hP h (space_cut hg _)]
    simp only [Option.bind_eq_bind, Option.bind_some]
    rw [(scalar_next hP hg h' hcut).2]
    rfl
  | style h hl =>
    obtain ⟨g, c, r, hg, hc, rfl⟩ := hk (Or.inl rfl)
    refine ⟨c :: r, lift_some (textStyle_text hP h hl hg hc), ?_⟩
    rw [skip_gap hg]
  | @align x t g y t' h hg h' =>
    refine ⟨i, lift_some (p := Parse.contentAlign env) (a := (x, y)) ?_, rfl⟩
    have e : t ++ g ++ t' ++ i = t ++ (g ++ (t' ++ i)) := by simp
    unfold Parse.contentAlign
    rw [e, keyword_text hP (table := horizontals) (by decide) h (space_cut hg _)]
    obtain ⟨e1, e2⟩ := keyword_next hP (table := verticals) (by decide) hg h' hcut
    simp only [Option.bind_eq_bind, Option.bind_some, e1, e2]
    rfl
  | @hatch w t g c t' hn hw hm hg h =>
    have e : t ++ g ++ t' ++ i = t ++ (g ++ (t' ++ i)) := by simp
    obtain ⟨r, h1, h2⟩ := hatch_text hp hn hw hm hg h hi
    refine ⟨r, ?_, h2⟩
    simp only [Kind.parser, e, h1, Outcome.bind]
  | @keyline k t g c t' h hg h' =>
    have e : t ++ g ++ t' ++ i = t ++ (g ++ (t' ++ i)) := by simp
    refine ⟨i, ?_, rfl⟩
    simp only [Kind.parser, e, keyline_text hp h hg h' (hi.afterColor hP) (colorText_not_end hP h'), Outcome.bind]
  | noKeyline h =>
    obtain ⟨g, c, r, hg, hc, rfl⟩ := hk (Or.inr (Or.inr rfl))
    refine ⟨c :: r, ?_, by rw [skip_gap hg]⟩
    have h' : WordText env keylines "none" v := ⟨h.1, by
      obtain ⟨k, hk, hl⟩ := h.2
      refine ⟨k, ?_, hl⟩
      simp only [Sheet.self, List.map_cons, List.map_nil, List.mem_cons, List.not_mem_nil, or_false, Prod.mk.injEq] at hk
      rw [hk.1]
      decide⟩
    simp only [Kind.parser, keyline_none hp h' hg hc, Outcome.bind]
    rfl
  | @offset x t g y t' h hg h' =>
    refine ⟨i, lift_some (p := Parse.offset env.ws) (a := (x, y)) ?_, rfl⟩
    have e : t ++ g ++ t' ++ i = t ++ (g ++ (t' ++ i)) := by simp
    unfold Parse.offset
    rw [e, scalar_text hP h (space_cut hg _)]
    simp only [Option.bind_eq_bind, Option.bind_some]
    rw [(scalar_next hP hg h' hcut).2]
    rfl

theorem value_solid (hp : PlainEnv env) {k : Kind} {d : Value} {v : List Char} (h : ValueText env k d v) :
    ∃ c r, v = c :: r ∧ isBlank c = false := by
  have hP := hp.toPlain
  have hS : ∀ {s : Scalar} {t : List Char} (x : List Char), ScalarText s t → ∃ c r, t ++ x = c :: r ∧ isBlank c = false := by
    intro s t x h
    obtain ⟨c, r, rfl, -, hb⟩ := scalarText_head hP h
    exact ⟨c, r ++ x, rfl, hb⟩
  have hU : ∀ {n : Nat} {t : List Char} (x : List Char), U16Text n t → ∃ c r, t ++ x = c :: r ∧ isBlank c = false := by
    intro s t x h
    obtain ⟨c, r, rfl, -, hb⟩ := u16Text_head hP h
    exact ⟨c, r ++ x, rfl, hb⟩
  have hN : ∀ {t : List Char} (x : List Char), Name env.alnum t → ∃ c r, t ++ x = c :: r ∧ isBlank c = false := by
    intro t x h
    obtain ⟨c, r, rfl, -, hb⟩ := name_solid hP h
    exact ⟨c, r ++ x, rfl, hb⟩
  have hC : ∀ {c : RgbaColor} {t : List Char} (x : List Char), ColorText env c t →
      ∃ c r, t ++ x = c :: r ∧ isBlank c = false := by
    intro c t x h
    obtain ⟨d, r, rfl, hd⟩ := colorText_head hP h
    exact ⟨d, r ++ x, rfl, ws_blank hP hd⟩
  have hW : ∀ {l : List (List Char)} {t : List Char}, WordsText env l t → ∃ c r, t = c :: r ∧ isBlank c = false := by
    intro l t h
    obtain ⟨-, -, -, ⟨c, r, e, hc, -⟩, -⟩ := words_facts hP h
    exact ⟨c, r, e, ws_blank hP hc⟩
  cases h with
  | color h => simpa using hC [] h
  | scalar h => simpa using hS [] h
  | spacing1 h => simpa using hS [] h
  | spacing2 h _ _ => simpa using hS _ h
  | spacing4 h _ _ _ _ _ _ => simpa using hS _ h
  | edge h => simpa using hN [] h.1
  | edgeKind h _ _ => simpa using hN _ h.1
  | edgeColor h _ _ _ => simpa using hC _ h
  | u16 h => simpa using hU [] h
  | trimU16 h => simpa using hU [] h
  | scrollbarSize1 h => simpa using hU [] h
  | scrollbarSize2 h _ _ => simpa using hU _ h
  | word _ h => simpa using hN [] h.1
  | opacity h => simpa using hS [] (number_scalar h)
  | opacityPercent h => simpa using hS [] (ScalarText.number h (u := .percent) rfl)
  | overflow1 h => simpa using hN [] h.1
  | overflow2 h _ _ => simpa using hN _ h.1
  | layout h =>
    simp only [List.mem_cons, List.not_mem_nil, or_false] at h
    rcases h with h | h | h <;> subst h <;> exact ⟨_, _, rfl, by decide⟩
  | layers h => exact hW h
  | layer h => simpa using hN [] h
  | gridSize1 h => simpa using hU [] h
  | gridSize2 h _ _ => simpa using hU _ h
  | scalars h =>
    cases h with
    | one h => simpa using hS [] h
    | cons h _ _ => simpa using hS _ h
  | gutter1 h => simpa using hS [] h
  | gutter2 h _ _ => simpa using hS _ h
  | style h _ => exact hW h
  | align h _ _ => simpa using hN _ h.1
  | hatch h _ _ _ _ => simpa using hN _ h
  | keyline h _ _ => simpa using hN _ h.1
  | noKeyline h => simpa using hN [] h.1
  | offset h _ _ => simpa using hS _ h

/-! ### The table of properties -/

theorem properties_nodup : (properties.map (·.1)).Nodup := by decide +kernel

theorem properties_spec (k : Kind) (n : String) : (n, k) ∈ properties ↔ n ∈ propertiesOf k := by
  have h1 : ∀ e ∈ properties, e.1 ∈ propertiesOf e.2 := by decide +kernel
  refine ⟨fun h => h1 _ h, ?_⟩
  have h2 : ∀ n ∈ propertiesOf k, (n, k) ∈ properties := by cases k <;> decide +kernel
  exact h2 n

theorem table_property {n : String} {k : Kind} (h : n ∈ propertiesOf k) : table env n.toList = some (k.parser env) := by
  have hm := (properties_spec k n).2 h
  have hn := properties_nodup
  unfold table
  have : properties.find? (fun e => e.1.toList == n.toList) = some (n, k) := by
    revert hm hn
    generalize properties = l
    intro hm hn
    induction l with
    | nil => simp at hm
    | cons e l ih =>
      simp only [List.map_cons, List.nodup_cons] at hn
      rcases List.mem_cons.1 hm with h | h
      · subst h; simp
      · have : e.1.toList ≠ n.toList := by
          intro he
          have : e.1 = n := String.ext (by simpa using he)
          exact hn.1 (this ▸ List.mem_map.2 ⟨_, h, rfl⟩)
        rw [List.find?_cons_of_neg (by simpa using this)]
        exact ih h hn.2
  rw [this]
  rfl

theorem table_isSome (n : List Char) : (table env n).isSome = true ↔ ∃ k, ∃ p ∈ propertiesOf k, n = p.toList := by
  constructor
  · intro h
    unfold table at h
    simp only [Option.isSome_map, List.find?_isSome, beq_iff_eq] at h
    obtain ⟨⟨p, k⟩, hm, he⟩ := h
    exact ⟨k, p, (properties_spec k p).1 hm, he.symm⟩
  · rintro ⟨k, p, hp, rfl⟩
    rw [table_property hp]
    rfl

/-- The table reads every value as the grammar says. -/
theorem values_faithful (hp : PlainEnv env) : Faithful (table env) (PropertyText env) (ImportantText env) where
  solid := by
    rintro n d v (⟨k, p, _, _, h⟩ | ⟨k, _, p, _, _, h⟩) <;> exact value_solid hp h
  plain := by
    rintro n d v q ⟨k, p, hk, rfl, h⟩ hq g c r hg hc
    rw [table_property hk, Option.some.injEq] at hq
    subst hq
    obtain ⟨r', h1, h2⟩ := value_text hp h (i := g ++ c :: r) ⟨g, c, r, hg, rfl, Or.inl hc⟩
      (fun _ => ⟨g, c, r, hg, hc, rfl⟩)
    refine ⟨r', by rw [List.append_assoc]; exact h1, ?_⟩
    rw [h2, skip_gap hg, skip_cons]
    rcases hc with h | h <;> subst h <;> decide
  important := by
    rintro n d v q ⟨k, hne, p, hk, rfl, h⟩ hq g g' c r hg hne' hg' hc
    rw [table_property hk, Option.some.injEq] at hq
    subst hq
    obtain ⟨r', h1, h2⟩ := value_text hp h (i := g ++ ("!important".toList ++ g' ++ c :: r))
      ⟨g, '!', "important".toList ++ g' ++ c :: r, hg, rfl, Or.inr ⟨rfl, hne'⟩⟩ (by
        rintro (h | h | h) <;> subst h <;> simp at hne)
    refine ⟨r', by rw [List.append_assoc]; exact h1, ?_⟩
    rw [h2, skip_gap hg]
    exact skip_cons (by decide) _

/-- C130: a stylesheet is read as it is written, values included. -/
theorem sheet_values (hp : PlainEnv env) {rules : List (List Complex × Items (Written Value))} {t : List Char}
    (h : SheetText env.ws env.alnum (css env) rules t) : sheet env.ws env.alnum (table env) t = .ok rules := by
  refine sheet_written hp.toPlain (values_faithful hp) ?_
  have e : language (table env) (PropertyText env) (ImportantText env) = css env := by
    unfold language css
    congr 1
    funext n
    exact propext (table_isSome n)
  rw [e]
  exact h

end Textual.Parse
