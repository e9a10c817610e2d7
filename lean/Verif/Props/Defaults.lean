import Verif.Model.Defaults
import Verif.Props.Cascade
import Verif.Props.Stylesheet
import Verif.Model.Declare
import Mathlib.Data.List.Dedup

/-! C144–C146: the styles widgets bring along, and the stylesheet of the application. -/

namespace Textual.Defaults

open Css Sheet Parse
open RgbaColor (Outcome)

/-! ### Which rule wins -/

/-- A rule that matches the widget with strength `σ` and has a declaration for `f`. -/
def Bears (env : ThemeEnv) (ctx : Ctx) (w : Widget) (anc : List Widget) (f : Field) (r : FlatRule Decl)
    (σ : Specificity) : Prop :=
  strength ctx w anc r = some σ ∧ ∃ d ∈ r.decls, ∃ v, Sets env d f v

/-- The last value a list of declarations gives to `f`. -/
def LastValue (env : ThemeEnv) (f : Field) (decls : List Decl) (v : Val) : Prop :=
  ∃ pre d post, decls = pre ++ d :: post ∧ Sets env d f v ∧ ∀ d ∈ post, ∀ v, ¬ Sets env d f v

/-- Strictly less specific. -/
def Less (a b : Specificity) : Prop := a.le b = true ∧ a ≠ b

/-- In `A ++ r :: B` the rule `r` decides about `f`: what is before it is not stronger, what is after it is weaker. -/
structure Decides (env : ThemeEnv) (ctx : Ctx) (w : Widget) (anc : List Widget) (f : Field) (A : List (FlatRule Decl))
    (r : FlatRule Decl) (B : List (FlatRule Decl)) (σ : Specificity) (v : Val) : Prop where
  strength : Css.strength ctx w anc r = some σ
  last : LastValue env f r.decls v
  before : ∀ r' ∈ A, ∀ σ', Bears env ctx w anc f r' σ' → σ'.le σ = true
  after : ∀ r' ∈ B, ∀ σ', Bears env ctx w anc f r' σ' → Less σ' σ

variable {env : ThemeEnv} {ctx : Ctx} {w : Widget} {anc : List Widget} {f : Field}

theorem weaker_of_le {a b : Specificity} {i j : Nat} (h : a.le b = true) (hij : i < j) : Weaker a i b j := by
  simp only [Specificity.le, Bool.or_eq_true, Bool.and_eq_true, decide_eq_true_eq, beq_iff_eq] at h
  unfold Weaker
  omega

theorem weaker_of_less {a b : Specificity} {i j : Nat} (h : Less a b) : Weaker a i b j := by
  obtain ⟨h, hne⟩ := h
  obtain ⟨a1, a2, a3⟩ := a
  obtain ⟨b1, b2, b3⟩ := b
  simp only [Specificity.le, Bool.or_eq_true, Bool.and_eq_true, decide_eq_true_eq, beq_iff_eq] at h
  simp only [ne_eq, Specificity.mk.injEq] at hne
  unfold Weaker
  simp only
  omega

theorem decides_value (hf : ¬ Accumulates f) {A B : List (FlatRule Decl)} {r : FlatRule Decl} {σ : Specificity} {v : Val}
    (h : Decides env ctx w anc f A r B σ v) : computeStyle env ctx w anc (A ++ r :: B) f = v := by
  obtain ⟨pre, d, post, hd, hs, hp⟩ := h.last
  refine cascade_winner_partial env ctx w anc (A ++ r :: B) f hf v A.length r σ (by simp) h.strength pre post d hd hs hp ?_
  intro j r' σ' hj hr' hσ' hb
  by_cases hlt : j < A.length
  · rw [List.getElem?_append_left hlt] at hr'
    exact weaker_of_le (h.before r' (List.mem_of_getElem? hr') σ' ⟨hσ', hb⟩) hlt
  · rw [List.getElem?_append_right (by omega), List.getElem?_cons] at hr'
    rw [if_neg (by omega)] at hr'
    exact weaker_of_less (h.after r' (List.mem_of_getElem? hr') σ' ⟨hσ', hb⟩)

theorem lastValue_exists {decls : List Decl} (h : ∃ d ∈ decls, ∃ v, Sets env d f v) : ∃ v, LastValue env f decls v := by
  induction decls with
  | nil => simp at h
  | cons d ds ih =>
    by_cases hd : ∃ d ∈ ds, ∃ v, Sets env d f v
    · obtain ⟨v, pre, d', post, h1, h2, h3⟩ := ih hd
      exact ⟨v, d :: pre, d', post, by rw [h1]; rfl, h2, h3⟩
    · obtain ⟨d', hd', v, hv⟩ := h
      rcases List.mem_cons.1 hd' with rfl | hm
      · exact ⟨v, [], d', ds, rfl, hv, fun x hx v' hv' => hd ⟨x, hx, v', hv'⟩⟩
      · exact absurd ⟨d', hm, v, hv⟩ hd

theorem decides_exists : ∀ rules : List (FlatRule Decl), (∃ r ∈ rules, ∃ σ, Bears env ctx w anc f r σ) →
    ∃ A r B σ v, rules = A ++ r :: B ∧ Decides env ctx w anc f A r B σ v
  | [], h => by simp at h
  | r0 :: rs, h => by
    by_cases hr : ∃ r ∈ rs, ∃ σ, Bears env ctx w anc f r σ
    · obtain ⟨A, r, B, σ, v, he, hd⟩ := decides_exists rs hr
      by_cases h0 : ∃ σ0, Bears env ctx w anc f r0 σ0 ∧ Less σ σ0
      · obtain ⟨σ0, hb0, hl0⟩ := h0
        obtain ⟨v0, hv0⟩ := lastValue_exists hb0.2
        refine ⟨[], r0, rs, σ0, v0, rfl, hb0.1, hv0, by simp, ?_⟩
        have hle : ∀ r' ∈ rs, ∀ σ', Bears env ctx w anc f r' σ' → σ'.le σ = true := by
          intro r' hr' σ' hb'
          rw [he] at hr'
          rcases List.mem_append.1 hr' with hm | hm
          · exact hd.before r' hm σ' hb'
          · rcases List.mem_cons.1 hm with rfl | hm
            · have := hb'.1
              rw [hd.strength, Option.some.injEq] at this
              rw [this]
              simp [Specificity.le]
            · exact (hd.after r' hm σ' hb').1
        intro r' hr' σ' hb'
        have h1 := hle r' hr' σ' hb'
        refine ⟨Specificity.le_trans h1 hl0.1, ?_⟩
        rintro rfl
        exact hl0.2 (Specificity.le_antisymm hl0.1 h1)
      · refine ⟨r0 :: A, r, B, σ, v, by rw [he]; rfl, hd.strength, hd.last, ?_, hd.after⟩
        intro r' hr' σ' hb'
        rcases List.mem_cons.1 hr' with rfl | hm
        · have ht := Specificity.le_total σ' σ
          rw [Bool.or_eq_true] at ht
          rcases ht with ht | ht
          · exact ht
          · by_cases hee : σ = σ'
            · rw [hee]; simp [Specificity.le]
            · exact absurd ⟨σ', hb', ht, hee⟩ h0
        · exact hd.before r' hm σ' hb'
    · obtain ⟨r, hm, σ, hb⟩ := h
      rcases List.mem_cons.1 hm with rfl | hm
      · obtain ⟨v, hv⟩ := lastValue_exists hb.2
        exact ⟨[], r, rs, σ, v, rfl, hb.1, hv, by simp, fun r' hr' σ' hb' => absurd ⟨r', hr', σ', hb'⟩ hr⟩
      · exact absurd ⟨r, hm, σ, hb⟩ hr

/-! ### The combined text -/

section
variable {V : Type} {ws alnum : Char → Bool} {known : List Char → Option (Q V)}
  {text important : List Char → V → List Char → Prop} {decode : Written V → Decl}

theorem gap_append {g g' : List Char} (h : Gap g) (h' : Gap g') : Gap (g ++ g') := fun c hc =>
  (List.mem_append.1 hc).elim (h c) (h' c)

theorem sheetText_gap {D : Type} {L : Language D V} {r : List (List Complex × Items D)} {g t : List Char} (hg : Gap g)
    (h : SheetText ws alnum L r t) : SheetText ws alnum L r (g ++ t) := by
  cases h with
  | nil h => exact .nil (gap_append hg h)
  | rule h1 h2 h3 h4 h5 =>
    have := SheetText.rule h1 (gap_append hg h2) h3 h4 h5
    simpa only [List.append_assoc] using this

theorem sheetText_append {D : Type} {L : Language D V} {r r' : List (List Complex × Items D)} {t t' : List Char}
    (h : SheetText ws alnum L r t) (h' : SheetText ws alnum L r' t') : SheetText ws alnum L (r ++ r') (t ++ t') := by
  induction h with
  | nil hg => exact sheetText_gap hg h'
  | rule h1 h2 h3 h4 _ ih =>
    have := SheetText.rule h1 h2 h3 h4 ih
    simpa only [List.append_assoc, List.cons_append] using this

/-- The rules of one text, as the cascade has them. -/
def decoded (decode : Written V → Decl) (rules : List (List Complex × Items (Written V))) : List (FlatRule Decl) :=
  (flattenStylesheet rules).map fun r => ⟨r.selectors, r.decls.map decode⟩

theorem newline_gap : Gap ['\n'] := by
  intro c hc
  rw [List.mem_singleton.1 hc]
  simp

/-- The combined text has the rules of its parts: those for all widgets, those of the widgets one after the other, then
those of the application. -/
theorem combined_rules (hp : Plain ws alnum) (hf : Faithful known text important) {base app : List Char}
    {order : List (List Char)} {rb ra : List (List Complex × Items (Written V))}
    {R : List Char → List (List Complex × Items (Written V))}
    (hb : SheetText ws alnum (language known text important) rb base)
    (ho : ∀ t ∈ order, SheetText ws alnum (language known text important) (R t) t)
    (ha : SheetText ws alnum (language known text important) ra app) :
    rulesOf ws alnum known decode (combined base order app) =
      .ok (decoded decode rb ++ (order.flatMap fun t => decoded decode (R t)) ++ decoded decode ra) := by
  have hm : SheetText ws alnum (language known text important) (order.flatMap R) (order.flatMap (· ++ ['\n'])) := by
    induction order with
    | nil => exact .nil (fun c hc => by simp at hc)
    | cons t ts ih =>
      have h1 := sheetText_append (ho t (by simp)) (SheetText.nil newline_gap)
      have := sheetText_append h1 (ih fun t ht => ho t (by simp [ht]))
      simpa using this
  have hall : SheetText ws alnum (language known text important) (rb ++ (order.flatMap R ++ ra))
      (combined base order app) :=
    sheetText_append hb (sheetText_gap (g := ['\n']) newline_gap (sheetText_append hm ha))
  unfold rulesOf
  rw [sheet_written hp hf hall]
  simp only [Parse.Outcome.bind, decoded, flattenStylesheet, List.flatMap_append, List.map_append, List.append_assoc,
    List.map_flatMap, List.flatMap_assoc]

/-- Two rules of different widgets' styles that are equally strong for `w` and both set `f`. -/
def Clash (env : ThemeEnv) (ctx : Ctx) (w : Widget) (anc : List Widget) (f : Field)
    (rules : List Char → List (FlatRule Decl)) (collected : List (List Char)) : Prop :=
  ∃ t ∈ collected, ∃ t' ∈ collected, t ≠ t' ∧ ∃ r ∈ rules t, ∃ r' ∈ rules t', ∃ σ,
    Bears env ctx w anc f r σ ∧ Bears env ctx w anc f r' σ

theorem append_split {α : Type} {L M A B : List α} {r : α} (h : L ++ M = A ++ r :: B) :
    (∃ X, L = A ++ r :: X ∧ B = X ++ M) ∨ (∃ X, M = X ++ r :: B ∧ A = L ++ X) := by
  induction L generalizing A with
  | nil => exact .inr ⟨A, h, rfl⟩
  | cons x L ih =>
    cases A with
    | nil =>
      simp only [List.cons_append, List.nil_append, List.cons.injEq] at h
      exact .inl ⟨L, by rw [h.1]; rfl, h.2.symm⟩
    | cons a A =>
      simp only [List.cons_append, List.cons.injEq] at h
      rcases ih h.2 with ⟨X, h1, h2⟩ | ⟨X, h1, h2⟩
      · exact .inl ⟨X, by rw [h.1, h1]; rfl, h2⟩
      · exact .inr ⟨X, h1, by rw [h.1, h2]; rfl⟩

theorem flatMap_split {α β : Type} {g : α → List β} {o : List α} {A B : List β} {r : β} (h : o.flatMap g = A ++ r :: B) :
    ∃ P t Q a b, o = P ++ t :: Q ∧ g t = a ++ r :: b ∧ A = P.flatMap g ++ a ∧ B = b ++ Q.flatMap g := by
  induction o generalizing A with
  | nil => simp at h
  | cons t o ih =>
    rw [List.flatMap_cons] at h
    rcases append_split h with ⟨X, h1, h2⟩ | ⟨X, h1, h2⟩
    · exact ⟨[], t, o, A, X, rfl, h1, rfl, h2⟩
    · obtain ⟨P, t', Q, a, b, e1, e2, e3, e4⟩ := ih h1
      exact ⟨t :: P, t', Q, a, b, by rw [e1]; rfl, e2, by rw [h2, e3, List.flatMap_cons, List.append_assoc], e4⟩

theorem same_style (hf : ¬ Accumulates f) {rb ra : List (FlatRule Decl)} {rules : List Char → List (FlatRule Decl)}
    {collected o1 o2 : List (List Char)} (h1 : Enumerates o1 collected) (h2 : Enumerates o2 collected)
    (hc : ¬ Clash env ctx w anc f rules collected) :
    computeStyle env ctx w anc (rb ++ o1.flatMap rules ++ ra) f =
      computeStyle env ctx w anc (rb ++ o2.flatMap rules ++ ra) f := by
  have mem12 : ∀ r, r ∈ o1.flatMap rules ↔ r ∈ o2.flatMap rules := by
    intro r
    simp only [List.mem_flatMap, h1.2, h2.2]
  have memAll : ∀ r, r ∈ rb ++ o1.flatMap rules ++ ra ↔ r ∈ rb ++ o2.flatMap rules ++ ra := by
    intro r
    simp only [List.mem_append, mem12]
  by_cases hex : ∃ r ∈ rb ++ o1.flatMap rules ++ ra, ∃ σ, Bears env ctx w anc f r σ
  swap
  · have none : ∀ rs : List (FlatRule Decl), (¬ ∃ r ∈ rs, ∃ σ, Bears env ctx w anc f r σ) →
        computeStyle env ctx w anc rs f = .unset := by
      intro rs hn
      apply cascade_default_partial env ctx w anc rs f hf
      intro r hr hsel d hd v hv
      have := (strength_isSome ctx w anc r).2 hsel
      obtain ⟨σ, hσ⟩ := Option.isSome_iff_exists.1 this
      exact hn ⟨r, hr, σ, hσ, d, hd, v, hv⟩
    rw [none _ hex, none _ (by simpa only [memAll] using hex)]
  obtain ⟨A, r, B, σ, v, he, hd⟩ := decides_exists _ hex
  have v1 : computeStyle env ctx w anc (rb ++ o1.flatMap rules ++ ra) f = v := by rw [he]; exact decides_value hf hd
  rw [v1]
  rw [List.append_assoc] at he ⊢
  have le : ∀ r' ∈ rb ++ (o1.flatMap rules ++ ra), ∀ σ', Bears env ctx w anc f r' σ' → σ'.le σ = true := by
    intro r' hr' σ' hb
    rw [he] at hr'
    rcases List.mem_append.1 hr' with hm | hm
    · exact hd.before r' hm σ' hb
    · rcases List.mem_cons.1 hm with rfl | hm
      · have := hb.1
        rw [hd.strength, Option.some.injEq] at this
        rw [this]
        simp [Specificity.le]
      · exact (hd.after r' hm σ' hb).1
  -- the place of the deciding rule
  rcases append_split he with ⟨X, hrb, hB⟩ | ⟨X, hX, hA⟩
  · have e2 : rb ++ (o2.flatMap rules ++ ra) = A ++ r :: (X ++ (o2.flatMap rules ++ ra)) := by rw [hrb]; simp
    rw [e2]
    refine (decides_value hf ⟨hd.strength, hd.last, hd.before, ?_⟩).symm
    intro r' hr'
    apply hd.after
    rw [hB]
    simp only [List.mem_append, ← mem12] at hr' ⊢
    exact hr'
  rcases append_split hX with ⟨Y, hmid, hB⟩ | ⟨Y, hra, hA'⟩
  · -- in the styles of a widget `t`
    obtain ⟨P, t, Q, a, b, ho, ht, hPa, hQb⟩ := flatMap_split hmid
    have htm : t ∈ collected := (h1.2 t).1 (by rw [ho]; simp)
    obtain ⟨P', Q', ho'⟩ := List.append_of_mem ((h2.2 t).2 htm)
    have nd := h2.1
    rw [ho', List.nodup_append, List.nodup_cons] at nd
    have less : ∀ t' ∈ P' ++ Q', ∀ r' ∈ rules t', ∀ σ', Bears env ctx w anc f r' σ' → Less σ' σ := by
      intro t' ht' r' hr' σ' hb
      have htt : t ≠ t' := by
        rintro rfl
        rcases List.mem_append.1 ht' with hm | hm
        · exact nd.2.2 t hm t (by simp) rfl
        · exact nd.2.1.1 hm
      have ht'm : t' ∈ o2 := by
        rw [ho']
        rcases List.mem_append.1 ht' with hm | hm <;> simp [hm]
      refine ⟨le r' ?_ σ' hb, ?_⟩
      · refine List.mem_append_right _ (List.mem_append_left _ ((mem12 r').2 (List.mem_flatMap.2 ⟨t', ht'm, hr'⟩)))
      · rintro rfl
        obtain ⟨pre, d, post, h3, h4, -⟩ := hd.last
        exact hc ⟨t, htm, t', (h2.2 t').1 ht'm, htt, r, by rw [ht]; simp, r', hr', σ', ⟨hd.strength, d, by rw [h3]; simp, v, h4⟩, hb⟩
    have e2 : rb ++ (o2.flatMap rules ++ ra) =
        (rb ++ (P'.flatMap rules ++ a)) ++ r :: (b ++ (Q'.flatMap rules ++ ra)) := by
      rw [ho', List.flatMap_append, List.flatMap_cons, ht]; simp
    rw [e2]
    refine (decides_value hf ⟨hd.strength, hd.last, ?_, ?_⟩).symm
    · intro r' hr' σ' hb
      rcases List.mem_append.1 hr' with hm | hm
      · exact le r' (List.mem_append_left _ hm) σ' hb
      · rcases List.mem_append.1 hm with hm | hm
        · obtain ⟨t', ht', hr'⟩ := List.mem_flatMap.1 hm
          exact (less t' (List.mem_append_left _ ht') r' hr' σ' hb).1
        · exact hd.before r' (by rw [hA, hPa]; simp [hm]) σ' hb
    · intro r' hr' σ' hb
      rcases List.mem_append.1 hr' with hm | hm
      · exact hd.after r' (by rw [hB, hQb]; simp [hm]) σ' hb
      · rcases List.mem_append.1 hm with hm | hm
        · obtain ⟨t', ht', hr'⟩ := List.mem_flatMap.1 hm
          exact less t' (List.mem_append_right _ ht') r' hr' σ' hb
        · exact hd.after r' (by rw [hB]; simp [hm]) σ' hb
  · have e2 : rb ++ (o2.flatMap rules ++ ra) = (rb ++ (o2.flatMap rules ++ Y)) ++ r :: B := by rw [hra]; simp
    rw [e2]
    refine (decides_value hf ⟨hd.strength, hd.last, ?_, hd.after⟩).symm
    intro r' hr'
    apply le
    rw [hra]
    simp only [List.mem_append, ← mem12, List.mem_cons] at hr' ⊢
    tauto

/-- C144: whatever the order in which the set of the widgets' styles is walked through, a widget has the same value of
a property, in every tree and for every stylesheet of the application, unless two widgets' styles clash on it: have rules
for it that match this widget equally strongly. Missing: such clashes (see the counterexample), and the text styles, which
accumulate (C31). -/
theorem same_look_partial (hp : Plain ws alnum) (hk : Faithful known text important) {base app : List Char}
    {tree : Wid} {rb ra : List (List Complex × Items (Written V))}
    {R : List Char → List (List Complex × Items (Written V))}
    (hb : SheetText ws alnum (language known text important) rb base)
    (ho : ∀ t ∈ tree.collect, SheetText ws alnum (language known text important) (R t) t)
    (ha : SheetText ws alnum (language known text important) ra app)
    {o1 o2 : List (List Char)} (h1 : Enumerates o1 tree.collect) (h2 : Enumerates o2 tree.collect)
    (hf : ¬ Accumulates f) (hc : ¬ Clash env ctx w anc f (fun t => decoded decode (R t)) tree.collect) :
    ∃ r1 r2, rulesOf ws alnum known decode (combined base o1 app) = .ok r1 ∧
      rulesOf ws alnum known decode (combined base o2 app) = .ok r2 ∧
      computeStyle env ctx w anc r1 f = computeStyle env ctx w anc r2 f :=
  ⟨_, _, combined_rules hp hk hb (fun t ht => ho t ((h1.2 t).1 ht)) ha,
    combined_rules hp hk hb (fun t ht => ho t ((h2.2 t).1 ht)) ha, same_style hf h1 h2 hc⟩

/-- C145: a rule of the application that decides among the application's rules decides altogether, if no rule that comes
with a widget or is for all widgets is more specific; so equal specificity is enough. Missing: more specific rules of
widgets (see the counterexample). -/
theorem app_wins_partial (hp : Plain ws alnum) (hk : Faithful known text important) {base app : List Char}
    {tree : Wid} {rb ra : List (List Complex × Items (Written V))}
    {R : List Char → List (List Complex × Items (Written V))}
    (hb : SheetText ws alnum (language known text important) rb base)
    (ho : ∀ t ∈ tree.collect, SheetText ws alnum (language known text important) (R t) t)
    (ha : SheetText ws alnum (language known text important) ra app)
    {o : List (List Char)} (h1 : Enumerates o tree.collect) (hf : ¬ Accumulates f)
    {A B : List (FlatRule Decl)} {r : FlatRule Decl} {σ : Specificity} {v : Val} (hr : decoded decode ra = A ++ r :: B)
    (hd : Decides env ctx w anc f A r B σ v)
    (hbase : ∀ r' ∈ decoded decode rb, ∀ σ', Bears env ctx w anc f r' σ' → σ'.le σ = true)
    (hdef : ∀ t ∈ tree.collect, ∀ r' ∈ decoded decode (R t), ∀ σ', Bears env ctx w anc f r' σ' → σ'.le σ = true) :
    ∃ rs, rulesOf ws alnum known decode (combined base o app) = .ok rs ∧ computeStyle env ctx w anc rs f = v := by
  refine ⟨_, combined_rules hp hk hb (fun t ht => ho t ((h1.2 t).1 ht)) ha, ?_⟩
  rw [hr, ← List.append_assoc]
  refine decides_value hf ⟨hd.strength, hd.last, ?_, hd.after⟩
  intro r' hr' σ' hb'
  simp only [List.mem_append, List.mem_flatMap] at hr'
  rcases hr' with (hm | ⟨t, ht, hm⟩) | hm
  · exact hbase r' hm σ' hb'
  · exact hdef t ((h1.2 t).1 ht) r' hm σ' hb'
  · exact hd.before r' hm σ' hb'
end

/-! ### Examples -/

/-- The rules of `Label { height: 50% }`. -/
def exLabel : List (List Complex × Items (Written Value)) :=
  [([[⟨[.type "Label"], .none⟩]], .decl (.known "height".toList (.scalar ⟨50, .percent⟩)) .nil)]

theorem exLabel_text : SheetText Parse.exEnv.ws Parse.exEnv.alnum
    (language (table Parse.exEnv) (PropertyText Parse.exEnv) (ImportantText Parse.exEnv)) exLabel
    "Label { height: 50% }".toList := by
  rw [css_language]
  have h50 : NumberText 50 "50".toList := by
    have := NumberText.whole (ds := "50".toList) ⟨by decide, by decide⟩
    have e : ((natural "50".toList : Nat) : Rat) = 50 := by
      have : natural "50".toList = 50 := by decide
      rw [this]; rfl
    rwa [e] at this
  have hheight : BareText Parse.exEnv.alnum (css Parse.exEnv) (.known "height".toList (.scalar ⟨50, .percent⟩))
      "height: 50%".toList :=
    BareText.known (L := css Parse.exEnv) (n := "height".toList) (v := "50%".toList) (g := []) (g' := [' '])
      ⟨by decide, by decide⟩ ⟨.scalar, "height", by decide, rfl⟩
      ⟨.scalar, "height", by decide, rfl, .scalar (ScalarText.number (t := "50".toList) (tu := ['%']) h50 rfl)⟩
      (by simp [Gap]) (by simp [Gap]) (Or.inl ⟨' ', rfl, by decide, by decide, by decide⟩)
  exact SheetText.rule (g := []) (t := "Label".toList) (g' := [' ']) (tb := " height: 50% ".toList) (t' := [])
    (.one (.one (.one (SimpleText.type (n := "Label".toList) ⟨by decide, by decide⟩)))) (by simp [Gap]) (by simp [Gap])
    (ItemsText.last (g := [' ']) (t := "height: 50%".toList) (g' := [' ']) hheight (by simp [Gap]) (by simp [Gap]))
    (.nil (by simp [Gap]))

/-- The text with the rules `exRules`. -/
def exText : List Char := "Button, .big > Label { width: 50%; &:hover { border: solid red 50% } foo: bar; }\n".toList

/-- A label and a button in a container. -/
def exTree : Wid := .node [] [.node "Label { height: 50% }".toList [], .node exText [], .node exText []]

/-- The rules of the two texts. -/
def exR (t : List Char) : List (List Complex × Items (Written Value)) := if t = exText then exRules else exLabel

theorem exTree_texts : ∀ t ∈ exTree.collect, SheetText Parse.exEnv.ws Parse.exEnv.alnum
    (language (table Parse.exEnv) (PropertyText Parse.exEnv) (ImportantText Parse.exEnv)) (exR t) t := by
  have e : exTree.collect = ["Label { height: 50% }".toList, exText, exText] := by decide
  rw [e]
  simp only [List.forall_mem_cons, List.not_mem_nil, false_implies, implies_true, and_true]
  have h1 : exR "Label { height: 50% }".toList = exLabel := by unfold exR; rw [if_neg (by decide)]
  have h2 : exR exText = exRules := by unfold exR; rw [if_pos rfl]
  rw [h1, h2]
  refine ⟨exLabel_text, ?_, ?_⟩ <;> (rw [css_language]; exact example_text)

theorem exTree_orders : Enumerates ["Label { height: 50% }".toList, exText] exTree.collect ∧
    Enumerates [exText, "Label { height: 50% }".toList] exTree.collect := by
  have e : exTree.collect = ["Label { height: 50% }".toList, exText, exText] := by decide
  rw [e]
  refine ⟨⟨by decide, fun t => ?_⟩, by decide, fun t => ?_⟩ <;> simp only [List.mem_cons, List.not_mem_nil, or_false] <;>
    tauto

theorem exTree_clash (enc : Value → String) (env : ThemeEnv) (ctx : Ctx) (w : Widget) (anc : List Widget) :
    ¬ Clash env ctx w anc .width (fun t => decoded (decode enc) (exR t)) exTree.collect := by
  have e : exTree.collect = ["Label { height: 50% }".toList, exText, exText] := by decide
  rintro ⟨t, ht, t', ht', hne, r, hr, r', hr', σ, hb, hb'⟩
  have nope : ∀ r ∈ decoded (decode enc) (exR "Label { height: 50% }".toList), ∀ σ, ¬ Bears env ctx w anc .width r σ := by
    have h1 : exR "Label { height: 50% }".toList = exLabel := by unfold exR; rw [if_neg (by decide)]
    have h2 : decoded (decode enc) exLabel =
        [⟨[[⟨[.type "Label"], .none⟩]], [.height (enc (.scalar ⟨50, .percent⟩))]⟩] := rfl
    rw [h1, h2]
    intro r hr σ hb
    rw [List.mem_singleton.1 hr] at hb
    obtain ⟨-, d, hd, v, hv⟩ := hb
    rw [List.mem_singleton.1 hd] at hv
    simp [Sets, Decl.writes] at hv
  rw [e] at ht ht'
  simp only [List.mem_cons, List.not_mem_nil, or_false] at ht ht'
  rcases ht with rfl | ht
  · exact nope r hr σ hb
  · rcases ht' with rfl | ht'
    · exact nope r' hr' σ hb'
    · apply hne
      rw [show t = exText by tauto, show t' = exText by tauto]

/-- The hypotheses of `same_look_partial`: a label and buttons, in either order of their styles. -/
example (enc : Value → String) (env : ThemeEnv) (ctx : Ctx) (w : Widget) (anc : List Widget) :
    ∃ r1 r2, rulesOf Parse.exEnv.ws Parse.exEnv.alnum (table Parse.exEnv) (decode enc)
        (combined [] ["Label { height: 50% }".toList, exText] []) = .ok r1 ∧
      rulesOf Parse.exEnv.ws Parse.exEnv.alnum (table Parse.exEnv) (decode enc)
        (combined [] [exText, "Label { height: 50% }".toList] []) = .ok r2 ∧
      computeStyle env ctx w anc r1 .width = computeStyle env ctx w anc r2 .width :=
  same_look_partial exEnv_plain.toPlain (values_faithful exEnv_plain) (rb := []) (ra := []) (.nil (by simp [Gap]))
    exTree_texts (.nil (by simp [Gap])) exTree_orders.1 exTree_orders.2 (by simp [Accumulates])
    (exTree_clash enc env ctx w anc)

/-- The hypotheses of `app_wins_partial`: the application says how high labels are. -/
example (enc : Value → String) (env : ThemeEnv) (ctx : Ctx) :
    ∃ rs, rulesOf Parse.exEnv.ws Parse.exEnv.alnum (table Parse.exEnv) (decode enc)
        (combined [] [exText, "Label { height: 50% }".toList] "Label { height: 50% }".toList) = .ok rs ∧
      computeStyle env ctx { typeName := "Label" } [] rs .height = .raw (enc (.scalar ⟨50, .percent⟩)) := by
  have hl : strength ctx { typeName := "Label" } [] ⟨[[⟨[.type "Label"], .none⟩]], [.height (enc (.scalar ⟨50, .percent⟩))]⟩ =
      some { types := 1 } := by
    simp [strength, Widget.matchesComplex, Widget.matchesCompound, Widget.matchesSelector, complexSpec,
      compoundSpec, Selector.weight, Specificity.add]
  refine app_wins_partial exEnv_plain.toPlain (values_faithful exEnv_plain) (rb := []) (ra := exLabel) (.nil (by simp [Gap]))
    exTree_texts exLabel_text exTree_orders.2 (by simp [Accumulates]) (A := []) (B := [])
    (r := ⟨[[⟨[.type "Label"], .none⟩]], [.height (enc (.scalar ⟨50, .percent⟩))]⟩) (σ := { types := 1 }) rfl
    ⟨hl, ⟨[], _, [], rfl, by simp [Sets, Decl.writes], by simp⟩, by simp, by simp⟩ ?_ ?_
  · intro r' hr'
    simp [decoded, flattenStylesheet] at hr'
  · intro t ht r' hr' σ' hb
    by_cases he : t = exText
    · exfalso
      obtain ⟨-, d, hd, v, hv⟩ := hb
      have : exR t = exRules := by rw [he]; unfold exR; rw [if_pos rfl]
      simp only [this, decoded, exRules, flattenStylesheet, flattenRule, ownRule, flattenNested, Items.decls,
        List.flatMap_cons, List.flatMap_nil, List.mem_map, List.mem_append, List.not_mem_nil, or_false,
        List.isEmpty_cons, Bool.false_eq_true, if_false, List.mem_singleton] at hr'
      obtain ⟨r0, hr0, rfl⟩ := hr'
      rcases hr0 with rfl | (rfl | h) | h
      · simp only [List.map_cons, List.map_nil, List.mem_cons, List.not_mem_nil, or_false] at hd
        rcases hd with rfl | rfl <;> simp [Sets, decode, declOf, scalarDecls, Decl.writes] at hv
      · simp only [List.map_cons, List.map_nil, List.mem_cons, List.not_mem_nil, or_false] at hd
        rcases hd with rfl
        simp [Sets, decode, declOf, edgeDecls, Decl.writes] at hv
    · have h1 : exR t = exLabel := by unfold exR; rw [if_neg he]
      have h2 : decoded (decode enc) exLabel =
          [⟨[[⟨[.type "Label"], .none⟩]], [.height (enc (.scalar ⟨50, .percent⟩))]⟩] := rfl
      rw [h1, h2] at hr'
      have := hb.1
      rw [List.mem_singleton.1 hr', hl, Option.some.injEq] at this
      rw [← this]
      decide

/-! ### Disagreements -/

/-- The text of option lists (option_list.rs:296-304). -/
def optionListCss : List Char := "
OptionList {
    height: auto;
}

OptionList > .option-list--option {
    text-wrap: nowrap;
}
".toList

/-- The text of containers (container.rs:666-672). -/
def containerCss : List Char := "
Container {
    width: 1fr;
    height: 1fr;
    layout: vertical;
}
".toList

/-- Sizes by their unit. -/
def exEnc : Value → String
  | .scalar s => if s.unit = .auto then "auto" else "fr"
  | .word w => w
  | _ => ""

/-- The rules of `containerCss`. -/
def containerRules : List (FlatRule Decl) :=
  [⟨[[⟨[.type "Container"], .none⟩]], [.width "fr", .height "fr", .layout "vertical"]⟩]

/-- The rules of `optionListCss`. -/
def optionListRules : List (FlatRule Decl) :=
  [⟨[[⟨[.type "OptionList"], .none⟩]], [.height "auto"]⟩,
    ⟨[[⟨[.type "OptionList"], .child⟩, ⟨[.cls "option-list--option"], .none⟩]], [.textWrap "nowrap"]⟩]

theorem containerCss_ne : containerCss ≠ optionListCss := by decide +kernel

theorem enumerates_two {a b : List Char} (h : a ≠ b) : Enumerates [a, b] [a, b] ∧ Enumerates [b, a] [a, b] := by
  refine ⟨⟨by simp [h], fun t => Iff.rfl⟩, by simp [h.symm], fun t => ?_⟩
  simp only [List.mem_cons, List.not_mem_nil, or_false]
  tauto

/-- C144: the height of an option list in a container depends on the order. -/
theorem same_look_counterexample :
    let tree := Wid.node containerCss [.node optionListCss []]
    let list : Widget := { typeName := "OptionList", typeNames := ["OptionList", "Container", "Widget", "DOMNode"] }
    Enumerates [containerCss, optionListCss] tree.collect ∧ Enumerates [optionListCss, containerCss] tree.collect ∧
    ∃ r1 r2,
      rulesOf Parse.exEnv.ws Parse.exEnv.alnum (table Parse.exEnv) (decode exEnc)
        (combined [] [containerCss, optionListCss] []) = .ok r1 ∧
      rulesOf Parse.exEnv.ws Parse.exEnv.alnum (table Parse.exEnv) (decode exEnc)
        (combined [] [optionListCss, containerCss] []) = .ok r2 ∧
      computeStyle Css.exEnv exCtx list [] r1 .height = .raw "auto" ∧
      computeStyle Css.exEnv exCtx list [] r2 .height = .raw "fr" := by
  intro tree list
  have e : tree.collect = [containerCss, optionListCss] := by decide +kernel
  rw [e]
  have h := enumerates_two containerCss_ne
  refine ⟨h.1, h.2, containerRules ++ optionListRules, optionListRules ++ containerRules, by decide +kernel,
    by decide +kernel, ?_, ?_⟩ <;>
  · unfold computeStyle
    rw [List.mergeSort_of_pairwise (by decide +kernel)]
    decide +kernel

/-- The part of the text of headers (header.rs:749-762) that is about height. -/
def headerCss : List Char := "
Header {
    height: 1;
}

Header.-tall {
    height: auto;
}
".toList

/-- C145: the application cannot say how high a tall header is by naming the header. -/
theorem app_wins_counterexample :
    let header : Widget := { typeName := "Header", typeNames := ["Header", "Widget", "DOMNode"], classes := ["-tall"] }
    ∃ rs,
      rulesOf Parse.exEnv.ws Parse.exEnv.alnum (table Parse.exEnv) (decode exEnc)
        (combined [] [headerCss] "Header { height: 5; }".toList) = .ok rs ∧
      computeStyle Css.exEnv exCtx header [] rs .height = .raw "auto" := by
  intro header
  let low : FlatRule Decl := ⟨[[⟨[.type "Header"], .none⟩]], [.height "fr"]⟩
  have hlow : strength exCtx header [] low = some { types := 1 } := by decide +kernel
  refine ⟨[low] ++ ⟨[[⟨[.type "Header", .cls "-tall"], .none⟩]], [.height "auto"]⟩ :: [low], by decide +kernel, ?_⟩
  refine decides_value (σ := { types := 1, classes := 1 }) (by simp [Accumulates])
    ⟨by decide +kernel, ⟨[], _, [], rfl, by simp [Sets, Decl.writes], by simp⟩, ?_, ?_⟩ <;>
  · intro r' hr' σ' hb
    have := hb.1
    rw [List.mem_singleton.1 hr', hlow, Option.some.injEq] at this
    rw [← this]
    first | decide | exact ⟨by decide, by decide⟩

/-! ### Who has defaults -/

/-- A widget with this text is somewhere in the tree. -/
inductive Wid.Has (css : List Char) : Wid → Prop
  | here {children} : Has css (.node css children)
  | inside {c children own} : c ∈ children → Has css c → Has css (.node own children)

mutual
theorem collect_ne : ∀ w : Wid, [] ∉ w.collect
  | .node own children => by
    rw [Wid.collect, List.mem_append]
    rintro (h | h)
    · split at h
      · rename_i hne
        exact hne (List.mem_singleton.1 h).symm
      · simp at h
    · exact collectAll_ne children h

theorem collectAll_ne : ∀ ws : List Wid, [] ∉ collectAll ws
  | [] => by simp [collectAll]
  | w :: ws => by
    rw [collectAll, List.mem_append]
    rintro (h | h)
    · exact collect_ne w h
    · exact collectAll_ne ws h
end

mutual
theorem collect_has {css : List Char} (hne : css ≠ []) : ∀ w : Wid, css ∈ w.collect ↔ w.Has css
  | .node own children => by
    rw [Wid.collect, List.mem_append, collectAll_has hne children]
    constructor
    · rintro (h | ⟨c, hc, hh⟩)
      · split at h
        · rw [List.mem_singleton.1 h]; exact .here
        · simp at h
      · exact .inside hc hh
    · intro h
      cases h with
      | here => left; simp [hne]
      | inside hc hh => exact .inr ⟨_, hc, hh⟩

theorem collectAll_has {css : List Char} (hne : css ≠ []) : ∀ ws : List Wid, css ∈ collectAll ws ↔ ∃ w ∈ ws, w.Has css
  | [] => by simp [collectAll]
  | w :: ws => by
    rw [collectAll, List.mem_append, collect_has hne w, collectAll_has hne ws]
    simp
end

section
variable {V : Type} {ws alnum : Char → Bool} {known : List Char → Option (Q V)}
  {text important : List Char → V → List Char → Prop} {decode : Written V → Decl}

/-- C146: the rules of the stylesheet of an application are just those for all widgets, those of the application, and those
brought along by the widgets that were there at the beginning: by every one of them, whatever the order, however often the
widgets have been rebuilt. Missing: widgets that come with a rebuild (see the counterexample). -/
theorem defaults_present_partial (hp : Plain ws alnum) (hk : Faithful known text important) {base app : List Char}
    {first : Wid} {more : List Wid} {rb ra : List (List Complex × Items (Written V))}
    {R : List Char → List (List Complex × Items (Written V))}
    (hb : SheetText ws alnum (language known text important) rb base)
    (hR : ∀ css, first.Has css → SheetText ws alnum (language known text important) (R css) css)
    (ha : SheetText ws alnum (language known text important) ra app)
    {order : List (List Char) → List (List Char)} (ho : ∀ l, Enumerates (order l) l) :
    ∃ rs, rulesOf ws alnum known decode (sheetOf base app order (first :: more)) = .ok rs ∧
      ∀ r, r ∈ rs ↔ r ∈ decoded decode rb ∨ r ∈ decoded decode ra ∨ ∃ css, css ≠ [] ∧ first.Has css ∧ r ∈ decoded decode (R css) := by
  have ne : ∀ w : Wid, ∀ t ∈ w.collect, t ≠ [] := by
    intro w t ht he
    exact collect_ne w (he ▸ ht)
  refine ⟨_, combined_rules (R := R) hp hk hb (fun t ht => ?_) ha, ?_⟩
  · have := ((ho _).2 t).1 ht
    exact hR t ((collect_has (ne _ t this) _).1 this)
  · intro r
    simp only [List.mem_append, List.mem_flatMap, (ho _).2]
    constructor
    · rintro ((h | ⟨t, ht, h⟩) | h)
      · exact .inl h
      · exact .inr (.inr ⟨t, ne _ t ht, (collect_has (ne _ t ht) _).1 ht, h⟩)
      · exact .inr (.inl h)
    · rintro (h | h | ⟨t, hne, ht, h⟩)
      · exact .inl (.inl h)
      · exact .inr h
      · exact .inl (.inr ⟨t, (collect_has hne _).2 ht, h⟩)
end

theorem exTree_has {css : List Char} (hne : css ≠ []) : exTree.Has css ↔ css = "Label { height: 50% }".toList ∨ css = exText := by
  rw [← collect_has hne]
  have e : exTree.collect = ["Label { height: 50% }".toList, exText, exText] := by decide
  rw [e]
  simp only [List.mem_cons, List.not_mem_nil, or_false]
  tauto

/-- Every list can be walked through. -/
theorem enumerates_dedup (l : List (List Char)) : Enumerates l.dedup l := ⟨l.nodup_dedup, fun _ => List.mem_dedup⟩

/-- The hypotheses of `defaults_present_partial`. -/
example (enc : Value → String) (more : List Wid) :
    ∃ rs, rulesOf Parse.exEnv.ws Parse.exEnv.alnum (table Parse.exEnv) (decode enc)
        (sheetOf [] [] List.dedup (.node exText [.node "Label { height: 50% }".toList []] :: more)) = .ok rs ∧
      ∀ r, r ∈ rs ↔ r ∈ decoded (decode enc) [] ∨ r ∈ decoded (decode enc) [] ∨
        ∃ css, css ≠ [] ∧ Wid.Has css (.node exText [.node "Label { height: 50% }".toList []]) ∧
          r ∈ decoded (decode enc) (exR css) := by
  refine defaults_present_partial exEnv_plain.toPlain (values_faithful exEnv_plain) (rb := []) (ra := [])
    (.nil (by simp [Gap])) ?_ (.nil (by simp [Gap])) enumerates_dedup
  intro css h
  apply exTree_texts
  have e : exTree.collect = ["Label { height: 50% }".toList, exText, exText] := by decide
  rw [e]
  cases h with
  | here => simp
  | inside hc hh =>
    rw [List.mem_singleton.1 hc] at hh
    cases hh with
    | here => simp
    | inside h => simp at h

/-- C146: an option list that comes with a rebuild is as high as any container, not as an option list is when it is there at
the beginning. -/
theorem defaults_counterexample :
    let first := Wid.node containerCss []
    let later := Wid.node containerCss [.node optionListCss []]
    let list : Widget := { typeName := "OptionList", typeNames := ["OptionList", "Container", "Widget", "DOMNode"] }
    later.Has optionListCss ∧ ∃ r1 r2,
      rulesOf Parse.exEnv.ws Parse.exEnv.alnum (table Parse.exEnv) (decode exEnc)
        (sheetOf [] [] List.dedup [later]) = .ok r1 ∧
      computeStyle Css.exEnv exCtx list [] r1 .height = .raw "auto" ∧
      rulesOf Parse.exEnv.ws Parse.exEnv.alnum (table Parse.exEnv) (decode exEnc)
        (sheetOf [] [] List.dedup [first, later]) = .ok r2 ∧
      computeStyle Css.exEnv exCtx list [] r2 .height = .raw "fr" := by
  intro first later list
  refine ⟨.inside (List.mem_singleton.2 rfl) .here, containerRules ++ optionListRules, containerRules, by decide +kernel, ?_,
    by decide +kernel, ?_⟩ <;>
  · unfold computeStyle
    rw [List.mergeSort_of_pairwise (by decide +kernel)]
    decide +kernel

end Textual.Defaults
