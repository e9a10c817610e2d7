import Verif.Lemmas.Declare
import Verif.Props.Defaults
import Verif.Props.Stylesheet

/-! C147: what is written in a stylesheet is what widgets get. -/

namespace Textual.Parse

open Css Sheet Defaults

theorem decl_total {env : Env} {enc : Value → String} {n t : List Char} {v : Value} (h : PropertyText env n v t) :
    ∃ d, declOf enc (String.ofList n) v = some d := by
  obtain ⟨k, p, hp, rfl, hv⟩ := h
  rw [String.ofList_toList]
  have some_of : ∀ {α : Type} {l : List (String × α)} {ps : List String} (_ : ∀ p ∈ ps, (l.lookup p).isSome = true),
      p ∈ ps → ∃ x, l.lookup p = some x := fun h hp => Option.isSome_iff_exists.1 (h p hp)
  cases hv
  case word w table h1 h2 =>
    have key : ∀ k, (wordsOf k).isSome = true → ∀ p ∈ propertiesOf k, (wordDecls.lookup p).isSome = true := by
      intro k
      cases k <;> decide +kernel
    obtain ⟨g, hg⟩ := Option.isSome_iff_exists.1 (key k (by rw [h1]; rfl) p hp)
    exact ⟨_, by rw [declOf, hg]; rfl⟩
  all_goals first
    | (obtain ⟨g, hg⟩ := some_of (l := colorDecls) (by decide +kernel) hp; exact ⟨_, by rw [declOf, hg]; rfl⟩)
    | (obtain ⟨g, hg⟩ := some_of (l := scalarDecls) (by decide +kernel) hp; exact ⟨_, by rw [declOf, hg]; rfl⟩)
    | (obtain ⟨g, hg⟩ := some_of (l := edgeDecls) (by decide +kernel) hp; exact ⟨_, by rw [declOf, hg]; rfl⟩)
    | (obtain ⟨g, hg⟩ := some_of (l := numDecls) (by decide +kernel) hp; exact ⟨_, by rw [declOf, hg]; rfl⟩)
    | (obtain ⟨g, hg⟩ := some_of (l := wordDecls) (by decide +kernel) hp; exact ⟨_, by rw [declOf, hg]; rfl⟩)
    | (obtain ⟨g, hg⟩ := some_of (l := styleDecls) (by decide +kernel) hp; exact ⟨_, by rw [declOf, hg]; rfl⟩)
    | (obtain ⟨g, hg⟩ := some_of (l := opacityDecls) (by decide +kernel) hp; exact ⟨_, by rw [declOf, hg]; rfl⟩)
    | (obtain ⟨g, hg⟩ := some_of (l := pairDecls) (by decide +kernel) hp; exact ⟨_, by rw [declOf, hg]; rfl⟩)
    | (obtain ⟨g, hg⟩ := some_of (l := spacingDecls) (by decide +kernel) hp; exact ⟨_, by rw [declOf, hg]; rfl⟩)
    | (obtain ⟨g, hg⟩ := some_of (l := scalarsDecls) (by decide +kernel) hp; exact ⟨_, by rw [declOf, hg]; rfl⟩)
    | (simp only [propertiesOf, List.mem_cons, List.not_mem_nil, or_false] at hp; subst hp; exact ⟨_, rfl⟩)

/-- Either the property is known and the value is one of it, or the property is not known. -/
def Proper (env : Env) : Written Value → Prop
  | .known n v => ∃ t, PropertyText env n v t
  | .unknown _ => True

theorem bare_proper {env : Env} {d : Written Value} {t : List Char} (h : BareText env.alnum (css env) d t) :
    Proper env d := by
  cases h with
  | known _ _ h _ _ _ => exact ⟨_, h⟩
  | important _ _ h _ _ _ _ _ =>
    obtain ⟨k, -, p, hp, hn, hv⟩ := h
    exact ⟨_, k, p, hp, hn, hv⟩

theorem items_proper {env : Env} {items : Items (Written Value)} {t : List Char}
    (h : ItemsText env.ws env.alnum (css env) items t) :
    (∀ d ∈ items.decls, Proper env d) ∧ ∀ sels, ∀ r ∈ flattenNested sels items, ∀ d ∈ r.decls, Proper env d := by
  induction h with
  | nil => simp [Items.decls, flattenNested]
  | last h =>
    simp only [Items.decls, flattenNested, List.mem_singleton, forall_eq, List.not_mem_nil, false_implies, implies_true,
      and_true]
    exact bare_proper h
  | decl h _ _ ih =>
    refine ⟨?_, ih.2⟩
    simp only [Items.decls, List.forall_mem_cons]
    refine ⟨?_, ih.1⟩
    cases h with
    | known h _ => exact bare_proper h
    | unknown => trivial
  | rule _ _ _ _ _ ihb ihr =>
    refine ⟨ihr.1, ?_⟩
    intro sels r hr
    simp only [flattenNested, List.mem_append, ownRule] at hr
    rcases hr with (hr | hr) | hr
    · split at hr
      · simp at hr
      · rw [List.mem_singleton.1 hr]
        exact ihb.1
    · exact ihb.2 _ r hr
    · exact ihr.2 _ r hr

theorem sheet_proper {env : Env} {rules : List (List Complex × Items (Written Value))} {t : List Char}
    (h : SheetText env.ws env.alnum (css env) rules t) : ∀ r ∈ flattenStylesheet rules, ∀ d ∈ r.decls, Proper env d := by
  induction h with
  | nil => simp [flattenStylesheet]
  | rule _ _ _ hb _ ih =>
    intro r hr
    simp only [flattenStylesheet, List.flatMap_cons, List.mem_append] at hr
    rcases hr with hr | hr
    · simp only [flattenRule, List.mem_append, ownRule] at hr
      rcases hr with hr | hr
      · split at hr
        · simp at hr
        · rw [List.mem_singleton.1 hr]
          exact (items_proper hb).1
      · exact (items_proper hb).2 _ r hr
    · exact ih r hr

/-- The declaration is about this part of a style. -/
def Mentions (f : Field) (d : Written Value) : Prop := ∃ n v, d = .known n v ∧ About (String.ofList n) f

/-- How strongly the selectors of a rule match a widget. -/
def reach (ctx : Ctx) (w : Widget) (anc : List Widget) (sels : List Complex) : Option Specificity :=
  (sels.find? fun sel => w.matchesComplex ctx sel anc).map complexSpec

theorem mentions_of_sets {theme : ThemeEnv} {enc : Value → String} {d : Written Value} {f : Field} {val : Val}
    (h : Sets theme (decode enc d) f val) : Mentions f d := by
  cases d with
  | unknown n => simp [decode, Sets, Decl.writes] at h
  | known n v =>
    simp only [decode] at h
    cases hd : declOf enc (String.ofList n) v with
    | none => rw [hd] at h; simp [Sets, Decl.writes] at h
    | some d =>
      rw [hd] at h
      exact ⟨n, v, rfl, (decl_wired hd).1 f val h⟩

theorem gives_unique {theme : ThemeEnv} {enc : Value → String} {v : Value} {f : Field} {x y : Val}
    (h : Gives theme enc v f x) (h' : Gives theme enc v f y) : x = y := by
  cases h <;> cases h' <;> first | rfl | (simp_all; done) | (rename_i h1 h2; revert h1 h2; simp; rintro (rfl | rfl) <;> simp; done) | (rename_i h1 h2; revert h1 h2; simp; rintro (rfl | rfl | rfl) <;> simp; done)

variable {theme : ThemeEnv} {ctx : Ctx} {w : Widget} {anc : List Widget} {f : Field} {env : Env} {enc : Value → String}

/-- C147: for a text in the language of stylesheets, if of all the rules that match a widget and mention a part of its
style one is stronger than those after it and as strong as those before it, then this part is what the last declaration
in the rule about it says. -/
theorem written_used_partial (hp : PlainEnv env) {rules : List (List Complex × Items (Written Value))} {t : List Char}
    (ht : SheetText env.ws env.alnum (css env) rules t) {A B : List (FlatRule (Written Value))}
    {r : FlatRule (Written Value)} (hr : flattenStylesheet rules = A ++ r :: B) {σ : Specificity}
    (hσ : reach ctx w anc r.selectors = some σ) {pre post : List (Written Value)} {n : List Char} {v : Value}
    (hd : r.decls = pre ++ .known n v :: post) (hn : About (String.ofList n) f) (hpost : ∀ d ∈ post, ¬ Mentions f d)
    (hA : ∀ r' ∈ A, ∀ σ', reach ctx w anc r'.selectors = some σ' → (∃ d ∈ r'.decls, Mentions f d) → σ'.le σ = true)
    (hB : ∀ r' ∈ B, ∀ σ', reach ctx w anc r'.selectors = some σ' → (∃ d ∈ r'.decls, Mentions f d) → Less σ' σ)
    (hf : ¬ Accumulates f) (h1 : f ≠ .autoColor) (h2 : f ≠ .visibilitySet) :
    ∃ rs val, rulesOf env.ws env.alnum (table env) (decode enc) t = .ok rs ∧ Gives theme enc v f val ∧
      computeStyle theme ctx w anc rs f = val := by
  have hprop : Proper env (.known n v) :=
    sheet_proper ht r (by rw [hr]; simp) _ (by rw [hd]; simp)
  obtain ⟨u, hu⟩ := hprop
  obtain ⟨d, hdecl⟩ := decl_total (enc := enc) hu
  obtain ⟨val, hval⟩ := (decl_wired (theme := theme) hdecl).2 f hn hf
  refine ⟨_, val, by unfold rulesOf; rw [sheet_values hp ht]; rfl, decl_gives hdecl hval h1 h2, ?_⟩
  rw [hr, List.map_append, List.map_cons]
  have bears : ∀ (r' : FlatRule (Written Value)) (σ' : Specificity),
      Bears theme ctx w anc f ⟨r'.selectors, r'.decls.map (decode enc)⟩ σ' →
      reach ctx w anc r'.selectors = some σ' ∧ ∃ d ∈ r'.decls, Mentions f d := by
    rintro r' σ' ⟨hs, d', hd', v', hv'⟩
    obtain ⟨d0, hd0, rfl⟩ := List.mem_map.1 hd'
    exact ⟨hs, d0, hd0, mentions_of_sets hv'⟩
  refine decides_value (σ := σ) hf ⟨hσ, ?_, ?_, ?_⟩
  · refine ⟨pre.map (decode enc), d, post.map (decode enc), ?_, hval, ?_⟩
    · show r.decls.map (decode enc) = _
      rw [hd, List.map_append, List.map_cons]
      congr 2
      simp [decode, hdecl]
    · intro d' hd' v' hv'
      obtain ⟨d0, hd0, rfl⟩ := List.mem_map.1 hd'
      exact hpost d0 hd0 (mentions_of_sets hv')
  · intro r' hr' σ' hb
    obtain ⟨r0, hr0, rfl⟩ := List.mem_map.1 hr'
    obtain ⟨hs, hm⟩ := bears r0 σ' hb
    exact hA r0 hr0 σ' hs hm
  · intro r' hr' σ' hb
    obtain ⟨r0, hr0, rfl⟩ := List.mem_map.1 hr'
    obtain ⟨hs, hm⟩ := bears r0 σ' hb
    exact hB r0 hr0 σ' hs hm

/-- C147: what no matching rule mentions is left as it is without a stylesheet. -/
theorem unwritten_unset_partial (hp : PlainEnv env) {rules : List (List Complex × Items (Written Value))} {t : List Char}
    (ht : SheetText env.ws env.alnum (css env) rules t)
    (h : ∀ r ∈ flattenStylesheet rules, reach ctx w anc r.selectors ≠ none → ∀ d ∈ r.decls, ¬ Mentions f d)
    (hf : ¬ Accumulates f) :
    ∃ rs, rulesOf env.ws env.alnum (table env) (decode enc) t = .ok rs ∧
      computeStyle theme ctx w anc rs f = .unset := by
  refine ⟨_, by unfold rulesOf; rw [sheet_values hp ht]; rfl, ?_⟩
  apply cascade_default_partial _ _ _ _ _ _ hf
  intro r hr hsel d hd v hv
  obtain ⟨r0, hr0, rfl⟩ := List.mem_map.1 hr
  obtain ⟨d0, hd0, rfl⟩ := List.mem_map.1 hd
  refine h r0 hr0 ?_ d0 hd0 (mentions_of_sets hv)
  have := (strength_isSome ctx w anc _).2 hsel
  intro hn
  have e : strength ctx w anc ⟨r0.selectors, r0.decls.map (decode enc)⟩ = reach ctx w anc r0.selectors := rfl
  rw [e, hn] at this
  cases this

theorem not_mentions {n : List Char} {v : Value} {f : Field} (h : f ∉ fieldsOf (String.ofList n)) :
    ¬ Mentions f (.known n v) := by
  rintro ⟨n', v', he, ha⟩
  cases he
  exact h (about_fields ha)

/-- The rules of the example, with the nested one by itself. -/
theorem exRules_flat : flattenStylesheet exRules =
    [⟨[[⟨[.type "Button"], .none⟩], [⟨[.cls "big"], .child⟩, ⟨[.type "Label"], .none⟩]],
      [.known "width".toList (.scalar ⟨50, .percent⟩), .unknown "foo".toList]⟩,
    ⟨[[⟨[.type "Button", .pseudo "hover"], .none⟩], [⟨[.cls "big"], .child⟩, ⟨[.type "Label", .pseudo "hover"], .none⟩]],
      [.known "border".toList (.edge "solid" (some { r := 255, g := 0, b := 0, a := 1 / 2 }))]⟩] := by
  decide +kernel

/-- The hypotheses of `written_used_partial`: the width of a button. -/
example (theme : ThemeEnv) (enc : Value → String) (ctx : Ctx) (anc : List Widget) :
    ∃ rs val, rulesOf exEnv.ws exEnv.alnum (table exEnv) (decode enc)
        "Button, .big > Label { width: 50%; &:hover { border: solid red 50% } foo: bar; }\n".toList = .ok rs ∧
      Gives theme enc (.scalar ⟨50, .percent⟩) .width val ∧
      computeStyle theme ctx { typeName := "Button" } anc rs .width = val := by
  refine written_used_partial exEnv_plain example_text (A := []) (σ := { types := 1 }) (pre := []) exRules_flat ?_ rfl
    ⟨[.width], by decide, by decide⟩ ?_ (by simp) ?_ (by simp [Accumulates]) (by decide) (by decide)
  · simp [reach, Widget.matchesComplex, Widget.matchesCompound, Widget.matchesSelector, complexSpec, compoundSpec,
      Selector.weight, Specificity.add]
  · intro d hd
    rw [List.mem_singleton.1 hd]
    rintro ⟨_, _, he, _⟩
    cases he
  · intro r' hr' σ' _ hm
    rw [List.mem_singleton.1 hr'] at hm
    obtain ⟨d, hd, hm⟩ := hm
    rw [List.mem_singleton.1 hd] at hm
    exact absurd hm (not_mentions (by decide +kernel))

/-- The hypotheses of `unwritten_unset_partial`: no rule says how high a button is. -/
example (theme : ThemeEnv) (enc : Value → String) (ctx : Ctx) (anc : List Widget) :
    ∃ rs, rulesOf exEnv.ws exEnv.alnum (table exEnv) (decode enc)
        "Button, .big > Label { width: 50%; &:hover { border: solid red 50% } foo: bar; }\n".toList = .ok rs ∧
      computeStyle theme ctx { typeName := "Button" } anc rs .height = .unset := by
  refine unwritten_unset_partial exEnv_plain example_text ?_ (by simp [Accumulates])
  rw [exRules_flat]
  simp only [List.forall_mem_cons, List.not_mem_nil, false_implies, implies_true, and_true]
  refine ⟨fun _ => ⟨not_mentions (by decide +kernel), ?_⟩, fun _ => not_mentions (by decide +kernel)⟩
  rintro ⟨_, _, he, _⟩
  cases he

end Textual.Parse
