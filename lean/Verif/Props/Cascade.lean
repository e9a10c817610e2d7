import Mathlib.Tactic.Common
import Verif.Model.Cascade
import Verif.Props.Selector

/-! C31, C32: the cascade. -/

namespace Textual.Css

/-- Text style locations accumulate, all others are overwritten. -/
def Accumulates (f : Field) : Prop := f = .textStyle ∨ f = .borderTitleStyle ∨ f = .borderSubtitleStyle

/-- Declaration `d` gives location `f` the value `v`. -/
def Sets (env : ThemeEnv) (d : Decl) (f : Field) (v : Val) : Prop := (f, v) ∈ d.writes env

theorem writes_nodup (env : ThemeEnv) (d : Decl) : ((d.writes env).map Prod.fst).Nodup := by
  cases d <;> simp [Decl.writes]

theorem sets_unique (env : ThemeEnv) (d : Decl) (f : Field) (v v' : Val) (h : Sets env d f v)
    (h' : Sets env d f v') : v = v' := by
  have hn := writes_nodup env d
  unfold Sets at h h'
  have key : ∀ l : List (Field × Val), (l.map Prod.fst).Nodup → (f, v) ∈ l → (f, v') ∈ l → v = v' := by
    intro l
    induction l with
    | nil => simp
    | cons x xs ih =>
      intro hn h h'
      simp only [List.map_cons, List.nodup_cons, List.mem_map] at hn
      simp only [List.mem_cons] at h h'
      rcases h with h | h <;> rcases h' with h' | h'
      · rw [← h] at h'; exact (Prod.mk.inj h'.symm).2
      · exact absurd ⟨_, h', by rw [← h]⟩ hn.1
      · exact absurd ⟨_, h, by rw [← h']⟩ hn.1
      · exact ih hn.2 h h'
  exact key _ hn h h'

theorem merges_accumulate (env : ThemeEnv) (d : Decl) : ∀ m ∈ d.merges env, Accumulates m.1 := by
  cases d <;> simp [Decl.merges, Accumulates]

theorem foldl_merges_other (ms : List (Field × TextStyle)) (f : Field) (h : ∀ m ∈ ms, m.1 ≠ f) :
    ∀ s : Computed, (ms.foldl (fun s m => s.set m.1 (.style ((s m.1).textStyle.merge m.2))) s) f = s f := by
  induction ms with
  | nil => intro s; rfl
  | cons m ms ih =>
    intro s
    rw [List.foldl_cons, ih (fun x hx => h x (by simp [hx]))]
    have := h m (by simp)
    simp [Computed.set, Ne.symm this]

theorem foldl_writes (ws : List (Field × Val)) (f : Field) : ∀ s : Computed,
    (∀ v, (f, v) ∈ ws → (ws.map Prod.fst).Nodup → (ws.foldl (fun s w => s.set w.1 w.2) s) f = v) ∧
    ((∀ v, (f, v) ∉ ws) → (ws.foldl (fun s w => s.set w.1 w.2) s) f = s f) := by
  induction ws with
  | nil => intro s; simp
  | cons w ws ih =>
    intro s
    have h2 : (∀ v, (f, v) ∉ w :: ws) →
        ((w :: ws).foldl (fun s w => s.set w.1 w.2) s) f = s f := by
      intro h
      rw [List.foldl_cons, (ih _).2 (fun v hv => h v (by simp [hv]))]
      have : f ≠ w.1 := fun he => h w.2 (by rw [he]; simp)
      simp [Computed.set, this]
    refine ⟨?_, h2⟩
    intro v hv hn
    simp only [List.map_cons, List.nodup_cons] at hn
    rw [List.foldl_cons]
    rcases List.mem_cons.1 hv with h | h
    · rw [(ih _).2]
      · rw [← h]; simp [Computed.set]
      · intro v' hv'
        exact hn.1 (List.mem_map.2 ⟨_, hv', by rw [← h]⟩)
    · exact (ih _).1 v h hn.2

theorem applyDecl_sets (env : ThemeEnv) (s : Computed) (d : Decl) (f : Field) (v : Val)
    (hf : ¬ Accumulates f) (h : Sets env d f v) : applyDecl env s d f = v := by
  unfold applyDecl
  rw [foldl_merges_other _ f (fun m hm he => hf (he ▸ merges_accumulate env d m hm))]
  exact (foldl_writes _ f s).1 v h (writes_nodup env d)

theorem applyDecl_other (env : ThemeEnv) (s : Computed) (d : Decl) (f : Field)
    (hf : ¬ Accumulates f) (h : ∀ v, ¬ Sets env d f v) : applyDecl env s d f = s f := by
  unfold applyDecl
  rw [foldl_merges_other _ f (fun m hm he => hf (he ▸ merges_accumulate env d m hm))]
  exact (foldl_writes _ f s).2 h

theorem foldl_decls_other (env : ThemeEnv) (f : Field) (hf : ¬ Accumulates f) (ds : List Decl) :
    (∀ d ∈ ds, ∀ v, ¬ Sets env d f v) → ∀ s : Computed, (ds.foldl (applyDecl env) s) f = s f := by
  induction ds with
  | nil => intro _ s; rfl
  | cons d ds ih =>
    intro h s
    rw [List.foldl_cons, ih (fun x hx => h x (by simp [hx])), applyDecl_other env s d f hf (h d (by simp))]

theorem foldl_decls_last (env : ThemeEnv) (f : Field) (v : Val) (hf : ¬ Accumulates f) (pre post : List Decl)
    (d : Decl) (hd : Sets env d f v) (hpost : ∀ d ∈ post, ∀ v, ¬ Sets env d f v) (s : Computed) :
    ((pre ++ d :: post).foldl (applyDecl env) s) f = v := by
  rw [List.foldl_append, List.foldl_cons, foldl_decls_other env f hf post hpost, applyDecl_sets env _ d f v hf hd]

/-! ### Order of rules -/

theorem Specificity.le_trans {a b c : Specificity} (h : a.le b = true) (h' : b.le c = true) : a.le c = true := by
  simp only [Specificity.le, Bool.or_eq_true, Bool.and_eq_true, decide_eq_true_eq, beq_iff_eq] at *
  omega

theorem Specificity.le_total (a b : Specificity) : (a.le b || b.le a) = true := by
  simp only [Specificity.le, Bool.or_eq_true, Bool.and_eq_true, decide_eq_true_eq, beq_iff_eq]
  omega

theorem Specificity.le_antisymm {a b : Specificity} (h : a.le b = true) (h' : b.le a = true) : a = b := by
  obtain ⟨a1, a2, a3⟩ := a
  obtain ⟨b1, b2, b3⟩ := b
  simp only [Specificity.le, Bool.or_eq_true, Bool.and_eq_true, decide_eq_true_eq, beq_iff_eq] at *
  simp only [Specificity.mk.injEq]
  omega

/-- A rule at position `i` with specificity `a` is weaker than one at position `j` with specificity `b`:
smaller specificity (ids first, then classes, then types), or the same and earlier. -/
def Weaker (a : Specificity) (i : Nat) (b : Specificity) (j : Nat) : Prop :=
  a.ids < b.ids ∨ (a.ids = b.ids ∧ (a.classes < b.classes ∨ (a.classes = b.classes ∧
    (a.types < b.types ∨ (a.types = b.types ∧ i < j)))))

theorem Matched.le_iff (a b : Matched) :
    a.le b = true ↔ Weaker a.specificity a.order b.specificity b.order ∨
      (a.specificity = b.specificity ∧ a.order = b.order) := by
  obtain ⟨⟨a1, a2, a3⟩, i, _⟩ := a
  obtain ⟨⟨b1, b2, b3⟩, j, _⟩ := b
  unfold Matched.le Weaker
  simp only [Specificity.mk.injEq]
  split
  · simp only [decide_eq_true_eq]; omega
  · simp only [Specificity.le, Bool.or_eq_true, Bool.and_eq_true, decide_eq_true_eq, beq_iff_eq]
    omega

theorem sorted_pairwise (l : List Matched) : (l.mergeSort Matched.le).Pairwise (fun a b => a.le b = true) := by
  apply List.pairwise_mergeSort
  · intro a b c h1 h2
    rw [Matched.le_iff] at *
    obtain ⟨⟨a1, a2, a3⟩, i, _⟩ := a
    obtain ⟨⟨b1, b2, b3⟩, j, _⟩ := b
    obtain ⟨⟨c1, c2, c3⟩, k, _⟩ := c
    simp only [Weaker, Specificity.mk.injEq] at *
    omega
  · intro a b
    rw [Bool.or_eq_true, Matched.le_iff, Matched.le_iff]
    obtain ⟨⟨a1, a2, a3⟩, i, _⟩ := a
    obtain ⟨⟨b1, b2, b3⟩, j, _⟩ := b
    simp only [Weaker, Specificity.mk.injEq]
    omega

/-- The precedence the cascade gives to a rule: that of the first selector in its list that matches. -/
def strength (ctx : Ctx) (w : Widget) (anc : List Widget) (r : FlatRule Decl) : Option Specificity :=
  (r.selectors.find? fun sel => w.matchesComplex ctx sel anc).map complexSpec

theorem mem_matchRules (ctx : Ctx) (w : Widget) (anc : List Widget) (rules : List (FlatRule Decl)) (m : Matched) :
    m ∈ matchRules ctx w anc rules ↔
      ∃ r, rules[m.order]? = some r ∧ strength ctx w anc r = some m.specificity ∧ m.decls = r.decls := by
  simp only [matchRules, List.mem_filterMap, matchRule, strength]
  constructor
  · rintro ⟨⟨r, i⟩, hmem, h⟩
    rw [List.mem_zipIdx_iff_getElem?] at hmem
    simp only [Option.map_eq_some_iff] at h
    obtain ⟨sel, hsel, rfl⟩ := h
    exact ⟨r, hmem, by simp [hsel], rfl⟩
  · rintro ⟨r, hr, hs, hd⟩
    refine ⟨(r, m.order), ?_, ?_⟩
    · rw [List.mem_zipIdx_iff_getElem?]; exact hr
    · simp only [Option.map_eq_some_iff] at hs ⊢
      obtain ⟨sel, hsel, he⟩ := hs
      exact ⟨sel, hsel, by cases m; simp_all⟩

/-- The rules that match a widget are exactly those with a selector that is reported to match. -/
theorem strength_isSome (ctx : Ctx) (w : Widget) (anc : List Widget) (r : FlatRule Decl) :
    (strength ctx w anc r).isSome = true ↔ ∃ sel ∈ r.selectors, w.matchesComplex ctx sel anc = true := by
  simp [strength]

theorem exists_last_split {α : Type} [DecidableEq α] (l : List α) (x : α) (h : x ∈ l) :
    ∃ a b, l = a ++ x :: b ∧ x ∉ b := by
  have := List.append_of_mem h
  induction l with
  | nil => simp at h
  | cons y ys ih =>
    by_cases hy : x ∈ ys
    · obtain ⟨a, b, he, hb⟩ := ih hy (List.append_of_mem hy)
      exact ⟨y :: a, b, by rw [he]; rfl, hb⟩
    · rcases List.mem_cons.1 h with rfl | h
      · exact ⟨[], ys, rfl, hy⟩
      · exact absurd h hy

/-- C31: rule `i` matches and its last declaration for location `f` gives `v`; every other matching rule
that has a declaration for `f` is weaker. Then the computed value is `v`. Missing for the full claim:
the three text style locations, where values accumulate (see the counterexample), and the precedence of
selector lists (C32). -/
theorem cascade_winner_partial (env : ThemeEnv) (ctx : Ctx) (w : Widget) (anc : List Widget)
    (rules : List (FlatRule Decl)) (f : Field) (hf : ¬ Accumulates f) (v : Val)
    (i : Nat) (r : FlatRule Decl) (σ : Specificity) (hr : rules[i]? = some r)
    (hσ : strength ctx w anc r = some σ) (pre post : List Decl) (d : Decl) (hdecls : r.decls = pre ++ d :: post)
    (hd : Sets env d f v) (hpost : ∀ d ∈ post, ∀ v, ¬ Sets env d f v)
    (hwin : ∀ (j : Nat) (r' : FlatRule Decl) (σ' : Specificity), j ≠ i → rules[j]? = some r' →
      strength ctx w anc r' = some σ' → (∃ d ∈ r'.decls, ∃ v, Sets env d f v) → Weaker σ' j σ i) :
    computeStyle env ctx w anc rules f = v := by
  unfold computeStyle
  let m : Matched := ⟨σ, i, r.decls⟩
  have hm : m ∈ matchRules ctx w anc rules := (mem_matchRules ctx w anc rules m).2 ⟨r, hr, hσ, rfl⟩
  have hms : m ∈ (matchRules ctx w anc rules).mergeSort Matched.le := by
    rw [List.mem_mergeSort]; exact hm
  obtain ⟨A, B, hAB, hmB⟩ := exists_last_split _ _ hms
  have hsort := sorted_pairwise (matchRules ctx w anc rules)
  rw [hAB] at hsort ⊢
  have hB : ∀ d ∈ B.flatMap (·.decls), ∀ v, ¬ Sets env d f v := by
    intro d' hd' v' hs
    simp only [List.mem_flatMap] at hd'
    obtain ⟨m', hm', hdm⟩ := hd'
    have hle : m.le m' = true := by
      rw [List.pairwise_append, List.pairwise_cons] at hsort
      exact hsort.2.1.1 m' hm'
    have hmem : m' ∈ matchRules ctx w anc rules := by
      rw [← List.mem_mergeSort (le := Matched.le), hAB]; simp [hm']
    obtain ⟨r', hr', hσ', hdd⟩ := (mem_matchRules ctx w anc rules m').1 hmem
    by_cases hij : m'.order = i
    · rw [hij, hr] at hr'
      cases hr'
      rw [hσ] at hσ'
      apply hmB
      have : m' = m := by
        cases m'
        simp only at hij hdd hσ'
        subst hij hdd
        simp only [m, Matched.mk.injEq, and_true]
        exact (Option.some.inj hσ').symm
      rw [← this]; exact hm'
    · have hw := hwin m'.order r' m'.specificity hij hr' hσ' ⟨d', by rw [← hdd]; exact hdm, v', hs⟩
      rw [Matched.le_iff] at hle
      simp only [m, Weaker] at hle hw
      have hsp : ∀ a b : Specificity, a = b → a.ids = b.ids ∧ a.classes = b.classes ∧ a.types = b.types := by
        rintro a b rfl; exact ⟨rfl, rfl, rfl⟩
      rcases hle with hle | ⟨hle, ho⟩
      · omega
      · have := hsp _ _ hle
        omega
  rw [List.flatMap_append, List.flatMap_cons]
  show (List.foldl (applyDecl env) Computed.default
    (A.flatMap (·.decls) ++ (r.decls ++ B.flatMap (·.decls)))) f = v
  rw [hdecls]
  have e : A.flatMap (·.decls) ++ (pre ++ d :: post ++ B.flatMap (·.decls)) =
      (A.flatMap (·.decls) ++ pre) ++ d :: (post ++ B.flatMap (·.decls)) := by simp
  rw [e]
  apply foldl_decls_last env f v hf _ _ d hd
  intro d' hd'
  rcases List.mem_append.1 hd' with h | h
  · exact hpost d' h
  · exact hB d' h

/-- C31: a location no matching rule declares keeps its default. -/
theorem cascade_default_partial (env : ThemeEnv) (ctx : Ctx) (w : Widget) (anc : List Widget)
    (rules : List (FlatRule Decl)) (f : Field) (hf : ¬ Accumulates f)
    (h : ∀ r ∈ rules, (∃ sel ∈ r.selectors, w.matchesComplex ctx sel anc = true) →
      ∀ d ∈ r.decls, ∀ v, ¬ Sets env d f v) :
    computeStyle env ctx w anc rules f = .unset := by
  unfold computeStyle
  rw [foldl_decls_other env f hf]
  · rfl
  · intro d hd v
    simp only [List.mem_flatMap, List.mem_mergeSort] at hd
    obtain ⟨m, hm, hdm⟩ := hd
    obtain ⟨r, hr, hσ, hdd⟩ := (mem_matchRules ctx w anc rules m).1 hm
    refine h r (List.mem_of_getElem? hr) ((strength_isSome ctx w anc r).1 (by simp [hσ])) d ?_ v
    rw [← hdd]; exact hdm

/-! ### Text styles accumulate -/

theorem applyDecl_textStyle (env : ThemeEnv) (s : Computed) (d : Decl) :
    (applyDecl env s d .textStyle).textStyle =
      match d with
      | .textStyle t => (s .textStyle).textStyle.merge (env.resolveStyle t)
      | _ => (s .textStyle).textStyle := by
  cases d <;> simp [applyDecl, Decl.writes, Decl.merges, Computed.set, Val.textStyle]

/-- What really happens with `text-style`: an attribute is on when any matching rule turns it on; no rule
can turn it off again (stated for bold). -/
theorem cascade_bold_iff (env : ThemeEnv) (ctx : Ctx) (w : Widget) (anc : List Widget)
    (rules : List (FlatRule Decl)) :
    (computeStyle env ctx w anc rules .textStyle).textStyle.bold = true ↔
      ∃ r ∈ rules, (∃ sel ∈ r.selectors, w.matchesComplex ctx sel anc = true) ∧
        ∃ t, Decl.textStyle t ∈ r.decls ∧ (env.resolveStyle t).bold = true := by
  have key : ∀ (ds : List Decl) (s : Computed),
      (ds.foldl (applyDecl env) s .textStyle).textStyle.bold = true ↔
        (s .textStyle).textStyle.bold = true ∨ ∃ t, Decl.textStyle t ∈ ds ∧ (env.resolveStyle t).bold = true := by
    intro ds
    induction ds with
    | nil => intro s; simp
    | cons d ds ih =>
      intro s
      rw [List.foldl_cons, ih, applyDecl_textStyle]
      cases d
      case textStyle t =>
        simp only [List.mem_cons, Decl.textStyle.injEq]
        simp only [TextStyle.merge]
        constructor
        · rintro (h | ⟨t', h1, h2⟩)
          · split at h
            · rename_i hb; exact Or.inr ⟨t, Or.inl rfl, hb⟩
            · exact Or.inl h
          · exact Or.inr ⟨t', Or.inr h1, h2⟩
        · rintro (h | ⟨t', rfl | h1, h2⟩)
          · left; simp [h]
          · left; simp [h2]
          · exact Or.inr ⟨t', h1, h2⟩
      all_goals simp
  rw [computeStyle, key]
  constructor
  · rintro (h | ⟨t, ht, hb⟩)
    · simp [Computed.default, Val.textStyle] at h
    · simp only [List.mem_flatMap, List.mem_mergeSort] at ht
      obtain ⟨m, hm, hdm⟩ := ht
      obtain ⟨r, hr, hσ, hdd⟩ := (mem_matchRules ctx w anc rules m).1 hm
      exact ⟨r, List.mem_of_getElem? hr, (strength_isSome ctx w anc r).1 (by simp [hσ]), t, by rw [← hdd]; exact hdm, hb⟩
  · rintro ⟨r, hr, hsel, t, ht, hb⟩
    right
    refine ⟨t, ?_, hb⟩
    obtain ⟨i, hi⟩ := List.mem_iff_getElem?.1 hr
    obtain ⟨σ, hσ⟩ := Option.isSome_iff_exists.1 ((strength_isSome ctx w anc r).2 hsel)
    simp only [List.mem_flatMap, List.mem_mergeSort]
    exact ⟨⟨σ, i, r.decls⟩, (mem_matchRules ctx w anc rules _).2 ⟨r, hi, hσ, rfl⟩, ht⟩

/-- A theme without variables for the examples. -/
def exEnv : ThemeEnv := ⟨fun _ => none, fun _ => none, fun _ => none, fun c _ => c, fun c _ => c⟩

/-- `Label { text-style: bold }` and the stronger `#x { text-style: italic }`. -/
def exStyleRules : List (FlatRule Decl) :=
  [⟨[[exPart "Label" .none]], [.textStyle { bold := true }]⟩,
   ⟨[[⟨[.id "x"], .none⟩]], [.textStyle { italic := true }]⟩]

/-- C31 is false for `text-style`: the stronger rule's `italic` does not replace the weaker rule's `bold`. -/
theorem cascade_textStyle_counterexample :
    computeStyle exEnv exCtx { typeName := "Label", id := some "x" } [] exStyleRules .textStyle =
      .style { bold := true, italic := true } := by
  unfold computeStyle
  rw [List.mergeSort_of_pairwise (by decide +kernel)]
  decide +kernel

/-! ### C32 -/

/-- The strongest selector of a list that matches has specificity `σ`. -/
def Strongest (ctx : Ctx) (w : Widget) (anc : List Widget) (r : FlatRule Decl) (σ : Specificity) : Prop :=
  (∃ sel ∈ r.selectors, w.matchesComplex ctx sel anc = true ∧ complexSpec sel = σ) ∧
  ∀ sel ∈ r.selectors, w.matchesComplex ctx sel anc = true → (complexSpec sel).le σ = true

/-- C32 for rules whose selector list is written from strong to weak (in particular for a single
selector): the precedence used is that of the strongest matching selector. Missing: other orders, for
which it is false. -/
theorem strength_strongest_partial (ctx : Ctx) (w : Widget) (anc : List Widget) (r : FlatRule Decl)
    (hsorted : r.selectors.Pairwise (fun a b => (complexSpec b).le (complexSpec a) = true)) (σ : Specificity) :
    strength ctx w anc r = some σ ↔ Strongest ctx w anc r σ := by
  have key : ∀ l : List Complex, l.Pairwise (fun a b => (complexSpec b).le (complexSpec a) = true) →
      ∀ s, l.find? (fun sel => w.matchesComplex ctx sel anc) = some s →
      s ∈ l ∧ w.matchesComplex ctx s anc = true ∧
        ∀ x ∈ l, w.matchesComplex ctx x anc = true → (complexSpec x).le (complexSpec s) = true := by
    intro l hl s
    induction l with
    | nil => simp
    | cons a l ih =>
      rw [List.pairwise_cons] at hl
      intro h
      rw [List.find?_cons] at h
      split at h
      · rename_i hm
        cases h
        refine ⟨by simp, hm, ?_⟩
        intro x hx hmx
        rcases List.mem_cons.1 hx with rfl | hx
        · have := Specificity.le_total (complexSpec x) (complexSpec x); simpa using this
        · exact hl.1 x hx
      · rename_i hm
        obtain ⟨h1, h2, h3⟩ := ih hl.2 h
        refine ⟨by simp [h1], h2, ?_⟩
        intro x hx hmx
        rcases List.mem_cons.1 hx with rfl | hx
        · simp [hmx] at hm
        · exact h3 x hx hmx
  constructor
  · intro h
    simp only [strength, Option.map_eq_some_iff] at h
    obtain ⟨s, hs, rfl⟩ := h
    obtain ⟨h1, h2, h3⟩ := key _ hsorted s hs
    exact ⟨⟨s, h1, h2, rfl⟩, h3⟩
  · rintro ⟨⟨s, hs, hm, rfl⟩, hall⟩
    cases hfind : r.selectors.find? (fun sel => w.matchesComplex ctx sel anc) with
    | none =>
      rw [List.find?_eq_none] at hfind
      exact absurd hm (by simpa using hfind s hs)
    | some s' =>
      obtain ⟨h1, h2, h3⟩ := key _ hsorted s' hfind
      simp only [strength, hfind, Option.map_some]
      congr 1
      exact Specificity.le_antisymm (hall s' h1 h2) (h3 s hs hm)

/-- `Label, #x { color: white }` and `.c { color: black }`. -/
def exListRules : List (FlatRule Decl) :=
  [⟨[[exPart "Label" .none], [⟨[.id "x"], .none⟩]], [.color RgbaColor.white]⟩,
   ⟨[[⟨[.cls "c"], .none⟩]], [.color RgbaColor.black]⟩]

/-- C32 is false: the selector `#x` matches, but the rule is ranked by `Label` because that comes first
in the list, and loses against `.c`. -/
theorem strength_order_counterexample :
    let w : Widget := { typeName := "Label", id := some "x", classes := ["c"] }
    computeStyle exEnv exCtx w [] exListRules .color = .color RgbaColor.black ∧
    ∃ sel ∈ [[exPart "Label" .none], [⟨[.id "x"], .none⟩]], w.matchesComplex exCtx sel [] = true ∧
      (complexSpec sel).le (complexSpec [⟨[.cls "c"], .none⟩]) = false := by
  intro w
  refine ⟨?_, by decide +kernel⟩
  unfold computeStyle
  rw [List.mergeSort_of_pairwise (by decide +kernel)]
  decide +kernel

/-- `Label { width: 1 } .c { width: 2; height: 3 } Label { width: 4 }` on a `Label.c`: the hypotheses of
the winner theorem are met by the second rule. -/
def exWidthRules : List (FlatRule Decl) :=
  [⟨[[exPart "Label" .none]], [.width "1"]⟩, ⟨[[⟨[.cls "c"], .none⟩]], [.width "2", .height "3"]⟩,
   ⟨[[exPart "Label" .none]], [.width "4"]⟩]

example : computeStyle exEnv exCtx { typeName := "Label", classes := ["c"] } [] exWidthRules .width = .raw "2" := by
  apply cascade_winner_partial exEnv exCtx _ _ exWidthRules .width (by simp [Accumulates]) (.raw "2") 1 _
    { classes := 1 } rfl (by decide) [] [.height "3"] (.width "2") rfl (by simp [Sets, Decl.writes])
    (by simp [Sets, Decl.writes])
  intro j r' σ' hj hr' hσ' _
  match j, hj with
  | 0, _ => simp [exWidthRules] at hr'; subst hr'; revert hσ'; simp [strength, exPart, Widget.matchesComplex, Widget.matchesCompound, Widget.matchesSelector, complexSpec, compoundSpec, Selector.weight, Specificity.add]; rintro rfl; simp [Weaker]
  | 2, _ => simp [exWidthRules] at hr'; subst hr'; revert hσ'; simp [strength, exPart, Widget.matchesComplex, Widget.matchesCompound, Widget.matchesSelector, complexSpec, compoundSpec, Selector.weight, Specificity.add]; rintro rfl; simp [Weaker]
  | j + 3, _ => simp [exWidthRules] at hr'

/-! ### Theme colours -/

/-- A colour without theme variable is used as written; a variable the theme defines gives the theme's
colour, with the written alpha if that is below one. -/
theorem resolveColor_spec (env : ThemeEnv) (c : RgbaColor) :
    (c.themeVar = none → env.resolveColor c = c) ∧
    (∀ name t, c.themeVar = some name → env.getColor name = some t →
      env.resolveColor c = if c.a < 1 then { t with a := c.a } else t) := by
  constructor
  · intro h; simp [ThemeEnv.resolveColor, h]
  · intro name t h h'
    simp [ThemeEnv.resolveColor, h, h']

end Textual.Css
