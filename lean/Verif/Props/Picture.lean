import Mathlib.Tactic.Common
import Mathlib.Data.List.Forall2
import Mathlib.Data.List.Pairwise
import Verif.Model.Picture
import Verif.Props.Cascade
import Verif.Props.Restyle

/-! C195: a picture taken by the test helper shows the widgets as the first frame of the program does. -/

namespace Textual.Picture

open Css Restyle

/-! ### Rules that do not concern a place -/

/-- The declaration changes the place. -/
def Touches (env : ThemeEnv) (d : Decl) (f : Field) : Prop := (∃ v, (f, v) ∈ d.writes env) ∨ ∃ t, (f, t) ∈ d.merges env

theorem foldl_writes_at (ws : List (Field × Val)) (f : Field) : ∀ s s' : Computed, s f = s' f →
    (ws.foldl (fun s w => s.set w.1 w.2) s) f = (ws.foldl (fun s w => s.set w.1 w.2) s') f := by
  induction ws with
  | nil => intro s s' h; exact h
  | cons w ws ih =>
    intro s s' h
    rw [List.foldl_cons, List.foldl_cons]
    apply ih
    unfold Computed.set
    split
    · rfl
    · exact h

theorem foldl_merges_at (ms : List (Field × TextStyle)) (f : Field) : ∀ s s' : Computed, s f = s' f →
    (ms.foldl (fun s m => s.set m.1 (.style ((s m.1).textStyle.merge m.2))) s) f =
      (ms.foldl (fun s m => s.set m.1 (.style ((s m.1).textStyle.merge m.2))) s') f := by
  induction ms with
  | nil => intro s s' h; exact h
  | cons m ms ih =>
    intro s s' h
    rw [List.foldl_cons, List.foldl_cons]
    apply ih
    unfold Computed.set
    split
    · rename_i e
      rw [← e, h]
    · exact h

/-- What a declaration leaves in a place depends only on what was there. -/
theorem applyDecl_at (env : ThemeEnv) (d : Decl) (f : Field) (s s' : Computed) (h : s f = s' f) :
    applyDecl env s d f = applyDecl env s' d f :=
  foldl_merges_at _ f _ _ (foldl_writes_at _ f _ _ h)

theorem applyDecl_idle (env : ThemeEnv) (d : Decl) (f : Field) (s : Computed) (h : ¬ Touches env d f) :
    applyDecl env s d f = s f := by
  unfold applyDecl
  rw [foldl_merges_other _ f (fun m hm e => h (.inr ⟨m.2, by rw [← e]; exact hm⟩))]
  exact (foldl_writes _ f s).2 (fun v hv => h (.inl ⟨v, hv⟩))

theorem foldl_at (env : ThemeEnv) (f : Field) (ds : List Decl) : ∀ s s' : Computed, s f = s' f →
    (ds.foldl (applyDecl env) s) f = (ds.foldl (applyDecl env) s') f := by
  induction ds with
  | nil => intro s s' h; exact h
  | cons d ds ih => intro s s' h; exact ih _ _ (applyDecl_at env d f s s' h)

theorem foldl_idle (env : ThemeEnv) (f : Field) (ds : List Decl) (h : ∀ d ∈ ds, ¬ Touches env d f) :
    ∀ s : Computed, (ds.foldl (applyDecl env) s) f = s f := by
  induction ds with
  | nil => intro s; rfl
  | cons d ds ih =>
    intro s
    rw [List.foldl_cons, ih (fun x hx => h x (by simp [hx])), applyDecl_idle env d f s (h d (by simp))]

/-- Rules whose declarations do not touch a place may be left out. -/
theorem foldl_filter (env : ThemeEnv) (f : Field) (p : Matched → Bool) (ms : List Matched)
    (h : ∀ m ∈ ms, p m = false → ∀ d ∈ m.decls, ¬ Touches env d f) : ∀ s : Computed,
    ((ms.flatMap (·.decls)).foldl (applyDecl env) s) f = (((ms.filter p).flatMap (·.decls)).foldl (applyDecl env) s) f := by
  induction ms with
  | nil => intro s; rfl
  | cons m ms ih =>
    intro s
    have ih' := ih (fun x hx => h x (by simp [hx]))
    rw [List.flatMap_cons, List.foldl_append]
    cases hp : p m with
    | true => rw [List.filter_cons_of_pos (by simp [hp]), List.flatMap_cons, List.foldl_append]; exact ih' _
    | false =>
      rw [List.filter_cons_of_neg (by simp [hp]), ih']
      exact foldl_at env f _ _ _ (foldl_idle env f _ (h m (by simp) hp) s)

/-! ### The order of the rules that are left -/

variable {env : ThemeEnv} {ctx : Ctx} {w : Css.Widget} {anc : List Css.Widget}

/-- The matching rules of a numbered list. -/
def matched (ctx : Ctx) (w : Css.Widget) (anc : List Css.Widget) (P : List (FlatRule Decl × Nat)) : List Matched :=
  P.filterMap fun r => matchRule ctx w anc r.2 r.1

theorem matchRule_order {i : Nat} {r : FlatRule Decl} {m : Matched} (h : matchRule ctx w anc i r = some m) :
    m.order = i := by
  unfold matchRule at h
  rw [Option.map_eq_some_iff] at h
  obtain ⟨_, _, rfl⟩ := h
  rfl

theorem matched_increasing {P : List (FlatRule Decl × Nat)} (h : (P.map Prod.snd).Pairwise (· < ·)) :
    (matched ctx w anc P).Pairwise (fun a b => a.order < b.order) := by
  unfold matched
  rw [List.pairwise_filterMap]
  rw [List.pairwise_map] at h
  refine h.imp ?_
  intro a b hab m hm m' hm'
  rw [matchRule_order hm, matchRule_order hm']
  exact hab

theorem matched_alike : ∀ {P P' : List (FlatRule Decl × Nat)}, P.map Prod.fst = P'.map Prod.fst →
    List.Forall₂ (fun a b : Matched => a.specificity = b.specificity ∧ a.decls = b.decls)
      (matched ctx w anc P) (matched ctx w anc P')
  | [], [], _ => .nil
  | [], _ :: _, h => by simp at h
  | _ :: _, [], h => by simp at h
  | (r, i) :: P, (r', i') :: P', h => by
    simp only [List.map_cons, List.cons.injEq] at h
    obtain ⟨rfl, h⟩ := h
    have ih := matched_alike h
    unfold matched at ih ⊢
    rw [List.filterMap_cons, List.filterMap_cons]
    unfold matchRule at ih ⊢
    cases (r.selectors.find? fun sel => w.matchesComplex ctx sel anc) with
    | none => exact ih
    | some sel => exact .cons ⟨rfl, rfl⟩ ih

/-- Two lists of rules, in the same order with the same strengths, are sorted in the same way. -/
theorem sorted_alike {L L' : List Matched}
    (h : List.Forall₂ (fun a b : Matched => a.specificity = b.specificity ∧ a.decls = b.decls) L L')
    (hL : L.Pairwise (fun a b => a.order < b.order)) (hL' : L'.Pairwise (fun a b => a.order < b.order)) :
    (L.mergeSort Matched.le).map (·.decls) = (L'.mergeSort Matched.le).map (·.decls) := by
  have hlen := h.length_eq
  have h1 : (L.zip L').map Prod.fst = L := List.map_fst_zip (by omega)
  have h2 : (L.zip L').map Prod.snd = L' := List.map_snd_zip (by omega)
  have hz : ∀ z ∈ L.zip L', z.1.specificity = z.2.specificity ∧ z.1.decls = z.2.decls := by
    rw [List.forall₂_iff_zip] at h
    intro z hz
    exact h.2 hz
  have hp : (L.zip L').Pairwise (fun a b => a.1.order < b.1.order ∧ a.2.order < b.2.order) := by
    rw [List.pairwise_and_iff]
    constructor
    · rw [← List.pairwise_map (f := Prod.fst) (R := fun a b : Matched => a.order < b.order), h1]; exact hL
    · rw [← List.pairwise_map (f := Prod.snd) (R := fun a b : Matched => a.order < b.order), h2]; exact hL'
  have hle : ∀ a ∈ L.zip L', ∀ b ∈ L.zip L', Matched.le a.1 b.1 = Matched.le a.2 b.2 := by
    intro a ha b hb
    have key : (a.1.order ≤ b.1.order ↔ a.2.order ≤ b.2.order) := by
      have hs := hp.imp (S := fun a b : Matched × Matched => (a.1.order ≤ b.1.order ↔ a.2.order ≤ b.2.order)
        ∧ (b.1.order ≤ a.1.order ↔ b.2.order ≤ a.2.order)) (by intro x y hxy; omega)
      obtain ⟨i, hi, rfl⟩ := List.getElem_of_mem ha
      obtain ⟨j, hj, rfl⟩ := List.getElem_of_mem hb
      rw [List.pairwise_iff_getElem] at hs
      rcases Nat.lt_trichotomy i j with hij | hij | hij
      · exact (hs i j hi hj hij).1
      · subst hij; simp
      · exact (hs j i hj hi hij).2
    unfold Matched.le
    rw [(hz a ha).1, (hz b hb).1]
    simp only [key]
  have e1 : (L.mergeSort Matched.le) = ((L.zip L').mergeSort (fun a b => Matched.le a.1 b.1)).map Prod.fst := by
    rw [List.map_mergeSort (s := Matched.le) (f := Prod.fst) (fun _ _ _ _ => rfl), h1]
  have e2 : (L'.mergeSort Matched.le) = ((L.zip L').mergeSort (fun a b => Matched.le a.1 b.1)).map Prod.snd := by
    rw [List.map_mergeSort (s := Matched.le) (f := Prod.snd) hle, h2]
  rw [e1, e2, List.map_map, List.map_map]
  apply List.map_congr_left
  intro z hz'
  exact (hz z ((List.mergeSort_perm _ _).mem_iff.1 hz')).2

theorem zipIdx_increasing (l : List (FlatRule Decl)) (k : Nat) : ((l.zipIdx k).map Prod.snd).Pairwise (· < ·) := by
  rw [List.zipIdx_map_snd]
  exact List.pairwise_lt_range'

/-- Rules that match but do not touch a place, and rules that do not match, may be left out of the sheet. -/
theorem computeStyle_filter (keep : FlatRule Decl → Bool) (rules : List (FlatRule Decl)) (f : Field)
    (h : ∀ r ∈ rules, keep r = false → (∃ sel ∈ r.selectors, w.matchesComplex ctx sel anc = true) →
      ∀ d ∈ r.decls, ¬ Touches env d f) :
    computeStyle env ctx w anc rules f = computeStyle env ctx w anc (rules.filter keep) f := by
  let p : Matched → Bool := fun m => match rules[m.order]? with | some r => keep r | none => false
  have hL : matchRules ctx w anc rules = matched ctx w anc rules.zipIdx := rfl
  have hinc : (matchRules ctx w anc rules).Pairwise (fun a b => a.order < b.order) :=
    matched_increasing (zipIdx_increasing rules 0)
  unfold computeStyle
  rw [foldl_filter env f p]
  · have s1 : ((matchRules ctx w anc rules).mergeSort Matched.le).filter p =
        ((matchRules ctx w anc rules).filter p).mergeSort Matched.le := by
      refine List.Perm.eq_of_pairwise (le := fun a b => a.le b = true) ?_ ?_ (sorted_pairwise _) ?_
      · intro a b ha hb h1 h2
        have ha' := (List.mergeSort_perm _ _).mem_iff.1 (List.mem_filter.1 ha).1
        have hb' := (List.mem_filter.1 ((List.mergeSort_perm _ _).mem_iff.1 hb)).1
        rw [mem_matchRules] at ha' hb'
        obtain ⟨r, hr, hs, hd⟩ := ha'
        obtain ⟨r', hr', hs', hd'⟩ := hb'
        have ho : a.order = b.order := by
          rw [Matched.le_iff] at h1 h2
          unfold Weaker at h1 h2
          omega
        rw [ho, hr'] at hr
        cases hr
        rw [hs] at hs'
        obtain ⟨_, _, _⟩ := a
        obtain ⟨_, _, _⟩ := b
        simp_all
      · exact (sorted_pairwise _).filter p
      · exact ((List.mergeSort_perm _ _).filter p).trans (List.mergeSort_perm _ _).symm
    have s2 : (matchRules ctx w anc rules).filter p =
        matched ctx w anc (rules.zipIdx.filter fun x => keep x.1) := by
      rw [hL]
      unfold matched
      rw [List.filter_filterMap, List.filterMap_filter]
      apply List.filterMap_congr
      intro x hx
      obtain ⟨r, i⟩ := x
      rw [List.mem_zipIdx_iff_getElem?] at hx
      simp only at hx ⊢
      cases hm : matchRule ctx w anc i r with
      | none => simp
      | some m =>
        have : p m = keep r := by
          show (match rules[m.order]? with | some r => keep r | none => false) = keep r
          rw [matchRule_order hm, hx]
        simp [Option.filter, this]
    have s3 : ((matched ctx w anc (rules.zipIdx.filter fun x => keep x.1)).mergeSort Matched.le).map (·.decls) =
        ((matchRules ctx w anc (rules.filter keep)).mergeSort Matched.le).map (·.decls) := by
      apply sorted_alike
      · apply matched_alike
        rw [List.zipIdx_map_fst]
        have := List.filter_map (f := Prod.fst) (p := keep) (l := rules.zipIdx)
        rw [List.zipIdx_map_fst] at this
        exact this.symm
      · apply matched_increasing
        refine List.Pairwise.sublist (List.Sublist.map _ List.filter_sublist) (zipIdx_increasing rules 0)
      · exact matched_increasing (zipIdx_increasing _ 0)
    rw [s1, s2, List.flatMap_def, s3, ← List.flatMap_def]
  · intro m hm hp
    have hm' := (List.mergeSort_perm _ _).mem_iff.1 hm
    rw [mem_matchRules] at hm'
    obtain ⟨r, hr, hs, hd⟩ := hm'
    have hk : keep r = false := by
      have : p m = keep r := by
        show (match rules[m.order]? with | some r => keep r | none => false) = keep r
        rw [hr]
      rw [← this]; exact hp
    rw [hd]
    refine h r (List.mem_of_getElem? hr) hk ?_
    rw [← strength_isSome, hs]
    rfl

/-! ### Matching with the application above the screen -/

/-- An ancestor that no part of a selector matches makes no difference at the top. -/
theorem matchAncestors_top (ctx : Ctx) (top : Css.Widget) : ∀ (anc : List Css.Widget) (part : Part) (rest : List Part),
    (∀ q ∈ part :: rest, top.matchesCompound ctx q.compound = false) →
    matchAncestors ctx part rest (anc ++ [top]) = matchAncestors ctx part rest anc
  | [], part, rest, h => by
    have := h part (by simp)
    simp only [List.nil_append, matchAncestors, this]
    cases part.combinator <;> rfl
  | a :: anc, part, rest, h => by
    have ih := matchAncestors_top ctx top anc
    cases rest with
    | nil =>
      simp only [List.cons_append, matchAncestors]
      rw [ih part [] h]
    | cons p ps =>
      have ih' := ih p ps (fun q hq => h q (by simp only [List.mem_cons] at hq ⊢; exact .inr hq))
      simp only [List.cons_append, matchAncestors]
      rw [ih', ih part (p :: ps) h]

/-- No part of the selector but the last, which is about the widget itself, matches the widget `top`. -/
def Below (ctx : Ctx) (top : Css.Widget) (sel : Complex) : Prop :=
  ∀ q ∈ sel.dropLast, top.matchesCompound ctx q.compound = false

theorem matchesComplex_top (ctx : Ctx) (top w : Css.Widget) (sel : Complex) (anc : List Css.Widget)
    (h : Below ctx top sel) : w.matchesComplex ctx sel (anc ++ [top]) = w.matchesComplex ctx sel anc := by
  unfold Css.Widget.matchesComplex
  cases hr : sel.reverse with
  | nil => rfl
  | cons last before =>
    have hs : sel.dropLast = before.reverse := by
      have : sel = before.reverse ++ [last] := by rw [← List.reverse_reverse sel, hr]; simp
      rw [this]; simp
    cases before with
    | nil => rfl
    | cons p ps =>
      simp only
      rw [matchAncestors_top ctx top anc p ps]
      intro q hq
      apply h
      rw [hs]
      simpa [or_comm] using hq

/-- The widget with the focus taken away. -/
def calm (w : Css.Widget) : Css.Widget := { w with focus := false }

/-- The selector does not ask for the focus. -/
def Calm (sel : Complex) : Prop := ∀ q ∈ sel, Selector.pseudo "focus" ∉ q.compound

theorem matchesCompound_calm (ctx : Ctx) (w : Css.Widget) (c : Compound) (h : Selector.pseudo "focus" ∉ c) :
    (calm w).matchesCompound ctx c = w.matchesCompound ctx c := by
  unfold Css.Widget.matchesCompound
  induction c with
  | nil => rfl
  | cons s c ih =>
    rw [List.all_cons, List.all_cons, ih (fun hm => h (by simp [hm]))]
    congr 1
    cases s with
    | pseudo name =>
      have : name ≠ "focus" := fun e => h (by simp [e])
      simp only [Css.Widget.matchesSelector, if_neg this]
      rfl
    | _ => rfl

theorem matchAncestors_calm (ctx : Ctx) : ∀ (anc : List Css.Widget) (part : Part) (rest : List Part),
    (∀ q ∈ part :: rest, Selector.pseudo "focus" ∉ q.compound) →
    matchAncestors ctx part rest (anc.map calm) = matchAncestors ctx part rest anc
  | [], _, _, _ => rfl
  | a :: anc, part, rest, h => by
    have ih := matchAncestors_calm ctx anc
    cases rest with
    | nil =>
      simp only [List.map_cons, matchAncestors]
      rw [ih part [] h, matchesCompound_calm ctx a _ (h part (by simp))]
    | cons p ps =>
      have ih' := ih p ps (fun q hq => h q (by simp only [List.mem_cons] at hq ⊢; exact .inr hq))
      simp only [List.map_cons, matchAncestors]
      rw [ih', ih part (p :: ps) h, matchesCompound_calm ctx a _ (h part (by simp))]

theorem matchesComplex_calm (ctx : Ctx) (w : Css.Widget) (sel : Complex) (anc : List Css.Widget) (h : Calm sel) :
    (calm w).matchesComplex ctx sel (anc.map calm) = w.matchesComplex ctx sel anc := by
  unfold Css.Widget.matchesComplex
  have hm : ∀ q ∈ sel.reverse, Selector.pseudo "focus" ∉ q.compound := fun q hq => h q (List.mem_reverse.1 hq)
  cases hr : sel.reverse with
  | nil => rfl
  | cons last before =>
    rw [hr] at hm
    simp only
    rw [matchesCompound_calm ctx w _ (hm last (by simp))]
    cases before with
    | nil => rfl
    | cons p ps =>
      simp only
      rw [matchAncestors_calm ctx anc p ps (fun q hq => hm q (by simp only [List.mem_cons] at hq ⊢; exact .inr hq))]

theorem find_congr {α : Type} {p q : α → Bool} : ∀ {l : List α}, (∀ x ∈ l, p x = q x) → l.find? p = l.find? q
  | [], _ => rfl
  | x :: l, h => by
    rw [List.find?_cons, List.find?_cons, h x (by simp), find_congr (fun y hy => h y (by simp [hy]))]

theorem computeStyle_congr (env : ThemeEnv) (ctx : Ctx) (w w' : Css.Widget) (anc anc' : List Css.Widget)
    (rules : List (FlatRule Decl))
    (h : ∀ r ∈ rules, ∀ sel ∈ r.selectors, w.matchesComplex ctx sel anc = w'.matchesComplex ctx sel anc') :
    computeStyle env ctx w anc rules = computeStyle env ctx w' anc' rules := by
  have : matchRules ctx w anc rules = matchRules ctx w' anc' rules := by
    unfold matchRules
    apply List.filterMap_congr
    intro x hx
    unfold matchRule
    rw [find_congr (p := fun sel => w.matchesComplex ctx sel anc) (q := fun sel => w'.matchesComplex ctx sel anc')]
    intro sel hsel
    rw [List.mem_zipIdx_iff_getElem?] at hx
    exact h x.1 (List.mem_of_getElem? hx) sel hsel
  unfold computeStyle
  rw [this]

/-! ### The trees -/

/-- A style without the places the rule for all widgets writes to. -/
def view (s : Style) : Style := { s with rest := fun f => if f ∈ baseFields then .unset else s.rest f }

/-- A widget but for the focus and the redraw flag, with the `view` of its style. -/
def seenAttrs (a : Attrs) : Attrs := { a with base := calm a.base, dirty := false, style := view a.style }

mutual
/-- A tree of widgets but for the focus, the redraw flags, and the colours and sizes of scrollbars and links. -/
def seen : W → W
  | .node a cs => .node (seenAttrs a) (seenAll cs)
/-- `seen` for the children. -/
def seenAll : List W → List W
  | [] => []
  | c :: cs => seen c :: seenAll cs
end

mutual
/-- Every widget of the tree has the property, whatever its style. -/
def All (P : Css.Widget → Prop) : W → Prop
  | .node a cs => (∀ s, P { a with style := s }.meta) ∧ AllAll P cs
/-- `All` for the children. -/
def AllAll (P : Css.Widget → Prop) : List W → Prop
  | [] => True
  | c :: cs => All P c ∧ AllAll P cs
end

mutual
theorem seen_markClean : ∀ w : W, seen w.markClean = seen w
  | .node a cs => by
    rw [W.markClean]
    split <;> simp [seen, seenAttrs, seen_cleanAll cs]
theorem seen_cleanAll : ∀ cs : List W, seenAll (cleanAll cs) = seenAll cs
  | [] => rfl
  | c :: cs => by simp [cleanAll, seenAll, seen_markClean c, seen_cleanAll cs]
end

mutual
theorem all_markClean (P : Css.Widget → Prop) : ∀ w : W, All P w → All P w.markClean
  | .node a cs, h => by
    rw [markClean_eq]
    refine ⟨h.1, ?_⟩
    unfold keptChildren
    split
    · exact all_cleanAll P cs h.2
    · exact h.2
theorem all_cleanAll (P : Css.Widget → Prop) : ∀ cs : List W, AllAll P cs → AllAll P (cleanAll cs)
  | [], _ => trivial
  | c :: cs, h => ⟨all_markClean P c h.1, all_cleanAll P cs h.2⟩
end

theorem seen_kept (a : Attrs) (cs : List W) : seenAll (keptChildren a cs) = seenAll cs := by
  unfold keptChildren
  split
  · exact seen_cleanAll cs
  · rfl

theorem all_kept (P : Css.Widget → Prop) (a : Attrs) (cs : List W) (h : AllAll P cs) : AllAll P (keptChildren a cs) := by
  unfold keptChildren
  split
  · exact all_cleanAll P cs h
  · exact h

theorem view_applyTo (o : Override) (s : Style) : view (o.applyTo s) = o.applyTo (view s) := rfl

theorem view_applyInheritance (s : Style) (inh : Inherited) :
    view (applyInheritance s inh) = applyInheritance (view s) inh := by
  obtain ⟨color, autoColor, background, tint, backgroundTint, inheritedBackground, hidden, visibilitySet, layout, opacity,
    rest⟩ := s
  unfold applyInheritance view
  cases color <;> cases inh.color <;> cases visibilitySet <;> rfl

theorem childContext_view (s : Style) (inh : Inherited) : childContext (view s) inh = childContext s inh := rfl

theorem meta_seen {a a' : Attrs} (h : seenAttrs a = seenAttrs a') : calm a.meta = calm a'.meta := by
  obtain ⟨kind, base, visible, dirty, inline, style⟩ := a
  obtain ⟨kind', base', visible', dirty', inline', style'⟩ := a'
  simp only [seenAttrs, Attrs.mk.injEq] at h
  obtain ⟨rfl, hb, _, _, _, hs⟩ := h
  have hl : (view style).layout = (view style').layout := by rw [hs]
  cases kind <;> simp only [Attrs.meta]
  · exact hb
  · have hl : style.layout = style'.layout := hl
    unfold calm withLayout at *
    rw [hl]
    obtain ⟨_, _, _, _, _, _, _, _⟩ := base
    obtain ⟨_, _, _, _, _, _, _, _⟩ := base'
    simp only [Css.Widget.mk.injEq] at hb ⊢
    tauto
  · exact hb
  · exact hb

/-- How the two cascades are related: the same styles, with the application as one more ancestor. -/
def Related (casA casT : Cascade) (P : Css.Widget → Prop) : Prop :=
  ∀ m m' anc anc', P m → calm m = calm m' → anc.map calm = (anc' ++ [appMeta]).map calm →
    view (casA m anc) = view (casT m' anc')

variable {casA casT : Cascade} {P : Css.Widget → Prop}

theorem due_seen (H : Related casA casT P) {a a' : Attrs} (h : seenAttrs a = seenAttrs a') (hp : P a.meta)
    {anc anc' : List Css.Widget} (ha : anc.map calm = (anc' ++ [appMeta]).map calm) (inh : Inherited) :
    view (a.due casA anc inh) = view (a'.due casT anc' inh) := by
  have hi : (seenAttrs a).inline = (seenAttrs a').inline := by rw [h]
  have hi : a.inline = a'.inline := hi
  unfold Attrs.due
  rw [view_applyTo, view_applyTo, view_applyInheritance, view_applyInheritance, H _ _ _ _ hp (meta_seen h) ha, hi]

theorem restyled_seen {a a' : Attrs} (h : seenAttrs a = seenAttrs a') {anc anc' : List Css.Widget} {inh inh' : Inherited}
    (hd : view (a.due casA anc inh) = view (a'.due casT anc' inh')) :
    seenAttrs (restyled casA anc inh a) = seenAttrs (restyled casT anc' inh' a') := by
  unfold restyled
  generalize a.due casA anc inh = s at *
  generalize a'.due casT anc' inh' = s' at *
  obtain ⟨kind, base, visible, dirty, inline, style⟩ := a
  obtain ⟨kind', base', visible', dirty', inline', style'⟩ := a'
  simp only [seenAttrs, Attrs.mk.injEq] at h
  obtain ⟨rfl, hb, rfl, _, rfl, hs⟩ := h
  cases kind <;> simp [Attrs.setStyle, seenAttrs, hb, hs, hd]

theorem seenAll_map {f g : W → W} (hfg : ∀ c d, All P c → seen c = seen d → seen (f c) = seen (g d)) :
    ∀ cs ds : List W, AllAll P cs → seenAll cs = seenAll ds → seenAll (cs.map f) = seenAll (ds.map g)
  | [], [], _, _ => rfl
  | [], _ :: _, _, h => by simp [seenAll] at h
  | _ :: _, [], _, h => by simp [seenAll] at h
  | c :: cs, d :: ds, hp, h => by
    simp only [seenAll, List.cons.injEq] at h
    simp only [List.map_cons, seenAll]
    rw [hfg c d hp.1 h.1, seenAll_map hfg cs ds hp.2 h.2]

/-- Alike trees below the screen get alike styles. -/
theorem passN_seen (H : Related casA casT P) : ∀ (n : Nat) (w w' : W) (anc anc' : List Css.Widget) (inh : Inherited),
    All P w → seen w = seen w' → anc.map calm = (anc' ++ [appMeta]).map calm →
    seen (passN casA n anc true inh w) = seen (passN casT n anc' true inh w')
  | 0, _, _, _, _, _, _, h, _ => h
  | n + 1, .node a cs, .node a' cs', anc, anc', inh, hp, h, ha => by
    simp only [seen, W.node.injEq] at h
    obtain ⟨h1, h2⟩ := h
    have hv : (seenAttrs a).visible = (seenAttrs a').visible := by rw [h1]
    have hv : a.visible = a'.visible := hv
    rw [passN_succ, passN_succ, hv]
    split
    · simp only [seen, h1, h2]
    · simp only [Bool.or_true, if_true]
      have hd := due_seen H h1 (hp.1 a.style) ha inh
      have hr := restyled_seen h1 hd
      have hc : childContext (a.due casA anc inh) inh = childContext (a'.due casT anc' inh) inh := by
        rw [← childContext_view, hd, childContext_view]
      rw [hc]
      simp only [seen, hr, W.node.injEq, true_and]
      refine seenAll_map (P := P) ?_ _ _ (all_kept P a cs hp.2) (by rw [seen_kept, seen_kept, h2])
      intro c d hpc hcd
      refine passN_seen H n c d _ _ _ hpc hcd ?_
      simp only [List.map_cons, List.cons_append]
      rw [ha, meta_seen hr]

/-- The bound on the depth does not matter. -/
theorem passN_enough (cas : Cascade) : ∀ (n m : Nat) (w : W) (anc : List Css.Widget) (pd : Bool) (inh : Inherited),
    w.depth ≤ n → w.depth ≤ m → passN cas n anc pd inh w = passN cas m anc pd inh w
  | 0, _, .node a cs, _, _, _, h, _ => by simp [W.depth] at h
  | _ + 1, 0, .node a cs, _, _, _, _, h => by simp [W.depth] at h
  | n + 1, m + 1, .node a cs, anc, pd, inh, h, h' => by
    simp only [W.depth, Nat.add_le_add_iff_right] at h h'
    have hk := (keptChildren_facts a cs).1
    rw [passN_succ, passN_succ]
    split
    · rfl
    · split
      · congr 1
        apply List.map_congr_left
        intro c hc
        exact passN_enough cas n m c _ _ _ (depth_mem.1 (hk ▸ h) c hc) (depth_mem.1 (hk ▸ h') c hc)
      · congr 1
        apply List.map_congr_left
        intro c hc
        exact passN_enough cas n m c _ _ _ (depth_mem.1 h c hc) (depth_mem.1 h' c hc)

mutual
theorem depth_seen : ∀ w : W, (seen w).depth = w.depth
  | .node a cs => by simp [seen, W.depth, depth_seenAll cs]
theorem depth_seenAll : ∀ cs : List W, depthAll (seenAll cs) = depthAll cs
  | [] => rfl
  | c :: cs => by simp [seenAll, depthAll, depth_seen c, depth_seenAll cs]
end

/-- The screen with nothing said about what is behind it. -/
def bare : W → W
  | .node a cs => .node { a with style := { a.style with inheritedBackground := none } } cs

/-- Two contexts that differ at most in the background. -/
def SameText (inh inh' : Inherited) : Prop :=
  inh.color = inh'.color ∧ inh.autoColor = inh'.autoColor ∧ inh.hidden = inh'.hidden

theorem due_behind_none (H : Related casA casT P) {a a' : Attrs} (h : seenAttrs a = seenAttrs a') (hp : P a.meta)
    {anc anc' : List Css.Widget} (ha : anc.map calm = (anc' ++ [appMeta]).map calm) {inh inh' : Inherited}
    (hi : SameText inh inh') :
    { view (a.due casA anc inh) with inheritedBackground := none } =
      { view (a'.due casT anc' inh') with inheritedBackground := none } := by
  have h1 := due_seen H h hp ha inh'
  obtain ⟨c, au, b, hd⟩ := inh
  obtain ⟨c', au', b', hd'⟩ := inh'
  obtain ⟨e1, e2, e3⟩ := hi
  simp only at e1 e2 e3
  subst e1 e2 e3
  rw [← h1]
  unfold Attrs.due
  rw [view_applyTo, view_applyTo, view_applyInheritance, view_applyInheritance]
  generalize view (casA a.meta anc) = s
  obtain ⟨color, autoColor, background, tint, backgroundTint, inheritedBackground, hidden, visibilitySet, layout, opacity,
    rest⟩ := s
  unfold applyInheritance Override.applyTo
  cases color <;> cases c <;> cases visibilitySet <;> rfl

theorem compose_opaque {s : Style} {bg : RgbaColor} (hb : s.background = some bg) (ho : 1 ≤ bg.a) (inh inh' : Inherited) :
    composeBackground s inh = composeBackground s inh' := by
  have : ¬ bg.a < 1 := by grind
  unfold composeBackground
  rw [hb]
  cases inh.background <;> cases inh'.background <;> simp [this]

/-- The style of a widget is drawn as an opaque background. -/
def Opaque (s : Style) : Prop := ∃ bg, s.background = some bg ∧ 1 ≤ bg.a

/-- Alike screens get alike styles, below the application and alone. -/
theorem screen_seen (H : Related casA casT P) (n : Nat) (a a' : Attrs) (cs cs' : List W) {inh inh' : Inherited}
    (hp : All P (.node a cs)) (h : seen (.node a cs) = seen (.node a' cs')) (hi : SameText inh inh')
    (ho : Opaque (a'.due casT [] inh')) :
    seen (bare (passN casA (n + 1) [appMeta] true inh (.node a cs))) =
      seen (bare (passN casT (n + 1) [] true inh' (.node a' cs'))) := by
  simp only [seen, W.node.injEq] at h
  obtain ⟨h1, h2⟩ := h
  have hv : (seenAttrs a).visible = (seenAttrs a').visible := by rw [h1]
  have hv : a.visible = a'.visible := hv
  have bareEq : ∀ b b' : Attrs, seenAttrs b = seenAttrs b' →
      seenAttrs { b with style := { b.style with inheritedBackground := none } } =
        seenAttrs { b' with style := { b'.style with inheritedBackground := none } } := by
    intro b b' e
    obtain ⟨kind, base, visible, dirty, inline, style⟩ := b
    obtain ⟨kind', base', visible', dirty', inline', style'⟩ := b'
    simp only [seenAttrs, Attrs.mk.injEq] at e ⊢
    obtain ⟨e1, e2, e3, e4, e5, e6⟩ := e
    refine ⟨e1, e2, e3, e4, e5, ?_⟩
    have : { view style with inheritedBackground := none } = { view style' with inheritedBackground := none } := by rw [e6]
    exact this
  rw [passN_succ, passN_succ, hv]
  split
  · simp only [bare, seen, h2, bareEq _ _ h1]
  · simp only [Bool.or_true, if_true]
    have ha : [appMeta].map calm = (([] : List Css.Widget) ++ [appMeta]).map calm := rfl
    have hd := due_behind_none H h1 (hp.1 a.style) ha hi
    obtain ⟨bg, hbg, hbo⟩ := ho
    -- the two styles of the screen
    generalize hs : a.due casA [appMeta] inh = s at *
    generalize hs' : a'.due casT [] inh' = s' at *
    have hf := hd
    simp only [view, Style.mk.injEq] at hf
    obtain ⟨hsc, hsa, hsb, _, hst, _, hsh, _, _, _, _⟩ := hf
    have hc : childContext s inh = childContext s' inh' := by
      unfold childContext
      rw [hsc, hsa, hsh]
      congr 1
      rw [compose_opaque (hsb.trans hbg) hbo inh inh']
      unfold composeBackground
      rw [hsb, hst]
    have hr : seenAttrs { restyled casA [appMeta] inh a with
          style := { (restyled casA [appMeta] inh a).style with inheritedBackground := none } } =
        seenAttrs { restyled casT [] inh' a' with
          style := { (restyled casT [] inh' a').style with inheritedBackground := none } } := by
      unfold restyled
      rw [hs, hs']
      have hb := bareEq a a' h1
      clear hs hs' hc
      obtain ⟨kind, base, visible, dirty, inline, style⟩ := a
      obtain ⟨kind', base', visible', dirty', inline', style'⟩ := a'
      simp only [seenAttrs, Attrs.mk.injEq] at hb h1
      obtain ⟨rfl, hb1, rfl, _, rfl, hb2⟩ := hb
      have hd' : view { s with inheritedBackground := none } = view { s' with inheritedBackground := none } := hd
      cases kind <;> simp [Attrs.setStyle, seenAttrs, hb1, hb2, hd']
    have hm : calm (restyled casA [appMeta] inh a).meta = calm (restyled casT [] inh' a').meta := by
      have := meta_seen hr
      exact this
    rw [hc]
    simp only [bare, seen, hr, W.node.injEq, true_and]
    refine seenAll_map (P := P) ?_ _ _ (all_kept P a cs hp.2) (by rw [seen_kept, seen_kept, h2])
    intro c d hpc hcd
    refine passN_seen H n c d _ _ _ hpc hcd ?_
    simp only [List.map_cons, List.cons_append, List.nil_append]
    rw [hm]

/-- C195 (partial): a picture taken by the test helper and the first frame of the program show the screen and all
widgets in it with the same styles, up to the colours and sizes of scrollbars and links, if no rule for these widgets
asks for the focus or for the application as an ancestor, the other rules of the program (`keep r = false`: those of the
application, the tooltip and the palette, and the one for all widgets) set nothing else for them, the application has
the text colour of the theme, and the screen is opaque. -/
theorem same_picture_partial (op : Val → Rat) (env : ThemeEnv) (ctx : Ctx) (inh : Inherited)
    (rules : List (FlatRule Decl)) (keep : FlatRule Decl → Bool) (Own : Css.Widget → Prop) (screen screen' : W)
    (others : List W) (hw : seen screen = seen screen') (hown : All Own screen)
    (hsel : ∀ r ∈ rules, keep r = true → ∀ sel ∈ r.selectors, Below ctx appMeta sel ∧ Calm sel)
    (hdrop : ∀ r ∈ rules, keep r = false → ∀ w, Own w → ∀ anc,
      (∃ sel ∈ r.selectors, w.matchesComplex ctx sel anc = true) → ∀ d ∈ r.decls, ∀ f, Touches env d f → f ∈ baseFields)
    (happ : (cascade op env ctx rules appMeta []).color = inh.color ∧
      (cascade op env ctx rules appMeta []).autoColor = inh.autoColor ∧
      (cascade op env ctx rules appMeta []).visibilitySet = false)
    (ho : ∀ a cs, screen' = .node a cs → Opaque (a.due (cascade op env ctx (rules.filter keep)) [] inh)) :
    seen (bare (firstFrame (cascade op env ctx rules) inh screen others)) =
      seen (bare (testPicture (cascade op env ctx (rules.filter keep)) inh screen')) := by
  have H : Related (cascade op env ctx rules) (cascade op env ctx (rules.filter keep)) Own := by
    intro m m' anc anc' hm hc ha
    have hf : ∀ f, f ∉ baseFields → computeStyle env ctx m anc rules f = computeStyle env ctx m' anc' (rules.filter keep) f := by
      intro f hf
      rw [computeStyle_filter keep rules f (fun r hr hk hmatch d hd ht => hf (hdrop r hr hk m hm anc hmatch d hd f ht))]
      rw [computeStyle_congr env ctx m m' anc anc' (rules.filter keep)]
      intro r hr sel hs
      obtain ⟨h1, h2⟩ := hsel r (List.mem_filter.1 hr).1 (List.mem_filter.1 hr).2 sel hs
      rw [← matchesComplex_calm ctx m sel anc h2, hc, ha, matchesComplex_calm ctx m' sel _ h2, matchesComplex_top ctx _ _ _ _ h1]
    unfold cascade view ofComputed
    simp only [hf .color (by decide), hf .autoColor (by decide), hf .background (by decide), hf .tint (by decide),
      hf .backgroundTint (by decide), hf .visibility (by decide), hf .visibilitySet (by decide), hf .layout (by decide),
      hf .opacity (by decide), Style.mk.injEq, true_and]
    funext f
    split
    · rfl
    · exact hf f (by assumption)
  generalize cascade op env ctx rules = casA at *
  generalize cascade op env ctx (rules.filter keep) = casT at *
  obtain ⟨a', cs'⟩ := screen'
  have ho := ho a' cs' rfl
  have hdep : screen.depth = (W.node a' cs').depth := by rw [← depth_seen screen, hw, depth_seen]
  have e : firstFrame casA inh screen others =
      passN casA (max screen.depth (depthAll others)) [appMeta] true
        (childContext (({ kind := .group, base := appMeta } : Attrs).due casA [] inh) inh) screen.markClean := by
    unfold firstFrame resolveStyles pass program
    rw [W.depth, depthAll, passN_succ]
    rfl
  rw [e, passN_enough casA _ screen.depth _ _ _ _ (by rw [depth_markClean]; omega) (by rw [depth_markClean]; omega)]
  unfold testPicture resolveStyles pass
  rw [hdep]
  have hmc : seen screen.markClean = seen (W.node a' cs') := by rw [seen_markClean, hw]
  have hpm := all_markClean Own screen hown
  generalize screen.markClean = sc at hmc hpm ⊢
  obtain ⟨a, cs⟩ := sc
  rw [W.depth]
  refine screen_seen H _ a a' cs cs' hpm hmc ?_ ho
  obtain ⟨h1, h2, h3⟩ := happ
  unfold SameText childContext Attrs.due
  have hm : ({ kind := .group, base := appMeta } : Attrs).meta = appMeta := rfl
  rw [hm]
  generalize casA appMeta [] = s at h1 h2 h3 ⊢
  obtain ⟨color, autoColor, background, tint, backgroundTint, inheritedBackground, hidden, visibilitySet, layout, opacity,
    rest⟩ := s
  simp only at h1 h2 h3
  subst h1 h2 h3
  unfold applyInheritance Override.applyTo
  cases inh.color <;> exact ⟨rfl, rfl, rfl⟩

/-- The rule for all widgets sets nothing but the colours and sizes of scrollbars and links. -/
theorem base_only (env : ThemeEnv) : ∀ d ∈ baseRule.decls, ∀ f, Touches env d f → f ∈ baseFields := by
  intro d hd f hf
  unfold baseRule at hd
  simp only [List.mem_cons, List.not_mem_nil, or_false] at hd
  rcases hd with h | h | h | h | h | h | h | h | h | h | h | h | h | h | h <;> subst h <;>
    (rcases hf with ⟨v, hv⟩ | ⟨t, ht⟩
     · simp only [Decl.writes, List.mem_cons, Prod.mk.injEq, List.not_mem_nil, or_false] at hv
       rw [hv.1]; decide
     · simp [Decl.merges] at ht)

/-! ### Computing styles

Merge sort does not reduce in the kernel; insertion sort does. -/

/-- Insertion into a sorted list. -/
def put (m : Matched) : List Matched → List Matched
  | [] => [m]
  | x :: xs => if m.le x then m :: x :: xs else x :: put m xs

/-- Insertion sort. -/
def arrange : List Matched → List Matched
  | [] => []
  | m :: ms => put m (arrange ms)

theorem put_perm (m : Matched) : ∀ l, (put m l).Perm (m :: l)
  | [] => .refl _
  | x :: xs => by
    rw [put]
    split
    · exact .refl _
    · exact ((put_perm m xs).cons x).trans (.swap m x xs)

theorem arrange_perm : ∀ l, (arrange l).Perm l
  | [] => .refl _
  | m :: ms => (put_perm m _).trans ((arrange_perm ms).cons m)

theorem le_trans {a b c : Matched} (h1 : a.le b = true) (h2 : b.le c = true) : a.le c = true := by
  rw [Matched.le_iff] at *
  obtain ⟨⟨a1, a2, a3⟩, i, _⟩ := a
  obtain ⟨⟨b1, b2, b3⟩, j, _⟩ := b
  obtain ⟨⟨c1, c2, c3⟩, k, _⟩ := c
  simp only [Weaker, Specificity.mk.injEq] at *
  omega

theorem le_total {a b : Matched} (h : ¬ a.le b = true) : b.le a = true := by
  rw [Matched.le_iff] at *
  obtain ⟨⟨a1, a2, a3⟩, i, _⟩ := a
  obtain ⟨⟨b1, b2, b3⟩, j, _⟩ := b
  simp only [Weaker, Specificity.mk.injEq] at *
  omega

theorem put_sorted (m : Matched) : ∀ l : List Matched, l.Pairwise (fun a b => a.le b = true) →
    (put m l).Pairwise (fun a b => a.le b = true)
  | [], _ => by simp [put]
  | x :: xs, h => by
    rw [put]
    rw [List.pairwise_cons] at h
    split
    · rename_i hm
      rw [List.pairwise_cons, List.pairwise_cons]
      refine ⟨?_, h⟩
      intro y hy
      rcases List.mem_cons.1 hy with rfl | hy
      · exact hm
      · exact le_trans hm (h.1 y hy)
    · rename_i hm
      rw [List.pairwise_cons]
      refine ⟨?_, put_sorted m xs h.2⟩
      intro y hy
      rcases List.mem_cons.1 ((put_perm m xs).mem_iff.1 hy) with rfl | hy
      · exact le_total hm
      · exact h.1 y hy

theorem arrange_sorted : ∀ l : List Matched, (arrange l).Pairwise (fun a b => a.le b = true)
  | [] => .nil
  | m :: ms => put_sorted m _ (arrange_sorted ms)

theorem computeStyle_arrange (env : ThemeEnv) (ctx : Ctx) (w : Css.Widget) (anc : List Css.Widget)
    (rules : List (FlatRule Decl)) :
    computeStyle env ctx w anc rules =
      ((arrange (matchRules ctx w anc rules)).flatMap (·.decls)).foldl (applyDecl env) Computed.default := by
  unfold computeStyle
  congr 2
  refine List.Perm.eq_of_pairwise (le := fun a b => a.le b = true) ?_ (sorted_pairwise _) (arrange_sorted _)
    ((List.mergeSort_perm _ _).trans (arrange_perm _).symm)
  intro a b ha hb h1 h2
  have ha' := (List.mergeSort_perm _ _).mem_iff.1 ha
  have hb' := (arrange_perm _).mem_iff.1 hb
  rw [mem_matchRules] at ha' hb'
  obtain ⟨r, hr, hs, hd⟩ := ha'
  obtain ⟨r', hr', hs', hd'⟩ := hb'
  have ho : a.order = b.order := by
    rw [Matched.le_iff] at h1 h2
    unfold Weaker at h1 h2
    omega
  rw [ho, hr'] at hr
  cases hr
  rw [hs] at hs'
  obtain ⟨_, _, _⟩ := a
  obtain ⟨_, _, _⟩ := b
  simp_all

theorem cascade_arrange (op : Val → Rat) (env : ThemeEnv) (ctx : Ctx) (rules : List (FlatRule Decl)) :
    cascade op env ctx rules = fun w anc => ofComputed op
      (((arrange (matchRules ctx w anc rules)).flatMap (·.decls)).foldl (applyDecl env) Computed.default) := by
  funext w anc
  unfold cascade
  rw [computeStyle_arrange]

/-! ### A case, and the cases where the two differ -/

/-- A theme with two colours. -/
def demoEnv : ThemeEnv where
  getColor := fun n => if n = "background" then some (RgbaColor.rgb 18 18 18)
    else if n = "foreground" then some (RgbaColor.rgb 224 224 224)
    else if n = "scrollbar" then some (RgbaColor.rgb 0 50 50) else none
  getStyle := fun _ => none
  parseF32 := fun _ => none
  lighten := fun c _ => c
  darken := fun c _ => c

/-- A dark theme. -/
def demoCtx : Ctx := ⟨true, false, false⟩

/-- What the theme gives to the top of the tree. -/
def demoInh : Inherited := Inherited.fromTheme demoEnv.getColor

/-- `type { decls }`. -/
def one (type : String) (decls : List Decl) : FlatRule Decl := ⟨[[⟨[.type type], .none⟩]], decls⟩

/-- `above type { decls }`. -/
def two (above type : String) (decls : List Decl) : FlatRule Decl :=
  ⟨[[⟨[.type above], .descendant⟩, ⟨[.type type], .none⟩]], decls⟩

/-- screen.rs:489-493, the background of a screen. -/
def screenRule : FlatRule Decl := one "Screen" [.background (var "background")]

/-- The rules of the example: those the program adds, then those both have. -/
def demoRules (own : List (FlatRule Decl)) : List (FlatRule Decl) :=
  [baseRule, appRule, one "Tooltip" [.background (RgbaColor.rgb 9 9 9)], screenRule] ++ own

/-- Which of them a test has too. -/
def demoKeep (r : FlatRule Decl) : Bool :=
  !(r.selectors == baseRule.selectors || r.selectors == appRule.selectors || r.selectors == [[⟨[.type "Tooltip"], .none⟩]])

/-- A screen with a label and a switch. -/
def demoScreen (focused : Bool) : W :=
  .node { kind := .group, base := { typeName := "Screen" } }
    [.node { base := { typeName := "Label" } } [], .node { base := { typeName := "Switch", focus := focused } } []]

/-- The tooltip. -/
def demoTooltip : W := .node { base := { typeName := "Tooltip" } } []

/-- The text colour, the background and the scrollbar colour of the widget at a path. -/
def look (p : List Nat) (w : W) : Option (Option RgbaColor × Option RgbaColor × Val) :=
  ((w.chain p).bind List.getLast?).map fun a => (a.style.color, a.style.effectiveBackground, a.style.rest .scrollbarColor)

/-- What a widget looks like in the first frame of the program of the example. -/
def inProgram (own : List (FlatRule Decl)) (p : List Nat) : Option (Option RgbaColor × Option RgbaColor × Val) :=
  look p (firstFrame (cascade (fun _ => 1) demoEnv demoCtx (demoRules own)) demoInh (demoScreen true) [demoTooltip])

/-- What it looks like in the picture of the test. -/
def inTest (own : List (FlatRule Decl)) (p : List Nat) : Option (Option RgbaColor × Option RgbaColor × Val) :=
  look p (testPicture (cascade (fun _ => 1) demoEnv demoCtx ((demoRules own).filter demoKeep)) demoInh (demoScreen false))

/-- The rules of the application of the example. -/
def demoOwn : List (FlatRule Decl) := [two "Screen" "Label" [.color (RgbaColor.rgb 255 0 0)]]

/-- Widgets that are neither the application nor a tooltip. -/
def DemoOwn (w : Css.Widget) : Prop :=
  ∀ n ∈ ["App", "Tooltip"], w.matchesSelector demoCtx (.type n) = false

/-- The hypotheses of `same_picture_partial` hold for the example, whose focused switch and tooltip only the program
has. -/
example :
    let keep := demoKeep
    seen (demoScreen true) = seen (demoScreen false) ∧ All DemoOwn (demoScreen true) ∧
    (∀ r ∈ demoRules demoOwn, keep r = true → ∀ sel ∈ r.selectors, Below demoCtx appMeta sel ∧ Calm sel) ∧
    (∀ r ∈ demoRules demoOwn, keep r = false → ∀ w, DemoOwn w → ∀ anc,
      (∃ sel ∈ r.selectors, w.matchesComplex demoCtx sel anc = true) →
      ∀ d ∈ r.decls, ∀ f, Touches demoEnv d f → f ∈ baseFields) ∧
    ((cascade (fun _ => 1) demoEnv demoCtx (demoRules demoOwn) appMeta []).color = demoInh.color ∧
      (cascade (fun _ => 1) demoEnv demoCtx (demoRules demoOwn) appMeta []).autoColor = demoInh.autoColor ∧
      (cascade (fun _ => 1) demoEnv demoCtx (demoRules demoOwn) appMeta []).visibilitySet = false) ∧
    (∀ a cs, demoScreen false = .node a cs →
      Opaque (a.due (cascade (fun _ => 1) demoEnv demoCtx ((demoRules demoOwn).filter keep)) [] demoInh)) := by
  refine ⟨rfl, ?_, ?_, ?_, by rw [cascade_arrange]; decide +kernel, ?_⟩
  · refine ⟨?_, ⟨?_, trivial⟩, ⟨?_, trivial⟩, trivial⟩ <;> intro _ <;> (simp only [Attrs.meta]; unfold DemoOwn; decide)
  · unfold Below Calm
    decide +kernel
  · intro r hr hk w hw anc hm
    have h3 : r = baseRule ∨ r = appRule ∨ r = one "Tooltip" [.background (RgbaColor.rgb 9 9 9)] := by
      simp only [demoRules, demoOwn, List.cons_append, List.nil_append, List.mem_cons, List.not_mem_nil, or_false] at hr
      rcases hr with rfl | rfl | rfl | rfl | rfl
      · exact .inl rfl
      · exact .inr (.inl rfl)
      · exact .inr (.inr rfl)
      · exact absurd hk (by decide +kernel)
      · exact absurd hk (by decide +kernel)
    rcases h3 with rfl | rfl | rfl
    · exact base_only demoEnv
    · obtain ⟨sel, hs, hm⟩ := hm
      simp only [appRule, List.mem_cons, List.not_mem_nil, or_false] at hs
      subst hs
      have := hw "App" (by simp)
      simp [Css.Widget.matchesComplex, Css.Widget.matchesCompound, this] at hm
    · obtain ⟨sel, hs, hm⟩ := hm
      simp only [one, List.mem_cons, List.not_mem_nil, or_false] at hs
      subst hs
      have := hw "Tooltip" (by simp)
      simp [Css.Widget.matchesComplex, Css.Widget.matchesCompound, this] at hm
  · intro a cs h
    simp only [demoScreen, W.node.injEq] at h
    obtain ⟨rfl, -⟩ := h
    rw [cascade_arrange]
    exact ⟨RgbaColor.rgb 18 18 18, by decide +kernel, by decide +kernel⟩

/-- C195: the label of the example looks the same, but its scrollbars have no colour in the test. -/
theorem scrollbar_counterexample :
    inProgram demoOwn [0] = some (some (RgbaColor.rgb 255 0 0), some (RgbaColor.rgb 18 18 18), .color (RgbaColor.rgb 0 50 50)) ∧
      inTest demoOwn [0] = some (some (RgbaColor.rgb 255 0 0), some (RgbaColor.rgb 18 18 18), .unset) := by
  unfold inProgram inTest
  rw [cascade_arrange, cascade_arrange]
  constructor <;> decide +kernel

/-- C195: `App Label { color: red }` reaches the label in the program, not in the test. -/
theorem ancestor_counterexample :
    let own : List (FlatRule Decl) := [two "App" "Label" [.color (RgbaColor.rgb 255 0 0)]]
    (inProgram own [0]).map (·.1) = some (some (RgbaColor.rgb 255 0 0)) ∧
      (inTest own [0]).map (·.1) = some (some (RgbaColor.rgb 224 224 224)) := by
  intro own
  unfold inProgram inTest
  rw [cascade_arrange, cascade_arrange]
  constructor <;> decide +kernel

/-- C195: `Screen { background: red 50% }` is laid over the colour of the application in the program, and over nothing
in the test. -/
theorem behind_counterexample :
    let own : List (FlatRule Decl) := [one "Screen" [.background (RgbaColor.rgba 255 0 0 (1 / 2))]]
    (inProgram own [0]).map (·.2.1) = some (some (RgbaColor.rgb 136 9 9)) ∧
      (inTest own [0]).map (·.2.1) = some (some (RgbaColor.rgba 255 0 0 (1 / 2))) := by
  intro own
  unfold inProgram inTest
  rw [cascade_arrange, cascade_arrange]
  constructor <;> decide +kernel

/-- C195: `Switch:focus { background: green }` colours the switch in the first frame of the program, not in the test. -/
theorem focus_counterexample :
    let own : List (FlatRule Decl) := [⟨[[⟨[.type "Switch", .pseudo "focus"], .none⟩]], [.background (RgbaColor.rgb 0 255 0)]⟩]
    (inProgram own [1]).map (·.2.1) = some (some (RgbaColor.rgb 0 255 0)) ∧
      (inTest own [1]).map (·.2.1) = some (some (RgbaColor.rgb 18 18 18)) := by
  intro own
  unfold inProgram inTest
  rw [cascade_arrange, cascade_arrange]
  constructor <;> decide +kernel

end Textual.Picture
