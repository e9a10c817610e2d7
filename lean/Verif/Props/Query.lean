import Verif.Props.TreeQuery
import Verif.Spec.Query
import Mathlib.Tactic.Common

/-! Queries as the program builds them: C154. -/

namespace Textual.Tree

open W

/-- A query with its filters. -/
def asked (ws : Char → Bool) (root : W) (selector : List Char) (filters : List (Attrs → Bool)) : DOMQuery :=
  filters.foldl DOMQuery.filter (query ws root selector)

theorem asked_root (ws : Char → Bool) (root : W) (s : List Char) (fs : List (Attrs → Bool)) :
    (asked ws root s fs).root = root := by
  unfold asked
  have : ∀ (fs : List (Attrs → Bool)) (q : DOMQuery), (fs.foldl DOMQuery.filter q).root = q.root := by
    intro fs
    induction fs with
    | nil => intro q; rfl
    | cons f fs ih => intro q; exact ih _
  exact this fs _

theorem asked_test (ws : Char → Bool) (root : W) (s : List Char) (selects : Attrs → Bool)
    (hsel : ∀ a, (parseSelector ws s).matches a = selects a) (fs : List (Attrs → Bool)) (h1 : fs.length ≤ 1) :
    (asked ws root s fs).test = fun a => selects a && fs.all (· a) := by
  funext a
  match fs, h1 with
  | [], _ => simp [asked, DOMQuery.test, query, hsel]
  | [f], _ => simp [asked, DOMQuery.test, query, hsel, DOMQuery.filter]

/-- C154: with at most one filter, a query counts exactly the widgets it is about, `for_each` changes each of
them and no other, `first` the first and `last` the last of them, telling whether there is one.
Missing: several filters (`filters_counterexample`). -/
theorem query_partial (ws : Char → Bool) (root : W) (s : List Char) (selects : Attrs → Bool)
    (hsel : ∀ a, (parseSelector ws s).matches a = selects a) (fs : List (Attrs → Bool)) (h1 : fs.length ≤ 1)
    (f : Attrs → Attrs) :
    let q := asked ws root s fs
    q.count = (Meant root selects fs).length ∧
    (∀ p ∈ root.paths, (q.forEach f).root.attrsAt p =
      if p ∈ Meant root selects fs then (root.attrsAt p).map f else root.attrsAt p) ∧
    ((q.first f).2 = !(Meant root selects fs).isEmpty ∧ ∀ p, (q.first f).1.attrsAt p =
      if (Meant root selects fs).head? = some p then (root.attrsAt p).map f else root.attrsAt p) ∧
    ((q.last f).2 = !(Meant root selects fs).isEmpty ∧ ∀ p, (q.last f).1.attrsAt p =
      if (Meant root selects fs).getLast? = some p then (root.attrsAt p).map f else root.attrsAt p) := by
  intro q
  have hr : q.root = root := asked_root ws root s fs
  have ht : q.test = fun a => selects a && fs.all (· a) := asked_test ws root s selects hsel fs h1
  have hany : ∀ (t : Attrs → Bool), root.paths.any (root.has t) = !(root.paths.filter (root.has t)).isEmpty := by
    intro t
    generalize root.paths = ps
    induction ps with
    | nil => rfl
    | cons p ps ih =>
      rw [List.any_cons, List.filter_cons, ih]
      cases root.has t p <;> simp
  refine ⟨?_, ?_, ?_, ?_⟩
  · show q.root.countAll q.test = _
    rw [hr, ht, count_spec]; rfl
  · intro p hp
    show (q.root.applyAll q.test f).attrsAt p = _
    rw [hr, ht, queryAll_spec]
    cases ha : root.at? p with
    | none => simp [attrsAt, has, ha]
    | some w =>
      by_cases h : (selects w.attrs && fs.all (· w.attrs)) = true
      · have hm : p ∈ Meant root selects fs :=
          List.mem_filter.2 ⟨hp, by simpa only [has, ha, Option.any_some] using h⟩
        rw [if_pos hm]
        simp only [attrsAt, ha, Option.map_some]
        rw [if_pos h]
      · have hm : ¬ p ∈ Meant root selects fs := fun e =>
          h (by simpa only [has, ha, Option.any_some] using (List.mem_filter.1 e).2)
        rw [if_neg hm]
        simp only [attrsAt, ha, Option.map_some]
        rw [if_neg h]
  · show (q.root.applyFirst q.test f).2 = _ ∧ ∀ p, (q.root.applyFirst q.test f).1.attrsAt p = _
    rw [hr, ht]
    obtain ⟨a, b⟩ := queryOne_spec (fun a => selects a && fs.all (· a)) f root
    exact ⟨a.trans (hany _), b⟩
  · show (q.root.applyLast q.test f).2 = _ ∧ ∀ p, (q.root.applyLast q.test f).1.attrsAt p = _
    rw [hr, ht]
    obtain ⟨a, b⟩ := queryLast_spec (fun a => selects a && fs.all (· a)) f root
    exact ⟨a.trans (hany _), b⟩

/-- A query for buttons that can take the focus, on a tree with two buttons. -/
example : (∀ a, (parseSelector (· == ' ') "Button".toList).matches a = decide (a.typeName = "Button")) ∧
    Meant demo (fun a => decide (a.typeName = "Button")) [(·.focusable)] = [[0], [2]] := by
  refine ⟨fun a => ?_, by decide +kernel⟩
  have := (selector_spec (· == ' ') (by decide) "Button".toList [] [] [] (by simp) (by simp)
    (by decide) (by simp) a).2.1 (by decide)
  simpa using this

/-- C154: the classes after `add_class` and `remove_class` on a query. -/
theorem classes_spec (ws : Char → Bool) (root : W) (s : List Char) (selects : Attrs → Bool)
    (hsel : ∀ a, (parseSelector ws s).matches a = selects a) (fs : List (Attrs → Bool)) (h1 : fs.length ≤ 1)
    (c d : String) (p : List Nat) (hp : p ∈ root.paths) (a b r : Attrs) (ha : root.attrsAt p = some a)
    (hb : ((asked ws root s fs).addClass c).root.attrsAt p = some b)
    (hr : ((asked ws root s fs).removeClass c).root.attrsAt p = some r) :
    (d ∈ b.classes ↔ d ∈ a.classes ∨ (d = c ∧ p ∈ Meant root selects fs)) ∧
    (d ∈ r.classes ↔ d ∈ a.classes ∧ ¬ (d = c ∧ p ∈ Meant root selects fs)) := by
  have h := fun f => (query_partial ws root s selects hsel fs h1 f).2.1 p hp
  unfold DOMQuery.addClass at hb
  unfold DOMQuery.removeClass at hr
  rw [h, ha] at hb hr
  by_cases hm : p ∈ Meant root selects fs
  · rw [if_pos hm] at hb hr
    simp only [Option.map_some, Option.some.injEq] at hb hr
    subst hb hr
    refine ⟨?_, ?_⟩
    · dsimp only
      split
      · constructor
        · exact Or.inl
        · rintro (h | ⟨rfl, _⟩)
          · exact h
          · assumption
      · simp [hm]
    · simp [hm]
  · rw [if_neg hm] at hb hr
    simp only [Option.some.injEq] at hb hr
    subst hb hr
    simp [hm]

example : [2] ∈ demo.paths ∧ ∃ a, demo.attrsAt [2] = some a := ⟨by decide +kernel, _, rfl⟩

/-- C154: `set_visible` and `set_disabled` on a query change that flag, and nothing else, of the widgets it is about. -/
theorem flags_spec (ws : Char → Bool) (root : W) (s : List Char) (selects : Attrs → Bool)
    (hsel : ∀ a, (parseSelector ws s).matches a = selects a) (fs : List (Attrs → Bool)) (h1 : fs.length ≤ 1)
    (on : Bool) (p : List Nat) (hp : p ∈ root.paths) (a b d : Attrs) (ha : root.attrsAt p = some a)
    (hb : ((asked ws root s fs).setVisible on).root.attrsAt p = some b)
    (hd : ((asked ws root s fs).setDisabled on).root.attrsAt p = some d) :
    (b.visible = if p ∈ Meant root selects fs then on else a.visible) ∧ b = { a with visible := b.visible } ∧
    (d.disabled = if p ∈ Meant root selects fs then on else a.disabled) ∧ d = { a with disabled := d.disabled } := by
  have h := fun f => (query_partial ws root s selects hsel fs h1 f).2.1 p hp
  unfold DOMQuery.setVisible at hb
  unfold DOMQuery.setDisabled at hd
  rw [h, ha] at hb hd
  by_cases hm : p ∈ Meant root selects fs
  · rw [if_pos hm] at hb hd
    simp only [Option.map_some, Option.some.injEq] at hb hd
    subst hb hd
    simp [hm]
  · rw [if_neg hm] at hb hd
    simp only [Option.some.injEq] at hb hd
    subst hb hd
    simp [hm]

/-- C154: every operation of a query looks at the tree anew: after `remove_class` a query for that class finds
nothing. -/
theorem removed_then_none (ws : Char → Bool) (root : W) (s : List Char) (c : String) :
    ((asked ws root s [fun a => decide (c ∈ a.classes)]).removeClass c).count = 0 := by
  have key : ∀ (t : Attrs → Bool), (∀ a, t a = true → c ∈ a.classes) →
      (W.applyAll t (fun a => { a with classes := a.classes.filter (· ≠ c) }) root).countAll t = 0 := by
    intro t htc
    rw [count_spec, List.length_eq_zero_iff, List.filter_eq_nil_iff]
    intro p _ h
    have hh := queryAll_spec t (fun a => { a with classes := a.classes.filter (· ≠ c) }) root p
    revert h hh
    generalize W.applyAll t _ root = r
    unfold has
    intro h hh
    cases ha : r.at? p with
    | none => rw [ha] at h; simp at h
    | some w =>
      rw [ha, Option.any_some] at h
      simp only [attrsAt, ha, Option.map_some] at hh
      obtain ⟨a, _, e⟩ := Option.map_eq_some_iff.1 hh.symm
      have hc := htc _ h
      by_cases hta : t a = true
      · rw [if_pos hta] at e
        rw [← e] at hc
        simp at hc
      · rw [if_neg hta] at e
        rw [e] at hta
        exact hta h
  refine key (asked ws root s [fun a => decide (c ∈ a.classes)]).test ?_
  intro a h
  simp only [DOMQuery.test, asked, List.foldl_cons, List.foldl_nil, DOMQuery.filter, query, Bool.and_eq_true,
    decide_eq_true_eq] at h
  exact h.2

/-- C154 fails for two filters: the last one replaces the others. A query for buttons that are focused and
have the class `x` finds those without it. -/
theorem filters_counterexample :
    let root : W := .node .container {} [.node .leaf { typeName := "Button", focused := true } []]
    let fs : List (Attrs → Bool) := [fun a => decide ("x" ∈ a.classes), (·.focused)]
    (asked (· == ' ') root "Button".toList fs).count = 1 ∧
      Meant root (fun a => decide (a.typeName = "Button")) fs = [] := by
  decide +kernel

/-- C154: how queries with several filters behave instead. -/
theorem last_filter_only (ws : Char → Bool) (root : W) (s : List Char) (fs : List (Attrs → Bool)) (f : Attrs → Bool) :
    asked ws root s (fs ++ [f]) = asked ws root s [f] := by
  unfold asked
  rw [List.foldl_append]
  have : ∀ (fs : List (Attrs → Bool)) (q : DOMQuery), (fs.foldl DOMQuery.filter q).filter f = q.filter f := by
    intro fs
    induction fs with
    | nil => intro q; rfl
    | cons g fs ih => intro q; exact ih _
  exact this fs _

/-- C154 fails for the documented selector `#items Label`: it finds none of the labels below `items`. -/
theorem descendant_counterexample :
    let root : W := .node .container {} [.node .container { id := some "items" }
      [.node .leaf { typeName := "Label" } [], .node .leaf { typeName := "Label" } []]]
    (asked (· == ' ') root "#items Label".toList []).count = 0 ∧ Below root "items" "Label" = [[0, 0], [0, 1]] := by
  decide +kernel

end Textual.Tree
