import Verif.Spec.Typed
import Verif.Props.TreeQuery
import Mathlib.Tactic.Common

/-! Widgets by type: C186. -/

namespace Textual.Typed

open T
open Tree (Attrs SimpleSelector parseSelector)

/-- What the search tests. -/
def tested (sel : SimpleSelector) (ty : String) (i : Item) : Bool := sel.matches i.attrs && i.any && i.ty == ty

/-- `OnFirst` for a list of trees. -/
def OnFirstIn {R : Type} (wanted : Item → Bool) (f : Item → Item × R) (before after : List T) (answer : Option R) :
    Prop :=
  shapeIn after = shapeIn before ∧
  match (itemsIn before).find? wanted with
  | none => answer = none ∧ after = before
  | some i => answer = some (f i).2 ∧ ∃ pre post, itemsIn before = pre ++ i :: post ∧ (∀ j ∈ pre, wanted j = false) ∧
      itemsIn after = pre ++ (f i).1 :: post

mutual
theorem typed_first {R : Type} (sel : SimpleSelector) (ty : String) (f : Item → Item × R) (t : T) :
    OnFirst (tested sel ty) f t (applyTyped sel ty f t).1 (applyTyped sel ty f t).2 := by
  match t with
  | .node i cs =>
    unfold applyTyped
    by_cases h : (sel.matches i.attrs && i.any && i.ty == ty) = true
    · rw [if_pos h]
      have ht : tested sel ty i = true := h
      refine ⟨by simp [shape], ?_⟩
      simp only [items, List.find?_cons_of_pos ht]
      exact ⟨by first | trivial | rfl, [], itemsIn cs, rfl, by simp, by simp⟩
    · rw [if_neg h]
      have ht : ¬ tested sel ty i = true := h
      obtain ⟨hs, ih⟩ := typed_firstIn sel ty f cs
      refine ⟨by simp [shape, hs], ?_⟩
      simp only [items, List.find?_cons_of_neg ht]
      revert ih
      cases (itemsIn cs).find? (tested sel ty) with
      | none => rintro ⟨a, b⟩; exact ⟨a, by simp [b]⟩
      | some j =>
        rintro ⟨a, pre, post, b, c, d⟩
        refine ⟨a, i :: pre, post, by simp [b], ?_, by simp [d]⟩
        intro k hk
        rcases List.mem_cons.1 hk with rfl | hk
        · simpa using ht
        · exact c k hk
theorem typed_firstIn {R : Type} (sel : SimpleSelector) (ty : String) (f : Item → Item × R) (cs : List T) :
    OnFirstIn (tested sel ty) f cs (applyTypedIn sel ty f cs).1 (applyTypedIn sel ty f cs).2 := by
  match cs with
  | [] => exact ⟨rfl, rfl, rfl⟩
  | c :: cs =>
    obtain ⟨hs, ih⟩ := typed_first sel ty f c
    obtain ⟨hs', ih'⟩ := typed_firstIn sel ty f cs
    unfold applyTypedIn
    revert ih ih'
    unfold OnFirstIn
    simp only [itemsIn, List.find?_append]
    cases hf : (items c).find? (tested sel ty) with
    | some j =>
      rintro ⟨a, pre, post, b, d, e⟩ _
      rw [if_pos (by simp [a])]
      refine ⟨by simp [shapeIn, hs], a, pre, post ++ itemsIn cs, by simp [b], d, by simp [itemsIn, e]⟩
    | none =>
      rintro ⟨a, b⟩
      rw [if_neg (by simp [a]), Option.none_or]
      have hnone := List.find?_eq_none.1 hf
      refine fun ih' => ⟨by simp [shapeIn, hs, hs'], ?_⟩
      revert ih'
      cases (itemsIn cs).find? (tested sel ty) with
      | none => rintro ⟨a', b'⟩; exact ⟨a', by simp [b, b']⟩
      | some j =>
        rintro ⟨a', pre, post, b', d, e⟩
        refine ⟨a', items c ++ pre, post, by simp [b'], ?_, by simp [itemsIn, b, e]⟩
        intro k hk
        rcases List.mem_append.1 hk with hk | hk
        · simpa using hnone k hk
        · exact d k hk
end

theorem mem_of_find {α : Type} {p : α → Bool} {l : List α} {q : α → Bool} (h : ∀ a ∈ l, p a = q a) :
    l.find? p = l.find? q := by
  induction l with
  | nil => rfl
  | cons a l ih =>
    rw [List.find?_cons, List.find?_cons, h a (by simp), ih fun b hb => h b (by simp [hb])]

/-- C186: a query for a widget of a type, where the selector means `selects`: the program gets the first widget that the
selector names and that has the type, and what it does to it is all that happens to the tree.
Missing: types whose widgets do not hand themselves out (`scroller_counterexample`). -/
theorem typed_partial {R : Type} (ws : Char → Bool) (s : List Char) (selects : Attrs → Bool)
    (hsel : ∀ a, (parseSelector ws s).matches a = selects a) (ty : String) (root : T)
    (hany : ∀ i ∈ root.items, i.ty = ty → i.any = true) (f : Item → Item × R) :
    OnFirst (fun i => selects i.attrs && decide (i.ty = ty)) f root (root.queryOneAs ws s ty f).1
      (root.queryOneAs ws s ty f).2 := by
  obtain ⟨h1, h2⟩ := typed_first (parseSelector ws s) ty f root
  have hw : ∀ i ∈ root.items, tested (parseSelector ws s) ty i = (selects i.attrs && decide (i.ty = ty)) := by
    intro i hi
    unfold tested
    rw [hsel]
    by_cases e : i.ty = ty
    · simp [hany i hi e, e]
    · simp [e]
  refine ⟨h1, ?_⟩
  rw [← mem_of_find hw]
  unfold queryOneAs
  revert h2
  cases root.items.find? (tested (parseSelector ws s) ty) with
  | none => exact id
  | some i =>
    rintro ⟨a, pre, post, b, c, d⟩
    exact ⟨a, pre, post, b, fun j hj => (hw j (by rw [b]; simp [hj])).symm.trans (c j hj), d⟩

/-! ### Names -/

theorem lastPart_plain (acc l : List Char) (h : ':' ∉ l) : lastPart acc l = acc.reverse ++ l := by
  induction l generalizing acc with
  | nil => simp [lastPart]
  | cons c l ih =>
    unfold lastPart
    split
    · rename_i heq; simp only [List.cons.injEq] at heq; exact absurd (by simp [heq.1]) h
    · rename_i heq
      simp only [List.cons.injEq] at heq
      obtain ⟨rfl, rfl⟩ := heq
      rw [ih _ fun e => h (by simp [e])]; simp
    · rename_i heq; cases heq

theorem lastPart_step (acc m rest : List Char) (h : ':' ∉ m) :
    lastPart acc (m ++ ':' :: ':' :: rest) = lastPart [] rest := by
  induction m generalizing acc with
  | nil => rfl
  | cons c m ih =>
    conv => lhs; rw [List.cons_append]; unfold lastPart
    split
    · rename_i heq; simp only [List.cons.injEq] at heq; exact absurd (by simp [heq.1]) h
    · rename_i heq
      simp only [List.cons.injEq] at heq
      obtain ⟨rfl, rfl⟩ := heq
      exact ih _ fun e => h (by simp [e])
    · rename_i heq; cases heq

/-- C186: a widget without a name of its own goes by the name of its type, whatever module it is in and whatever its
parameters. -/
theorem named_after_type (path : List String) (name params : String)
    (hp : ∀ m ∈ path, ':' ∉ m.toList ∧ '<' ∉ m.toList) (hn : ':' ∉ name.toList ∧ '<' ∉ name.toList)
    (hb : params = "" ∨ ∃ r, params.toList = '<' :: r) :
    shortName (fullName path name params) = name.toList := by
  have hq : ∀ c ∈ path.flatMap (fun m => m.toList ++ [':', ':']) ++ name.toList, c ≠ '<' := by
    intro c hc e
    subst e
    rcases List.mem_append.1 hc with h | h
    · obtain ⟨m, hm, h⟩ := List.mem_flatMap.1 h
      rcases List.mem_append.1 h with h | h
      · exact (hp m hm).2 h
      · simp at h
    · exact hn.2 h
  have hbefore : beforeParams (fullName path name params) =
      path.flatMap (fun m => m.toList ++ [':', ':']) ++ name.toList := by
    unfold beforeParams fullName
    rw [List.takeWhile_append_of_pos (by intro c hc; simpa using hq c hc)]
    rcases hb with rfl | ⟨r, hr⟩
    · simp
    · rw [hr]; simp
  unfold shortName
  rw [hbefore]
  clear hbefore hq hb
  induction path with
  | nil => simpa using lastPart_plain [] _ hn.1
  | cons m path ih =>
    rw [List.flatMap_cons, List.append_assoc, List.append_assoc]
    show lastPart [] (m.toList ++ ':' :: ':' :: _) = _
    rw [lastPart_step _ _ _ (hp m (by simp)).1]
    exact ih fun m' h' => hp m' (by simp [h'])

/-- A widget of an application in a module of its own, with a parameter. -/
example : (∀ m ∈ ["shop", "cart"], ':' ∉ m.toList ∧ '<' ∉ m.toList) ∧
    (':' ∉ "Basket".toList ∧ '<' ∉ "Basket".toList) ∧ ∃ r, "<shop::Msg>".toList = '<' :: r ∧
    String.ofList (shortName (fullName ["shop", "cart"] "Basket" "<shop::Msg>")) = "Basket" :=
  ⟨by decide, by decide, "shop::Msg>".toList, by decide +kernel⟩

theorem builtin_clean (b : Builtin) : (∀ m ∈ b.path.1, ':' ∉ m.toList ∧ '<' ∉ m.toList) ∧
    (':' ∉ b.path.2.toList ∧ '<' ∉ b.path.2.toList) := by
  cases b <;> decide +kernel

theorem builtin_own (b : Builtin) (n : String) (h : b.ownName = some n) : n = b.path.2 := by
  cases b <;> simp [Builtin.ownName] at h <;> subst h <;> rfl

/-- C186: each widget of the library goes by the name of its type. -/
theorem builtin_name (b : Builtin) (params : String) (hb : params = "" ∨ ∃ r, params.toList = '<' :: r)
    (attrs : Attrs) : (b.item params attrs).attrs.typeName = b.path.2 := by
  show b.typeName params = _
  unfold Builtin.typeName
  split
  · rename_i n h; exact builtin_own b n h
  · rw [named_after_type _ _ _ (builtin_clean b).1 (builtin_clean b).2 hb, String.ofList_toList]

/-- The two ways to have a name. -/
example : (Builtin.button.item "<app::Msg>" {}).attrs.typeName = "Button" ∧ Builtin.button.ownName.isSome ∧
    (Builtin.grid.item "<app::Msg>" {}).attrs.typeName = "Grid" ∧ Builtin.grid.ownName.isSome = false := by
  decide +kernel

theorem builtin_inj (b b' : Builtin) (h : b.path.2 = b'.path.2) : b = b' := by
  revert h; cases b <;> cases b' <;> decide

theorem type_inj (b b' : Builtin) (p p' : String) (hp : p = "" ∨ ∃ r, p.toList = '<' :: r)
    (hp' : p' = "" ∨ ∃ r, p'.toList = '<' :: r) (a a' : Attrs) (h : (b.item p a).ty = (b'.item p' a').ty) : b = b' := by
  have e : fullName b.path.1 b.path.2 p = fullName b'.path.1 b'.path.2 p' := by
    have := congrArg String.toList h
    simpa [Builtin.item] using this
  apply builtin_inj
  have := congrArg shortName e
  rw [named_after_type _ _ _ (builtin_clean b).1 (builtin_clean b).2 hp,
    named_after_type _ _ _ (builtin_clean b').1 (builtin_clean b').2 hp'] at this
  exact String.toList_injective this

theorem builtin_letters (b : Builtin) : b.path.2.toList ≠ [] ∧ ∀ c ∈ b.path.2.toList, c.isAlpha = true ∧ c ≠ '#' := by
  cases b <;> decide +kernel

/-- A widget of the library. -/
def Stock (i : Item) : Prop :=
  ∃ (b : Builtin) (p : String) (a : Attrs), (p = "" ∨ ∃ r, p.toList = '<' :: r) ∧ i = b.item p a

/-- C186: a program asks for a widget of a type of the library by that type's name: if the type is one of the thirteen
that hand themselves out it gets the first such widget of its tree.
Missing: the other eleven types (`scroller_counterexample`). -/
theorem builtin_partial {R : Type} (ws : Char → Bool) (hws : ∀ c, c.isAlpha = true → ws c = false) (hh : ws '#' = false)
    (b : Builtin) (hb : b ∈ [.static, .label, .button, .switch, .input, .optionList, .ruler, .loadingIndicator, .header,
      .tooltip, .commandPalette, .screen, .container]) (params : String)
    (hp : params = "" ∨ ∃ r, params.toList = '<' :: r) (root : T) (hroot : ∀ i ∈ root.items, Stock i)
    (f : Item → Item × R) :
    OnFirst (fun i => decide (i.ty = (b.item params {}).ty)) f root
      (root.queryOneAs ws b.path.2.toList (b.item params {}).ty f).1
      (root.queryOneAs ws b.path.2.toList (b.item params {}).ty f).2 := by
  have hsel : ∀ a, (parseSelector ws b.path.2.toList).matches a = decide (a.typeName = b.path.2) := by
    intro a
    have := (Tree.selector_spec ws hh b.path.2.toList [] [] [] (by simp) (by simp)
      (fun c hc => ⟨hws c ((builtin_letters b).2 c hc).1, ((builtin_letters b).2 c hc).2⟩) (by simp) a).2.1
      (builtin_letters b).1
    simpa using this
  have hb' : b.any = true := by
    simp only [List.mem_cons, List.not_mem_nil, or_false] at hb
    rcases hb with h | h | h | h | h | h | h | h | h | h | h | h | h <;> subst h <;> rfl
  have same : ∀ i ∈ root.items, i.ty = (b.item params {}).ty → i.any = true ∧ i.attrs.typeName = b.path.2 := by
    intro i hi he
    obtain ⟨b', p', a', hp', rfl⟩ := hroot i hi
    have := type_inj b' b p' params hp' hp a' {} he
    subst this
    exact ⟨hb', builtin_name b' p' hp' a'⟩
  obtain ⟨h1, h2⟩ := typed_partial ws b.path.2.toList _ hsel (b.item params {}).ty root (fun i hi he => (same i hi he).1) f
  have hw : ∀ i ∈ root.items, (decide (i.attrs.typeName = b.path.2) && decide (i.ty = (b.item params {}).ty)) =
      decide (i.ty = (b.item params {}).ty) := by
    intro i hi
    by_cases e : i.ty = (b.item params {}).ty
    · simp [(same i hi e).2]
    · simp [e]
  refine ⟨h1, ?_⟩
  rw [← mem_of_find hw]
  revert h2
  cases root.items.find? _ with
  | none => exact id
  | some i =>
    rintro ⟨x, pre, post, y, z, w⟩
    exact ⟨x, pre, post, y, fun j hj => (hw j (by rw [y]; simp [hj])).symm.trans (z j hj), w⟩

/-- An application with two labels, the second in a container, and a scrolling container. -/
def demo : T :=
  .node (Builtin.container.item "<Msg>" {})
    [.node (Builtin.verticalScroll.item "<Msg>" { id := some "news" }) [],
     .node (Builtin.container.item "<Msg>" {}) [.node (Builtin.label.item "<Msg>" { id := some "a" }) []],
     .node (Builtin.label.item "<Msg>" { id := some "b" }) []]

example : (∀ i ∈ demo.items, i.ty = (Builtin.label.item "<Msg>" {}).ty → i.any = true) ∧
    (demo.items.filter fun i => decide (i.ty = (Builtin.label.item "<Msg>" {}).ty)).length = 2 := by decide +kernel

example : (∀ i ∈ demo.items, Stock i) ∧
    (demo.queryOneAs (· == ' ') "Label".toList (Builtin.label.item "<Msg>" {}).ty
      (fun i => (i, i.attrs.id))).2 = some (some "a") := by
  refine ⟨?_, by decide +kernel⟩
  have hp : "<Msg>" = "" ∨ ∃ r, "<Msg>".toList = '<' :: r := Or.inr ⟨"Msg>".toList, by decide +kernel⟩
  intro i hi
  simp only [demo, items, itemsIn, List.append_nil, List.cons_append, List.nil_append, List.mem_cons,
    List.not_mem_nil, or_false] at hi
  rcases hi with h | h | h | h | h
  · exact ⟨_, _, _, hp, h⟩
  · exact ⟨_, _, _, hp, h⟩
  · exact ⟨_, _, _, hp, h⟩
  · exact ⟨_, _, _, hp, h⟩
  · exact ⟨_, _, _, hp, h⟩

/-- C186 fails for scrolling containers, grids, rows and columns, `Center`, `Middle` and placeholders: a query for one by
its own type gives nothing, though the query without a type finds it. -/
theorem scroller_counterexample :
    (∀ b ∈ [Builtin.verticalScroll, .horizontalScroll, .scrollableContainer, .grid, .itemGrid, .vertical, .horizontal,
      .center, .middle, .placeholder, .appWidget],
      let root : T := .node (b.item "<Msg>" { id := some "news" }) []
      (root.queryOneAs (· == ' ') "#news".toList (b.item "<Msg>" {}).ty (fun i => (i, ()))).2 = none ∧
      (parseSelector (· == ' ') "#news".toList).matches root.item.attrs = true) := by
  decide +kernel

/-- The documentation of `query_one_as` says: if the selector finds a widget but it is not of the type, `None`. The search
goes on instead: with two widgets of one name it gives the second. -/
theorem goes_on_counterexample :
    let root : T := .node (Builtin.container.item "<Msg>" {})
      [.node (Builtin.label.item "<Msg>" { id := some "x" }) [], .node (Builtin.input.item "<Msg>" { id := some "x" }) []]
    (root.queryOneAs (· == ' ') "#x".toList (Builtin.input.item "<Msg>" {}).ty
      (fun i => (i, i.attrs.typeName))).2 = some "Input" ∧
    (root.items.find? fun i => decide (i.attrs.id = some "x")).map (·.attrs.typeName) = some "Label" := by
  decide +kernel

/-- C186 fails for a widget in a box in a box: it goes by the name `Widget` and is not found by its own. -/
theorem boxed_counterexample :
    let root : T := .node (Builtin.container.item "<Msg>" {}) [.node (Builtin.label.item "<Msg>" {}).boxed []]
    (root.queryOneAs (· == ' ') "Label".toList (Builtin.label.item "<Msg>" {}).ty (fun i => (i, ()))).2 = none ∧
    (root.queryOneAs (· == ' ') "Widget".toList (Builtin.label.item "<Msg>" {}).ty (fun i => (i, ()))).2 = some () := by
  decide +kernel

/-- C186: `screen_mut` gives the screen of the application, whatever the application is made of. -/
theorem screen_is_screen {R : Type} (ws : Char → Bool) (hws : ∀ c, c.isAlpha = true → ws c = false)
    (hh : ws '#' = false) (m : String) (hp : m = "" ∨ ∃ r, m.toList = '<' :: r) (screen : Attrs) (composed : List T)
    (tip : Item) (palette : Option T) (f : Item → Item × R) :
    screenMut ws (appRoot m screen composed tip palette) m f =
      (.node (Builtin.appWidget.item m {})
        ([.node (f (Builtin.screen.item m screen)).1 composed, .node tip []] ++ palette.toList),
       some (f (Builtin.screen.item m screen)).2) := by
  have hsel : ∀ a, (parseSelector ws "Screen".toList).matches a = decide (a.typeName = "Screen") := by
    intro a
    have := (Tree.selector_spec ws hh Builtin.screen.path.2.toList [] [] [] (by simp) (by simp)
      (fun c hc => ⟨hws c ((builtin_letters .screen).2 c hc).1, ((builtin_letters .screen).2 c hc).2⟩) (by simp) a).2.1
      (builtin_letters .screen).1
    simpa [Builtin.path] using this
  have h1 : (parseSelector ws "Screen".toList).matches (Builtin.screen.item m screen).attrs = true := by
    rw [hsel, builtin_name _ m hp]; rfl
  have h2 : (Builtin.appWidget.item m {}).any = false := rfl
  have h3 : applyTyped (parseSelector ws "Screen".toList) (Builtin.screen.item m {}).ty f
      (.node (Builtin.screen.item m screen) composed) =
      (.node (f (Builtin.screen.item m screen)).1 composed, some (f (Builtin.screen.item m screen)).2) := by
    rw [applyTyped, if_pos (by rw [h1]; simp [Builtin.item, Builtin.any])]
  unfold screenMut queryOneAs appRoot
  rw [applyTyped, if_neg (by simp [h2]), List.cons_append, applyTypedIn, h3]
  rfl

/-- An application whose own widgets include another screen. -/
example : (screenMut (· == ' ') (appRoot "<Msg>" { id := some "main" }
      [.node (Builtin.screen.item "<Msg>" { id := some "other" }) []] (Builtin.tooltip.item "<Msg>" {}) none) "<Msg>"
      fun i => (i, i.attrs.id)).2 = some (some "main") := by decide +kernel

/-- C186 fails for `collect_pending_actions`: it is documented to gather the actions of the whole tree, and gathers those
of the root; `collect_pending_actions_mut` gathers them all. -/
theorem pending_counterexample :
    let root : Tree.W := .node .container {} [.node .leaf { action := some "quit" } []]
    (collectPendingActions root).1 = [] ∧ (root.collectActions).1 = ["quit"] := by
  decide +kernel

/-- **C186**, an action gathered by `collect_pending_actions` is gathered once, those of the other widgets stay. -/
theorem pending_once (t : Tree.W) :
    (collectPendingActions (collectPendingActions t).2).1 = [] ∧
    t.collectActions.1 = (collectPendingActions t).1 ++ (collectPendingActions t).2.collectActions.1 := by
  cases t with
  | node k a cs =>
    refine ⟨rfl, ?_⟩
    simp only [collectPendingActions, Tree.W.collectActions]
    rfl

/-- A tree with an action at the root and one below. -/
example : let t : Tree.W := .node .container { action := some "bell" } [.node .leaf { action := some "quit" } []]
    (collectPendingActions t).1 = ["bell"] ∧ (collectPendingActions t).2.collectActions.1 = ["quit"] := by
  decide +kernel

end Textual.Typed
