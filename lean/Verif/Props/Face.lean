import Verif.Model.Face
import Verif.Props.Settings

/-! C180: selectors see a widget as the widget describes itself. -/

namespace Textual.Face

open Textual.Settings

/-- Widgets that keep the focus, and widgets that know of the pointer. -/
def Focusing : Kind → Bool
  | .button | .switch | .input | .optionList | .palette => true
  | _ => false

def Hovering : Kind → Bool
  | .button | .switch | .headerIcon => true
  | _ => false

/-- Widgets whose classes selectors see although the widget says that it has none. -/
def Silent : Kind → Bool
  | .vertical | .horizontal | .verticalScroll | .horizontalScroll | .screen => true
  | _ => false

theorem run_snoc (k : Kind) (l : Live) (as : List Act) (a : Act) : run k l (as ++ [a]) = act k (run k l as) a := by
  simp [run]

theorem meta_focus (k : Kind) (l : Live) : («meta» k l).focus = isFocused k l := by
  cases k <;>
    simp [«meta», isFocused, staticMeta, containerMeta, named, marked, plain, defaultMeta, Restyle.withLayout]

theorem meta_disabled (k : Kind) (l : Live) : («meta» k l).disabled = (ask k l.fields).disabled := by
  cases k <;>
    simp [«meta», ask, askStatic, askContainer, askDefault, staticMeta, containerMeta, named, marked, plain,
      defaultMeta, Restyle.withLayout]

theorem meta_hover (k : Kind) (l : Live) : («meta» k l).hover = (Hovering k && l.hovered) := by
  cases k <;>
    simp [«meta», Hovering, staticMeta, containerMeta, named, marked, plain, defaultMeta, Restyle.withLayout]

theorem meta_active (k : Kind) (l : Live) : («meta» k l).active = (Hovering k && l.active) := by
  cases k <;>
    simp [«meta», Hovering, staticMeta, containerMeta, named, marked, plain, defaultMeta, Restyle.withLayout]

theorem meta_id (k : Kind) (l : Live) : («meta» k l).id = idOf k l := by
  cases k <;>
    simp [«meta», idOf, staticMeta, containerMeta, named, marked, plain, defaultMeta, Restyle.withLayout]

/-- Whatever has happened to a widget, `#name` selects it exactly if its id is that name, `:focus` exactly if it says that
it has the focus, and `:disabled` exactly if it says that it is disabled. -/
theorem selectors_agree (k : Kind) (l : Live) (as : List Act) (ctx : Css.Ctx) (i : String) :
    let w := run k l as
    («meta» k w).matchesSelector ctx (.id i) = (idOf k w == some i) ∧
    («meta» k w).matchesSelector ctx (.pseudo "focus") = isFocused k w ∧
    («meta» k w).matchesSelector ctx (.pseudo "disabled") = (ask k w.fields).disabled := by
  refine ⟨?_, ?_, ?_⟩
  · simp [Css.Widget.matchesSelector, meta_id]
  · simp [Css.Widget.matchesSelector, meta_focus]
  · simp [Css.Widget.matchesSelector, meta_disabled]

example : (let w := run .button { id := some "ok" } [.set (.disabled true), .focus true]
    («meta» .button w).matchesSelector ⟨true, false, false⟩ (.id "ok") = true ∧
    («meta» .button w).matchesSelector ⟨true, false, false⟩ (.pseudo "focus") = true ∧
    («meta» .button w).matchesSelector ⟨true, false, false⟩ (.pseudo "disabled") = true) := by decide

theorem contains_any (cs : List String) (c : String) : cs.contains c = cs.any (· == c) := by
  rw [Bool.eq_iff_iff]
  simp

/-- A widget's classes seen by selectors are the ones it says it has. Not so for the widgets of `class_counterexample`. -/
theorem classes_agree_partial (k : Kind) (hk : Silent k = false) (l : Live) (as : List Act) (ctx : Css.Ctx)
    (c : String) :
    («meta» k (run k l as)).matchesSelector ctx (.cls c) = hasClass k (run k l as).fields c := by
  generalize run k l as = w
  cases k <;> simp only [Silent, Bool.true_eq_false] at hk <;>
    simp only [«meta», hasClass, staticMeta, containerMeta, named, marked, plain, defaultMeta, Restyle.withLayout,
      Css.Widget.matchesSelector, contains_any, List.any_nil]

example : («meta» .label (run .label {} [.set (.addClass "big")])).matchesSelector ⟨true, false, false⟩ (.cls "big")
    = true ∧ hasClass .label (run .label {} [.set (.addClass "big")]).fields "big" = true ∧ Silent .label = false := by
  decide

/-- `Vertical`, `Horizontal`, `VerticalScroll`, `HorizontalScroll` and `Screen` deny having a class by which selectors
find them, whatever happens to them. -/
theorem class_counterexample (k : Kind) (hk : Silent k = true) :
    ∃ l : Live, ∀ (as : List Act) (ctx : Css.Ctx),
      («meta» k (run k l as)).matchesSelector ctx (.cls "panel") = true ∧
      hasClass k (run k l as).fields "panel" = false := by
  refine ⟨{ fields := { classes := ["panel"] }, responsive := ["panel"] }, fun as ctx => ?_⟩
  have keep : ∀ (as : List Act) (l : Live), l.fields.classes = ["panel"] ∧ l.responsive = ["panel"] →
      (run k l as).fields.classes = ["panel"] ∧ (run k l as).responsive = ["panel"] := by
    intro as
    induction as with
    | nil => intro l h; exact h
    | cons a as ih =>
      intro l h
      refine ih (act k l a) ?_
      cases k <;> simp only [Silent, Bool.false_eq_true] at hk <;> cases a <;>
        first
          | exact h
          | (rename_i c
             cases c <;> simpa [act, call, callContainer, callClasses] using h)
  obtain ⟨h1, h2⟩ := keep as { fields := { classes := ["panel"] }, responsive := ["panel"] } ⟨rfl, rfl⟩
  cases k <;> simp only [Silent, Bool.false_eq_true] at hk <;>
    simp [«meta», hasClass, containerMeta, named, plain, Restyle.withLayout, Css.Widget.matchesSelector, h1, h2]

example : Silent .verticalScroll = true := by decide

/-- A widget is selected by the name it gives for its type, and by `Widget`. -/
theorem own_name (k : Kind) (l : Live) (ctx : Css.Ctx) :
    («meta» k l).matchesSelector ctx (.type (typeName k)) = true ∧
    («meta» k l).matchesSelector ctx (.type "Widget") = true := by
  obtain ⟨_, _, _, _, _, ly, _⟩ := l
  cases k <;> cases ly <;> exact ⟨rfl, rfl⟩

/-- Except for a `Container`, the type names by which a widget is selected never change. -/
theorem names_stay_partial (k : Kind) (hk : k ≠ .container) (l : Live) (as : List Act) (ctx : Css.Ctx) (n : String) :
    («meta» k (run k l as)).matchesSelector ctx (.type n) = («meta» k l).matchesSelector ctx (.type n) := by
  generalize run k l as = w
  cases k <;> first | exact absurd rfl hk | rfl

example : (Kind.grid ≠ Kind.container) ∧
    («meta» .grid (run .grid {} [.style .horizontal])).matchesSelector ⟨true, false, false⟩ (.type "Grid") = true := by
  decide

/-- A `Container` is selected by `Vertical` or not depending on the style it has been given last, although its type
name is always `Container`. -/
theorem names_counterexample (l : Live) (as : List Act) (ctx : Css.Ctx) :
    («meta» .container (run .container l (as ++ [.style .vertical]))).matchesSelector ctx (.type "Vertical") = true ∧
    («meta» .container (run .container l (as ++ [.style .horizontal]))).matchesSelector ctx (.type "Vertical") = false := by
  rw [run_snoc, run_snoc]
  exact ⟨rfl, rfl⟩

/-- After the focus has been given to a widget or taken from it, and then anything but that has happened to it, `:focus`
selects it accordingly. -/
theorem focus_follows_partial (k : Kind) (hk : Focusing k = true) (l : Live) (as bs : List Act) (b : Bool)
    (hb : ∀ a ∈ bs, ∀ c, a ≠ .focus c) (ctx : Css.Ctx) :
    («meta» k (run k l (as ++ .focus b :: bs))).matchesSelector ctx (.pseudo "focus") = b := by
  have keep : ∀ (bs : List Act) (w : Live), (∀ a ∈ bs, ∀ c, a ≠ .focus c) → w.focused = b →
      (run k w bs).focused = b := by
    intro bs
    induction bs with
    | nil => intro w _ h; exact h
    | cons a bs ih =>
      intro w ha h
      refine ih (act k w a) (fun x hx => ha x (List.mem_cons_of_mem _ hx)) ?_
      cases a with
      | focus c => exact absurd rfl (ha _ List.mem_cons_self c)
      | _ => cases k <;> simpa [act] using h
  have hrun : run k l (as ++ .focus b :: bs) = run k (act k (run k l as) (.focus b)) bs := by
    simp [run]
  have h := keep bs (act k (run k l as) (.focus b)) hb (by cases k <;> simp_all [Focusing, act])
  rw [← hrun] at h
  simp only [Css.Widget.matchesSelector, meta_focus]
  cases k <;> simp_all [Focusing, isFocused]

example : Focusing .input = true ∧ ∀ a ∈ [Act.set (.loading true), .hover true], ∀ c, a ≠ .focus c := by
  refine ⟨rfl, ?_⟩
  simp

/-- After the pointer has come over a widget or has left it, and then anything but that has happened to it, `:hover`
selects it accordingly. -/
theorem hover_follows_partial (k : Kind) (hk : Hovering k = true) (l : Live) (as bs : List Act) (b : Bool)
    (hb : ∀ a ∈ bs, (∀ c, a ≠ .hover c) ∧ a ≠ .clearHover) (ctx : Css.Ctx) :
    («meta» k (run k l (as ++ .hover b :: bs))).matchesSelector ctx (.pseudo "hover") = b := by
  have keep : ∀ (bs : List Act) (w : Live), (∀ a ∈ bs, (∀ c, a ≠ .hover c) ∧ a ≠ .clearHover) → w.hovered = b →
      (run k w bs).hovered = b := by
    intro bs
    induction bs with
    | nil => intro w _ h; exact h
    | cons a bs ih =>
      intro w ha h
      refine ih (act k w a) (fun x hx => ha x (List.mem_cons_of_mem _ hx)) ?_
      cases a with
      | hover c => exact absurd rfl ((ha _ List.mem_cons_self).1 c)
      | clearHover => exact absurd rfl (ha _ List.mem_cons_self).2
      | _ => cases k <;> simpa [act] using h
  have hrun : run k l (as ++ .hover b :: bs) = run k (act k (run k l as) (.hover b)) bs := by
    simp [run]
  have h := keep bs (act k (run k l as) (.hover b)) hb (by cases k <;> simp_all [Hovering, act])
  rw [← hrun] at h
  simp [Css.Widget.matchesSelector, meta_hover, hk, h]

example : Hovering .switch = true ∧ ∀ a ∈ [Act.active true, .focus true], (∀ c, a ≠ .hover c) ∧ a ≠ .clearHover := by
  refine ⟨rfl, ?_⟩
  simp

/-- `clear_hover` ends `:hover` for good, and `:active` for a `Switch` only. -/
theorem clear_hover_partial (k : Kind) (l : Live) (as : List Act) (ctx : Css.Ctx) :
    («meta» k (run k l (as ++ [.clearHover]))).matchesSelector ctx (.pseudo "hover") = false ∧
    (k = .switch → («meta» k (run k l (as ++ [.clearHover]))).matchesSelector ctx (.pseudo "active") = false) := by
  rw [run_snoc]
  constructor
  · simp only [Css.Widget.matchesSelector, meta_hover]
    cases k <;> simp [Hovering, act]
  · rintro rfl
    simp [Css.Widget.matchesSelector, meta_active, act]

/-- A pressed `Button` or `HeaderIcon` stays `:active` when the pointer leaves it. -/
theorem clear_hover_counterexample (k : Kind) (hk : k = .button ∨ k = .headerIcon) (l : Live) (as : List Act)
    (ctx : Css.Ctx) :
    («meta» k (run k l (as ++ [.active true, .clearHover]))).matchesSelector ctx (.pseudo "active") = true := by
  have : as ++ [Act.active true, .clearHover] = (as ++ [.active true]) ++ [.clearHover] := by simp
  rw [this, run_snoc, run_snoc]
  rcases hk with rfl | rfl <;> rfl

example : («meta» .button (run .button {} [.hover true, .active true, .clearHover])).active = true := by decide

/-- No other widget is ever selected by `:hover` or `:active`, and no widget without focus handling by `:focus`. -/
theorem never_counterexample (k : Kind) (l : Live) (as : List Act) (ctx : Css.Ctx) :
    (Hovering k = false →
      («meta» k (run k l as)).matchesSelector ctx (.pseudo "hover") = false ∧
      («meta» k (run k l as)).matchesSelector ctx (.pseudo "active") = false) ∧
    (Focusing k = false → («meta» k (run k l as)).matchesSelector ctx (.pseudo "focus") = false) := by
  constructor
  · intro h
    simp [Css.Widget.matchesSelector, meta_hover, meta_active, h]
  · intro h
    simp only [Css.Widget.matchesSelector, meta_focus]
    cases k <;> simp_all [Focusing, isFocused]

example : Hovering .input = false ∧ Focusing .container = false := by decide

/-- After `set_disabled` the selector `:disabled` follows the call, for the widgets that can be disabled. -/
theorem disabled_follows_partial (k : Kind) (hk : Works k .disabled = true) (l : Live) (as : List Act) (b : Bool)
    (ctx : Css.Ctx) :
    («meta» k (run k l (as ++ [.set (.disabled b)]))).matchesSelector ctx (.pseudo "disabled") = b := by
  rw [run_snoc]
  simp only [Css.Widget.matchesSelector, meta_disabled]
  cases k <;> simp_all [Works, act, call, callStatic, ask, askStatic]

example : Works .headerIcon .disabled = true := by decide

theorem lastPart_plain : ∀ (cs acc : List Char), ':' ∉ cs → lastPart acc cs = acc.reverse ++ cs
  | [], acc, _ => by simp [lastPart]
  | c :: cs, acc, h => by
    have hc : c ≠ ':' := fun e => h (by simp [e])
    unfold lastPart
    split
    · rename_i heq; exact absurd heq (by simp)
    · rename_i heq; exact absurd (List.cons.inj heq).1 hc
    · rename_i heq
      obtain ⟨rfl, rfl⟩ := List.cons.inj heq
      rw [lastPart_plain cs _ (fun e => h (List.mem_cons_of_mem _ e))]
      simp

theorem lastPart_path (name : List Char) (hn : ':' ∉ name) :
    ∀ (p acc : List Char), p.getLast? ≠ some ':' → lastPart acc (p ++ ':' :: ':' :: name) = name
  | [], acc, _ => by simp [lastPart, lastPart_plain name [] hn]
  | [c], acc, h => by
    have hc : c ≠ ':' := fun e => h (by simp [e])
    show lastPart acc (c :: ':' :: ':' :: name) = name
    unfold lastPart
    split
    · rename_i heq; exact absurd heq (by simp)
    · rename_i heq; exact absurd (List.cons.inj heq).1 hc
    · rename_i heq
      obtain ⟨rfl, rfl⟩ := List.cons.inj heq
      simp [lastPart, lastPart_plain name [] hn]
  | c :: d :: p, acc, h => by
    show lastPart acc (c :: (d :: p ++ ':' :: ':' :: name)) = name
    unfold lastPart
    split
    · rename_i heq; exact absurd heq (by simp)
    · rename_i heq
      obtain ⟨rfl, h2⟩ := List.cons.inj heq
      obtain ⟨rfl, rfl⟩ := List.cons.inj h2
      exact lastPart_path name hn p [] (by
        cases p with
        | nil => simp
        | cons x p => simpa using h)
    · rename_i heq
      obtain ⟨rfl, rfl⟩ := List.cons.inj heq
      exact lastPart_path name hn (d :: p) _ (by simpa using h)

/-- The name of a type given with its path and parameters is the last word before the parameters. -/
theorem simple_name (path name args : List Char) (hp : '<' ∉ path) (hl : path.getLast? ≠ some ':')
    (hn : ∀ c ∈ name, c ≠ '<' ∧ c ≠ ':') :
    simpleName (path ++ ':' :: ':' :: name ++ '<' :: args) = name ∧ simpleName (path ++ ':' :: ':' :: name) = name := by
  have hn' : ':' ∉ name := fun h => (hn _ h).2 rfl
  have hall : ∀ c ∈ path ++ ':' :: ':' :: name, decide (c ≠ '<') = true := by
    intro c hc
    simp only [List.mem_append, List.mem_cons] at hc
    rcases hc with h | h | h | h
    · exact decide_eq_true fun e => hp (e ▸ h)
    · subst h; decide
    · subst h; decide
    · exact decide_eq_true (hn c h).1
  unfold simpleName
  constructor
  · rw [List.takeWhile_append_of_pos hall]
    simpa using lastPart_path name hn' path [] hl
  · have h := List.takeWhile_append_of_pos (l₂ := []) hall
    rw [List.append_nil] at h
    rw [h]
    simpa using lastPart_path name hn' path [] hl

example : simpleName "textual::widget::switch::Switch<M, F>".toList = "Switch".toList := by decide +kernel

/-- A type declared inside a generic implementation is given a name that has nothing to do with it. -/
theorem simple_name_counterexample :
    simpleName "app::<impl Compose for App<M>>::compose::Clock".toList = [] := by decide +kernel

end Textual.Face
