import Verif.Model.Wrap
import Mathlib.Tactic.Common

/-!
C190: a widget made of another one behaves like it.
-/

namespace Textual.Wrap

/-- The methods a default body calls. -/
def uses : Method → List Method
  | .intrinsicHeightForWidth | .contentHeightForScroll | .contentWidthForScroll => [.desiredSize]
  | .getState => [.isFocused, .isDisabled]
  | .getMeta => [.id, .getState]
  | .onMouseWithSender => [.onMouse, .senderInfo]
  | .participatesInLayout => [.isVisible, .getStyle]
  | .countFocusable => [.isFocusable]
  | .clearFocus => [.setFocus]
  | .focusNth => [.isFocusable, .setFocus]
  | .senderInfo => [.id, .typeName]
  | .toggleClass => [.hasClass, .removeClass, .addClass]
  | .setClass => [.addClass, .removeClass]
  | _ => []

/-- A body that calls only some methods. -/
inductive Only (P : Method → Prop) : Prog → Prop
  | ret (v : Value) : Only P (.ret v)
  | call {m : Method} {a : Arg} {k : Value → Prog} (h : P m) (hk : ∀ v, Only P (k v)) : Only P (.call m a k)

theorem default_uses (name : String) (m : Method) (a : Arg) : Only (· ∈ uses m) (default name m a) := by
  cases m <;> try exact .ret _
  case intrinsicHeightForWidth => exact .call (by decide) fun _ => .ret _
  case contentHeightForScroll => exact .call (by decide) fun _ => .ret _
  case contentWidthForScroll => exact .call (by decide) fun _ => .ret _
  case getState => exact .call (by decide) fun _ => .call (by decide) fun _ => .ret _
  case getMeta => exact .call (by decide) fun _ => .call (by decide) fun _ => .ret _
  case onMouseWithSender =>
    refine .call (by decide) fun r => ?_
    split
    · refine .call (by decide) fun s => ?_
      split <;> exact .ret _
    · exact .ret _
  case participatesInLayout =>
    refine .call (by decide) fun r => ?_
    split
    · exact .call (by decide) fun _ => .ret _
    · exact .ret _
  case countFocusable => exact .call (by decide) fun _ => .ret _
  case clearFocus => exact .call (by decide) fun _ => .ret _
  case focusNth =>
    refine .call (by decide) fun r => ?_
    split
    · split
      · exact .call (by decide) fun _ => .ret _
      · exact .ret _
    · exact .ret _
  case senderInfo => exact .call (by decide) fun _ => .call (by decide) fun _ => .ret _
  case toggleClass =>
    refine .call (by decide) fun r => ?_
    split <;> exact .call (by decide) fun _ => .ret _
  case setClass =>
    rcases a with ⟨w, h, f, x, r⟩
    cases f <;> exact .call (by decide) fun _ => .ret _

/-- The default body does not look at the type name. -/
theorem default_name (n n' : String) (m : Method) (h : m ≠ .getMeta ∧ m ≠ .typeName) (a : Arg) : default n m a = default n' m a := by
  cases m <;> first | rfl | exact absurd rfl h.1 | exact absurd rfl h.2

/-- Two ways of calling that go together give runs that go together. -/
theorem exec_sim {S S' : Type} (R : S → S' → Prop) (c : Method → Arg → S → S × Value) (c' : Method → Arg → S' → S' × Value)
    (P : Method → Prop) (h : ∀ m, P m → ∀ a s s', R s s' → R (c m a s).1 (c' m a s').1 ∧ (c m a s).2 = (c' m a s').2)
    (p : Prog) (hp : Only P p) (s : S) (s' : S') (hr : R s s') :
    R (exec c p s).1 (exec c' p s').1 ∧ (exec c p s).2 = (exec c' p s').2 := by
  induction hp generalizing s s' with
  | ret v => exact ⟨hr, rfl⟩
  | call hm hk ih =>
    obtain ⟨h1, h2⟩ := h _ hm _ s s' hr
    unfold exec
    rw [h2]
    exact ih _ _ _ h1

/-- How deep a default body goes. -/
def depth (m : Method) : Nat :=
  if uses m = [] then 0 else if (uses m).all fun u => uses u = [] then 1 else 2

theorem depth_uses : ∀ m, ∀ u ∈ uses m, depth u < depth m ∧ depth m ≤ 2 := by
  intro m
  cases m <;> decide

theorem depth_le (m : Method) : depth m ≤ 2 := by cases m <;> decide

theorem step_congr {S : Type} (i : Impl S) (c c' : Method → Arg → S → S × Value) (m : Method)
    (h : ∀ u ∈ uses m, c u = c' u) : step i c m = step i c' m := by
  funext a s
  unfold step
  split
  · rfl
  · obtain ⟨h1, h2⟩ := exec_sim (· = ·) c c' (· ∈ uses m) (fun u hu a s s' e => by rw [h u hu, e]; exact ⟨rfl, rfl⟩)
      _ (default_uses i.name m a) s s rfl
    exact Prod.ext h1 h2

/-- The model is faithful to calls of any depth: a method is the widget's own, or the default body with its calls again
calls of the widget. -/
theorem call_eq {S : Type} (i : Impl S) : i.call = step i i.call := by
  have k0 : ∀ (c c' : Method → Arg → S → S × Value) (m : Method), depth m ≤ 0 → step i c m = step i c' m :=
    fun c c' m h => step_congr i c c' m fun u hu => absurd (depth_uses m u hu).1 (by omega)
  have k1 : ∀ (c c' : Method → Arg → S → S × Value) (m : Method), depth m ≤ 1 → step i (step i c) m = step i (step i c') m :=
    fun c c' m h => step_congr i _ _ m fun u hu => k0 c c' u (by have := (depth_uses m u hu).1; omega)
  funext m
  exact step_congr i _ _ m fun u hu => k1 _ _ u (by have := (depth_uses m u hu).1; have := depth_le m; omega)

/-! ### What a wrapper does like the widget inside -/

/-- From the tables: the wrapper does the same as the inner widget. -/
def agrees (own forwards reads : List Method) : Nat → Method → Bool
  | 0, m => m ∈ forwards || (m ∉ reads && m ∉ own && uses m = [] && m ≠ .getMeta && m ≠ .typeName)
  | n + 1, m => m ∈ forwards || (m ∉ reads && m ∉ own && m ≠ .getMeta && m ≠ .typeName &&
      (uses m).all (agrees own forwards reads n))

/-- From the tables: the wrapper does nothing with this call; `still` are calls that change nothing in the inner
widget. -/
def quiet (forwards reads still : List Method) : Nat → Method → Bool
  | 0, m => if m ∈ forwards then m ∈ still else m ∈ reads || uses m = []
  | n + 1, m => if m ∈ forwards then m ∈ still else m ∈ reads || (uses m).all (quiet forwards reads still n)

variable {S T : Type}

/-- The inner widget implements the methods of the table. -/
def Implements (i : Impl S) (own : List Method) : Prop := ∀ m, (i.own m).isSome ↔ m ∈ own

/-- The wrapper answers the calls of the table itself. -/
def Answers (reads : Method → Option (Arg → S × T → Value)) (table : List Method) : Prop := ∀ m, (reads m).isSome ↔ m ∈ table

/-- Calls that change nothing in a widget. -/
def Still (i : Impl S) (still : List Method) : Prop := ∀ m ∈ still, ∀ a s, (i.call m a s).1 = s

variable {inner : Impl S} {name : String} {own forwards table still : List Method} {reads : Method → Option (Arg → S × T → Value)}

theorem call_forward {m : Method} (h : m ∈ forwards) (a : Arg) (st : S × T) :
    (wrap inner name forwards reads).call m a st = (((inner.call m a st.1).1, st.2), (inner.call m a st.1).2) := by
  rw [call_eq]
  unfold step
  have : (wrap inner name forwards reads).own m = some fun a st => (((inner.call m a st.1).1, st.2), (inner.call m a st.1).2) :=
    if_pos h
  rw [this]

theorem call_read (ht : Answers reads table) {m : Method} (h : m ∉ forwards) (h' : m ∈ table) (a : Arg) (st : S × T) :
    ((wrap inner name forwards reads).call m a st).1 = st := by
  obtain ⟨f, hf⟩ := Option.isSome_iff_exists.1 ((ht m).2 h')
  rw [call_eq]
  unfold step
  have : (wrap inner name forwards reads).own m = some fun a st => (st, f a st) := by
    unfold wrap
    dsimp only
    rw [if_neg h, hf]
    rfl
  rw [this]

theorem call_default (ht : Answers reads table) {m : Method} (h : m ∉ forwards) (h' : m ∉ table) (a : Arg) (st : S × T) :
    (wrap inner name forwards reads).call m a st =
      exec (wrap inner name forwards reads).call (default name m a) st := by
  have hn : reads m = none := by
    cases e : reads m with
    | none => rfl
    | some f => exact absurd ((ht m).1 (by rw [e]; rfl)) h'
  conv => lhs; rw [call_eq]
  unfold step
  have : (wrap inner name forwards reads).own m = none := by
    unfold wrap
    dsimp only
    rw [if_neg h, hn]
    rfl
  rw [this]
  rfl

theorem inner_default (ho : Implements inner own) {m : Method} (h : m ∉ own) (a : Arg) (s : S) :
    inner.call m a s = exec inner.call (default inner.name m a) s := by
  conv => lhs; rw [call_eq]
  unfold step
  have : inner.own m = none := by
    cases e : inner.own m with
    | none => rfl
    | some f => exact absurd ((ho m).1 (by rw [e]; rfl)) h
  rw [this]

theorem agree_call (ho : Implements inner own) (ht : Answers reads table) (n : Nat) (m : Method)
    (h : agrees own forwards table n m = true) (a : Arg) (s : S) (t : T) :
    ((wrap inner name forwards reads).call m a (s, t)).1 = ((inner.call m a s).1, t) ∧
      ((wrap inner name forwards reads).call m a (s, t)).2 = (inner.call m a s).2 := by
  have plain : ∀ m a, m ∉ forwards → m ∉ table → m ∉ own → m ≠ .getMeta → m ≠ .typeName → ∀ P : Method → Prop,
      (∀ u ∈ uses m, P u) → (∀ u, P u → ∀ a s, ((wrap inner name forwards reads).call u a (s, t)).1 = ((inner.call u a s).1, t) ∧
        ((wrap inner name forwards reads).call u a (s, t)).2 = (inner.call u a s).2) → ∀ s,
      ((wrap inner name forwards reads).call m a (s, t)).1 = ((inner.call m a s).1, t) ∧
        ((wrap inner name forwards reads).call m a (s, t)).2 = (inner.call m a s).2 := by
    intro m a h1 h2 h3 h4 h5 P hu hP s
    rw [call_default ht h1 h2, inner_default ho h3, default_name inner.name name m ⟨h4, h5⟩ a]
    exact exec_sim (fun x y => x = (y, t)) _ _ P
      (fun u hpu a x y e => by subst e; exact hP u hpu a y) _
      (by
        have := default_uses name m a
        generalize default name m a = p at this
        induction this with
        | ret v => exact .ret v
        | call hm _ ih => exact .call (hu _ hm) ih) _ _ rfl
  induction n generalizing m a s with
  | zero =>
    unfold agrees at h
    by_cases hf : m ∈ forwards
    · rw [call_forward hf]; exact ⟨rfl, rfl⟩
    · simp only [hf, decide_false, Bool.false_or, Bool.and_eq_true, decide_eq_true_eq] at h
      obtain ⟨⟨⟨⟨h1, h2⟩, h3⟩, h4⟩, h5⟩ := h
      exact plain m a hf h1 h2 h4 h5 (fun _ => False) (by rw [h3]; intro u hu; cases hu) (fun u hu => hu.elim) s
  | succ n ih =>
    unfold agrees at h
    by_cases hf : m ∈ forwards
    · rw [call_forward hf]; exact ⟨rfl, rfl⟩
    · simp only [hf, decide_false, Bool.false_or, Bool.and_eq_true, decide_eq_true_eq, List.all_eq_true] at h
      obtain ⟨⟨⟨⟨h1, h2⟩, h4⟩, h5⟩, h3⟩ := h
      exact plain m a hf h1 h2 h4 h5 (agrees own forwards table n · = true) h3 (fun u hu a s => ih u hu a s) s

theorem quiet_call (ht : Answers reads table) (hs : Still inner still) (n : Nat) (m : Method)
    (h : quiet forwards table still n m = true) (a : Arg) (st : S × T) :
    ((wrap inner name forwards reads).call m a st).1 = st := by
  have plain : ∀ m a, m ∉ forwards → m ∉ table → (∀ u ∈ uses m, ∀ a st, ((wrap inner name forwards reads).call u a st).1 = st) →
      ∀ st, ((wrap inner name forwards reads).call m a st).1 = st := by
    intro m a h1 h2 hu st
    rw [call_default ht h1 h2]
    have := default_uses name m a
    generalize default name m a = p at this
    induction this generalizing st with
    | ret v => rfl
    | call hm _ ih =>
      unfold exec
      rw [hu _ hm]
      exact ih _ _
  have fwd : ∀ m a, m ∈ forwards → m ∈ still → ∀ st, ((wrap inner name forwards reads).call m a st).1 = st := by
    intro m a hf hm st
    rw [call_forward hf]
    exact Prod.ext (hs m hm a st.1) rfl
  induction n generalizing m a st with
  | zero =>
    unfold quiet at h
    by_cases hf : m ∈ forwards
    · rw [if_pos hf] at h
      exact fwd m a hf (of_decide_eq_true h) st
    · rw [if_neg hf] at h
      by_cases hr : m ∈ table
      · exact call_read ht hf hr a st
      · simp only [hr, decide_false, Bool.false_or, decide_eq_true_eq] at h
        exact plain m a hf hr (by rw [h]; intro u hu; cases hu) st
  | succ n ih =>
    unfold quiet at h
    by_cases hf : m ∈ forwards
    · rw [if_pos hf] at h
      exact fwd m a hf (of_decide_eq_true h) st
    · rw [if_neg hf] at h
      by_cases hr : m ∈ table
      · exact call_read ht hf hr a st
      · simp only [hr, decide_false, Bool.false_or, List.all_eq_true] at h
        exact plain m a hf hr (fun u hu a st => ih u (h u hu) a st) st

/-- Handling the mouse with the default body changes what handling the mouse changes. -/
theorem mouse_call (ht : Answers reads table) (h1 : Method.onMouseWithSender ∉ forwards) (h2 : Method.onMouseWithSender ∉ table)
    (h3 : Method.onMouse ∈ forwards) (hs : Still inner still) (hq : quiet forwards table still 2 .senderInfo = true) (a : Arg) (s : S) (t : T) :
    ((wrap inner name forwards reads).call .onMouseWithSender a (s, t)).1 = ((inner.call .onMouse a s).1, t) := by
  rw [call_default ht h1 h2]
  have e : ((wrap inner name forwards reads).call .onMouse a (s, t)).1 = ((inner.call .onMouse a s).1, t) := by
    rw [call_forward h3]
  rw [← e]
  unfold default exec
  dsimp only
  split
  · unfold exec
    rw [quiet_call ht hs 2 .senderInfo hq]
    dsimp only
    split <;> rfl
  · rfl

/-- What of a call reaches the inner widget, if the calls in `differs` are answered otherwise: nothing, or the mouse
event. -/
def passed (differs : List Method) (c : Method × Arg) : List (Method × Arg) :=
  if c.1 ∈ differs then if c.1 = .onMouseWithSender then [(.onMouse, c.2)] else [] else [c]

/-- The tables fit together: all methods but those of `differs` agree, and those change nothing, but for the mouse. -/
def Fits (own forwards table still differs : List Method) : Prop :=
  ∀ m : Method, if m ∈ differs then
      if m = .onMouseWithSender then m ∉ forwards ∧ m ∉ table ∧ Method.onMouse ∈ forwards ∧ quiet forwards table still 2 .senderInfo = true
      else quiet forwards table still 2 m = true
    else agrees own forwards table 2 m = true

/-- **C190**: for all calls made before, a wrapper answers as the inner widget would that got the calls passed on to it,
and what is inside it is that widget. -/
theorem behaves (hfit : Fits own forwards table still differs) (ho : Implements inner own) (ht : Answers reads table)
    (hs : Still inner still) (before : List (Method × Arg)) (s : S) (t : T) :
    (wrap inner name forwards reads).after before (s, t) = (inner.after (before.flatMap (passed differs)) s, t) ∧
    ∀ c : Method × Arg, c.1 ∉ differs →
      ((wrap inner name forwards reads).call c.1 c.2 ((wrap inner name forwards reads).after before (s, t))).2 =
        (inner.call c.1 c.2 (inner.after (before.flatMap (passed differs)) s)).2 := by
  have st : (wrap inner name forwards reads).after before (s, t) = (inner.after (before.flatMap (passed differs)) s, t) := by
    induction before generalizing s with
    | nil => rfl
    | cons c cs ih =>
      rw [List.flatMap_cons]
      unfold Impl.after at ih ⊢
      rw [List.foldl_cons, List.foldl_append]
      have : ((wrap inner name forwards reads).call c.1 c.2 (s, t)).1 =
          (List.foldl (fun s c => (inner.call c.1 c.2 s).1) s (passed differs c), t) := by
        have := hfit c.1
        unfold passed
        by_cases hd : c.1 ∈ differs
        · rw [if_pos hd] at this ⊢
          by_cases hm : c.1 = .onMouseWithSender
          · rw [if_pos hm] at this ⊢
            rw [hm] at this ⊢
            obtain ⟨g1, g2, g3, g4⟩ := this
            exact mouse_call ht g1 g2 g3 hs g4 c.2 s t
          · rw [if_neg hm] at this ⊢
            exact quiet_call ht hs 2 c.1 this c.2 (s, t)
        · rw [if_neg hd] at this ⊢
          exact (agree_call ho ht 2 c.1 this c.2 s t).1
      rw [this]
      exact ih _
  refine ⟨st, fun c hc => ?_⟩
  have := hfit c.1
  rw [if_neg hc] at this
  rw [st]
  exact (agree_call ho ht 2 c.1 this c.2 _ t).2

/-! ### The widgets -/

instance (own forwards table still differs : List Method) (m : Method) : Decidable (if m ∈ differs then
      if m = .onMouseWithSender then m ∉ forwards ∧ m ∉ table ∧ Method.onMouse ∈ forwards ∧ quiet forwards table still 2 .senderInfo = true
      else quiet forwards table still 2 m = true
    else agrees own forwards table 2 m = true) := by
  split
  · split <;> infer_instance
  · infer_instance

/-- Questions that change nothing. -/
def questions : List Method := [.id, .desiredSize, .isFocusable]

/-- The behaviour of a wrapper, `differs` being the calls it answers otherwise; of those nothing but the mouse reaches
the inner widget. -/
def Like (own forwards table differs : List Method) (name : String) : Prop :=
  ∀ (S T : Type) (inner : Impl S) (reads : Method → Option (Arg → S × T → Value)),
    Implements inner own → Answers reads table → Still inner questions → ∀ (before : List (Method × Arg)) (s : S) (t : T),
    (wrap inner name forwards reads).after before (s, t) = (inner.after (before.flatMap (passed differs)) s, t) ∧
    ∀ c : Method × Arg, c.1 ∉ differs →
      ((wrap inner name forwards reads).call c.1 c.2 ((wrap inner name forwards reads).after before (s, t))).2 =
        (inner.call c.1 c.2 (inner.after (before.flatMap (passed differs)) s)).2

/-- **C190**: a `Label` behaves like a `Static` but for its names and for tooltips. -/
theorem label_like_partial : Like staticOwn labelForwards labelReads
    [.getMeta, .defaultCss, .typeName, .senderInfo, .onMouseWithSender, .asAny, .asAnyMut, .tooltip, .setTooltip] "Label" :=
  fun _ _ _ _ ho ht hs => behaves (by unfold Fits; intro m; cases m <;> decide) ho ht hs

/-- **C190**: the title of a header behaves like a `Static` but for its names, tooltips, border titles, links and the mouse
leaving. -/
theorem header_title_like_partial : Like staticOwn headerTitleForwards headerTitleReads
    [.getMeta, .defaultCss, .typeName, .senderInfo, .onMouseWithSender, .asAny, .asAnyMut, .tooltip, .setTooltip,
     .clearHover, .takePendingAction, .setBorderTitle, .setBorderSubtitle, .borderTitle, .borderSubtitle] "HeaderTitle" :=
  fun _ _ _ _ ho ht hs => behaves (by unfold Fits; intro m; cases m <;> decide) ho ht hs

/-- **C190**: the space for the clock. -/
theorem header_clock_like_partial : Like staticOwn headerClockForwards headerClockReads
    [.getMeta, .defaultCss, .typeName, .senderInfo, .onMouseWithSender, .asAny, .asAnyMut, .tooltip, .setTooltip,
     .clearHover, .takePendingAction, .setBorderTitle, .setBorderSubtitle, .borderTitle, .borderSubtitle,
     .intrinsicHeightForWidth] "HeaderClockSpace" :=
  fun _ _ _ _ ho ht hs => behaves (by unfold Fits; intro m; cases m <;> decide) ho ht hs

/-- **C190**: the icon of the palette. -/
theorem search_icon_like_partial : Like staticOwn searchIconForwards searchIconReads
    [.getMeta, .defaultCss, .typeName, .senderInfo, .asAny, .asAnyMut, .tooltip, .setTooltip,
     .clearHover, .setBorderTitle, .setBorderSubtitle, .borderTitle, .borderSubtitle, .intrinsicHeightForWidth] "SearchIcon" :=
  fun _ _ _ _ ho ht hs => behaves (by unfold Fits; intro m; cases m <;> decide) ho ht hs

/-- **C190**: a `Header` behaves like the container in it but for its names, border titles, the number of its children, the
focus, the mouse leaving, preparation of the layout and scrolling. -/
theorem header_like_partial : Like containerOwn headerForwards headerReads
    [.getMeta, .defaultCss, .typeName, .senderInfo, .asAny, .asAnyMut, .setBorderTitle, .setBorderSubtitle, .borderTitle,
     .borderSubtitle, .childCount, .getChildMut, .countFocusable, .clearFocus, .focusNth, .clearHover, .preLayout,
     .contentHeightForScroll, .contentWidthForScroll] "Header" :=
  fun _ _ _ _ ho ht hs => behaves (by unfold Fits; intro m; cases m <;> decide) ho ht hs

/-- **C190**: a `VerticalScroll` behaves like a `ScrollableContainer` but for its names, its id and its classes. -/
theorem vertical_scroll_like_partial : Like scrollerOwn verticalScrollForwards verticalScrollReads
    [.getMeta, .defaultCss, .typeName, .senderInfo, .id, .addClass, .removeClass, .toggleClass, .hasClass, .setClass,
     .setClasses, .classes] "VerticalScroll" :=
  fun _ _ _ _ ho ht hs => behaves (by unfold Fits; intro m; cases m <;> decide) ho ht hs

/-- **C190**: a `HorizontalScroll` behaves like a `ScrollableContainer` but for its names, its id and its classes. -/
theorem horizontal_scroll_like_partial : Like scrollerOwn horizontalScrollForwards horizontalScrollReads
    [.getMeta, .defaultCss, .typeName, .senderInfo, .id, .addClass, .removeClass, .toggleClass, .hasClass, .setClass,
     .setClasses, .classes] "HorizontalScroll" :=
  fun _ _ _ _ ho ht hs => behaves (by unfold Fits; intro m; cases m <;> decide) ho ht hs

/-- **C190**: the input of the palette behaves like an `Input` but for its names and its height for a width. -/
theorem command_input_like_partial : Like inputOwn commandInputForwards commandInputReads
    [.getMeta, .defaultCss, .typeName, .senderInfo, .asAny, .asAnyMut, .intrinsicHeightForWidth] "CommandInput" :=
  fun _ _ _ _ ho ht hs => behaves (by unfold Fits; intro m; cases m <;> decide) ho ht hs

/-- **C190**: the list of the palette behaves like an `OptionList` but for its names, its height for a width and the focus,
which it refuses. -/
theorem command_list_like_partial : Like optionListOwn commandListForwards commandListReads
    [.getMeta, .defaultCss, .typeName, .asAny, .asAnyMut, .intrinsicHeightForWidth, .senderInfo, .setFocus, .isFocused,
     .isFocusable, .countFocusable, .clearFocus, .focusNth] "CommandList" :=
  fun _ _ _ _ ho ht hs => behaves (by unfold Fits; intro m; cases m <;> decide) ho ht hs

/-! ### A case -/

/-- A widget with a tooltip, a clicked link and classes, of the methods given. -/
def sample (own : List Method) : Impl (Option String × Option String × List String) where
  name := "Static"
  own m := if m ∈ own then some (match m with
    | .setTooltip => fun a s => ((some a.text, s.2), .unit)
    | .tooltip => fun _ s => (s, .text s.1)
    | .onMouse => fun a s => ((s.1, some a.text, s.2.2), .msg none)
    | .takePendingAction => fun _ s => ((s.1, none, s.2.2), .text s.2.1)
    | .addClass => fun a s => ((s.1, s.2.1, a.text :: s.2.2), .unit)
    | .hasClass => fun a s => (s, .flag (a.text ∈ s.2.2))
    | .childCount => fun _ s => (s, .count 3)
    | .desiredSize => fun _ s => (s, .size 5 1)
    | .intrinsicHeightForWidth => fun a s => (s, .count (5 / a.width + 1))
    | _ => fun _ s => (s, .unit)) else none

/-- A wrapper that answers questions about itself. -/
def answer (table : List Method) (m : Method) : Option (Arg → (Option String × Option String × List String) × Unit → Value) :=
  if m ∈ table then some fun _ _ => .other 7 else none

theorem sample_own (own : List Method) : Implements (sample own) own := by
  intro m
  unfold sample
  dsimp only
  split <;> simp [*]

theorem sample_answers (table : List Method) : Answers (answer table) table := by
  intro m
  unfold answer
  split <;> simp [*]

theorem sample_still : Still (sample staticOwn) questions := by
  intro m hm a s
  simp only [questions, List.mem_cons, List.not_mem_nil, or_false] at hm
  rcases hm with rfl | rfl | rfl <;> rfl

/-- A label with a link that was clicked and a class toggled answers as the static would. -/
example : let l := wrap (sample staticOwn) "Label" labelForwards (answer labelReads)
    let calls : List (Method × Arg) := [(.onMouseWithSender, { text := "app.quit" }), (.toggleClass, { text := "big" })]
    (l.call .takePendingAction {} (l.after calls ((none, none, []), ()))).2 = .text (some "app.quit") ∧
    (l.call .hasClass { text := "big" } (l.after calls ((none, none, []), ()))).2 = .flag true := by
  intro l calls
  have := (label_like_partial _ _ _ _ (sample_own _) (sample_answers _) sample_still calls (none, none, []) ()).2
  exact ⟨this (.takePendingAction, {}) (by decide), this (.hasClass, { text := "big" }) (by decide)⟩

/-- **C190** fails for tooltips of labels: they are lost. -/
theorem label_tooltip_counterexample : let l := wrap (sample staticOwn) "Label" labelForwards (answer labelReads)
    let s := sample staticOwn
    let calls : List (Method × Arg) := [(.setTooltip, { text := "Help" })]
    (s.call .tooltip {} (s.after calls (none, none, []))).2 = .text (some "Help") ∧
    (l.call .tooltip {} (l.after calls ((none, none, []), ()))).2 = .text none := by decide

/-- **C190** fails for links in the title of a header: the action is never taken. -/
theorem title_link_counterexample : let l := wrap (sample staticOwn) "HeaderTitle" headerTitleForwards (answer headerTitleReads)
    let s := sample staticOwn
    let calls : List (Method × Arg) := [(.onMouse, { text := "app.quit" })]
    (s.call .takePendingAction {} (s.after calls (none, none, []))).2 = .text (some "app.quit") ∧
    (l.call .takePendingAction {} (l.after calls ((none, none, []), ()))).2 = .text none := by decide

/-- **C190** fails for the children of a header: it says it has none. -/
theorem header_children_counterexample : let l := wrap (sample containerOwn) "Header" headerForwards (answer headerReads)
    ((sample containerOwn).call .childCount {} (none, none, [])).2 = .count 3 ∧
    (l.call .childCount {} ((none, none, []), ())).2 = .count 0 := by decide

/-- **C190** fails for the classes of a scroll: a class that is added is lost. -/
theorem scroll_class_counterexample :
    let l := wrap (sample scrollerOwn) "VerticalScroll" verticalScrollForwards (answer verticalScrollReads)
    let s := sample scrollerOwn
    let calls : List (Method × Arg) := [(.addClass, { text := "big" })]
    (s.call .hasClass { text := "big" } (s.after calls (none, none, []))).2 = .flag true ∧
    (l.call .hasClass { text := "big" } (l.after calls ((none, none, []), ()))).2 = .flag false := by decide

/-- **C190** fails for the heights of the input, the icon and the list of the palette and of the clock: lines that wrap are
not counted. -/
theorem height_counterexample :
    let l := wrap (sample optionListOwn) "CommandList" commandListForwards (answer commandListReads)
    ((sample optionListOwn).call .intrinsicHeightForWidth { width := 3 } (none, none, [])).2 = .count 2 ∧
    (l.call .intrinsicHeightForWidth { width := 3 } ((none, none, []), ())).2 = .count 1 := by decide

end Textual.Wrap
