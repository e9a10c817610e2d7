import Verif.Model.Keys
import Verif.Props.Input
import Mathlib.Tactic.Common

/-!
C194: a key press is handled once by the widget with the focus and then once by the program; typing into an
input types, and nothing else.
-/

namespace Textual.Keys

variable {σ μ τ : Type}

/-! ### Specification -/

/-- The key events of a history that are not the shortcut of the palette. -/
def plain (p : Prog σ μ) (es : List Event) : List Event := es.filter fun e => !p.shortcut ⟨e.code, e.mods⟩

/-- The keys the widgets got, in order. -/
def widgetKeys (ds : List Did) : List Binding.Key :=
  ds.filterMap fun d => match d with | .widget k => some k | _ => none

/-- The keys the program got, in order. -/
def programKeys (ds : List Did) : List Binding.Key :=
  ds.filterMap fun d => match d with | .program k => some k | _ => none

/-! ### One key -/

theorem moveFocus_keys (p : Prog σ μ) (o : Bool) (k : Binding.Key) (s : σ) :
    widgetKeys (moveFocus p o k s).2 = [] ∧ programKeys (moveFocus p o k s).2 = [] := by
  have key : (moveFocus p o k s).2 = [] ∨ (moveFocus p o k s).2 = [.moved] := by
    unfold moveFocus
    split
    · split
      · exact .inl rfl
      · split
        · exact .inr rfl
        · exact .inl rfl
    · split
      · exact .inl rfl
      · split
        · exact .inr rfl
        · exact .inl rfl
    · exact .inl rfl
  rcases key with h | h <;> rw [h] <;> exact ⟨rfl, rfl⟩

theorem toWidget_keys (p : Prog σ μ) (k : Binding.Key) (s : σ) :
    widgetKeys (toWidget p k s).2 = [k] ∧ programKeys (toWidget p k s).2 = [] := by
  unfold toWidget
  split <;> exact ⟨rfl, rfl⟩

theorem toProgram_keys (p : Prog σ μ) (o : Bool) (k : Binding.Key) (s : σ) :
    widgetKeys (toProgram p o k s).2 = [] ∧ programKeys (toProgram p o k s).2 = if o then [] else [k] := by
  unfold toProgram
  cases o <;> exact ⟨rfl, rfl⟩

theorem toActions_keys (p : Prog σ μ) (s : σ) :
    widgetKeys (toActions p s).2 = [] ∧ programKeys (toActions p s).2 = [] := by
  unfold toActions
  simp only
  generalize (p.actions s).2 = as
  induction as with
  | nil => exact ⟨rfl, rfl⟩
  | cons a as ih => exact ih

theorem widgetKeys_append (a b : List Did) : widgetKeys (a ++ b) = widgetKeys a ++ widgetKeys b :=
  List.filterMap_append

theorem programKeys_append (a b : List Did) : programKeys (a ++ b) = programKeys a ++ programKeys b :=
  List.filterMap_append

/-- C194, one key: the shortcut goes to neither; every other key goes to the focused widget once, and to the
program once unless the palette was open when it was pressed. -/
theorem key_once (p : Prog σ μ) (e : Event) (s : σ) :
    widgetKeys (key p e s).2 = (if p.shortcut ⟨e.code, e.mods⟩ then [] else [e.code]) ∧
    programKeys (key p e s).2 =
      (if p.shortcut ⟨e.code, e.mods⟩ ∨ p.paletteOpen s = true then [] else [e.code]) := by
  unfold key
  by_cases hs : p.shortcut ⟨e.code, e.mods⟩ = true
  · simp only [hs, if_true, true_or]
    exact ⟨rfl, rfl⟩
  · simp only [hs, false_or, if_false, Bool.false_eq_true]
    simp only [widgetKeys_append, programKeys_append]
    simp only [(moveFocus_keys _ _ _ _).1, (moveFocus_keys _ _ _ _).2, (toWidget_keys _ _ _).1, (toWidget_keys _ _ _).2,
      (toProgram_keys _ _ _ _).1, (toProgram_keys _ _ _ _).2, (toActions_keys _ _).1, (toActions_keys _ _).2]
    simp

/-- C194, order: the widget gets a key before the program does. -/
theorem widget_first (p : Prog σ μ) (e : Event) (s : σ) (k : Binding.Key) (a b : List Did)
    (h : (key p e s).2 = a ++ .program k :: b) : k = e.code ∧ .widget k ∈ a := by
  have hk : k = e.code ∧ p.shortcut ⟨e.code, e.mods⟩ = false := by
    have := (key_once p e s).2
    rw [h, programKeys_append] at this
    have hm : k ∈ programKeys a ++ programKeys (.program k :: b) :=
      List.mem_append_right _ (by simp [programKeys])
    rw [this] at hm
    split at hm
    · cases hm
    · rename_i hn
      refine ⟨List.mem_singleton.1 hm, ?_⟩
      cases hq : p.shortcut ⟨e.code, e.mods⟩ with
      | false => rfl
      | true => exact absurd (.inl hq) hn
  refine ⟨hk.1, ?_⟩
  unfold key at h
  simp only [hk.2] at h
  simp only [Bool.false_eq_true, if_false] at h
  -- the trace is moves, widget, program, actions
  generalize hd1 : moveFocus p (p.paletteOpen s) e.code s = r1 at h
  obtain ⟨s1, d1⟩ := r1
  simp only at h
  generalize hd2 : toWidget p e.code s1 = r2 at h
  obtain ⟨s2, d2⟩ := r2
  simp only at h
  have hw : Did.widget e.code ∈ d2 ∧ (∀ q, Did.program q ∉ d2) ∧ (∀ q, Did.program q ∉ d1) := by
    have h1 := moveFocus_keys p (p.paletteOpen s) e.code s
    have h2 := toWidget_keys p e.code s1
    rw [hd1] at h1
    rw [hd2] at h2
    refine ⟨?_, ?_, ?_⟩
    · have : e.code ∈ widgetKeys d2 := by rw [h2.1]; exact List.mem_singleton_self _
      simp only [widgetKeys, List.mem_filterMap] at this
      obtain ⟨d, hd, he⟩ := this
      cases d <;> simp at he
      subst he; exact hd
    · intro q hq
      have : q ∈ programKeys d2 := List.mem_filterMap.2 ⟨_, hq, rfl⟩
      rw [h2.2] at this; cases this
    · intro q hq
      have : q ∈ programKeys d1 := List.mem_filterMap.2 ⟨_, hq, rfl⟩
      rw [h1.2] at this; cases this
  rw [List.append_assoc] at h
  generalize (toProgram p (p.paletteOpen s) e.code s2).2 ++ _ = rest at h
  have hpre : d1 ++ d2 <+: a := by
    have h1 : d1 ++ d2 <+: a ++ .program k :: b := ⟨rest, h⟩
    have h2 : a <+: a ++ .program k :: b := List.prefix_append _ _
    rcases List.prefix_or_prefix_of_prefix h1 h2 with hh | hh
    · exact hh
    · obtain ⟨t, ht⟩ := hh
      cases t with
      | nil => rw [List.append_nil] at ht; rw [ht]
      | cons x t =>
        exfalso
        rw [← ht, List.append_assoc] at h
        have := List.append_cancel_left h
        simp only [List.cons_append, List.cons.injEq] at this
        have hx : Did.program k ∈ d1 ++ d2 := by rw [← ht, ← this.1]; simp
        rcases List.mem_append.1 hx with hx | hx
        · exact hw.2.2 _ hx
        · exact hw.2.1 _ hx
  rw [hk.1]
  exact hpre.subset (List.mem_append_right _ hw.1)

/-! ### Histories -/

/-- C194: the keys the widgets get in a history, as long as the program does not quit, are the keys pressed,
once each and in order, without the shortcut. -/
theorem widget_keys (p : Prog σ μ) (es : List Event) (s : σ) :
    widgetKeys (keys p (fun _ => false) es s).2 = (plain p es).map (·.code) := by
  induction es generalizing s with
  | nil => rfl
  | cons e es ih =>
    simp only [keys, Bool.false_eq_true, if_false, widgetKeys_append, (key_once p e s).1, ih]
    by_cases hs : p.shortcut ⟨e.code, e.mods⟩ = true
    · simp [plain, hs]
    · simp [plain, hs]

/-- C194: and so are the keys the program gets if the palette never is open. -/
theorem program_keys (p : Prog σ μ) (ho : ∀ s, p.paletteOpen s = false) (es : List Event) (s : σ) :
    programKeys (keys p (fun _ => false) es s).2 = (plain p es).map (·.code) := by
  induction es generalizing s with
  | nil => rfl
  | cons e es ih =>
    simp only [keys, Bool.false_eq_true, if_false, programKeys_append, (key_once p e s).2, ih, ho]
    by_cases hs : p.shortcut ⟨e.code, e.mods⟩ = true
    · simp [plain, hs]
    · simp [plain, hs]

theorem default_quit (p : Prog τ μ) (e : Event) (s : Bool × τ) :
    (key (default p) e s).1.1 =
      (s.1 || (!p.shortcut ⟨e.code, e.mods⟩ && !p.paletteOpen s.2 && (e.code == .char 'q' || e.code == .esc))) := by
  have hm : ∀ s, (moveFocus (default p) (p.paletteOpen s.2) e.code s).1.1 = s.1 := by
    intro s
    unfold moveFocus
    split
    · split
      · rfl
      · simp only [default]
        cases p.focusNext s.2 <;> rfl
    · split
      · rfl
      · simp only [default]
        cases p.focusPrevious s.2 <;> rfl
    · rfl
  have hw : ∀ s : Bool × τ, (toWidget (default p) e.code s).1.1 = s.1 := by
    intro s
    unfold toWidget
    simp only [default]
    cases (p.widgetKey e.code s.2).2 <;> rfl
  unfold key
  by_cases hs : p.shortcut ⟨e.code, e.mods⟩ = true
  · have : (default p).shortcut ⟨e.code, e.mods⟩ = true := hs
    simp only [this, if_true, hs]
    simp [default]
  · have : ¬ (default p).shortcut ⟨e.code, e.mods⟩ = true := hs
    simp only [this, if_false, Bool.false_eq_true]
    have ho : (default p).paletteOpen s = p.paletteOpen s.2 := rfl
    rw [ho]
    have h1 := hm s
    generalize moveFocus (default p) (p.paletteOpen s.2) e.code s = r1 at *
    obtain ⟨s1, d1⟩ := r1
    have h2 := hw s1
    simp only at h1 h2 ⊢
    generalize toWidget (default p) e.code s1 = r2 at *
    obtain ⟨s2, d2⟩ := r2
    simp only at h2 ⊢
    rw [← h1, ← h2]
    cases hp : p.paletteOpen s.2 with
    | true => simp [toProgram, toActions, default]
    | false => simp [toProgram, toActions, default, hs, Bool.or_assoc]

/-- C194, quitting: a program with the default key handling ends by a key just if that key is `q` or Escape, is
not the shortcut, and the palette was closed when it was pressed. So Escape pressed in the palette closes the
palette only. -/
theorem quits_iff (p : Prog τ μ) (es : List Event) (t : τ) :
    (keys (default p) (·.1) es (false, t)).1.1 = true ↔
      ∃ es1 e es2, es = es1 ++ e :: es2 ∧ (keys (default p) (·.1) es1 (false, t)).1.1 = false ∧
        p.shortcut ⟨e.code, e.mods⟩ = false ∧
        p.paletteOpen (keys (default p) (·.1) es1 (false, t)).1.2 = false ∧
        (e.code = .char 'q' ∨ e.code = .esc) := by
  have stays : ∀ (es : List Event) (t : τ), keys (default p) (·.1) es (true, t) = ((true, t), []) := by
    intro es t
    cases es <;> simp [keys]
  induction es generalizing t with
  | nil =>
    constructor
    · intro h; cases h
    · rintro ⟨es1, e, es2, h, -⟩
      cases es1 <;> cases h
  | cons e es ih =>
    have hq := default_quit p e (false, t)
    simp only [Bool.false_or] at hq
    have hk : keys (default p) (·.1) (e :: es) (false, t) =
        ((keys (default p) (·.1) es (key (default p) e (false, t)).1).1,
          (key (default p) e (false, t)).2 ++ (keys (default p) (·.1) es (key (default p) e (false, t)).1).2) := by
      simp [keys]
    have hk1 : ∀ es1, keys (default p) (·.1) (e :: es1) (false, t) =
        ((keys (default p) (·.1) es1 (key (default p) e (false, t)).1).1,
          (key (default p) e (false, t)).2 ++ (keys (default p) (·.1) es1 (key (default p) e (false, t)).1).2) := by
      intro es1; simp [keys]
    rw [hk]
    generalize hs1 : (key (default p) e (false, t)).1 = s1 at *
    obtain ⟨b, t1⟩ := s1
    simp only at hq
    cases b with
    | true =>
      rw [stays]
      simp only [true_iff]
      have := hq.symm
      simp only [Bool.and_eq_true, Bool.or_eq_true, Bool.not_eq_true', beq_iff_eq] at this
      exact ⟨[], e, es, rfl, rfl, this.1.1, this.1.2, this.2⟩
    | false =>
      refine (ih t1).trans ?_
      constructor
      · rintro ⟨es1, e', es2, h1, h2⟩
        refine ⟨e :: es1, e', es2, by rw [h1]; rfl, ?_⟩
        rw [hk1]
        exact h2
      · rintro ⟨es1, e', es2, h1, h2, h3, h4, h5⟩
        cases es1 with
        | nil =>
          simp only [List.nil_append, List.cons.injEq] at h1
          obtain ⟨rfl, rfl⟩ := h1
          exfalso
          have : (!p.shortcut ⟨e.code, e.mods⟩ && !p.paletteOpen t && (e.code == .char 'q' || e.code == .esc)) = true := by
            simp only [Bool.and_eq_true, Bool.or_eq_true, Bool.not_eq_true', beq_iff_eq]
            exact ⟨⟨h3, h4⟩, h5⟩
          rw [this] at hq
          cases hq
        | cons e1 es1 =>
          simp only [List.cons_append, List.cons.injEq] at h1
          obtain ⟨rfl, h1⟩ := h1
          rw [hk1] at h2 h4
          exact ⟨es1, e', es2, h1, h2, h3, h4, h5⟩

/-! ### Typing -/

/-- C194, typing: in a program that does nothing itself with keys, pressing the keys of a text of plain
characters without modifiers, none of them the shortcut, puts the text between the text before and the text
behind the cursor of the focused input. (Missing from the property: programs with the default key handling, see
`quit_counterexample`; terminals that report releases, see `release_counterexample`; keys pressed together with
Ctrl or Alt, see `ctrl_counterexample`.) -/
theorem typed_partial {seg : List Char → List (List Char)} {P : Char → Prop} (h : Input.SegOk seg)
    (hp : Input.Plain seg P) (shortcut : Binding.Event → Bool) (text : List Char) (ht : ∀ c ∈ text, P c)
    (hs : ∀ c ∈ text, shortcut ⟨.char c, {}⟩ = false) (i : Input.Input) (left right : List Char)
    (hi : i.value = left ++ right ∧ i.cursor = left.length ∧ i.disabled = false ∧ i.visible = true ∧ ∀ c ∈ i.value, P c) :
    (keys (inputProg seg shortcut) (fun _ => false) (text.map fun c => { code := .char c }) i).1.value =
      left ++ text ++ right := by
  have key : ∀ (text : List Char), (∀ c ∈ text, P c) → (∀ c ∈ text, shortcut ⟨.char c, {}⟩ = false) →
      ∀ (i : Input.Input) (z : Input.Zip), Input.Rel P i z →
      Input.Rel P (keys (inputProg seg shortcut) (fun _ => false) (text.map fun c => { code := .char c }) i).1
        ⟨z.left ++ text, z.right⟩ := by
    intro text
    induction text with
    | nil => intro _ _ i z r; rw [List.append_nil]; exact r
    | cons c text ih =>
      intro ht hs i z r
      have h1 := Input.rel_key h hp r (.char c) (ht c List.mem_cons_self)
      have h2 := ih (fun q hq => ht q (List.mem_cons_of_mem _ hq)) (fun q hq => hs q (List.mem_cons_of_mem _ hq)) _ _ h1
      have e1 : (Keys.key (inputProg seg shortcut) { code := .char c } i).1 = i.onKey seg (.char c) := by
        have hsc : (inputProg seg shortcut).shortcut ⟨.char c, {}⟩ = false := hs c List.mem_cons_self
        unfold Keys.key
        simp only [hsc]
        rfl
      simp only [List.map_cons, keys, Bool.false_eq_true, if_false]
      rw [e1]
      simp only [Input.Zip.key, List.append_assoc, List.singleton_append] at h2
      exact h2
  exact (key text ht hs i ⟨left, right⟩ hi).1

/-! ### Witnesses -/

/-- The default shortcut, for keys typed without modifiers. -/
def ctrlP (e : Binding.Event) : Bool := e.code == .char 'p' && e.mods.ctrl

/-- The hypotheses of `typed_partial` are met. -/
example : (∀ c ∈ "type".toList, c ≠ '́') ∧ (∀ c ∈ "type".toList, ctrlP ⟨.char c, {}⟩ = false) ∧
    (keys (inputProg Input.segAccent ctrlP) (fun _ => false) ("type".toList.map fun c => { code := .char c })
      { value := "ab".toList, cursor := 1 }).1.value = "atypeb".toList := by
  refine ⟨?_, ?_, ?_⟩ <;> decide +kernel

/-- The palette opens and Escape is pressed in it: the program goes on (`quits_iff`). The state is whether the
palette is open. -/
def paletteProg : Prog Bool Unit where
  shortcut := ctrlP
  openPalette := fun _ => true
  paletteOpen := id
  widgetKey := fun k o => (o && k != .esc, none)

example : keys (default paletteProg) (·.1)
    [{ code := .char 'p', mods := { ctrl := true } }, { code := .char 'q' }, { code := .esc }] (false, false) =
    ((false, false), [.opened, .widget (.char 'q'), .widget .esc]) := by decide +kernel

/-- C194 is false for programs with the default key handling: typing a word with a `q` into an input ends the
program in the middle of the word. -/
theorem quit_counterexample :
    (keys (default (inputProg Input.segAccent ctrlP)) (·.1) ("aqua".toList.map fun c => { code := .char c })
      (false, {})).1.1 = true ∧
    (keys (default (inputProg Input.segAccent ctrlP)) (·.1) ("aqua".toList.map fun c => { code := .char c })
      (false, {})).1.2.value = "aq".toList := by
  constructor <;> decide +kernel

/-- C194 is false on terminals that report releases (Windows does): a key pressed and released types twice. -/
theorem release_counterexample :
    (keys (inputProg Input.segAccent ctrlP) (fun _ => false)
      [{ code := .char 'a' }, { code := .char 'a', kind := .release }] {}).1.value = "aa".toList := by
  decide +kernel

/-- C194 is false for keys pressed together with Ctrl: Ctrl+C in an input types a `c`. -/
theorem ctrl_counterexample :
    (keys (inputProg Input.segAccent ctrlP) (fun _ => false)
      [{ code := .char 'c', mods := { ctrl := true } }] {}).1.value = "c".toList := by
  decide +kernel

end Textual.Keys
