import Verif.Model.Settings

/-! C159: what an application sets on a widget is what the widget has. -/

namespace Textual.Settings

/-- What can be set and asked for. -/
inductive Setting where
  | visible | loading | disabled | tip | title | subtitle
deriving DecidableEq, Repr

/-- The answers expected after a call: the setting named has the value given, the others are as they were. -/
def Answers.told (a : Answers) : Call → Answers
  | .visible b => { a with visible := b }
  | .loading b => { a with loading := b }
  | .disabled b => { a with disabled := b }
  | .tip t => { a with tip := t }
  | .title t => { a with title := some t }
  | .subtitle t => { a with subtitle := some t }
  | .addClass _ => a

/-- Both answers are the same about one setting. -/
def Agree (s : Setting) (a b : Answers) : Prop :=
  match s with
  | .visible => a.visible = b.visible
  | .loading => a.loading = b.loading
  | .disabled => a.disabled = b.disabled
  | .tip => a.tip = b.tip
  | .title => a.title = b.title
  | .subtitle => a.subtitle = b.subtitle

/-- The settings each widget has. -/
def Works : Kind → Setting → Bool
  | .switch, .visible | .loadingIndicator, .visible | .palette, .visible => true
  | .switch, .loading => true
  | .static, .disabled | .label, .disabled | .button, .disabled | .input, .disabled | .switch, .disabled
  | .headerTitle, .disabled | .headerIcon, .disabled => true
  | .static, .tip | .headerIcon, .tip => true
  | .static, .title | .label, .title | .container, .title => true
  | .static, .subtitle | .label, .subtitle | .container, .subtitle => true
  | _, _ => false

/-- The widgets that can be given classes while they are in the tree. -/
def Classy : Kind → Bool
  | .static | .label | .button | .input | .optionList | .placeholder | .ruler | .loadingIndicator | .container
  | .scrollable | .header | .headerTitle | .headerIcon | .palette => true
  | _ => false

theorem call_agree (k : Kind) (s : Setting) (hw : Works k s = true) (f : Fields) (a : Answers) (c : Call)
    (h : Agree s (ask k f) a) : Agree s (ask k (call k f c)) (a.told c) := by
  cases k <;> cases s <;> simp only [Works, Bool.false_eq_true] at hw <;>
    (clear hw
     cases c <;>
      simp only [call, callStatic, callContainer, callClasses, pushClass, ask, askStatic, askContainer, askDefault,
        Agree, Answers.told] at h ⊢ <;>
      first
        | exact h
        | rfl
        | (split <;> first | exact h | rfl))

/-- What was set last is what the widget answers, whatever else was set before and after it, for the settings that the
widget has. -/
theorem kept_partial (k : Kind) (s : Setting) (hw : Works k s = true) (cs : List Call) :
    ∀ f, Agree s (ask k (run k f cs)) (cs.foldl Answers.told (ask k f)) := by
  suffices h : ∀ f a, Agree s (ask k f) a → Agree s (ask k (run k f cs)) (cs.foldl Answers.told a) from
    fun f => h f _ (by cases s <;> rfl)
  induction cs with
  | nil => exact fun _ _ h => h
  | cons c cs ih => exact fun f a h => ih _ _ (call_agree k s hw f a c h)

example : ask .switch (run .switch {} [.visible false, .disabled true, .addClass "a", .visible true, .loading true]) =
    ⟨true, true, true, none, none, none⟩ := by decide

/-- The other settings are ignored: no widget but those listed has them, although each has the call. -/
theorem lost_counterexample (k : Kind) (s : Setting) (hw : Works k s = false) :
    ∃ c f, ¬ Agree s (ask k (call k f c)) ((ask k f).told c) := by
  cases s
  · by_cases ht : k = .tooltip
    · subst ht
      exact ⟨.visible false, {}, by unfold Agree; decide⟩
    · exact ⟨.visible false, {}, by revert hw ht; unfold Agree; cases k <;> decide⟩
  · exact ⟨.loading true, {}, by revert hw; unfold Agree; cases k <;> decide⟩
  · exact ⟨.disabled true, {}, by revert hw; unfold Agree; cases k <;> decide⟩
  · exact ⟨.tip (some "t"), {}, by revert hw; unfold Agree; cases k <;> decide⟩
  · exact ⟨.title "t", {}, by revert hw; unfold Agree; cases k <;> decide⟩
  · exact ⟨.subtitle "t", {}, by revert hw; unfold Agree; cases k <;> decide⟩

example : Works .button .visible = false ∧ Works .vertical .title = false ∧ Works .container .disabled = false := by
  decide

theorem call_hasClass (k : Kind) (hk : Classy k = true) (f : Fields) (c : Call) (d : String) :
    hasClass k (call k f c) d = (hasClass k f d || decide (c = .addClass d)) := by
  have hadd : ∀ e : String, ((if f.classes.any (· == e) then f else
      { f with classes := f.classes ++ [e] }).classes.any (· == d)) =
      (f.classes.any (· == d) || decide (e = d)) := by
    intro e
    by_cases he : f.classes.any (· == e) = true
    · rw [if_pos he]
      by_cases hd : e = d
      · subst hd; rw [he]; rfl
      · simp [hd]
    · rw [if_neg he]
      rw [List.any_append, List.any_cons, List.any_nil, Bool.or_false, beq_eq_decide]
  cases k <;> simp only [Classy, Bool.false_eq_true] at hk <;>
    (clear hk
     cases c <;>
      simp only [call, callStatic, callContainer, callClasses, pushClass, hasClass, hadd, List.any_append,
        List.any_cons, List.any_nil, Bool.or_false, Call.addClass.injEq, reduceCtorEq, decide_false] <;>
      first
        | rfl
        | (congr 1))

/-- A class that is added stays, and nothing else counts as adding it, for the widgets that can be given classes. -/
theorem class_kept_partial (k : Kind) (hk : Classy k = true) (cs : List Call) (d : String) :
    ∀ f, hasClass k (run k f cs) d = true ↔ hasClass k f d = true ∨ Call.addClass d ∈ cs := by
  induction cs with
  | nil => intro f; simp [run]
  | cons c cs ih =>
    intro f
    have := ih (call k f c)
    rw [call_hasClass k hk] at this
    show hasClass k (run k (call k f c) cs) d = true ↔ _
    rw [this, Bool.or_eq_true, decide_eq_true_iff, List.mem_cons]
    constructor
    · rintro ((h | h) | h)
      · exact Or.inl h
      · exact Or.inr (Or.inl h.symm)
      · exact Or.inr (Or.inr h)
    · rintro (h | h | h)
      · exact Or.inl (Or.inl h)
      · exact Or.inl (Or.inr h.symm)
      · exact Or.inr h

example : hasClass .button (run .button {} [.addClass "a", .disabled true, .addClass "b"]) "a" = true := by decide

/-- The other widgets never have a class that an application adds to them in the tree. -/
theorem class_lost_counterexample (k : Kind) (hk : Classy k = false) (cs : List Call) (f : Fields) (d : String) :
    hasClass k (run k f cs) d = false := by
  revert hk
  cases k <;> intro hk <;> first | rfl | exact absurd hk (by decide)

example : Classy .vertical = false ∧ Classy .horizontal = false ∧ Classy .verticalScroll = false ∧
    Classy .grid = false ∧ Classy .screen = false ∧ Classy .switch = false := by decide

/-- Hiding takes a widget out of the layout, showing it puts it back where its style allows it, for the widgets that
can be hidden. -/
theorem hide_partial (k : Kind) (hw : Works k .visible = true) (cs : List Call) (f : Fields) (b shown : Bool) :
    participates k (run k f (cs ++ [.visible b])) shown = (b && shown) := by
  have h := kept_partial k .visible hw (cs ++ [.visible b]) f
  rw [List.foldl_append] at h
  unfold participates
  rw [show (ask k (run k f (cs ++ [.visible b]))).visible = b from h]

example : participates .switch (run .switch {} [.visible true, .visible false]) true = false := by decide

/-- A widget that cannot be hidden takes part in the layout whatever is called. -/
theorem hide_counterexample (k : Kind) (hw : Works k .visible = false) (ht : k ≠ .tooltip) (cs : List Call)
    (f : Fields) : participates k (run k f cs) true = true := by
  revert hw ht
  cases k <;> intro hw ht <;> first | rfl | exact absurd rfl ht | exact absurd hw (by decide)

example : Works .button .visible = false ∧ Kind.button ≠ .tooltip := by decide

end Textual.Settings
