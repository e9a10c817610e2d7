import Verif.Model.Classes
import Mathlib.Data.List.Induction

/-! C115, C116: the classes of a widget and of a button. -/

namespace Textual.Classes

/-- What a call does to the question whether the widget has the class `c`. -/
def Op.tells (c : String) (b : Bool) : Op → Bool
  | .add d => if d = c then true else b
  | .remove d => if d = c then false else b
  | .toggle d => if d = c then !b else b
  | .cond on d => if d = c then on else b
  | .set cs => decide (c ∈ cs)
  | .clean => b

theorem has_iff (h : Holder) (c : String) : h.has c = true ↔ c ∈ h.classes := by
  simp [Holder.has]

theorem has_eq (h : Holder) (c : String) : h.has c = decide (c ∈ h.classes) := by
  rw [Bool.eq_iff_iff, has_iff, decide_eq_true_iff]

/-- No class is listed twice when all are set at once, and a wrapper is not asked to add a class it has. -/
def Tidy (wraps : Bool) (h : Holder) : List Op → Prop
  | [] => True
  | op :: ops =>
    (match op with
      | .set cs => cs.Nodup
      | .add c => wraps = true → c ∉ h.classes
      | .cond on c => wraps = true → on = true → c ∉ h.classes
      | _ => True) ∧ Tidy wraps (step wraps h op) ops

theorem add_facts (h : Holder) (c d : String) (hn : h.classes.Nodup) :
    (h.add d).classes.Nodup ∧ (h.add d).has c = if d = c then true else h.has c := by
  unfold Holder.add
  by_cases hd : h.has d = true
  · rw [if_pos hd]
    refine ⟨hn, ?_⟩
    split
    · rename_i e; rw [← e, hd]
    · rfl
  · rw [if_neg hd]
    rw [has_iff] at hd
    refine ⟨?_, ?_⟩
    · show (h.classes ++ [d]).Nodup
      rw [List.nodup_append]
      exact ⟨hn, by simp, fun a ha b hb => by simp at hb; subst hb; rintro rfl; exact hd ha⟩
    · simp only [has_eq, List.mem_append, List.mem_singleton]
      by_cases e : d = c
      · simp [e]
      · have : c ≠ d := fun h => e h.symm
        simp [e, this]

theorem push_facts (h : Holder) (c d : String) (hn : h.classes.Nodup) (hd : d ∉ h.classes) :
    (h.push d).classes.Nodup ∧ (h.push d).has c = if d = c then true else h.has c := by
  have := add_facts h c d hn
  rw [Holder.add, if_neg (by rw [has_iff]; exact hd)] at this
  exact this

theorem remove_facts (h : Holder) (c d : String) (hn : h.classes.Nodup) :
    (h.remove d).classes.Nodup ∧ (h.remove d).has c = if d = c then false else h.has c := by
  unfold Holder.remove
  by_cases hd : h.has d = true
  · rw [if_pos hd]
    refine ⟨hn.erase d, ?_⟩
    simp only [has_eq, hn.mem_erase_iff]
    by_cases e : d = c
    · simp [e]
    · have : c ≠ d := fun h => e h.symm
      simp [e, this]
  · rw [if_neg hd]
    refine ⟨hn, ?_⟩
    split
    · rename_i e; rw [← e]; simpa using hd
    · rfl

theorem step_facts (wraps : Bool) (h : Holder) (op : Op) (c : String) (hn : h.classes.Nodup)
    (ht : Tidy wraps h [op]) :
    (step wraps h op).classes.Nodup ∧ (step wraps h op).has c = op.tells c (h.has c) := by
  have hadd : ∀ d, (wraps = true → d ∉ h.classes) →
      (if wraps then h.push d else h.add d).classes.Nodup ∧
      (if wraps then h.push d else h.add d).has c = if d = c then true else h.has c := by
    intro d hd
    cases wraps
    · exact add_facts h c d hn
    · exact push_facts h c d hn (hd rfl)
  have htt := ht.1
  cases op with
  | add d => exact hadd d htt
  | remove d => exact remove_facts h c d hn
  | toggle d =>
    unfold step
    dsimp only
    by_cases hd : h.has d = true
    · rw [if_pos hd]
      refine ⟨(remove_facts h c d hn).1, (remove_facts h c d hn).2.trans ?_⟩
      simp only [Op.tells]
      split
      · rename_i e; rw [← e, hd]; rfl
      · rfl
    · rw [if_neg hd]
      have := hadd d (fun _ => by rwa [has_iff] at hd)
      refine ⟨this.1, this.2.trans ?_⟩
      simp only [Op.tells]
      split
      · rename_i e; rw [← e]; simp at hd; rw [hd]; rfl
      · rfl
  | cond on d =>
    unfold step
    dsimp only
    cases on
    · simpa [Op.tells] using remove_facts h c d hn
    · simpa [Op.tells] using hadd d (fun hw => htt hw rfl)
  | set cs => exact ⟨htt, has_eq _ _⟩
  | clean => exact ⟨hn, rfl⟩

/-- **C115** (partial: no class listed twice when all are set at once, and widgets built on a text are not asked to
add a class they have; see the counterexamples). Whatever the calls, a widget has a class just if the calls say so. -/
theorem classes_as_told_partial (wraps : Bool) (h : Holder) (ops : List Op) (c : String) (hn : h.classes.Nodup)
    (ht : Tidy wraps h ops) :
    (run wraps h ops).has c = ops.foldl (fun b op => op.tells c b) (h.has c) := by
  induction ops generalizing h with
  | nil => rfl
  | cons op ops ih =>
    obtain ⟨h1, h2⟩ := step_facts wraps h op c hn ⟨ht.1, trivial⟩
    rw [run, List.foldl_cons, List.foldl_cons, ← h2]
    exact ih _ h1 ht.2

/-- Widgets that keep their classes themselves may be asked to add any class. -/
theorem tidy_own (h : Holder) (ops : List Op) (hs : ∀ cs, Op.set cs ∈ ops → cs.Nodup) : Tidy false h ops := by
  induction ops generalizing h with
  | nil => trivial
  | cons op ops ih =>
    refine ⟨?_, ih _ fun cs hcs => hs cs (List.mem_cons_of_mem _ hcs)⟩
    cases op with
    | set cs => exact hs cs (List.mem_cons_self ..)
    | add c => exact fun h => by cases h
    | cond on c => exact fun h => by cases h
    | _ => trivial

/-- **C115** (partial, as above). A widget that keeps its classes itself and is not marked for restyling has the
classes it had at the last restyling. -/
theorem change_marks_partial (h : Holder) (ops : List Op) (hc : Op.clean ∉ ops)
    (hd : (run false { h with dirty := false } ops).dirty = false) :
    (run false { h with dirty := false } ops).classes = h.classes := by
  have key : ∀ (ops : List Op) (h : Holder), Op.clean ∉ ops → (run false h ops).dirty = false →
      h.dirty = false ∧ (run false h ops).classes = h.classes := by
    intro ops
    induction ops with
    | nil => exact fun h _ hd => ⟨hd, rfl⟩
    | cons op ops ih =>
      intro h hc hd
      obtain ⟨h1, h2⟩ := ih (step false h op) (fun h => hc (List.mem_cons_of_mem _ h)) hd
      have : h.dirty = false ∧ (step false h op).classes = h.classes := by
        have hadd : ∀ c, (h.add c).dirty = false → h.dirty = false ∧ (h.add c).classes = h.classes := by
          intro c hc
          unfold Holder.add at hc ⊢
          split
          · rename_i e; rw [if_pos e] at hc; exact ⟨hc, rfl⟩
          · rename_i e; rw [if_neg e] at hc; cases hc
        have hrem : ∀ c, (h.remove c).dirty = false → h.dirty = false ∧ (h.remove c).classes = h.classes := by
          intro c hc
          unfold Holder.remove at hc ⊢
          split
          · rename_i e; rw [if_pos e] at hc; cases hc
          · rename_i e; rw [if_neg e] at hc; exact ⟨hc, rfl⟩
        cases op with
        | add c => exact hadd c h1
        | remove c => exact hrem c h1
        | toggle c =>
          unfold step at h1 ⊢
          dsimp only at h1 ⊢
          split
          · rename_i e; rw [if_pos e] at h1; exact hrem c h1
          · rename_i e; rw [if_neg e] at h1; exact hadd c h1
        | cond on c => cases on; exacts [hrem c h1, hadd c h1]
        | set cs => cases h1
        | clean => exact absurd (List.mem_cons_self ..) hc
      exact ⟨this.1, h2.trans this.2⟩
  exact (key ops _ hc hd).2

example : Tidy true {} [.add "a", .toggle "b", .cond false "a", .add "a", .set ["c", "a"]] ∧
    (run true {} [.add "a", .toggle "b", .cond false "a", .add "a"]).classes = ["b", "a"] := by
  refine ⟨?_, by decide⟩
  simp [Tidy, step, Holder.push, Holder.has, Holder.remove]

example : Op.clean ∉ [Op.add "a", .remove "b"] ∧
    (run false { classes := ["a"], dirty := false } [.add "a", .remove "b"]).dirty = false := by decide

/-- **C115** fails for a class listed twice: removing it leaves it. -/
theorem listed_twice_counterexample : (run false {} [.set ["a", "a"], .remove "a"]).has "a" = true := by decide

/-- **C115** fails for a button or an input: a class added twice and removed is still there. -/
theorem added_twice_counterexample : (run true {} [.add "a", .add "a", .remove "a"]).has "a" = true := by decide

/-- **C115** fails for a button or an input: adding a class does not mark it for restyling. -/
theorem unmarked_counterexample :
    (run true { dirty := false } [.add "a"]).dirty = false ∧ (run true { dirty := false } [.add "a"]).has "a" = true ∧
    ({ dirty := false } : Holder).has "a" = false := by decide

/-! ### C116: buttons -/

/-- The classes a button manages itself. -/
def reserved : List String :=
  ["-default", "-primary", "-success", "-warning", "-error", "-style-default", "-style-flat", "-textual-compact"]

/-- The user's calls leave the managed classes alone. -/
def LookOp.Polite : LookOp → Prop
  | .classes (.add c) | .classes (.remove c) | .classes (.toggle c) | .classes (.cond _ c) => c ∉ reserved
  | .classes (.set _) | .withClasses _ => False
  | _ => True

/-- The variant, style and compactness last asked for. -/
def lastVariant (ops : List LookOp) : Variant :=
  ops.foldl (fun v op => match op with | .variant w => w | _ => v) .default

def lastFlat (ops : List LookOp) : Bool :=
  ops.foldl (fun v op => match op with | .flat w => w | _ => v) false

def lastCompact (ops : List LookOp) : Bool :=
  ops.foldl (fun v op => match op with | .compact w => w | _ => v) false

/-- How often a button lists a managed class. -/
def Look.Fits (b : Look) : Prop :=
  (∀ v : Variant, b.inner.classes.count v.className = if v = b.variant then 1 else 0) ∧
  b.inner.classes.count "-style-default" = (if b.flat then 0 else 1) ∧
  b.inner.classes.count "-style-flat" = (if b.flat then 1 else 0) ∧
  b.inner.classes.count "-textual-compact" = (if b.compact then 1 else 0)

theorem count_push (h : Holder) (c d : String) :
    (h.push d).classes.count c = h.classes.count c + if d = c then 1 else 0 := by
  simp [Holder.push, List.count_append, List.count_singleton, beq_iff_eq]

theorem count_remove (h : Holder) (c d : String) :
    (h.remove d).classes.count c = h.classes.count c - if d = c then 1 else 0 := by
  unfold Holder.remove
  split
  · show (h.classes.erase d).count c = _
    rw [List.count_erase]
    simp [beq_iff_eq]
  · rename_i e
    rw [has_iff] at e
    split
    · rename_i e2
      subst e2
      rw [List.count_eq_zero_of_not_mem e]
    · rfl

theorem count_user (h : Holder) (op : Op) (hp : LookOp.Polite (.classes op)) (c : String) (hc : c ∈ reserved) :
    (step true h op).classes.count c = h.classes.count c := by
  have hne : ∀ d, d ∉ reserved → d ≠ c := fun d hd e => hd (e ▸ hc)
  cases op with
  | add d => simp [step, count_push, hne d hp]
  | remove d => simp [step, count_remove, hne d hp]
  | toggle d => simp only [step, if_true]; split <;> simp [count_push, count_remove, hne d hp]
  | cond on d => cases on <;> simp [step, count_push, count_remove, hne d hp]
  | set cs => cases hp
  | clean => rfl

theorem fits_step (b : Look) (op : LookOp) (hp : op.Polite) (h : b.Fits) : (b.step op).Fits := by
  obtain ⟨h1, h2, h3, h4⟩ := h
  cases op with
  | variant v =>
    unfold Look.step Look.setVariant
    dsimp only
    split
    · rename_i hv
      refine ⟨fun w => ?_, ?_, ?_, ?_⟩
      · rw [count_push, count_remove, h1 w]
        show _ = if w = v then 1 else 0
        clear h1 h2 h3 h4 hp
        generalize b.variant = u at *
        cases u <;> cases v <;> cases w <;> simp [Variant.className] at hv ⊢
      all_goals rw [count_push, count_remove]; simp only [h2, h3, h4]; clear h1 h2 h3 h4 hp; generalize b.variant = u at *
      all_goals cases u <;> cases v <;> simp [Variant.className]
    · exact ⟨h1, h2, h3, h4⟩
  | flat on =>
    unfold Look.step Look.setFlat
    dsimp only
    split
    · exact ⟨h1, h2, h3, h4⟩
    · rename_i hf
      cases on
      · simp only [Bool.not_eq_false] at hf
        refine ⟨fun w => ?_, ?_, ?_, ?_⟩ <;> simp only [Bool.false_eq_true, if_false, count_push, count_remove, h1, h2, h3, h4, hf]
        · cases w <;> simp [Variant.className]
        all_goals simp
      · simp only [Bool.not_eq_true] at hf
        refine ⟨fun w => ?_, ?_, ?_, ?_⟩ <;> simp only [if_true, count_push, count_remove, h1, h2, h3, h4, hf]
        · cases w <;> simp [Variant.className]
        all_goals simp
  | compact on =>
    unfold Look.step Look.setCompact
    dsimp only
    split
    · exact ⟨h1, h2, h3, h4⟩
    · rename_i hf
      cases on
      · simp only [Bool.not_eq_false] at hf
        refine ⟨fun w => ?_, ?_, ?_, ?_⟩ <;> simp only [Bool.false_eq_true, if_false, count_push, count_remove, h1, h2, h3, h4, hf]
        · cases w <;> simp [Variant.className]
        all_goals simp
      · simp only [Bool.not_eq_true] at hf
        refine ⟨fun w => ?_, ?_, ?_, ?_⟩ <;> simp only [if_true, count_push, count_remove, h1, h2, h3, h4, hf]
        · cases w <;> simp [Variant.className]
        all_goals simp
  | classes op =>
    refine ⟨fun w => ?_, ?_, ?_, ?_⟩
    · refine (count_user b.inner op hp _ ?_).trans (h1 w)
      cases w <;> simp [reserved, Variant.className]
    · exact (count_user b.inner op hp _ (by simp [reserved])).trans h2
    · exact (count_user b.inner op hp _ (by simp [reserved])).trans h3
    · exact (count_user b.inner op hp _ (by simp [reserved])).trans h4
  | withClasses cs => cases hp

theorem look_fields (ops : List LookOp) :
    (Look.run ops).variant = lastVariant ops ∧ (Look.run ops).flat = lastFlat ops ∧
    (Look.run ops).compact = lastCompact ops := by
  induction ops using List.reverseRecOn with
  | nil => exact ⟨rfl, rfl, rfl⟩
  | append_singleton ops op ih =>
    obtain ⟨i1, i2, i3⟩ := ih
    simp only [Look.run, lastVariant, lastFlat, lastCompact, List.foldl_append, List.foldl_cons, List.foldl_nil] at *
    generalize List.foldl Look.step Look.new ops = b at *
    cases op with
    | variant v =>
      unfold Look.step Look.setVariant
      dsimp only
      split
      · exact ⟨rfl, i2, i3⟩
      · rename_i h; exact ⟨by simpa using h, i2, i3⟩
    | flat on =>
      unfold Look.step Look.setFlat
      dsimp only
      split
      · rename_i h; exact ⟨i1, h, i3⟩
      · exact ⟨i1, rfl, i3⟩
    | compact on =>
      unfold Look.step Look.setCompact
      dsimp only
      split
      · rename_i h; exact ⟨i1, i2, h⟩
      · exact ⟨i1, i2, rfl⟩
    | _ => exact ⟨i1, i2, i3⟩

/-- **C116** (partial: the user does not set all classes at once, and keeps off the managed ones; see
`replaced_counterexample`). A button has the class of the variant last asked for and of no other variant, the class of
the style last asked for and not of the other, and `-textual-compact` just if last asked to be compact. -/
theorem button_classes_partial (ops : List LookOp) (hp : ∀ op ∈ ops, op.Polite) :
    (∀ v : Variant, (Look.run ops).inner.has v.className = decide (v = lastVariant ops)) ∧
    (Look.run ops).inner.has "-style-flat" = lastFlat ops ∧
    (Look.run ops).inner.has "-style-default" = !lastFlat ops ∧
    (Look.run ops).inner.has "-textual-compact" = lastCompact ops := by
  have hf : (Look.run ops).Fits := by
    induction ops using List.reverseRecOn with
    | nil => refine ⟨fun v => ?_, ?_, ?_, ?_⟩ <;> first | (cases v <;> decide) | decide
    | append_singleton ops op ih =>
      rw [Look.run, List.foldl_append]
      exact fits_step _ op (hp op (by simp)) (ih fun op h => hp op (by simp [h]))
  obtain ⟨e1, e2, e3⟩ := look_fields ops
  obtain ⟨h1, h2, h3, h4⟩ := hf
  rw [e1] at h1
  rw [e2] at h2 h3
  rw [e3] at h4
  have hc : ∀ c, (Look.run ops).inner.has c = decide (0 < (Look.run ops).inner.classes.count c) := fun c => by
    rw [has_eq]; simp [List.count_pos_iff]
  refine ⟨fun v => ?_, ?_, ?_, ?_⟩ <;> rw [hc]
  · rw [h1 v]; split <;> simp [*]
  · rw [h3]; cases lastFlat ops <;> rfl
  · rw [h2]; cases lastFlat ops <;> rfl
  · rw [h4]; cases lastCompact ops <;> rfl

example : (∀ op ∈ [LookOp.variant .primary, .classes (.add "big"), .flat true, .variant .error],
    op.Polite) ∧ (Look.run [.variant .primary, .classes (.add "big"), .flat true, .variant .error]).inner.classes =
      ["big", "-style-flat", "-error"] := by
  refine ⟨?_, by decide⟩
  simp [LookOp.Polite, reserved]

/-- **C116** fails if the button is given classes when it is made: then it has no variant and no style. -/
theorem replaced_counterexample :
    (Look.run [.variant .primary, .withClasses ["wide"]]).inner.has "-primary" = false ∧
    (Look.run [.variant .primary, .withClasses ["wide"]]).inner.has "-style-default" = false := by decide

/-- **C116** fails: making a button compact does not mark it for restyling. -/
theorem compact_unmarked_counterexample :
    ((Look.run [.classes .clean]).setCompact true).inner.dirty = false ∧
    ((Look.run [.classes .clean]).setCompact true).inner.has "-textual-compact" = true ∧
    (Look.run [.classes .clean]).inner.has "-textual-compact" = false := by decide

end Textual.Classes
